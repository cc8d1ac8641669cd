import Verif.Model.Site

/-! # Lemmas for the site object -/

namespace Verif.Site

theorem goto_pc (s : State) (t : Nat) (p : Pc) (u : Nat) : (s.goto t p).pc u = if u = t then p else s.pc u := rfl
theorem goto_site (s : State) (t : Nat) (p : Pc) : (s.goto t p).site = s.site := rfl
theorem goto_flag (s : State) (t : Nat) (p : Pc) : (s.goto t p).flag = s.flag := rfl

/-- An invariant of the steps that are allowed, with a property of their events, holds for runs. -/
theorem run_inv {dflt : Nat} {I : State → Prop} {E : Event → Prop} {ok : Call → Prop}
    (hstep : ∀ s t c, I s → ok c → I (step dflt s t c).1 ∧ ∀ e ∈ (step dflt s t c).2, E e) :
    ∀ (l : List (Nat × Call)) (s : State), I s → (∀ t c, (t, c) ∈ l → ok c) →
      I (run dflt s l).1 ∧ ∀ e ∈ (run dflt s l).2, E e := by
  intro l
  induction l with
  | nil => intro s hs _; exact ⟨hs, fun e he => by simp [run] at he⟩
  | cons p l ih =>
    obtain ⟨t, c⟩ := p
    intro s hs hl
    obtain ⟨h1, h2⟩ := hstep s t c hs (hl t c (by simp))
    obtain ⟨h3, h4⟩ := ih _ h1 (fun t' c' hm => hl t' c' (by simp [hm]))
    refine ⟨h3, fun e he => ?_⟩
    simp only [run, List.mem_append] at he
    rcases he with he | he
    · exact h2 e he
    · exact h4 e he

theorem run_append (dflt : Nat) (s : State) (l l' : List (Nat × Call)) :
    run dflt s (l ++ l') = ((run dflt (run dflt s l).1 l').1, (run dflt s l).2 ++ (run dflt (run dflt s l).1 l').2) := by
  induction l generalizing s with
  | nil => rfl
  | cons p l ih =>
    obtain ⟨t, c⟩ := p
    simp only [List.cons_append, run, ih, List.append_assoc]

/-- The site is `x`, and nobody is about to change it. -/
structure Stable (x : Nat) (s : State) : Prop where
  site : s.site = some x
  noAssign : ∀ t, s.pc t ≠ .assign
  noSet : ∀ t y, s.pc t ≠ .setAssign y

theorem stable_step {dflt x : Nat} (s : State) (t : Nat) (c : Call) (h : Stable x s) :
    Stable x (step dflt s t c).1 ∧ ∀ e ∈ (step dflt s t c).2, (∀ u v, e = .got u v → v = some x) ∧ ∀ u v, e ≠ .accepted u v := by
  have key : ∀ (s' : State) p, s'.site = s.site → s'.pc = s.pc → p ≠ Pc.assign → (∀ y, p ≠ Pc.setAssign y) → Stable x (s'.goto t p) := by
    intro s' p hs' hp' hp hp2
    refine ⟨by rw [goto_site, hs', h.site], fun u => ?_, fun u y => ?_⟩
    · rw [goto_pc]; split
      · exact hp
      · rw [hp']; exact h.noAssign u
    · rw [goto_pc]; split
      · exact hp2 y
      · rw [hp']; exact h.noSet u y
  unfold step
  split
  · cases c with
    | get => exact ⟨key s _ rfl rfl (by simp) (by simp), by simp⟩
    | set y => exact ⟨key s _ rfl rfl (by simp) (by simp), by simp⟩
  · split
    · exact ⟨key _ _ rfl rfl (by simp) (by simp), by simp⟩
    · exact ⟨h, by simp⟩
    · exact ⟨key s _ rfl rfl (by simp) (by simp), by simp⟩
  · rw [if_neg (by rw [h.site]; simp)]
    exact ⟨key s _ rfl rfl (by simp) (by simp), by simp⟩
  · rename_i hp; exact absurd hp (h.noAssign t)
  · exact ⟨key _ _ rfl rfl (by simp) (by simp), by simp⟩
  · refine ⟨key s _ rfl rfl (by simp) (by simp), ?_⟩
    intro e he
    simp only [List.mem_singleton] at he
    subst he
    exact ⟨fun u v hv => (by cases hv; exact h.site), by simp⟩
  · rw [if_pos (by rw [h.site]; simp)]
    refine ⟨key s _ rfl rfl (by simp) (by simp), ?_⟩
    intro e he
    simp only [List.mem_singleton] at he
    subst he
    exact ⟨by simp, by simp⟩
  · rename_i y hp; exact absurd hp (h.noSet t y)

theorem stable_run {dflt x : Nat} {s : State} (h : Stable x s) (l : List (Nat × Call)) :
    Stable x (run dflt s l).1 ∧ ∀ e ∈ (run dflt s l).2, (∀ u v, e = .got u v → v = some x) ∧ ∀ u v, e ≠ .accepted u v :=
  run_inv (ok := fun _ => True) (fun s t c hs _ => stable_step s t c hs) l s h (fun _ _ _ => trivial)

/-- The invariant without null sites. `A`: the sites that are allowed. -/
structure Sound (A : Nat → Prop) (s : State) : Prop where
  allowed : ∀ x, s.site = some x → A x
  pending : ∀ t y, s.pc t = .setTest y ∨ s.pc t = .setAssign y → ∃ x, y = some x ∧ A x
  late : ∀ t, s.pc t = .finish ∨ s.pc t = .read → s.site ≠ none
  done : s.flag = .done → s.site ≠ none

theorem sound_init (A : Nat → Prop) : Sound A init :=
  ⟨by simp [init], by simp [init], by simp [init], by simp [init]⟩

theorem sound_step {dflt : Nat} {A : Nat → Prop} (hd : A dflt) (s : State) (t : Nat) (c : Call) (h : Sound A s) (hc : ∀ y, c = .set y → ∃ x, y = some x ∧ A x) :
    Sound A (step dflt s t c).1 ∧ ∀ e ∈ (step dflt s t c).2, (step dflt s t c).1.site ≠ none ∧ ∀ u v, e = .got u v → ∃ x, v = some x ∧ A x := by
  -- a step of the thread that changes the site at most to an allowed one
  have key : ∀ (s' : State) p, s'.pc = s.pc → (∀ x, s'.site = some x → A x) → (s.site ≠ none → s'.site ≠ none) →
      (s'.flag = .done → s'.site ≠ none) →
      (∀ y, p = Pc.setTest y ∨ p = .setAssign y → ∃ x, y = some x ∧ A x) → (p = .finish ∨ p = .read → s'.site ≠ none) → Sound A (s'.goto t p) := by
    intro s' p hp' ha hn hf h1 h2
    refine ⟨ha, fun u y hu => ?_, fun u hu => ?_, hf⟩
    · rw [goto_pc] at hu
      split at hu
      · exact h1 y hu
      · rw [hp'] at hu; exact h.pending u y hu
    · rw [goto_pc] at hu
      rw [goto_site]
      split at hu
      · exact h2 hu
      · rw [hp'] at hu; exact hn (h.late u hu)
  unfold step
  split
  · cases c with
    | get => exact ⟨key s _ rfl h.allowed id h.done (by simp) (by simp), by simp⟩
    | set y =>
      refine ⟨key s _ rfl h.allowed id h.done ?_ (by simp), by simp⟩
      intro z hz
      simp at hz
      subst hz
      exact hc y rfl
  · split
    · exact ⟨key _ _ rfl h.allowed id (by simp) (by simp) (by simp), by simp⟩
    · exact ⟨h, by simp⟩
    · rename_i hf
      exact ⟨key s _ rfl h.allowed id h.done (by simp) (fun _ => h.done hf), by simp⟩
  · split
    · exact ⟨key s _ rfl h.allowed id h.done (by simp) (by simp), by simp⟩
    · rename_i hn
      exact ⟨key s _ rfl h.allowed id h.done (by simp) (fun _ => hn), by simp⟩
  · exact ⟨key _ _ rfl (fun x hx => by simp at hx; subst hx; exact hd) (by simp) (by simp) (by simp) (by simp), by simp⟩
  · rename_i hp
    have hn := h.late t (.inl hp)
    exact ⟨key _ _ rfl h.allowed id (fun _ => hn) (by simp) (fun _ => hn), by simp⟩
  · rename_i hp
    have hn := h.late t (.inr hp)
    refine ⟨key s _ rfl h.allowed id h.done (by simp) (by simp), fun e he => ?_⟩
    simp only [List.mem_singleton] at he
    subst he
    refine ⟨hn, fun u v hv => ?_⟩
    cases hv
    cases hs : s.site with
    | none => exact absurd hs hn
    | some x => exact ⟨x, rfl, h.allowed x hs⟩
  · rename_i y hp
    split
    · rename_i hn
      refine ⟨key s _ rfl h.allowed id h.done (by simp) (by simp), fun e he => ?_⟩
      simp only [List.mem_singleton] at he
      subst he
      exact ⟨hn, by simp⟩
    · refine ⟨key s _ rfl h.allowed id h.done ?_ (by simp), by simp⟩
      intro z hz
      simp at hz
      subst hz
      exact h.pending t y (.inl hp)
  · rename_i y hp
    obtain ⟨x, rfl, hx⟩ := h.pending t y (.inr hp)
    refine ⟨key _ _ rfl (fun z hz => by simp at hz; subst hz; exact hx) (by simp) (by simp) (by simp) (by simp), fun e he => ?_⟩
    simp only [List.mem_singleton] at he
    subst he
    exact ⟨by simp [goto_site], by simp⟩

theorem sound_run {dflt : Nat} {A : Nat → Prop} (hd : A dflt) {s : State} (h : Sound A s) (l : List (Nat × Call))
    (hl : ∀ t y, (t, Call.set y) ∈ l → ∃ x, y = some x ∧ A x) :
    Sound A (run dflt s l).1 ∧ ∀ e ∈ (run dflt s l).2, ∀ u v, e = .got u v → ∃ x, v = some x ∧ A x :=
  run_inv (ok := fun c => ∀ y, c = .set y → ∃ x, y = some x ∧ A x)
    (fun s t c hs hc => ⟨(sound_step hd s t c hs hc).1, fun e he => ((sound_step hd s t c hs hc).2 e he).2⟩) l s h
    (fun t c hm y hy => hl t y (hy ▸ hm))

/-- Without null sites the site, once there, stays. -/
theorem site_stays {dflt : Nat} {A : Nat → Prop} (hd : A dflt) (s : State) (t : Nat) (c : Call) (h : Sound A s) (hn : s.site ≠ none) :
    (step dflt s t c).1.site ≠ none := by
  unfold step
  split
  · cases c <;> exact hn
  · split <;> exact hn
  · split <;> exact hn
  · simp [goto_site]
  · exact hn
  · exact hn
  · split <;> exact hn
  · rename_i y hp
    obtain ⟨x, rfl, -⟩ := h.pending t y (.inr hp)
    simp [goto_site]

/-- Without null sites: when a call has returned, there is a site. -/
theorem returned_site {dflt : Nat} {A : Nat → Prop} (hd : A dflt) : ∀ (l : List (Nat × Call)) (s : State), Sound A s →
    (∀ t y, (t, Call.set y) ∈ l → ∃ x, y = some x ∧ A x) → (s.site ≠ none ∨ (run dflt s l).2 ≠ []) → (run dflt s l).1.site ≠ none := by
  intro l
  induction l with
  | nil => intro s _ _ h; rcases h with h | h; exact h; exact absurd rfl h
  | cons p l ih =>
    obtain ⟨t, c⟩ := p
    intro s hs hl h
    have hc : ∀ y, c = .set y → ∃ x, y = some x ∧ A x := fun y hy => hl t y (by simp [hy])
    obtain ⟨h1, h2⟩ := sound_step hd s t c hs hc
    refine ih _ h1 (fun t' y hm => hl t' y (by simp [hm])) ?_
    rcases h with h | h
    · exact .inl (site_stays hd s t c hs h)
    · cases he : (step dflt s t c).2 with
      | nil =>
        simp only [run, he, List.nil_append] at h
        exact .inr h
      | cons e es => exact .inl (h2 e (by rw [he]; simp)).1

/-- Somebody executes the initialisation while the flag says so. -/
def Busy (s : State) : Prop := s.flag = .running → ∃ t, s.pc t = .test ∨ s.pc t = .assign ∨ s.pc t = .finish

theorem busy_step {dflt : Nat} (s : State) (t : Nat) (c : Call) (h : Busy s) : Busy (step dflt s t c).1 := by
  -- a step of a thread outside of the initialisation
  have key : ∀ (s' : State) p, s'.pc = s.pc → s'.flag = s.flag → ¬ (s.pc t = .test ∨ s.pc t = .assign ∨ s.pc t = .finish) → Busy (s'.goto t p) := by
    intro s' p hp hf hn hr
    rw [goto_flag, hf] at hr
    obtain ⟨u, hu⟩ := h hr
    refine ⟨u, ?_⟩
    rw [goto_pc, if_neg (show ¬ u = t from fun hc => hn (by rw [← hc]; exact hu)), hp]
    exact hu
  unfold step
  split
  · rename_i hp
    cases c <;> exact key s _ rfl rfl (by simp [hp])
  · rename_i hp
    split
    · intro _; exact ⟨t, by simp [goto_pc]⟩
    · exact h
    · exact key s _ rfl rfl (by simp [hp])
  · split
    · intro _; exact ⟨t, by simp [goto_pc]⟩
    · intro _; exact ⟨t, by simp [goto_pc]⟩
  · intro _; exact ⟨t, by simp [goto_pc]⟩
  · intro hr; simp [goto_flag] at hr
  · rename_i hp; exact key s _ rfl rfl (by simp [hp])
  · rename_i y hp; split <;> exact key s _ rfl rfl (by simp [hp])
  · rename_i y hp; exact key _ _ rfl rfl (by simp [hp])

theorem busy_run {dflt : Nat} (l : List (Nat × Call)) : Busy (run dflt init l).1 :=
  (run_inv (E := fun _ => True) (ok := fun _ => True) (fun s t c hs _ => ⟨busy_step s t c hs, fun _ _ => trivial⟩) l init (by simp [Busy, init])
    (fun _ _ _ => trivial)).1

/-! ## Decoders -/

theorem dgoto_pc (s : DState) (t : Nat) (p : DPc) (u : Nat) : (s.goto t p).pc u = if u = t then p else s.pc u := rfl

/-- The invariant of the decoders. -/
structure DInv (s : DState) : Prop where
  creating : ∀ t k, s.pc t = .create k → s.flag k = .running ∧ s.decoder k = none ∧ k ≠ .other
  finishing : ∀ t k, s.pc t = .finish k → s.flag k = .running ∧ (∃ i, s.decoder k = some ⟨k, i⟩) ∧ k ≠ .other
  reading : ∀ t k, s.pc t = .read k → s.flag k = .done ∧ k ≠ .other
  done : ∀ k, s.flag k = .done → ∃ i, s.decoder k = some ⟨k, i⟩
  one : ∀ t u k, (s.pc t = .create k ∨ s.pc t = .finish k) → (s.pc u = .create k ∨ s.pc u = .finish k) → t = u
  fresh : ∀ k, s.flag k = .fresh → s.decoder k = none
  other : s.decoder .other = none
  count : s.created = ([Kind.jxr, .zstd0, .zstd1].filter fun k => (s.decoder k).isSome).length

theorem dinv_init : DInv dinit :=
  ⟨by simp [dinit], by simp [dinit], by simp [dinit], by simp [dinit], by simp [dinit], by simp [dinit], rfl, rfl⟩

/-- A step that only moves the thread to a place outside of the initialisation. -/
theorem dinv_move {s : DState} (h : DInv s) (t : Nat) (p : DPc) (h1 : ∀ k, p ≠ .create k ∧ p ≠ .finish k)
    (h2 : ∀ k, p = .read k → s.flag k = .done ∧ k ≠ .other) : DInv (s.goto t p) := by
  have hold : ∀ u k, ((s.goto t p).pc u = .create k → s.pc u = .create k) ∧ ((s.goto t p).pc u = .finish k → s.pc u = .finish k) := by
    intro u k
    rw [dgoto_pc]
    split
    · exact ⟨fun hc => absurd hc (h1 k).1, fun hc => absurd hc (h1 k).2⟩
    · exact ⟨id, id⟩
  refine ⟨fun u k hu => h.creating u k ((hold u k).1 hu), fun u k hu => h.finishing u k ((hold u k).2 hu), fun u k hu => ?_, h.done,
    fun u v k hu hv => h.one u v k (hu.imp (hold u k).1 (hold u k).2) (hv.imp (hold v k).1 (hold v k).2), h.fresh, h.other, h.count⟩
  rw [dgoto_pc] at hu
  split at hu
  · exact h2 k hu
  · exact h.reading u k hu

theorem count_set {d : Kind → Option Decoder} {k : Kind} (hk : k ≠ .other) (hn : d k = none) (x : Decoder) :
    ([Kind.jxr, .zstd0, .zstd1].filter fun j => ((fun j => if j = k then some x else d j) j).isSome).length =
      ([Kind.jxr, .zstd0, .zstd1].filter fun j => (d j).isSome).length + 1 := by
  cases k with
  | other => exact absurd rfl hk
  | jxr => cases h1 : d .zstd0 <;> cases h2 : d .zstd1 <;> simp [List.filter, hn, h1, h2]
  | zstd0 => cases h1 : d .jxr <;> cases h2 : d .zstd1 <;> simp [List.filter, hn, h1, h2]
  | zstd1 => cases h1 : d .jxr <;> cases h2 : d .zstd0 <;> simp [List.filter, hn, h1, h2]

/-- The step of a thread at the `call_once` for a kind of decoder that exists. -/
theorem dstep_enter {s : DState} {t : Nat} {k j : Kind} (hp : s.pc t = .enter k) (hk : k ≠ .other) :
    dstep s t j = match s.flag k with
      | .fresh => ({ s with flag := fun j => if j = k then .running else s.flag j }.goto t (.create k), [])
      | .running => (s, [])
      | .done => (s.goto t (.read k), []) := by
  unfold dstep
  rw [hp]
  cases k with
  | other => exact absurd rfl hk
  | jxr => dsimp only; cases s.flag .jxr <;> rfl
  | zstd0 => dsimp only; cases s.flag .zstd0 <;> rfl
  | zstd1 => dsimp only; cases s.flag .zstd1 <;> rfl

theorem dinv_step (s : DState) (t : Nat) (j : Kind) (h : DInv s) :
    DInv (dstep s t j).1 ∧
    (∀ k, s.flag k = .done → (dstep s t j).1.flag k = .done ∧ (dstep s t j).1.decoder k = s.decoder k) ∧
    ∀ u k r, (u, k, r) ∈ (dstep s t j).2 → (k = .other ∧ r = none) ∨ (k ≠ .other ∧ s.flag k = .done ∧ r = s.decoder k) := by
  cases hp : s.pc t with
  | idle =>
    have e : dstep s t j = (s.goto t (.enter j), []) := by unfold dstep; rw [hp]
    rw [e]
    exact ⟨dinv_move h t _ (by simp) (by simp), fun k hk => ⟨hk, rfl⟩, by simp⟩
  | enter k =>
    by_cases hk : k = .other
    · subst hk
      have e : dstep s t j = (s.goto t .idle, [(t, .other, none)]) := by unfold dstep; rw [hp]
      rw [e]
      refine ⟨dinv_move h t _ (by simp) (by simp), fun k hk => ⟨hk, rfl⟩, fun u k r hm => ?_⟩
      simp only [List.mem_singleton, Prod.mk.injEq] at hm
      exact .inl ⟨hm.2.1, hm.2.2⟩
    · rw [dstep_enter hp hk]
      cases hf : s.flag k with
      | running => exact ⟨h, fun k hk => ⟨hk, rfl⟩, by simp⟩
      | done =>
        refine ⟨dinv_move h t _ (by simp) ?_, fun k hk => ⟨hk, rfl⟩, by simp⟩
        intro k' hk'
        cases hk'
        exact ⟨hf, hk⟩
      | fresh =>
        have hno : ∀ u, s.pc u ≠ .create k ∧ s.pc u ≠ .finish k ∧ s.pc u ≠ .read k := by
          intro u
          refine ⟨fun hc => ?_, fun hc => ?_, fun hc => ?_⟩
          · have := (h.creating u k hc).1; rw [hf] at this; cases this
          · have := (h.finishing u k hc).1; rw [hf] at this; cases this
          · have := (h.reading u k hc).1; rw [hf] at this; cases this
        dsimp only
        refine ⟨⟨?_, ?_, ?_, ?_, ?_, ?_, h.other, h.count⟩, ?_, by simp⟩
        · intro u k' hu
          rw [dgoto_pc] at hu
          simp only [DState.goto]
          split at hu
          · cases hu
            exact ⟨by simp, h.fresh k hf, hk⟩
          · have := h.creating u k' hu
            rw [if_neg (fun hc => (hno u).1 (by rw [← hc]; exact hu))]
            exact this
        · intro u k' hu
          rw [dgoto_pc] at hu
          simp only [DState.goto]
          split at hu
          · cases hu
          · have := h.finishing u k' hu
            rw [if_neg (fun hc => (hno u).2.1 (by rw [← hc]; exact hu))]
            exact this
        · intro u k' hu
          rw [dgoto_pc] at hu
          simp only [DState.goto]
          split at hu
          · cases hu
          · have := h.reading u k' hu
            rw [if_neg (fun hc => (hno u).2.2 (by rw [← hc]; exact hu))]
            exact this
        · intro k' hk'
          simp only [DState.goto] at hk' ⊢
          split at hk'
          · cases hk'
          · exact h.done k' hk'
        · intro u v k' hu hv
          simp only [dgoto_pc] at hu hv
          split at hu <;> split at hv
          · omega
          · simp at hu; subst hu; exact absurd hv (by simp [(hno v).1, (hno v).2.1])
          · simp at hv; subst hv; exact absurd hu (by simp [(hno u).1, (hno u).2.1])
          · exact h.one u v k' hu hv
        · intro k' hk'
          simp only [DState.goto] at hk' ⊢
          split at hk'
          · cases hk'
          · exact h.fresh k' hk'
        · intro k' hk'
          simp only [DState.goto]
          rw [if_neg (by rintro rfl; rw [hf] at hk'; cases hk')]
          exact ⟨hk', trivial⟩
  | create k =>
    obtain ⟨hf, hn, hk⟩ := h.creating t k hp
    have e : dstep s t j = ({ s with decoder := fun j => if j = k then some ⟨k, s.created⟩ else s.decoder j, created := s.created + 1 }.goto t (.finish k), []) := by
      unfold dstep; rw [hp]
    have honly : ∀ u, u ≠ t → s.pc u ≠ .create k ∧ s.pc u ≠ .finish k := by
      intro u hu
      exact ⟨fun hc => hu (h.one u t k (.inl hc) (.inl hp)), fun hc => hu (h.one u t k (.inr hc) (.inl hp))⟩
    rw [e]
    refine ⟨⟨?_, ?_, ?_, ?_, ?_, ?_, ?_, ?_⟩, ?_, by simp⟩
    · intro u k' hu
      rw [dgoto_pc] at hu
      simp only [DState.goto]
      split at hu
      · cases hu
      · rename_i hut
        rw [if_neg (by rintro rfl; exact (honly u hut).1 hu)]
        exact h.creating u k' hu
    · intro u k' hu
      rw [dgoto_pc] at hu
      simp only [DState.goto]
      split at hu
      · cases hu
        exact ⟨hf, ⟨_, if_pos rfl⟩, hk⟩
      · rename_i hut
        rw [if_neg (by rintro rfl; exact (honly u hut).2 hu)]
        exact h.finishing u k' hu
    · intro u k' hu
      rw [dgoto_pc] at hu
      split at hu
      · cases hu
      · exact h.reading u k' hu
    · intro k' hk'
      simp only [DState.goto] at hk' ⊢
      rw [if_neg (by rintro rfl; rw [hf] at hk'; cases hk')]
      exact h.done k' hk'
    · intro u v k' hu hv
      simp only [dgoto_pc] at hu hv
      split at hu <;> split at hv
      · omega
      · rename_i hut hvt
        simp at hu
        subst hu
        exact absurd hv (by simp [(honly v hvt).1, (honly v hvt).2])
      · rename_i hut hvt
        simp at hv
        subst hv
        exact absurd hu (by simp [(honly u hut).1, (honly u hut).2])
      · exact h.one u v k' hu hv
    · intro k' hk'
      simp only [DState.goto] at hk' ⊢
      rw [if_neg (by rintro rfl; rw [hf] at hk'; cases hk')]
      exact h.fresh k' hk'
    · simp only [DState.goto]
      rw [if_neg (fun hc => hk hc.symm)]
      exact h.other
    · simp only [DState.goto]
      rw [count_set hk hn, h.count]
    · intro k' hk'
      simp only [DState.goto]
      rw [if_neg (by rintro rfl; rw [hf] at hk'; cases hk')]
      exact ⟨hk', rfl⟩
  | finish k =>
    obtain ⟨hf, hi, hk⟩ := h.finishing t k hp
    have e : dstep s t j = ({ s with flag := fun j => if j = k then .done else s.flag j }.goto t (.read k), []) := by unfold dstep; rw [hp]
    have honly : ∀ u, u ≠ t → s.pc u ≠ .create k ∧ s.pc u ≠ .finish k := by
      intro u hu
      exact ⟨fun hc => hu (h.one u t k (.inl hc) (.inr hp)), fun hc => hu (h.one u t k (.inr hc) (.inr hp))⟩
    rw [e]
    refine ⟨⟨?_, ?_, ?_, ?_, ?_, ?_, h.other, h.count⟩, ?_, by simp⟩
    · intro u k' hu
      rw [dgoto_pc] at hu
      simp only [DState.goto]
      split at hu
      · cases hu
      · rename_i hut
        rw [if_neg (by rintro rfl; exact (honly u hut).1 hu)]
        exact h.creating u k' hu
    · intro u k' hu
      rw [dgoto_pc] at hu
      simp only [DState.goto]
      split at hu
      · cases hu
      · rename_i hut
        rw [if_neg (by rintro rfl; exact (honly u hut).2 hu)]
        exact h.finishing u k' hu
    · intro u k' hu
      rw [dgoto_pc] at hu
      simp only [DState.goto]
      split at hu
      · cases hu
        exact ⟨if_pos rfl, hk⟩
      · have := h.reading u k' hu
        refine ⟨?_, this.2⟩
        split
        · rfl
        · exact this.1
    · intro k' hk'
      simp only [DState.goto] at hk' ⊢
      split at hk'
      · rename_i he; subst he; exact hi
      · exact h.done k' hk'
    · intro u v k' hu hv
      simp only [dgoto_pc] at hu hv
      split at hu
      · simp at hu
      · split at hv
        · simp at hv
        · exact h.one u v k' hu hv
    · intro k' hk'
      simp only [DState.goto] at hk' ⊢
      split at hk'
      · cases hk'
      · exact h.fresh k' hk'
    · intro k' hk'
      simp only [DState.goto]
      refine ⟨?_, trivial⟩
      split
      · rfl
      · exact hk'
  | read k =>
    obtain ⟨hf, hk⟩ := h.reading t k hp
    have e : dstep s t j = (s.goto t .idle, [(t, k, s.decoder k)]) := by unfold dstep; rw [hp]
    rw [e]
    refine ⟨dinv_move h t _ (by simp) (by simp), fun k hk => ⟨hk, rfl⟩, fun u k' r hm => ?_⟩
    simp only [List.mem_singleton, Prod.mk.injEq] at hm
    obtain ⟨-, rfl, rfl⟩ := hm
    exact .inr ⟨hk, hf, rfl⟩

theorem drun_inv : ∀ (l : List (Nat × Kind)) (s : DState), DInv s →
    DInv (drun s l).1 ∧
    (∀ k, s.flag k = .done → (drun s l).1.flag k = .done ∧ (drun s l).1.decoder k = s.decoder k) ∧
    ∀ u k r, (u, k, r) ∈ (drun s l).2 → (k = .other ∧ r = none) ∨ (k ≠ .other ∧ (drun s l).1.flag k = .done ∧ r = (drun s l).1.decoder k) := by
  intro l
  induction l with
  | nil => intro s h; exact ⟨h, fun k hk => ⟨hk, rfl⟩, by simp [drun]⟩
  | cons p l ih =>
    obtain ⟨t, j⟩ := p
    intro s h
    obtain ⟨h1, h2, h3⟩ := dinv_step s t j h
    obtain ⟨g1, g2, g3⟩ := ih _ h1
    refine ⟨g1, fun k hk => ?_, fun u k r hm => ?_⟩
    · obtain ⟨a, b⟩ := h2 k hk
      obtain ⟨a', b'⟩ := g2 k a
      exact ⟨a', b'.trans b⟩
    · simp only [drun, List.mem_append] at hm
      rcases hm with hm | hm
      · rcases h3 u k r hm with hc | ⟨hc1, hc2, hc3⟩
        · exact .inl hc
        · obtain ⟨a, b⟩ := h2 k hc2
          obtain ⟨a', b'⟩ := g2 k a
          exact .inr ⟨hc1, a', by rw [hc3]; exact (b'.trans b).symm⟩
      · exact g3 u k r hm

end Verif.Site
