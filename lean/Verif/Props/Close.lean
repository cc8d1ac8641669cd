import Verif.Model.Close

/-! # C45: reading concurrently with `Close` -/

namespace Verif.Closing

/-- A read that owns a copy of the `shared_ptr`. -/
def Pc.holds : Pc → Bool
  | .rUnlock true _ | .rUse _ | .rRelease => true
  | _ => false

/-- Inside of the critical section. -/
def Pc.inCs : Pc → Bool
  | .rCopy _ | .rUnlock _ _ | .kReset | .kUnlock => true
  | _ => false

theorem countP_set {α : Type} (p : α → Bool) (l : List α) (i : Nat) (a b : α) (h : l[i]? = some a) :
    (l.set i b).countP p + (if p a then 1 else 0) = l.countP p + (if p b then 1 else 0) := by
  induction l generalizing i with
  | nil => simp at h
  | cons c l ih =>
    cases i with
    | zero =>
      simp only [List.getElem?_cons_zero, Option.some.injEq] at h
      subst h
      simp only [List.set_cons_zero, List.countP_cons]
      omega
    | succ i =>
      simp only [List.getElem?_cons_succ] at h
      have := ih i h
      simp only [List.set_cons_succ, List.countP_cons]
      omega

/-- What holds in all reachable states. -/
structure Inv (s : State) : Prop where
  refs : s.refs = (if s.member then 1 else 0) + s.threads.countP Pc.holds
  alive : s.alive = decide (0 < s.refs)
  owner : ∀ i pc, s.threads[i]? = some pc → (pc.inCs = true ↔ s.mutex = some i)
  bound : ∀ i, s.mutex = some i → i < s.threads.length
  safe : .useAfterRelease ∉ s.threads
  closed : .kDone true ∈ s.threads → s.member = false ∧ s.operational = false
  cleared : ∀ pc ∈ s.threads, pc = .kLock ∨ pc = .kReset ∨ pc = .kUnlock → s.operational = false
  reset : .kUnlock ∈ s.threads → s.member = false
  openMember : s.operational = true → s.member = true

theorem inv_start (calls : List Pc) (hc : ∀ pc ∈ calls, pc.isCall = true) : Inv (State.start calls) := by
  have h0 : calls.countP Pc.holds = 0 := by
    rw [List.countP_eq_zero]
    intro pc hp
    have := hc pc hp
    cases pc <;> simp_all [Pc.isCall, Pc.holds]
  refine ⟨by simp [State.start, h0], by simp [State.start], ?_, by simp [State.start], ?_, ?_, ?_, ?_, fun _ => rfl⟩
  · intro i pc hi
    have := hc pc (List.mem_of_getElem? hi)
    cases pc <;> simp_all [Pc.isCall, Pc.inCs, State.start]
  · intro h; have := hc _ h; simp [Pc.isCall] at this
  · intro h; have := hc _ h; simp [Pc.isCall] at this
  · intro pc h hh
    have := hc _ h
    rcases hh with rfl | rfl | rfl <;> simp [Pc.isCall] at this
  · intro h; have := hc _ h; simp [Pc.isCall] at this

theorem mem_set {α : Type} (l : List α) (i : Nat) (b x : α) (h : x ∈ l.set i b) : x = b ∨ x ∈ l := by
  rcases List.mem_or_eq_of_mem_set h with h | h
  · exact Or.inr h
  · exact Or.inl h

theorem getElem?_set' {α : Type} (l : List α) (i j : Nat) (a b x : α) (h : l[i]? = some a) (hj : (l.set i b)[j]? = some x) :
    (j = i ∧ x = b) ∨ (j ≠ i ∧ l[j]? = some x) := by
  have hi := (List.getElem?_eq_some_iff.1 h).1
  rw [List.getElem?_set] at hj
  by_cases e : i = j
  · subst e
    simp [hi] at hj
    exact Or.inl ⟨rfl, hj.symm⟩
  · simp [e] at hj
    exact Or.inr ⟨fun h => e h.symm, hj⟩

/-- A general step: the thread goes from `a` to `b`, and the other components change as given. -/
theorem inv_goto (s : State) (hI : Inv s) (i : Nat) (a b : Pc) (h : s.threads[i]? = some a)
    (op me : Bool) (rf : Nat) (al : Bool) (mx : Option Nat)
    (hrefs : rf + ((if s.member then 1 else 0) + (if a.holds then 1 else 0)) = s.refs + ((if me then 1 else 0) + (if b.holds then 1 else 0)))
    (halive : al = decide (0 < rf))
    (hmx : (b.inCs = true ∧ mx = some i ∧ (s.mutex = none ∨ s.mutex = some i)) ∨
      (b.inCs = false ∧ a.inCs = true ∧ mx = none) ∨ (b.inCs = false ∧ a.inCs = false ∧ mx = s.mutex))
    (hsafe : b ≠ .useAfterRelease)
    (hop : op = true → s.operational = true)
    (hme : me = true → s.member = true)
    (hdone : b = .kDone true → me = false ∧ op = false)
    (hclr : b = .kLock ∨ b = .kReset ∨ b = .kUnlock → op = false)
    (hrst : b = .kUnlock → me = false)
    (hom : op = true → me = true) :
    Inv ⟨s.threads.set i b, op, me, rf, al, mx⟩ := by
  obtain ⟨i1, i2, i3, i4, i5, i6, i7, i8, i9⟩ := hI
  have hlt := (List.getElem?_eq_some_iff.1 h).1
  have hai := i3 i a h
  refine ⟨?_, halive, ?_, ?_, ?_, ?_, ?_, ?_, hom⟩
  · have := countP_set Pc.holds s.threads i a b h
    dsimp only
    omega
  · intro j pc hj
    dsimp only at hj ⊢
    rcases getElem?_set' _ _ _ _ _ _ h hj with ⟨rfl, rfl⟩ | ⟨hne, hj'⟩
    · rcases hmx with ⟨h1, h2, _⟩ | ⟨h1, _, h2⟩ | ⟨h1, h2, h3⟩
      · simp [h1, h2]
      · simp [h1, h2]
      · rw [h1, h3]
        have : s.mutex ≠ some j := fun hm => by have := hai.2 hm; rw [h2] at this; cases this
        simp [this]
    · have := i3 j pc hj'
      rcases hmx with ⟨h1, h2, h3⟩ | ⟨h1, h2, h3⟩ | ⟨h1, h2, h3⟩
      · rw [this, h2]
        rcases h3 with h3 | h3 <;> rw [h3] <;> simp
        · exact fun e => hne e.symm
      · rw [this, h3, hai.1 h2]
        simp
        exact fun e => hne e.symm
      · rw [this, h3]
  · intro j hj
    dsimp only at hj ⊢
    rw [List.length_set]
    rcases hmx with ⟨h1, h2, h3⟩ | ⟨h1, h2, h3⟩ | ⟨h1, h2, h3⟩
    · rw [h2] at hj; simp at hj; omega
    · rw [h3] at hj; simp at hj
    · rw [h3] at hj; exact i4 j hj
  · intro hm
    rcases mem_set _ _ _ _ hm with e | e
    · exact hsafe e.symm
    · exact i5 e
  · intro hm
    rcases mem_set _ _ _ _ hm with e | e
    · exact hdone e.symm
    · obtain ⟨x, y⟩ := i6 e
      constructor
      · cases me with
        | false => rfl
        | true => rw [hme rfl] at x; cases x
      · cases op with
        | false => rfl
        | true => rw [hop rfl] at y; cases y
  · intro pc hm hpc
    have hs : s.operational = false → op = false := by
      intro y
      cases op with
      | false => rfl
      | true => rw [hop rfl] at y; cases y
    rcases mem_set _ _ _ _ hm with e | e
    · exact hclr (e ▸ hpc)
    · exact hs (i7 pc e hpc)
  · intro hm
    rcases mem_set _ _ _ _ hm with e | e
    · exact hrst e.symm
    · have x := i8 e
      dsimp only
      cases me with
      | false => rfl
      | true => rw [hme rfl] at x; cases x

theorem aliveDrop (r : Nat) (h : 0 < r) : (if r - 1 = 0 then false else decide (0 < r)) = decide (0 < r - 1) := by
  by_cases e : r - 1 = 0
  · simp [e]
  · have : 0 < r - 1 := by omega
    simp [e, h, this]

theorem inv_step (s : State) (hI : Inv s) (i : Nat) : Inv (s.step i) := by
  unfold State.step
  split
  · exact hI
  · rename_i pc h
    have hmem := List.mem_of_getElem? h
    have hown := hI.owner i pc h
    have hhold : pc.holds = true → 0 < s.threads.countP Pc.holds := by
      intro hh
      exact List.countP_pos_iff.2 ⟨pc, hmem, hh⟩
    have hr := hI.refs
    cases pc with
    | rCheck n =>
      simp only [State.stepAt, State.goto]
      split
      · exact inv_goto s hI i _ (.rLock n) h _ _ _ _ _ (by simp [Pc.holds]) hI.alive (Or.inr (Or.inr ⟨rfl, rfl, rfl⟩)) (by simp) id id
          (by simp) (by simp) (by simp) hI.openMember
      · exact inv_goto s hI i _ (.rDone false) h _ _ _ _ _ (by simp [Pc.holds]) hI.alive (Or.inr (Or.inr ⟨rfl, rfl, rfl⟩)) (by simp) id id
          (by simp) (by simp) (by simp) hI.openMember
    | rLock n =>
      simp only [State.stepAt, State.goto]
      split
      · rename_i hm
        exact inv_goto s hI i _ (.rCopy n) h _ _ _ _ _ (by simp [Pc.holds]) hI.alive (Or.inl ⟨rfl, rfl, Or.inl hm⟩) (by simp) id id
          (by simp) (by simp) (by simp) hI.openMember
      · exact hI
    | rCopy n =>
      have hm : s.mutex = some i := hown.1 rfl
      simp only [State.stepAt, State.goto]
      split
      · rename_i hs
        refine inv_goto s hI i _ (.rUnlock true n) h _ _ _ _ _ (by simp [Pc.holds]; omega) ?_ (Or.inl ⟨rfl, hm, Or.inr hm⟩) (by simp) id id
          (by simp) (by simp) (by simp) hI.openMember
        show s.alive = _
        rw [hI.alive, hr]
        simp [hs]
        omega
      · exact inv_goto s hI i _ (.rUnlock false n) h _ _ _ _ _ (by simp [Pc.holds]) hI.alive (Or.inl ⟨rfl, hm, Or.inr hm⟩) (by simp) id id
          (by simp) (by simp) (by simp) hI.openMember
    | rUnlock got n =>
      cases got with
      | true =>
        simp only [State.stepAt, State.goto]
        exact inv_goto s hI i _ (.rUse n) h _ _ _ _ _ (by simp [Pc.holds]) hI.alive (Or.inr (Or.inl ⟨rfl, rfl, rfl⟩)) (by simp) id id
          (by simp) (by simp) (by simp) hI.openMember
      | false =>
        simp only [State.stepAt, State.goto]
        exact inv_goto s hI i _ (.rDone false) h _ _ _ _ _ (by simp [Pc.holds]) hI.alive (Or.inr (Or.inl ⟨rfl, rfl, rfl⟩)) (by simp) id id
          (by simp) (by simp) (by simp) hI.openMember
    | rUse n =>
      have hp := hhold rfl
      have ha : s.alive = true := by rw [hI.alive, hr]; simp; omega
      cases n with
      | zero =>
        simp only [State.stepAt, State.goto]
        exact inv_goto s hI i _ .rRelease h _ _ _ _ _ (by simp [Pc.holds]) hI.alive (Or.inr (Or.inr ⟨rfl, rfl, rfl⟩)) (by simp) id id
          (by simp) (by simp) (by simp) hI.openMember
      | succ n =>
        simp only [State.stepAt, State.goto]
        rw [if_pos ha]
        exact inv_goto s hI i _ (.rUse n) h _ _ _ _ _ (by simp [Pc.holds]) hI.alive (Or.inr (Or.inr ⟨rfl, rfl, rfl⟩)) (by simp) id id
          (by simp) (by simp) (by simp) hI.openMember
    | rRelease =>
      have hp := hhold rfl
      simp only [State.stepAt, State.dropRef, State.goto]
      refine inv_goto s hI i _ (.rDone true) h _ _ _ _ _ (by simp [Pc.holds]; omega) ?_ (Or.inr (Or.inr ⟨rfl, rfl, rfl⟩)) (by simp) id id
        (by simp) (by simp) (by simp) hI.openMember
      rw [hI.alive]
      exact aliveDrop s.refs (by omega)
    | rDone b => exact hI
    | kCheck =>
      simp only [State.stepAt, State.goto]
      split
      · exact inv_goto s hI i _ .kClear h _ _ _ _ _ (by simp [Pc.holds]) hI.alive (Or.inr (Or.inr ⟨rfl, rfl, rfl⟩)) (by simp) id id
          (by simp) (by simp) (by simp) hI.openMember
      · exact inv_goto s hI i _ (.kDone false) h _ _ _ _ _ (by simp [Pc.holds]) hI.alive (Or.inr (Or.inr ⟨rfl, rfl, rfl⟩)) (by simp) id id
          (by simp) (by simp) (by simp) hI.openMember
    | kClear =>
      simp only [State.stepAt, State.goto]
      exact inv_goto s hI i _ .kLock h _ _ _ _ _ (by simp [Pc.holds]) hI.alive (Or.inr (Or.inr ⟨rfl, rfl, rfl⟩)) (by simp) (by simp) id
        (by simp) (fun _ => rfl) (by simp) (by simp)
    | kLock =>
      have hop := hI.cleared _ hmem (Or.inl rfl)
      simp only [State.stepAt, State.goto]
      split
      · rename_i hm
        exact inv_goto s hI i _ .kReset h _ _ _ _ _ (by simp [Pc.holds]) hI.alive (Or.inl ⟨rfl, rfl, Or.inl hm⟩) (by simp) id id
          (by simp) (fun _ => hop) (by simp) hI.openMember
      · exact hI
    | kReset =>
      have hm : s.mutex = some i := hown.1 rfl
      have hop := hI.cleared _ hmem (Or.inr (Or.inl rfl))
      simp only [State.stepAt, State.goto]
      split
      · rename_i hs
        rw [hs] at hr
        simp only [State.dropRef, State.goto]
        refine inv_goto s hI i _ .kUnlock h _ _ _ _ _ (by simp [Pc.holds, hs] at hr ⊢; omega) ?_ (Or.inl ⟨rfl, hm, Or.inr hm⟩) (by simp) id
          (by simp) (by simp) (fun _ => hop) (by simp) (by simp [hop])
        rw [hI.alive]
        simp at hr
        exact aliveDrop s.refs (by omega)
      · rename_i hs
        simp only [Bool.not_eq_true] at hs
        exact inv_goto s hI i _ .kUnlock h _ _ _ _ _ (by simp [Pc.holds]) hI.alive (Or.inl ⟨rfl, hm, Or.inr hm⟩) (by simp) id id
          (by simp) (fun _ => hop) (fun _ => hs) hI.openMember
    | kUnlock =>
      have hop := hI.cleared _ hmem (Or.inr (Or.inr rfl))
      have hme := hI.reset hmem
      simp only [State.stepAt, State.goto]
      exact inv_goto s hI i _ (.kDone true) h _ _ _ _ _ (by simp [Pc.holds]) hI.alive (Or.inr (Or.inl ⟨rfl, rfl, rfl⟩)) (by simp) id id
        (fun _ => ⟨hme, hop⟩) (by simp) (by simp) hI.openMember
    | kDone b => exact hI
    | useAfterRelease => exact hI

theorem inv_run (s : State) (hI : Inv s) (sched : List Nat) : Inv (s.run sched) := by
  induction sched generalizing s with
  | nil => exact hI
  | cons i is ih => exact ih _ (inv_step s hI i)

end Verif.Closing

namespace Verif.Spec

open Verif.Closing

/-- Two different threads are about to access the same unprotected variable, at least one of them writing: a data race. -/
def RaceOn (l : Loc) (s : State) : Prop :=
  ∃ (i j : Nat) (p q : Pc) (w w' : Bool), i ≠ j ∧ s.threads[i]? = some p ∧ s.threads[j]? = some q ∧ p.access = some (l, w) ∧ q.access = some (l, w') ∧
    (w = true ∨ w' = true)

/-- A read in progress. -/
def Reading : Pc → Prop
  | .rLock _ | .rCopy _ | .rUnlock _ _ | .rUse _ | .rRelease => True
  | _ => False

end Verif.Spec

namespace Verif

open Closing Spec

/-- **C45 (no use after release).** Any number of reads and `Close` calls, every schedule: no read ever uses a released stream, and a read
that is using the stream finds it alive. -/
theorem C45_never_uses_released (calls : List Pc) (hc : ∀ pc ∈ calls, pc.isCall = true) (sched : List Nat) :
    let s := (State.start calls).run sched
    .useAfterRelease ∉ s.threads ∧ ∀ n, .rUse n ∈ s.threads → s.alive = true := by
  intro s
  have hI : Inv s := inv_run _ (inv_start calls hc) sched
  refine ⟨hI.safe, ?_⟩
  intro n hn
  have := List.countP_pos_iff.2 ⟨_, hn, (rfl : Pc.holds (.rUse n) = true)⟩
  rw [hI.alive, hI.refs]
  simp
  omega

/-- **C45 (the stream is released).** When a `Close` has returned and no read is in progress, the stream is released. -/
theorem C45_released_after_close (calls : List Pc) (hc : ∀ pc ∈ calls, pc.isCall = true) (sched : List Nat)
    (hclosed : .kDone true ∈ ((State.start calls).run sched).threads)
    (hidle : ∀ pc ∈ ((State.start calls).run sched).threads, ¬ Reading pc) :
    ((State.start calls).run sched).alive = false := by
  generalize hs : (State.start calls).run sched = s at *
  have hI : Inv s := hs ▸ inv_run _ (inv_start calls hc) sched
  have h0 : s.threads.countP Pc.holds = 0 := by
    rw [List.countP_eq_zero]
    intro pc hp hh
    have := hidle pc hp
    cases pc <;> simp_all [Pc.holds, Reading]
  rw [hI.alive, hI.refs, h0, (hI.closed hclosed).1]
  rfl

theorem operational_mono (s : State) (sched : List Nat) (h : s.operational = false) : (s.run sched).operational = false := by
  have step : ∀ (s : State) (i : Nat), s.operational = false → (s.step i).operational = false := by
    intro s i h
    unfold State.step
    split
    · exact h
    · rename_i pc _
      cases pc with
      | rUnlock g n => cases g <;> exact h
      | rUse n =>
        cases n with
        | zero => exact h
        | succ n => simp only [State.stepAt]; split <;> exact h
      | kClear => rfl
      | _ => simp only [State.stepAt, State.dropRef] <;> first | exact h | (split <;> exact h)
  induction sched generalizing s with
  | nil => exact h
  | cons i is ih => exact ih _ (step s i h)

/-- **C45 (after Close).** A read that starts after a `Close` has returned never succeeds: however things go on, it is
either still waiting to run or has thrown. -/
theorem C45_read_after_close (calls : List Pc) (hc : ∀ pc ∈ calls, pc.isCall = true) (before after : List Nat) (k n : Nat)
    (hclosed : .kDone true ∈ ((State.start calls).run before).threads)
    (hk : ((State.start calls).run before).threads[k]? = some (.rCheck n)) :
    (((State.start calls).run (before ++ after)).threads[k]? = some (.rCheck n)) ∨
    (((State.start calls).run (before ++ after)).threads[k]? = some (.rDone false)) := by
  have hI := inv_run _ (inv_start calls hc) before
  have hop := (hI.closed hclosed).2
  have e : (State.start calls).run (before ++ after) = ((State.start calls).run before).run after := by
    unfold State.run; rw [List.foldl_append]
  rw [e]
  generalize (State.start calls).run before = s at *
  have key : ∀ (after : List Nat) (s : State) (pc : Pc), s.operational = false → s.threads[k]? = some pc → (pc = .rCheck n ∨ pc = .rDone false) →
      ∃ pc', (s.run after).threads[k]? = some pc' ∧ (pc' = .rCheck n ∨ pc' = .rDone false) := by
    intro after
    induction after with
    | nil => intro s pc _ h1 h2; exact ⟨pc, h1, h2⟩
    | cons i is ih =>
      intro s pc ho h1 h2
      have ho' : (s.step i).operational = false := operational_mono s [i] ho
      by_cases ei : i = k
      · subst ei
        have hkl := (List.getElem?_eq_some_iff.1 h1).1
        rcases h2 with rfl | rfl
        · refine ih _ (.rDone false) ho' ?_ (Or.inr rfl)
          unfold State.step; rw [h1]
          simp [State.stepAt, ho, State.goto, hkl]
        · refine ih _ (.rDone false) ho' ?_ (Or.inr rfl)
          unfold State.step; rw [h1]
          exact h1
      · refine ih _ pc ho' ?_ h2
        have g : ∀ b, (s.threads.set i b)[k]? = some pc := by
          intro b
          rw [List.getElem?_set_ne ei]; exact h1
        unfold State.step
        split
        · exact h1
        · rename_i q _
          cases q with
          | rUnlock g' n => cases g' <;> exact g _
          | rUse n =>
            cases n with
            | zero => exact g _
            | succ n => simp only [State.stepAt]; split <;> exact g _
          | _ => simp only [State.stepAt, State.dropRef, State.goto] <;> first | exact h1 | exact g _ | (split <;> first | exact h1 | exact g _)
  obtain ⟨pc', h1, h2⟩ := key after s _ hop hk (Or.inl rfl)
  rcases h2 with rfl | rfl
  · exact Or.inl h1
  · exact Or.inr h1

/-- The steps a call has left at most. -/
def Closing.Pc.left : Pc → Nat
  | .rCheck n => n + 6
  | .rLock n => n + 5
  | .rCopy n => n + 4
  | .rUnlock _ n => n + 3
  | .rUse n => n + 2
  | .rRelease => 1
  | .kCheck => 5
  | .kClear => 4
  | .kLock => 3
  | .kReset => 2
  | .kUnlock => 1
  | .rDone _ | .kDone _ | .useAfterRelease => 0

/-- All steps left. -/
def Closing.State.left (s : State) : Nat := (s.threads.map Pc.left).sum

theorem left_set (l : List Pc) (i : Nat) (a b : Pc) (h : l[i]? = some a) (hlt : b.left < a.left) :
    ((l.set i b).map Pc.left).sum < (l.map Pc.left).sum := by
  induction l generalizing i with
  | nil => simp at h
  | cons c l ih =>
    cases i with
    | zero =>
      simp only [List.getElem?_cons_zero, Option.some.injEq] at h
      subst h
      simp only [List.set_cons_zero, List.map_cons, List.sum_cons]
      omega
    | succ i =>
      simp only [List.getElem?_cons_succ] at h
      have := ih i h
      simp only [List.set_cons_succ, List.map_cons, List.sum_cons]
      omega

/-- A thread that is not waiting for an occupied mutex makes progress. -/
theorem step_progress (s : State) (i : Nat) (pc : Pc) (h : s.threads[i]? = some pc) (hf : pc.finished = false)
    (hm : s.mutex = none ∨ pc.inCs = true ∨ ((∀ n, pc ≠ .rLock n) ∧ pc ≠ .kLock)) : (s.step i).left < s.left := by
  unfold State.step
  rw [h]
  have g : ∀ b : Pc, b.left < pc.left → ((s.threads.set i b).map Pc.left).sum < (s.threads.map Pc.left).sum :=
    fun b hb => left_set s.threads i pc b h hb
  unfold State.left
  cases pc with
  | rCheck n => simp only [State.stepAt]; split <;> exact g _ (by simp [Pc.left])
  | rLock n =>
    have : s.mutex = none := by simpa [Pc.inCs] using hm
    simp only [State.stepAt, this, if_true]
    exact g _ (by simp [Pc.left])
  | rCopy n => simp only [State.stepAt]; split <;> exact g _ (by simp [Pc.left])
  | rUnlock b n => cases b <;> exact g _ (by simp [Pc.left])
  | rUse n =>
    cases n with
    | zero => exact g _ (by simp [Pc.left])
    | succ n => simp only [State.stepAt]; split <;> exact g _ (by simp [Pc.left])
  | rRelease => exact g _ (by simp [Pc.left])
  | rDone b => simp [Pc.finished] at hf
  | kCheck => simp only [State.stepAt]; split <;> exact g _ (by simp [Pc.left])
  | kClear => exact g _ (by simp [Pc.left])
  | kLock =>
    have : s.mutex = none := by simpa [Pc.inCs] using hm
    simp only [State.stepAt, this, if_true]
    exact g _ (by simp [Pc.left])
  | kReset => simp only [State.stepAt]; split <;> exact g _ (by simp [Pc.left])
  | kUnlock => exact g _ (by simp [Pc.left])
  | kDone b => simp [Pc.finished] at hf
  | useAfterRelease => simp [Pc.finished] at hf

theorem left_le (l : List Pc) (pc : Pc) (h : pc ∈ l) : pc.left ≤ (l.map Pc.left).sum := by
  induction l with
  | nil => simp at h
  | cons c l ih =>
    simp only [List.map_cons, List.sum_cons]
    rcases List.mem_cons.1 h with rfl | h
    · omega
    · have := ih h; omega

theorem inCs_not_finished (pc : Pc) (h : pc.inCs = true) : pc.finished = false := by
  cases pc <;> simp_all [Pc.inCs, Pc.finished]

/-- **C45 (no deadlock).** From every state reached by any schedule, the calls can all be brought to an end: there is a continuation
after which every read has returned or thrown that the reader is closed, and every `Close` has returned or thrown. -/
theorem C45_all_calls_can_finish (calls : List Pc) (hc : ∀ pc ∈ calls, pc.isCall = true) (sched : List Nat) :
    ∃ more, ∀ pc ∈ ((State.start calls).run (sched ++ more)).threads, (∃ b, pc = .rDone b) ∨ (∃ b, pc = .kDone b) := by
  have hI := inv_run _ (inv_start calls hc) sched
  have e : ∀ more, (State.start calls).run (sched ++ more) = ((State.start calls).run sched).run more := by
    intro more; unfold State.run; rw [List.foldl_append]
  simp only [e]
  generalize (State.start calls).run sched = s at *
  have key : ∀ (m : Nat) (s : State), s.left ≤ m → Inv s →
      ∃ more, Inv (s.run more) ∧ ∀ pc ∈ (s.run more).threads, pc.finished = true := by
    intro m
    induction m with
    | zero =>
      intro s hl hI
      by_cases hall : ∀ pc ∈ s.threads, pc.finished = true
      · exact ⟨[], hI, hall⟩
      · exfalso
        apply hall
        intro pc hp
        have : pc.left ≤ s.left := left_le s.threads pc hp
        cases pc <;> simp_all [Pc.left, Pc.finished] <;> omega
    | succ m ih =>
      intro s hl hI
      by_cases hall : ∀ pc ∈ s.threads, pc.finished = true
      · exact ⟨[], hI, hall⟩
      · have : ∃ i, (s.step i).left < s.left := by
          cases hm : s.mutex with
          | some i =>
            have hb := hI.bound i hm
            have hg : s.threads[i]? = some s.threads[i] := List.getElem?_eq_getElem hb
            have hcs := (hI.owner i _ hg).2 hm
            exact ⟨i, step_progress s i _ hg (inCs_not_finished _ hcs) (Or.inr (Or.inl hcs))⟩
          | none =>
            simp only [Classical.not_forall, Bool.not_eq_true] at hall
            obtain ⟨pc, hp, hf⟩ := hall
            obtain ⟨i, hi⟩ := List.getElem?_of_mem hp
            exact ⟨i, step_progress s i pc hi hf (Or.inl hm)⟩
        obtain ⟨i, hi⟩ := this
        obtain ⟨more, h1, h2⟩ := ih (s.step i) (by omega) (inv_step s hI i)
        exact ⟨i :: more, h1, h2⟩
  obtain ⟨more, h1, h2⟩ := key s.left s (Nat.le_refl _) hI
  refine ⟨more, ?_⟩
  intro pc hp
  have := h2 pc hp
  cases pc with
  | rDone b => exact Or.inl ⟨b, rfl⟩
  | kDone b => exact Or.inr ⟨b, rfl⟩
  | useAfterRelease => exact absurd hp h1.safe
  | _ => simp [Pc.finished] at this

/-- **C45 (no race on the stream pointer).** Under every schedule no two threads are ever about to access the stream pointer of the
reader without mutual exclusion. -/
theorem C45_no_stream_race (calls : List Pc) (hc : ∀ pc ∈ calls, pc.isCall = true) (sched : List Nat) :
    ¬ RaceOn .member ((State.start calls).run sched) := by
  have hI := inv_run _ (inv_start calls hc) sched
  generalize (State.start calls).run sched = s at *
  rintro ⟨i, j, p, q, w, w', hne, hp, hq, ap, aq, _⟩
  have hcs : ∀ (pc : Pc) (w : Bool), pc.access = some (.member, w) → pc.inCs = true := by
    intro pc w h
    cases pc <;> simp_all [Pc.access, Pc.inCs]
  have h1 := (hI.owner i p hp).1 (hcs p w ap)
  have h2 := (hI.owner j q hq).1 (hcs q w' aq)
  rw [h1] at h2
  simp at h2
  exact hne h2

/-- **C45, violated in the C++ memory model.** The flag `isOperational` is read by `ReadSubBlock` and written by `Close` without any
synchronisation: with every read and every `Close` running concurrently there is a schedule with a data race, which is undefined
behaviour in C++ (the theorems above give the accesses to the flag sequentially consistent meaning). -/
theorem C45_flag_race (n : Nat) : ∃ sched, RaceOn .flag ((State.start [.rCheck n, .kCheck]).run sched) :=
  ⟨[1], 0, 1, .rCheck n, .kClear, false, true, by decide, rfl, rfl, rfl, rfl, Or.inr rfl⟩

/-! ## Non-vacuity -/

example : ((State.start [.rCheck 2, .kCheck]).run [0, 0, 0, 0, 1, 1, 1, 1, 1, 0, 0, 0, 0]).threads = [.rDone true, .kDone true] := by decide
example : ((State.start [.rCheck 2, .kCheck]).run [0, 0, 0, 0, 1, 1, 1, 1, 1, 0, 0, 0, 0]).alive = false := by decide
example : ((State.start [.rCheck 2, .kCheck]).run [0, 1, 1, 1, 1, 1, 0, 0, 0]).threads = [.rDone false, .kDone true] := by decide

end Verif
