import Verif.Proof.CApiHandles

/-!
# Reference counting: the calls keep the invariant
-/

namespace Verif

open Verif.CApi Verif.Spec

namespace Counted

variable {s : St} {p : List Nat} {made : Nat → Nat}

theorem refs_zero (h : Counted s p made) {u : Nat} (hu : ∀ x, (u, x) ∉ s.objs) : refs s u = 0 := by
  unfold refs
  have h1 : s.wrappers.countP (fun w => w.obj == some u) = 0 := by
    rw [List.countP_eq_zero]
    intro w hw e
    obtain ⟨o, x, e1, e2, _⟩ := h.wobj w hw
    rw [e1] at e
    simp only [beq_iff_eq, Option.some.injEq] at e
    exact hu x (by rw [← e]; exact e2)
  have h2 : (s.objs.map fun q => q.2.uses.count u).sum = 0 := by
    rw [List.sum_eq_zero_iff_forall_eq_nat]
    intro n hn
    obtain ⟨q, hq, e⟩ := List.mem_map.1 hn
    rw [← e, List.count_eq_zero]
    intro hm
    obtain ⟨x, e1, _⟩ := h.uses q hq u hm
    exact hu x e1
  omega

/-- New objects and a new wrapper for the object `t`, which take over the pending references. -/
theorem extend (h : Counted s p made) (new : List (Nat × Obj)) (next' addr : Nat) (k : Kind) (t : Nat) (made' : Nat → Nat)
    (hkeys : (new.map (·.1)).Nodup) (hrange : ∀ q ∈ new, s.next ≤ q.1 ∧ q.1 < next') (hnext : s.next ≤ next')
    (haddr : addr ≠ 0 ∧ ∀ w ∈ s.wrappers, w.addr ≠ addr)
    (ht : ∃ x, (t, x) ∈ new ++ s.objs ∧ x.kind = k)
    (huses : ∀ q ∈ new, ∀ u ∈ q.2.uses, ∃ x, (u, x) ∈ new ++ s.objs ∧ rank x.kind < rank q.2.kind ∧ x.kind ≠ .bitmap ∧ (q.2.kind = .displaySettings → x.kind = .channelSettings))
    (hcount : ∀ q ∈ new, q.2.count = (if t = q.1 then 1 else 0) + (new.map fun r => r.2.uses.count q.1).sum ∧ 0 < q.2.count)
    (hold : ∀ q ∈ s.objs, p.count q.1 = (if t = q.1 then 1 else 0) + (new.map fun r => r.2.uses.count q.1).sum)
    (hbitmap : ∀ q ∈ new, (q.2.kind = .bitmap → q.2.count = 1) ∧ q.2.locks = 0)
    (hmade : ∀ e, made' e = made e + (new.map fun r => if r.2.ext = some e then 1 else 0).sum) :
    Counted ({ s with objs := new ++ s.objs, next := next' }.wrap addr k (some t)) [] made' := by
  have hrefs : ∀ u, refs ({ s with objs := new ++ s.objs, next := next' }.wrap addr k (some t)) u =
      refs s u + (if t = u then 1 else 0) + (new.map fun r => r.2.uses.count u).sum := by
    intro u
    unfold refs St.wrap
    dsimp only
    rw [List.countP_cons, List.map_append, List.sum_append]
    dsimp only
    by_cases htu : t = u
    · rw [if_pos (by simp [htu]), if_pos htu]; omega
    · rw [if_neg (by simp [htu]), if_neg htu]; omega
  refine ⟨?_, ?_, ?_, ?_, ?_, ?_, ?_, ?_, ?_, ?_, ?_⟩
  · show ((⟨addr, k, some t⟩ :: s.wrappers).map (·.addr)).Nodup
    rw [List.map_cons, List.nodup_cons]
    refine ⟨?_, h.wkeys⟩
    intro hm
    obtain ⟨w, hw, e⟩ := List.mem_map.1 hm
    exact haddr.2 w hw e
  · show ((new ++ s.objs).map (·.1)).Nodup
    rw [List.map_append, List.nodup_append]
    refine ⟨hkeys, h.okeys, ?_⟩
    intro a ha b hb e
    obtain ⟨q, hq, e1⟩ := List.mem_map.1 ha
    obtain ⟨r, hr, e2⟩ := List.mem_map.1 hb
    have := hrange q hq
    have := h.fresh r hr
    omega
  · intro q hq
    show q.1 < next'
    rcases List.mem_append.1 hq with hq | hq
    · exact (hrange q hq).2
    · have := h.fresh q hq; omega
  · intro w hw
    rcases List.mem_cons.1 hw with e | hw
    · rw [e]; exact haddr.1
    · exact h.nonnull w hw
  · intro w hw
    rcases List.mem_cons.1 hw with e | hw
    · obtain ⟨x, e1, e2⟩ := ht
      exact ⟨t, x, by rw [e], e1, by rw [e]; exact e2⟩
    · obtain ⟨o, x, e1, e2, e3⟩ := h.wobj w hw
      exact ⟨o, x, e1, List.mem_append_right _ e2, e3⟩
  · intro q hq u hu
    rcases List.mem_append.1 hq with hq | hq
    · exact huses q hq u hu
    · obtain ⟨x, e1, e2⟩ := h.uses q hq u hu
      exact ⟨x, List.mem_append_right _ e1, e2⟩
  · intro o ho; cases ho
  · intro q hq
    rw [hrefs]
    rcases List.mem_append.1 hq with hq | hq
    · rw [h.refs_zero (fun x hx => by have h1 := h.fresh _ hx; have h2 := hrange q hq; dsimp only at h1; omega), (hcount q hq).1, List.count_nil]
      omega
    · rw [h.count q hq, hold q hq, List.count_nil]; omega
  · intro q hq
    rcases List.mem_append.1 hq with hq | hq
    · exact (hcount q hq).2
    · exact h.pos q hq
  · intro q hq
    rcases List.mem_append.1 hq with hq | hq
    · exact ⟨(hbitmap q hq).1, fun _ => (hbitmap q hq).2⟩
    · exact h.bitmap q hq
  · intro e
    rw [hmade, ← h.ext e]
    unfold exts St.wrap
    dsimp only
    rw [List.map_append, List.sum_append]
    omega

/-- A new object without members. -/
theorem fresh_ok (h : Counted s [] made) (addr : Nat) (k : Kind) (ext : Option Nat) (haddr : addr ≠ 0 ∧ ∀ w ∈ s.wrappers, w.addr ≠ addr) :
    Counted (s.fresh addr k ext) [] (fun e => made e + if ext = some e then 1 else 0) := by
  refine h.extend [(s.next, ⟨k, 1, [], 0, ext⟩)] (s.next + 1) addr k s.next _ (by simp) ?_ (by omega) haddr ?_ ?_ ?_ ?_ ?_ ?_
  · intro q hq; rw [List.mem_singleton] at hq; rw [hq]; dsimp only; omega
  · exact ⟨_, List.mem_append_left _ (List.mem_singleton.2 rfl), rfl⟩
  · intro q hq u hu; rw [List.mem_singleton] at hq; rw [hq] at hu; cases hu
  · intro q hq; rw [List.mem_singleton] at hq; rw [hq]; simp
  · intro q hq
    have := h.fresh q hq
    rw [if_neg (by omega)]; simp
  · intro q hq; rw [List.mem_singleton] at hq; rw [hq]; simp
  · intro e; simp

/-- Members, count or locks of an object change, and the pending references with them. -/
theorem change (h : Counted s p made) {o : Nat} {x : Obj} (hx : (o, x) ∈ s.objs) (f : Obj → Obj) (p' : List Nat)
    (hk : (f x).kind = x.kind) (he : (f x).ext = x.ext)
    (hu : ∀ u ∈ (f x).uses, ∃ y, (u, y) ∈ s.objs ∧ rank y.kind < rank x.kind ∧ y.kind ≠ .bitmap ∧ (x.kind = .displaySettings → y.kind = .channelSettings))
    (hl : x.kind ≠ .bitmap → (f x).locks = 0) (hpos : 0 < (f x).count) (hb : x.kind = .bitmap → (f x).count = 1)
    (hp : ∀ u ∈ p', ∃ y, (u, y) ∈ s.objs ∧ y.kind ≠ .bitmap)
    (hc : ∀ u y, (u, y) ∈ s.objs → (if u = o then (f x).count else y.count) + x.uses.count u + p.count u = y.count + (f x).uses.count u + p'.count u) :
    Counted (s.setObj o f) p' made := by
  have hmem : ∀ q, q ∈ (s.setObj o f).objs ↔ (q.1 ≠ o ∧ q ∈ s.objs) ∨ q = (o, f x) := by
    intro q
    unfold St.setObj
    dsimp only
    rw [List.mem_map]
    constructor
    · rintro ⟨r, hr, e⟩
      by_cases hro : r.1 = o
      · rw [if_pos hro] at e
        right
        have : r.2 = x := h.unique (o := o) (by rw [← hro]; exact hr) hx
        rw [← e, hro, this]
      · rw [if_neg hro] at e
        left; rw [← e]; exact ⟨hro, hr⟩
    · rintro (⟨e1, e2⟩ | e)
      · exact ⟨q, e2, if_neg e1⟩
      · exact ⟨(o, x), hx, by rw [e]; exact if_pos rfl⟩
  have hback : ∀ u y, (u, y) ∈ s.objs → ∃ y', (u, y') ∈ (s.setObj o f).objs ∧ y'.kind = y.kind := by
    intro u y hy
    by_cases hu : u = o
    · subst hu
      have := h.unique hy hx
      subst this
      exact ⟨f y, (hmem _).2 (Or.inr rfl), hk⟩
    · exact ⟨y, (hmem _).2 (Or.inl ⟨hu, hy⟩), rfl⟩
  have hrefs : ∀ u, refs (s.setObj o f) u + x.uses.count u = refs s u + (f x).uses.count u := by
    intro u
    have := objs_sum_set h.okeys hx f (fun q => q.2.uses.count u)
    dsimp only at this
    unfold refs
    show s.wrappers.countP _ + _ + _ = _
    unfold St.setObj
    dsimp only
    omega
  refine ⟨h.wkeys, ?_, ?_, h.nonnull, ?_, ?_, ?_, ?_, ?_, ?_, ?_⟩
  · unfold St.setObj
    dsimp only
    rw [keys_set]; exact h.okeys
  · intro q hq
    rcases (hmem q).1 hq with ⟨_, e⟩ | e
    · exact h.fresh q e
    · rw [e]; exact h.fresh (o, x) hx
  · intro w hw
    obtain ⟨o', x', e1, e2, e3⟩ := h.wobj w hw
    obtain ⟨y', f1, f2⟩ := hback o' x' e2
    exact ⟨o', y', e1, f1, by rw [f2, e3]⟩
  · intro q hq u hu'
    have : ∃ y, (u, y) ∈ s.objs ∧ rank y.kind < rank q.2.kind ∧ y.kind ≠ .bitmap ∧ (q.2.kind = .displaySettings → y.kind = .channelSettings) := by
      rcases (hmem q).1 hq with ⟨_, e⟩ | e
      · exact h.uses q e u hu'
      · rw [e] at hu' ⊢
        dsimp only at hu' ⊢
        rw [hk]
        exact hu u hu'
    obtain ⟨y, g1, g2, g3, g4⟩ := this
    obtain ⟨y', f1, f2⟩ := hback u y g1
    exact ⟨y', f1, by rw [f2]; exact g2, by rw [f2]; exact g3, by rw [f2]; exact g4⟩
  · intro u hu'
    obtain ⟨y, g1, g2⟩ := hp u hu'
    obtain ⟨y', f1, f2⟩ := hback u y g1
    exact ⟨y', f1, fun e => absurd (by rw [← f2]; exact e) g2⟩
  · intro q hq
    have h1 := hrefs q.1
    rcases (hmem q).1 hq with ⟨e1, e⟩ | e
    · have h2 := hc q.1 q.2 e
      rw [if_neg e1] at h2
      have := h.count q e
      omega
    · have h2 := hc o x hx
      rw [if_pos rfl] at h2
      have := h.count _ hx
      rw [e] at h1 ⊢
      dsimp only at this h1 ⊢
      omega
  · intro q hq
    rcases (hmem q).1 hq with ⟨e1, e⟩ | e
    · exact h.pos q e
    · rw [e]; exact hpos
  · intro q hq
    rcases (hmem q).1 hq with ⟨e1, e⟩ | e
    · exact h.bitmap q e
    · rw [e]
      dsimp only
      rw [hk]
      exact ⟨hb, hl⟩
  · intro e
    rw [← h.ext e]
    have := objs_sum_set h.okeys hx f (fun q => if q.2.ext = some e then 1 else 0)
    dsimp only at this
    rw [he] at this
    unfold exts
    show s.closed.count e + _ = _
    unfold St.setObj
    dsimp only
    omega

/-- A wrapper goes away; its reference is pending. -/
theorem unwrap (h : Counted s [] made) {w : Wrapper} {o : Nat} {x : Obj} (hw : w ∈ s.wrappers) (ho : w.obj = some o) (hx : (o, x) ∈ s.objs)
    (hl : x.kind = .bitmap → x.locks = 0) :
    Counted { s with wrappers := s.wrappers.filter fun w' => w'.addr != w.addr } [o] made := by
  have hcount : ∀ l : List Wrapper, (l.map (·.addr)).Nodup → w ∈ l → ∀ u, l.countP (fun w => w.obj == some u) =
      (l.filter fun w' => w'.addr != w.addr).countP (fun w => w.obj == some u) + if u = o then 1 else 0 := by
    intro l
    induction l with
    | nil => intro _ hw; cases hw
    | cons v l ih =>
      intro hk hw u
      rw [List.map_cons, List.nodup_cons] at hk
      rw [List.filter_cons]
      by_cases hv : v.addr = w.addr
      · have hvw : v = w := by
          rcases List.mem_cons.1 hw with e | e
          · exact e.symm
          · exact absurd (List.mem_map_of_mem (f := (·.addr)) e) (by rw [← hv]; exact hk.1)
        have hl' : (l.filter fun w' => w'.addr != w.addr) = l := by
          rw [List.filter_eq_self]
          intro v' hv'
          have : v'.addr ≠ w.addr := by
            intro e
            exact hk.1 (by rw [hv, ← e]; exact List.mem_map_of_mem (f := (·.addr)) hv')
          simp [this]
        rw [if_neg (by simp [hv]), List.countP_cons, hl', hvw, ho]
        by_cases hu : u = o
        · simp [hu]
        · rw [if_neg (by simp; exact fun e => hu e.symm), if_neg hu]
      · rw [if_pos (by simp [hv]), List.countP_cons, List.countP_cons]
        have := ih hk.2 (by
          rcases List.mem_cons.1 hw with e | e
          · exact absurd (by rw [e]) hv
          · exact e) u
        omega
  refine ⟨h.wkeys.sublist (List.Sublist.map _ List.filter_sublist), h.okeys, h.fresh, fun w' hw' => h.nonnull w' (List.mem_filter.1 hw').1,
    fun w' hw' => h.wobj w' (List.mem_filter.1 hw').1, h.uses, ?_, ?_, h.pos, h.bitmap, h.ext⟩
  · intro u hu
    rw [List.mem_singleton] at hu
    exact ⟨x, by rw [hu]; exact hx, hl⟩
  · intro q hq
    have h1 := h.count q hq
    have h2 := hcount s.wrappers h.wkeys hw q.1
    unfold refs at h1 ⊢
    dsimp only
    rw [List.count_nil] at h1
    rw [List.count_singleton]
    by_cases hqo : q.1 = o
    · rw [if_pos hqo] at h2
      rw [if_pos (by simp [hqo])]
      omega
    · rw [if_neg hqo] at h2
      rw [if_neg (by simp; exact fun e => hqo e.symm)]
      omega

/-- Everything accessed through an object that is there is there. -/
theorem intact_ok (h : Counted s p made) : ∀ n o x, (o, x) ∈ s.objs → s.intact n o = true := by
  intro n
  induction n with
  | zero => intro _ _ _; rfl
  | succ n ih =>
    intro o x hx
    unfold St.intact
    rw [h.obj?_iff.2 hx]
    dsimp only
    rw [List.all_eq_true]
    intro u hu
    obtain ⟨y, e, _⟩ := h.uses _ hx u hu
    exact ih u y e

theorem wrapper?_iff (h : Counted s p made) {a : Nat} {w : Wrapper} : s.wrapper? a = some w ↔ w ∈ s.wrappers ∧ w.addr = a := by
  have key : ∀ l : List Wrapper, (l.map (·.addr)).Nodup → ((l.find? fun w => w.addr == a) = some w ↔ w ∈ l ∧ w.addr = a) := by
    intro l
    induction l with
    | nil => simp
    | cons v l ih =>
      intro hk
      rw [List.map_cons, List.nodup_cons] at hk
      rw [List.find?_cons]
      by_cases hv : v.addr = a
      · rw [show (v.addr == a) = true by simp [hv]]
        simp only [Option.some.injEq, List.mem_cons]
        constructor
        · intro e; subst e; exact ⟨Or.inl rfl, hv⟩
        · rintro ⟨e | e, e'⟩
          · exact e.symm
          · exact absurd (List.mem_map_of_mem (f := (·.addr)) e) (by rw [e', ← hv]; exact hk.1)
      · rw [show (v.addr == a) = false by simp [hv], ih hk.2, List.mem_cons]
        constructor
        · rintro ⟨e1, e2⟩; exact ⟨Or.inr e1, e2⟩
        · rintro ⟨e | e, e'⟩
          · exact absurd (by rw [← e]; exact e') hv
          · exact ⟨e, e'⟩
  exact key s.wrappers h.wkeys

end Counted

/-- The magic numbers tell the classes apart, but for one pair. -/
theorem magic_eq {k k' : Kind} (h : k.magic = k'.magic) : k = k' ∨ Confusable k k' := by
  revert h
  unfold Confusable
  cases k <;> cases k' <;> decide

/-- The three results of the checks. -/
theorem check_cases {s : St} {made : Nat → Nat} (hs : Counted s [] made) {k : Kind} {h : Nat} (hh : h = 0 ∨ ∃ k, LiveHandle s k h)
    (hc : ∀ k', LiveHandle s k' h → ¬Confusable k' k) (next : Option Nat → Option Res) :
    (h = 0 ∧ check s k h next = some ⟨.invalidArgument, none, s⟩) ∨ (h ≠ 0 ∧ ¬LiveHandle s k h ∧ check s k h next = some ⟨.invalidHandle, none, s⟩) ∨
      ∃ w o x, w ∈ s.wrappers ∧ w.addr = h ∧ w.kind = k ∧ w.obj = some o ∧ (o, x) ∈ s.objs ∧ x.kind = k ∧ h ≠ 0 ∧ check s k h next = next (some o) := by
  unfold check
  by_cases h0 : h = 0
  · left; exact ⟨h0, if_pos h0⟩
  · right
    rw [if_neg h0]
    rcases hh with hh | ⟨k', w, hw, e1, e2⟩
    · exact absurd hh h0
    · rw [hs.wrapper?_iff.2 ⟨hw, e1⟩]
      dsimp only
      by_cases hm : w.kind.magic = k.magic
      · right
        rcases magic_eq hm with e | e
        · obtain ⟨o, x, f1, f2, f3⟩ := hs.wobj w hw
          exact ⟨w, o, x, hw, e1, e, f1, f2, by rw [f3, e], h0, by rw [if_neg (by simp [hm]), if_neg (by simp [e]), f1]⟩
        · exact absurd e (hc _ ⟨w, hw, e1, rfl⟩)
      · left
        refine ⟨h0, ?_, if_pos hm⟩
        rintro ⟨w', hw', g1, g2⟩
        have : some w = some w' := by rw [← hs.wrapper?_iff.2 ⟨hw, e1⟩, hs.wrapper?_iff.2 ⟨hw', g1⟩]
        injection this with this
        rw [this, g2] at hm
        exact hm rfl

end Verif
