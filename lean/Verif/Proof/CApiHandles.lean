import Verif.Spec.CApiHandles

/-!
# Reference counting: the invariant
-/

namespace Verif

open Verif.CApi Verif.Spec

/-! ## Lists of objects with keys -/

theorem assoc_find {l : List (Nat × Obj)} (hk : (l.map (·.1)).Nodup) {o : Nat} {x : Obj} :
    (l.find? fun q => q.1 == o).map (·.2) = some x ↔ (o, x) ∈ l := by
  induction l with
  | nil => simp
  | cons q l ih =>
    rw [List.map_cons, List.nodup_cons] at hk
    rw [List.find?_cons]
    by_cases h : q.1 = o
    · rw [show (q.1 == o) = true by simp [h]]
      simp only [Option.map_some, Option.some.injEq, List.mem_cons]
      constructor
      · intro e; left; rw [← h, ← e]
      · rintro (e | e)
        · rw [← e]
        · exact absurd (List.mem_map_of_mem (f := (·.1)) e) (by rw [← h]; exact hk.1)
    · rw [show (q.1 == o) = false by simp [h], ih hk.2, List.mem_cons]
      constructor
      · exact Or.inr
      · rintro (e | e)
        · exact absurd (by rw [← e]) h
        · exact e

theorem assoc_none {l : List (Nat × Obj)} {o : Nat} : (l.find? fun q => q.1 == o).map (·.2) = none ↔ ∀ q ∈ l, q.1 ≠ o := by
  rw [Option.map_eq_none_iff, List.find?_eq_none]
  simp

theorem sum_filter {l : List (Nat × Obj)} (hk : (l.map (·.1)).Nodup) {o : Nat} {x : Obj} (h : (o, x) ∈ l) (g : Nat × Obj → Nat) :
    (l.map g).sum = g (o, x) + ((l.filter fun q => q.1 != o).map g).sum := by
  induction l with
  | nil => cases h
  | cons q l ih =>
    rw [List.map_cons, List.nodup_cons] at hk
    rw [List.map_cons, List.sum_cons, List.filter_cons]
    by_cases hq : q.1 = o
    · have : q = (o, x) := by
        rcases List.mem_cons.1 h with e | e
        · exact e.symm
        · exact absurd (List.mem_map_of_mem (f := (·.1)) e) (by rw [← hq]; exact hk.1)
      rw [if_neg (by simp [hq]), this]
      congr 2
      congr 1
      symm
      rw [List.filter_eq_self]
      intro p hp
      have : p.1 ≠ o := by
        intro e
        exact hk.1 (by rw [hq, ← e]; exact List.mem_map_of_mem (f := (·.1)) hp)
      simp [this]
    · rw [if_pos (by simp [hq]), List.map_cons, List.sum_cons]
      have := ih hk.2 (by
        rcases List.mem_cons.1 h with e | e
        · exact absurd (by rw [← e]) hq
        · exact e)
      omega

theorem objs_sum_set {l : List (Nat × Obj)} (hk : (l.map (·.1)).Nodup) {o : Nat} {x : Obj} (h : (o, x) ∈ l) (f : Obj → Obj) (g : Nat × Obj → Nat) :
    ((l.map fun q => if q.1 = o then (q.1, f q.2) else q).map g).sum + g (o, x) = (l.map g).sum + g (o, f x) := by
  induction l with
  | nil => cases h
  | cons q l ih =>
    rw [List.map_cons, List.nodup_cons] at hk
    simp only [List.map_cons, List.sum_cons]
    by_cases hq : q.1 = o
    · have : q = (o, x) := by
        rcases List.mem_cons.1 h with e | e
        · exact e.symm
        · exact absurd (List.mem_map_of_mem (f := (·.1)) e) (by rw [← hq]; exact hk.1)
      have hl : (l.map fun q => if q.1 = o then (q.1, f q.2) else q) = l := by
        conv => rhs; rw [← List.map_id l]
        apply List.map_congr_left
        intro p hp
        have : p.1 ≠ o := by
          intro e
          exact hk.1 (by rw [hq, ← e]; exact List.mem_map_of_mem (f := (·.1)) hp)
        rw [if_neg this]; rfl
      rw [hl, if_pos hq, this]
      dsimp only
      omega
    · have := ih hk.2 (by
        rcases List.mem_cons.1 h with e | e
        · exact absurd (by rw [← e]) hq
        · exact e)
      rw [if_neg hq]
      omega

theorem keys_set (l : List (Nat × Obj)) (o : Nat) (f : Obj → Obj) : (l.map fun q => if q.1 = o then (q.1, f q.2) else q).map (·.1) = l.map (·.1) := by
  rw [List.map_map]
  apply List.map_congr_left
  intro q _
  show (if q.1 = o then (q.1, f q.2) else q).1 = q.1
  split <;> rfl

theorem setObj_obj? (s : St) (o : Nat) (f : Obj → Obj) (o' : Nat) : (s.setObj o f).obj? o' = if o' = o then (s.obj? o).map f else s.obj? o' := by
  unfold St.obj? St.setObj
  dsimp only
  induction s.objs with
  | nil => simp
  | cons q l ih =>
    rw [List.map_cons, List.find?_cons, List.find?_cons, List.find?_cons]
    by_cases hq : q.1 = o
    · rw [if_pos hq]
      by_cases ho : o' = o
      · subst ho
        simp [hq]
      · rw [if_neg ho] at ih ⊢
        have h1 : (q.1 == o') = false := by simp; intro e; exact ho (by rw [← e, hq])
        rw [h1]
        exact ih
    · rw [if_neg hq]
      by_cases ho : o' = o
      · subst ho
        have h1 : (q.1 == o') = false := by simp [hq]
        rw [h1]
        rw [if_pos rfl] at ih ⊢
        exact ih
      · rw [if_neg ho] at ih ⊢
        by_cases h2 : q.1 = o'
        · simp [h2]
        · have h1 : (q.1 == o') = false := by simp [h2]
          rw [h1]
          exact ih

/-! ## The invariant -/

/-- The level of a class in the graph of ownership. -/
def rank : Kind → Nat
  | .accessor => 2
  | .reader | .writer | .displaySettings => 1
  | _ => 0

/-- The references to an object from wrappers and from members of objects. -/
def refs (s : St) (o : Nat) : Nat := s.wrappers.countP (fun w => w.obj == some o) + (s.objs.map fun q => q.2.uses.count o).sum

/-- The number of streams with number `e`. -/
def exts (s : St) (e : Nat) : Nat := (s.objs.map fun q => if q.2.ext = some e then 1 else 0).sum

/-- The invariant, while the references in `p` are about to go away; `made e` streams with number `e` have been made. -/
structure Counted (s : St) (p : List Nat) (made : Nat → Nat) : Prop where
  wkeys : (s.wrappers.map (·.addr)).Nodup
  okeys : (s.objs.map (·.1)).Nodup
  fresh : ∀ q ∈ s.objs, q.1 < s.next
  nonnull : ∀ w ∈ s.wrappers, w.addr ≠ 0
  wobj : ∀ w ∈ s.wrappers, ∃ o x, w.obj = some o ∧ (o, x) ∈ s.objs ∧ x.kind = w.kind
  uses : ∀ q ∈ s.objs, ∀ u ∈ q.2.uses, ∃ x, (u, x) ∈ s.objs ∧ rank x.kind < rank q.2.kind ∧ x.kind ≠ .bitmap ∧ (q.2.kind = .displaySettings → x.kind = .channelSettings)
  pend : ∀ o ∈ p, ∃ x, (o, x) ∈ s.objs ∧ (x.kind = .bitmap → x.locks = 0)
  count : ∀ q ∈ s.objs, q.2.count = refs s q.1 + p.count q.1
  pos : ∀ q ∈ s.objs, 0 < q.2.count
  bitmap : ∀ q ∈ s.objs, (q.2.kind = .bitmap → q.2.count = 1) ∧ (q.2.kind ≠ .bitmap → q.2.locks = 0)
  ext : ∀ e, s.closed.count e + exts s e = made e

namespace Counted

variable {s : St} {p : List Nat} {made : Nat → Nat}

theorem obj?_iff (h : Counted s p made) {o : Nat} {x : Obj} : s.obj? o = some x ↔ (o, x) ∈ s.objs := assoc_find h.okeys

theorem unique (h : Counted s p made) {o : Nat} {x y : Obj} (hx : (o, x) ∈ s.objs) (hy : (o, y) ∈ s.objs) : x = y := by
  have := (h.obj?_iff).2 hx
  rw [(h.obj?_iff).2 hy] at this
  exact (Option.some.inj this).symm

/-- The number of units of work. -/
def work (s : St) (p : List Nat) : Nat := p.length + (s.objs.map fun q => q.2.uses.length).sum

theorem remove (h : Counted s (o :: p) made) {x : Obj} (hx : (o, x) ∈ s.objs) (h1 : x.count = 1) (made' : Nat → Nat) (hm : made' = made) :
    Counted { s with objs := s.objs.filter (fun q => q.1 != o), closed := x.ext.toList ++ s.closed } (x.uses ++ p) made' ∧
    work { s with objs := s.objs.filter (fun q => q.1 != o), closed := x.ext.toList ++ s.closed } (x.uses ++ p) + 1 = work s (o :: p) := by
  subst hm
  have hc := h.count _ hx
  dsimp only at hc
  rw [h1, List.count_cons_self] at hc
  have hr : refs s o = 0 := by omega
  have hp : p.count o = 0 := by omega
  have hw0 : ∀ w ∈ s.wrappers, w.obj ≠ some o := by
    have : s.wrappers.countP (fun w => w.obj == some o) = 0 := by unfold refs at hr; omega
    rw [List.countP_eq_zero] at this
    intro w hw e
    exact this w hw (by simp [e])
  have hu0 : ∀ q ∈ s.objs, o ∉ q.2.uses := by
    intro q hq hm
    have : (s.objs.map fun q => q.2.uses.count o).sum = 0 := by unfold refs at hr; omega
    rw [List.sum_eq_zero_iff_forall_eq_nat] at this
    have := this _ (List.mem_map_of_mem (f := fun q : Nat × Obj => q.2.uses.count o) hq)
    rw [List.count_eq_zero] at this
    exact this hm
  have hkeep : ∀ q, q ∈ s.objs.filter (fun q => q.1 != o) ↔ q ∈ s.objs ∧ q.1 ≠ o := by
    intro q; rw [List.mem_filter]; simp
  constructor
  · constructor
    · exact h.wkeys
    · exact h.okeys.sublist (List.Sublist.map _ List.filter_sublist)
    · intro q hq; exact h.fresh q ((hkeep q).1 hq).1
    · exact h.nonnull
    · intro w hw
      obtain ⟨o', x', e1, e2, e3⟩ := h.wobj w hw
      exact ⟨o', x', e1, (hkeep _).2 ⟨e2, fun e => hw0 w hw (by rw [e1]; exact congrArg some e)⟩, e3⟩
    · intro q hq u hu
      have hq' := ((hkeep q).1 hq).1
      obtain ⟨x', e1, e2⟩ := h.uses q hq' u hu
      exact ⟨x', (hkeep _).2 ⟨e1, fun e => hu0 q hq' (by rw [← e]; exact hu)⟩, e2⟩
    · intro u hu
      rcases List.mem_append.1 hu with hu | hu
      · obtain ⟨x', e1, e2, e3, _⟩ := h.uses _ hx u hu
        exact ⟨x', (hkeep _).2 ⟨e1, fun e => hu0 _ hx (by rw [← e]; exact hu)⟩, fun e => absurd e e3⟩
      · obtain ⟨x', e1, e2⟩ := h.pend u (List.mem_cons_of_mem _ hu)
        exact ⟨x', (hkeep _).2 ⟨e1, fun e => (List.count_eq_zero.1 hp) (by rw [← e]; exact hu)⟩, e2⟩
    · intro q hq
      obtain ⟨hq1, hq2⟩ := (hkeep q).1 hq
      have := h.count q hq1
      rw [this, List.count_append, List.count_cons_of_ne (fun e => hq2 e.symm)]
      unfold refs
      dsimp only
      rw [sum_filter h.okeys hx (fun r => r.2.uses.count q.1)]
      dsimp only
      omega
    · intro q hq; exact h.pos q ((hkeep q).1 hq).1
    · intro q hq; exact h.bitmap q ((hkeep q).1 hq).1
    · intro e
      have := h.ext e
      unfold exts at this ⊢
      dsimp only
      rw [sum_filter h.okeys hx (fun r => if r.2.ext = some e then 1 else 0)] at this
      dsimp only at this
      rw [List.count_append]
      cases he : x.ext with
      | none => rw [he] at this; simp at this ⊢; omega
      | some e' =>
        rw [he] at this
        by_cases hee : e' = e
        · subst hee; simp at this ⊢; omega
        · rw [if_neg (fun h => hee (Option.some.inj h))] at this
          rw [show (some e').toList = [e'] from rfl, List.count_singleton, if_neg (by simpa using hee)]
          omega
  · unfold work
    dsimp only
    rw [sum_filter h.okeys hx (fun q => q.2.uses.length), List.length_append, List.length_cons]
    dsimp only
    omega

/-- A change of an object that keeps class, members, locks and stream, with the count adjusted to the pending references. -/
theorem recount (h : Counted s p made) {o : Nat} {x : Obj} (hx : (o, x) ∈ s.objs) (f : Obj → Obj) (p' : List Nat)
    (hf : (f x).kind = x.kind ∧ (f x).uses = x.uses ∧ (f x).locks = x.locks ∧ (f x).ext = x.ext) (hpos : 0 < (f x).count)
    (hp : ∀ u ∈ p', u ∈ p ∨ (u = o ∧ x.kind ≠ .bitmap)) (hb : x.kind = .bitmap → (f x).count = 1)
    (hc : (f x).count + p.count o = x.count + p'.count o) (hne : ∀ u, u ≠ o → p'.count u = p.count u) :
    Counted (s.setObj o f) p' made ∧ (s.setObj o f).objs.map (fun q => q.2.uses.length) = s.objs.map (fun q => q.2.uses.length) := by
  obtain ⟨k1, k2, k3, k4⟩ := hf
  have hmem : ∀ q, q ∈ (s.setObj o f).objs ↔ (q.1 ≠ o ∧ q ∈ s.objs) ∨ q = (o, f x) := by
    intro q
    unfold St.setObj
    dsimp only
    rw [List.mem_map]
    constructor
    · rintro ⟨r, hr, e⟩
      by_cases hro : r.1 = o
      · rw [if_pos hro] at e
        right
        have : r.2 = x := h.unique (o := o) (by rw [← hro]; exact hr) hx
        rw [← e, hro, this]
      · rw [if_neg hro] at e
        left; rw [← e]; exact ⟨hro, hr⟩
    · rintro (⟨e1, e2⟩ | e)
      · exact ⟨q, e2, if_neg e1⟩
      · exact ⟨(o, x), hx, by rw [e]; exact if_pos rfl⟩
  have hback : ∀ u y, (u, y) ∈ s.objs → ∃ y', (u, y') ∈ (s.setObj o f).objs ∧ y'.kind = y.kind ∧ y'.locks = y.locks := by
    intro u y hy
    by_cases hu : u = o
    · subst hu
      have := h.unique hy hx
      subst this
      exact ⟨f y, (hmem _).2 (Or.inr rfl), k1, k3⟩
    · exact ⟨y, (hmem _).2 (Or.inl ⟨hu, hy⟩), rfl, rfl⟩
  have hrefs : ∀ u, refs (s.setObj o f) u = refs s u := by
    intro u
    have := objs_sum_set h.okeys hx f (fun q => q.2.uses.count u)
    dsimp only at this
    rw [k2] at this
    unfold refs
    show s.wrappers.countP _ + _ = _
    unfold St.setObj
    dsimp only
    omega
  refine ⟨⟨h.wkeys, ?_, ?_, h.nonnull, ?_, ?_, ?_, ?_, ?_, ?_, ?_⟩, ?_⟩
  · unfold St.setObj
    dsimp only
    rw [keys_set]; exact h.okeys
  · intro q hq
    rcases (hmem q).1 hq with ⟨_, e⟩ | e
    · exact h.fresh q e
    · rw [e]; exact h.fresh (o, x) hx
  · intro w hw
    obtain ⟨o', x', e1, e2, e3⟩ := h.wobj w hw
    obtain ⟨y', f1, f2, _⟩ := hback o' x' e2
    exact ⟨o', y', e1, f1, by rw [f2, e3]⟩
  · intro q hq u hu
    have : ∃ y, (u, y) ∈ s.objs ∧ rank y.kind < rank q.2.kind ∧ y.kind ≠ .bitmap ∧ (q.2.kind = .displaySettings → y.kind = .channelSettings) := by
      rcases (hmem q).1 hq with ⟨_, e⟩ | e
      · exact h.uses q e u hu
      · rw [e] at hu ⊢
        dsimp only at hu ⊢
        rw [k1]
        exact h.uses _ hx u (by rw [← k2]; exact hu)
    obtain ⟨y, g1, g2, g3, g4⟩ := this
    obtain ⟨y', f1, f2, _⟩ := hback u y g1
    exact ⟨y', f1, by rw [f2]; exact g2, by rw [f2]; exact g3, by rw [f2]; exact g4⟩
  · intro u hu
    rcases hp u hu with hu | ⟨e, hb'⟩
    · obtain ⟨y, g1, g2⟩ := h.pend u hu
      obtain ⟨y', f1, f2, f3⟩ := hback u y g1
      exact ⟨y', f1, by rw [f2, f3]; exact g2⟩
    · exact ⟨f x, (hmem _).2 (Or.inr (by rw [e])), fun e => absurd e (by rw [k1]; exact hb')⟩
  · intro q hq
    rw [hrefs]
    rcases (hmem q).1 hq with ⟨e1, e⟩ | e
    · rw [h.count q e, hne q.1 e1]
    · rw [e]
      have := h.count _ hx
      dsimp only at this ⊢
      omega
  · intro q hq
    rcases (hmem q).1 hq with ⟨e1, e⟩ | e
    · exact h.pos q e
    · rw [e]; exact hpos
  · intro q hq
    rcases (hmem q).1 hq with ⟨e1, e⟩ | e
    · exact h.bitmap q e
    · rw [e]
      dsimp only
      rw [k1, k3]
      exact ⟨hb, (h.bitmap _ hx).2⟩
  · intro e
    rw [← h.ext e]
    have := objs_sum_set h.okeys hx f (fun q => if q.2.ext = some e then 1 else 0)
    dsimp only at this
    rw [k4] at this
    unfold exts
    show s.closed.count e + _ = _
    unfold St.setObj
    dsimp only
    omega
  · unfold St.setObj
    dsimp only
    rw [List.map_map]
    apply List.map_congr_left
    intro q hq
    show (if q.1 = o then (q.1, f q.2) else q).2.uses.length = _
    by_cases hqo : q.1 = o
    · rw [if_pos hqo]
      have : q.2 = x := h.unique (o := o) (by rw [← hqo]; exact hq) hx
      dsimp only
      rw [this, k2]
    · rw [if_neg hqo]

/-- References go away: this is always possible, and the invariant holds afterwards. -/
theorem drops_ok : ∀ (n : Nat) (p : List Nat) (s : St), Counted s p made → work s p ≤ n →
    ∃ s', drops n p s = some s' ∧ Counted s' [] made ∧ s'.wrappers = s.wrappers ∧ s'.next = s.next := by
  intro n
  induction n with
  | zero =>
    intro p s h hn
    cases p with
    | nil => exact ⟨s, rfl, h, rfl, rfl⟩
    | cons o p => unfold work at hn; simp at hn
  | succ n ih =>
    intro p s h hn
    cases p with
    | nil => exact ⟨s, rfl, h, rfl, rfl⟩
    | cons o p =>
      obtain ⟨x, hx, hl⟩ := h.pend o (by simp)
      unfold drops
      rw [h.obj?_iff.2 hx]
      dsimp only
      by_cases h1 : x.count = 1
      · have h0 : x.locks = 0 := by
          by_cases hb : x.kind = .bitmap
          · exact hl hb
          · exact (h.bitmap _ hx).2 hb
        rw [if_pos h1, if_neg (by omega)]
        obtain ⟨g1, g2⟩ := h.remove hx h1 made rfl
        obtain ⟨s', e1, e2, e3, e4⟩ := ih _ _ g1 (by omega)
        exact ⟨s', e1, e2, e3, e4⟩
      · rw [if_neg h1]
        have hpos := h.pos _ hx
        dsimp only at hpos
        obtain ⟨g1, g2⟩ := h.recount hx (fun x => { x with count := x.count - 1 }) p ⟨rfl, rfl, rfl, rfl⟩ (by dsimp only; omega)
          (fun u hu => Or.inl (List.mem_cons_of_mem _ hu)) (fun e => absurd ((h.bitmap _ hx).1 e) h1)
          (by dsimp only; rw [List.count_cons_self]; omega) (fun u hu => (List.count_cons_of_ne (fun e => hu e.symm)).symm)
        obtain ⟨s', e1, e2, e3, e4⟩ := ih p _ g1 (by
          unfold work at hn ⊢
          rw [g2]
          rw [List.length_cons] at hn
          omega)
        exact ⟨s', e1, e2, e3, e4⟩

theorem drop_ok (h : Counted s p made) : ∃ s', s.drop p = some s' ∧ Counted s' [] made ∧ s'.wrappers = s.wrappers ∧ s'.next = s.next :=
  drops_ok _ p s h (Nat.le_refl _)

end Counted

end Verif
