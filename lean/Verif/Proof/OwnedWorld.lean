import Verif.Proof.Owned

namespace Verif.Owned
open Verif.Czi Verif.Spec.Owned

theorem objs_setOwners (w : World) (o k : Nat) (f : Nat → Nat) (a : Nat) :
    (w.setOwners o k f).objs[a]? = (w.objs[a]?).map (fun b => if o = a then { b with pieces := b.pieces.modify k (fun p => { p with owners := f p.owners }) } else b) := by
  unfold World.setOwners
  dsimp only
  rw [List.getElem?_modify]
  split <;> simp_all

theorem piece_setOwners (w : World) (o k : Nat) (f : Nat → Nat) (a b : Nat) :
    (w.setOwners o k f).piece a b = if o = a ∧ k = b then (w.piece a b).map (fun p => { p with owners := f p.owners }) else w.piece a b := by
  unfold World.piece
  rw [objs_setOwners]
  cases w.objs[a]? with
  | none => simp
  | some x =>
    simp only [Option.map_some, Option.bind_some]
    by_cases h : o = a
    · subst h
      simp only [if_true, true_and]
      rw [List.getElem?_modify]
      split <;> simp
    · simp [h]

theorem heap_setOwners (w : World) (o k : Nat) (f : Nat → Nat) : (w.setOwners o k f).heap = w.heap := rfl

theorem piece_heap (w : World) (h : Heap) (o k : Nat) : ({ w with heap := h } : World).piece o k = w.piece o k := rfl

theorem piece_vars (w : World) (v : List (Option Ref)) (o k : Nat) : ({ w with vars := v } : World).piece o k = w.piece o k := rfl

theorem piece_objOwners (w : World) (o : Nat) (f : Nat → Nat) (v : List (Option Ref)) (a b : Nat) :
    ({ w with objs := w.objs.modify o (fun b => { b with owners := f b.owners }), vars := v } : World).piece a b = w.piece a b := by
  unfold World.piece
  dsimp only
  rw [List.getElem?_modify]
  cases w.objs[a]? with
  | none => simp
  | some x =>
    simp only [Option.map_some, Option.bind_some]
    split <;> rfl

/-- the invariant: owners are as counted, and exactly the blocks of pieces with owners are allocated -/
structure Core (w : World) (co : Nat → Nat) (cp : Nat → Nat → Nat) : Prop where
  unbroken : w.heap.broken = false
  objs : ∀ o b, w.objs[o]? = some b → b.owners = co o
  pieces : ∀ o k p, w.piece o k = some p → p.owners = cp o k
  held : ∀ o k p i, w.piece o k = some p → p.ptr = some i → (0 < p.owners ↔ w.heap.Alive i)
  owner : ∀ i, w.heap.Alive i → ∃ o k p, w.piece o k = some p ∧ p.ptr = some i
  inj : ∀ o k p o' k' p' i, w.piece o k = some p → w.piece o' k' = some p' → p.ptr = some i → p'.ptr = some i → o = o' ∧ k = k'
  lt : ∀ o k p i, w.piece o k = some p → p.ptr = some i → i < w.heap.mem.length

theorem Core.congr {w : World} {co co' : Nat → Nat} {cp cp' : Nat → Nat → Nat} (c : Core w co cp) (ho : ∀ o b, w.objs[o]? = some b → co o = co' o)
    (hp : ∀ o k p, w.piece o k = some p → cp o k = cp' o k) : Core w co' cp' :=
  ⟨c.unbroken, fun o b h => (c.objs o b h).trans (ho o b h), fun o k p h => (c.pieces o k p h).trans (hp o k p h), c.held, c.owner, c.inj, c.lt⟩

theorem Core.vars {w : World} {co : Nat → Nat} {cp : Nat → Nat → Nat} (c : Core w co cp) (v : List (Option Ref)) : Core { w with vars := v } co cp :=
  ⟨c.unbroken, c.objs, c.pieces, c.held, c.owner, c.inj, c.lt⟩

theorem objs_owners_setOwners {w : World} {o k : Nat} {f : Nat → Nat} {a : Nat} {b : Obj} (h : (w.setOwners o k f).objs[a]? = some b) :
    ∃ b', w.objs[a]? = some b' ∧ b'.owners = b.owners := by
  rw [objs_setOwners] at h
  rcases hx : w.objs[a]? with _ | x
  · rw [hx] at h
    cases h
  · rw [hx] at h
    simp only [Option.map_some, Option.some.injEq] at h
    refine ⟨x, rfl, ?_⟩
    rw [← h]
    split <;> rfl

/-- a piece of the changed world comes from one of the old world -/
theorem piece_setOwners_some {w : World} {o k : Nat} {f : Nat → Nat} {a b : Nat} {p : Piece} (h : (w.setOwners o k f).piece a b = some p) :
    ∃ q, w.piece a b = some q ∧ q.ptr = p.ptr ∧ q.size = p.size ∧ p.owners = if o = a ∧ k = b then f q.owners else q.owners := by
  rw [piece_setOwners] at h
  split at h
  · rename_i e
    rcases hx : w.piece a b with _ | x
    · rw [hx] at h
      cases h
    · rw [hx] at h
      simp only [Option.map_some, Option.some.injEq] at h
      refine ⟨x, rfl, ?_⟩
      rw [← h]
      exact ⟨rfl, rfl, by rw [if_pos e]⟩
  · rename_i e
    exact ⟨p, h, rfl, rfl, by rw [if_neg e]⟩

theorem setOwners_piece {w : World} {o k : Nat} {f : Nat → Nat} {a b : Nat} {p : Piece} (h : w.piece a b = some p) :
    ∃ q, (w.setOwners o k f).piece a b = some q ∧ q.ptr = p.ptr ∧ q.size = p.size := by
  rw [piece_setOwners, h]
  split
  · exact ⟨_, rfl, rfl, rfl⟩
  · exact ⟨p, rfl, rfl, rfl⟩

/-- changing the number of owners of a piece that has and keeps owners -/
theorem Core.setOwners {w : World} {co : Nat → Nat} {cp : Nat → Nat → Nat} (c : Core w co cp) (o k : Nat) (f : Nat → Nat)
    (hpos : ∀ p, w.piece o k = some p → (0 < p.owners ↔ 0 < f p.owners)) :
    Core (w.setOwners o k f) co (fun a b => if o = a ∧ k = b then f (cp a b) else cp a b) := by
  refine ⟨c.unbroken, ?_, ?_, ?_, ?_, ?_, ?_⟩
  · intro a b h
    obtain ⟨b', h1, h2⟩ := objs_owners_setOwners h
    rw [← h2]
    exact c.objs a b' h1
  · intro a b p h
    obtain ⟨q, h1, _, _, h4⟩ := piece_setOwners_some h
    rw [h4, c.pieces a b q h1]
  · intro a b p i h hi
    obtain ⟨q, h1, h2, _, h4⟩ := piece_setOwners_some h
    have := c.held a b q i h1 (h2.trans hi)
    rw [h4]
    split
    · rename_i e
      obtain ⟨e1, e2⟩ := e
      subst e1 e2
      rw [← hpos q h1]
      exact this
    · exact this
  · intro i hi
    obtain ⟨a, b, p, h1, h2⟩ := c.owner i hi
    obtain ⟨q, h3, h4, _⟩ := setOwners_piece (o := o) (k := k) (f := f) h1
    exact ⟨a, b, q, h3, h4.trans h2⟩
  · intro a b p a' b' p' i h h' hi hi'
    obtain ⟨q, h1, h2, _⟩ := piece_setOwners_some h
    obtain ⟨q', h1', h2', _⟩ := piece_setOwners_some h'
    exact c.inj a b q a' b' q' i h1 h1' (h2.trans hi) (h2'.trans hi')
  · intro a b p i h hi
    obtain ⟨q, h1, h2, _⟩ := piece_setOwners_some h
    exact c.lt a b q i h1 (h2.trans hi)

theorem alive_free_iff {h : Heap} {i : Nat} (a : h.Alive i) (j : Nat) : (h.free (some i)).Alive j ↔ h.Alive j ∧ j ≠ i := by
  rw [free_alive a]
  unfold Heap.Alive
  dsimp only
  by_cases e : i = j
  · subst e
    simp [List.getElem?_set, a.lt]
  · simp [List.getElem?_set, e, Ne.symm e]

theorem Core.releasePiece {w : World} {co : Nat → Nat} {cp : Nat → Nat → Nat} (c : Core w co cp) (o k : Nat)
    (hpos : ∀ p, w.piece o k = some p → 0 < p.owners) :
    Core (w.releasePiece o k) co (fun a b => if o = a ∧ k = b then cp a b - 1 else cp a b) := by
  unfold World.releasePiece
  rcases hp : w.piece o k with _ | p
  · dsimp only
    refine c.congr (fun _ _ _ => rfl) ?_
    intro a b q hq
    rw [if_neg]
    rintro ⟨e1, e2⟩
    subst e1 e2
    rw [hp] at hq
    cases hq
  · dsimp only
    have hown := hpos p hp
    split
    · rename_i h1
      rcases hptr : p.ptr with _ | i
      · -- a null pointer: nothing is released
        show Core (w.setOwners o k (· - 1)) _ _
        refine ⟨c.unbroken, ?_, ?_, ?_, ?_, ?_, ?_⟩
        · intro a b h
          obtain ⟨b', h1, h2⟩ := objs_owners_setOwners h
          rw [← h2]
          exact c.objs a b' h1
        · intro a b q h
          obtain ⟨q', h1, _, _, h4⟩ := piece_setOwners_some h
          rw [h4, c.pieces a b q' h1]
        · intro a b q i h hi
          obtain ⟨q', h1, h2, _, h4⟩ := piece_setOwners_some h
          have := c.held a b q' i h1 (h2.trans hi)
          rw [h4]
          rw [if_neg]
          · exact this
          · rintro ⟨e1, e2⟩
            subst e1 e2
            rw [hp] at h1
            injection h1 with h1
            subst h1
            rw [← h2, hptr] at hi
            cases hi
        · intro i hi
          obtain ⟨a, b, q, h1, h2⟩ := c.owner i hi
          obtain ⟨q', h3, h4, _⟩ := setOwners_piece (o := o) (k := k) (f := (· - 1)) h1
          exact ⟨a, b, q', h3, h4.trans h2⟩
        · intro a b q a' b' q' i h h' hi hi'
          obtain ⟨r, h1, h2, _⟩ := piece_setOwners_some h
          obtain ⟨r', h1', h2', _⟩ := piece_setOwners_some h'
          exact c.inj a b r a' b' r' i h1 h1' (h2.trans hi) (h2'.trans hi')
        · intro a b q i h hi
          obtain ⟨r, h1, h2, _⟩ := piece_setOwners_some h
          exact c.lt a b r i h1 (h2.trans hi)
      · have hal : w.heap.Alive i := (c.held o k p i hp hptr).mp hown
        refine ⟨?_, ?_, ?_, ?_, ?_, ?_, ?_⟩
        · show (w.heap.free (some i)).broken = false
          rw [free_alive hal]
          exact c.unbroken
        · intro a b h
          obtain ⟨b', h1, h2⟩ := objs_owners_setOwners (w := w) (o := o) (k := k) (f := (· - 1)) h
          rw [← h2]
          exact c.objs a b' h1
        · intro a b q h
          obtain ⟨q', h1, _, _, h4⟩ := piece_setOwners_some (w := w) (o := o) (k := k) (f := (· - 1)) h
          rw [h4, c.pieces a b q' h1]
        · intro a b q j h hj
          obtain ⟨q', h1', h2, _, h4⟩ := piece_setOwners_some (w := w) (o := o) (k := k) (f := (· - 1)) h
          have := c.held a b q' j h1' (h2.trans hj)
          show 0 < q.owners ↔ (w.heap.free (some i)).Alive j
          rw [alive_free_iff hal j, h4]
          split
          · rename_i e
            obtain ⟨e1, e2⟩ := e
            subst e1 e2
            rw [hp] at h1'
            injection h1' with h1'
            subst h1'
            have hij : i = j := by
              have := h2.trans hj
              rw [hptr] at this
              injection this
            subst hij
            simp [h1]
          · rename_i e
            rw [this]
            refine ⟨fun ha => ⟨ha, ?_⟩, fun ha => ha.1⟩
            intro hji
            subst hji
            exact e (c.inj o k p a b q' j hp h1' hptr (h2.trans hj))
        · intro j hj
          have hj' : (w.heap.free (some i)).Alive j := hj
          rw [alive_free_iff hal j] at hj'
          obtain ⟨a, b, q, h1, h2⟩ := c.owner j hj'.1
          obtain ⟨q', h3, h4, _⟩ := setOwners_piece (o := o) (k := k) (f := (· - 1)) h1
          exact ⟨a, b, q', h3, h4.trans h2⟩
        · intro a b q a' b' q' j h h' hj hj'
          obtain ⟨r, h1, h2, _⟩ := piece_setOwners_some (w := w) (o := o) (k := k) (f := (· - 1)) h
          obtain ⟨r', h1', h2', _⟩ := piece_setOwners_some (w := w) (o := o) (k := k) (f := (· - 1)) h'
          exact c.inj a b r a' b' r' j h1 h1' (h2.trans hj) (h2'.trans hj')
        · intro a b q j h hj
          obtain ⟨r, h1, h2, _⟩ := piece_setOwners_some (w := w) (o := o) (k := k) (f := (· - 1)) h
          have := c.lt a b r j h1 (h2.trans hj)
          show j < (w.heap.free (some i)).mem.length
          rw [free_alive hal]
          simpa using this
    · rename_i h1
      refine c.setOwners o k (· - 1) ?_
      intro q hq
      rw [hp] at hq
      injection hq with hq
      subst hq
      omega

theorem releasePiece_piece {w : World} {o k a b : Nat} {p : Piece} (h : w.piece a b = some p) : ∃ q, (w.releasePiece o k).piece a b = some q ∧ q.ptr = p.ptr ∧ q.size = p.size := by
  unfold World.releasePiece
  split
  · exact ⟨p, h, rfl, rfl⟩
  · dsimp only
    split
    · rw [piece_heap]
      exact setOwners_piece h
    · exact setOwners_piece h

theorem releasePiece_old {w : World} {o k a b : Nat} {p : Piece} (h : (w.releasePiece o k).piece a b = some p) :
    ∃ q, w.piece a b = some q ∧ p.owners = if o = a ∧ k = b then q.owners - 1 else q.owners := by
  unfold World.releasePiece at h
  rcases hp : w.piece o k with _ | q
  · rw [hp] at h
    dsimp only at h
    refine ⟨p, h, ?_⟩
    rw [if_neg]
    rintro ⟨e1, e2⟩
    subst e1 e2
    rw [hp] at h
    cases h
  · rw [hp] at h
    dsimp only at h
    have h' : (w.setOwners o k (· - 1)).piece a b = some p := by
      split at h
      · exact h
      · exact h
    obtain ⟨q, h1, _, _, h4⟩ := piece_setOwners_some h'
    exact ⟨q, h1, h4⟩

theorem Core.releasePieces {co : Nat → Nat} (o : Nat) (n : Nat) {w : World} {cp : Nat → Nat → Nat} (c : Core w co cp)
    (hpos : ∀ k p, k < n → w.piece o k = some p → 0 < p.owners) :
    Core (w.releasePieces o n) co (fun a b => if o = a ∧ b < n then cp a b - 1 else cp a b) := by
  induction n generalizing w cp with
  | zero => exact c.congr (fun _ _ _ => rfl) (fun a b p _ => by simp)
  | succ n ih =>
    have c1 := c.releasePiece o n (fun p hp => hpos n p (by omega) hp)
    have c2 := ih c1 (by
      intro k p hk hp
      obtain ⟨q, h1, h2⟩ := releasePiece_old hp
      rw [h2, if_neg (by omega)]
      exact hpos k q (by omega) h1)
    refine c2.congr (fun _ _ _ => rfl) ?_
    intro a b p _
    by_cases ho : o = a
    · by_cases hb : b = n
      · subst hb
        rw [if_neg (by omega), if_pos (by omega), if_pos (by omega)]
      · by_cases hb' : b < n
        · rw [if_pos (by omega), if_neg (by omega), if_pos (by omega)]
        · rw [if_neg (by omega), if_neg (by omega), if_neg (by omega)]
    · simp [ho]

theorem releasePieces_piece {o a b n : Nat} {w : World} {p : Piece} (h : w.piece a b = some p) : ∃ q, (w.releasePieces o n).piece a b = some q ∧ q.ptr = p.ptr ∧ q.size = p.size := by
  induction n generalizing w p with
  | zero => exact ⟨p, h, rfl, rfl⟩
  | succ n ih =>
    obtain ⟨q, h1, h2, h3⟩ := releasePiece_piece (o := o) (k := n) h
    obtain ⟨r, h4, h5, h6⟩ := ih h1
    exact ⟨r, h4, h5.trans h2, h6.trans h3⟩

theorem Core.objOwners {w : World} {co : Nat → Nat} {cp : Nat → Nat → Nat} (c : Core w co cp) (o : Nat) (f : Nat → Nat) (v : List (Option Ref)) :
    Core { w with objs := w.objs.modify o (fun b => { b with owners := f b.owners }), vars := v } (fun a => if o = a then f (co a) else co a) cp := by
  refine ⟨c.unbroken, ?_, ?_, ?_, ?_, ?_, ?_⟩
  · intro a b h
    dsimp only at h
    rw [List.getElem?_modify] at h
    rcases hx : w.objs[a]? with _ | x
    · rw [hx] at h
      cases h
    · rw [hx] at h
      simp only [Option.map_eq_map, Option.map_some, Option.some.injEq] at h
      rw [← h]
      split
      · exact congrArg f (c.objs a x hx)
      · exact c.objs a x hx
  · intro a b p h
    rw [piece_objOwners] at h
    exact c.pieces a b p h
  · intro a b p i h
    rw [piece_objOwners] at h
    exact c.held a b p i h
  · intro i hi
    obtain ⟨a, b, p, h1, h2⟩ := c.owner i hi
    exact ⟨a, b, p, by rw [piece_objOwners]; exact h1, h2⟩
  · intro a b p a' b' p' i h h'
    rw [piece_objOwners] at h h'
    exact c.inj a b p a' b' p' i h h'
  · intro a b p i h
    rw [piece_objOwners] at h
    exact c.lt a b p i h

/-- the number of variables that refer to an object, and of owners of a piece -/
def countObj (w : World) (o : Nat) : Nat := w.vars.count (some (.obj o))

def countRaw (w : World) (o k : Nat) : Nat := w.vars.count (some (.raw o k))

def countPiece (w : World) (o k : Nat) : Nat := countRaw w o k + if countObj w o = 0 then 0 else 1

/-- the invariant of the histories -/
structure Sound (w : World) : Prop where
  core : Core w (countObj w) (countPiece w)
  validObj : ∀ o, some (Ref.obj o) ∈ w.vars → o < w.objs.length
  validRaw : ∀ o k, some (Ref.raw o k) ∈ w.vars → ∃ p, w.piece o k = some p

theorem sound_start : Sound World.start :=
  ⟨⟨rfl, by simp [World.start], by simp [World.start, World.piece], by simp [World.start, World.piece], by simp [World.start, Heap.Alive], by simp [World.start, World.piece],
    by simp [World.start, World.piece]⟩, by simp [World.start], by simp [World.start]⟩

theorem piece_lt {w : World} {o k : Nat} {p : Piece} (h : w.piece o k = some p) : o < w.objs.length := by
  unfold World.piece at h
  rcases hx : w.objs[o]? with _ | x
  · rw [hx] at h
    cases h
  · exact (List.getElem?_eq_some_iff.mp hx).1

theorem Sound.exact {w : World} (s : Sound w) : Exact w := by
  refine ⟨s.core.unbroken, ?_⟩
  intro i
  constructor
  · intro ha
    obtain ⟨o, k, p, h1, h2⟩ := s.core.owner i ha
    have h3 := (s.core.held o k p i h1 h2).mpr ha
    rw [s.core.pieces o k p h1] at h3
    unfold countPiece at h3
    by_cases hr : countRaw w o k = 0
    · have ho : countObj w o ≠ 0 := by
        intro e
        rw [hr, e] at h3
        simp at h3
      have : some (Ref.obj o) ∈ w.vars := List.count_pos_iff.mp (by unfold countObj at ho; omega)
      obtain ⟨v, hv⟩ := List.mem_iff_getElem?.mp this
      exact ⟨v, .inl ⟨o, k, p, hv, h1, h2⟩⟩
    · have : some (Ref.raw o k) ∈ w.vars := List.count_pos_iff.mp (by unfold countRaw at hr; omega)
      obtain ⟨v, hv⟩ := List.mem_iff_getElem?.mp this
      exact ⟨v, .inr ⟨o, k, p, hv, h1, h2⟩⟩
  · rintro ⟨v, h⟩
    rcases h with ⟨o, k, p, h0, h1, h2⟩ | ⟨o, k, p, h0, h1, h2⟩
    · have hm := List.count_pos_iff.mpr (List.mem_of_getElem? h0)
      refine (s.core.held o k p i h1 h2).mp ?_
      rw [s.core.pieces o k p h1]
      unfold countPiece countObj
      rw [if_neg (by omega)]
      omega
    · have hm := List.count_pos_iff.mpr (List.mem_of_getElem? h0)
      refine (s.core.held o k p i h1 h2).mp ?_
      rw [s.core.pieces o k p h1]
      unfold countPiece countRaw
      omega

end Verif.Owned
