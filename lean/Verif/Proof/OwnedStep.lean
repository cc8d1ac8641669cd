import Verif.Proof.OwnedWorld

namespace Verif.Owned
open Verif.Czi Verif.Spec.Owned

theorem count_push (l : List (Option Ref)) (x y : Option Ref) : (l ++ [x]).count y = l.count y + if x = y then 1 else 0 := by
  rw [List.count_append, List.count_singleton]
  by_cases h : x = y <;> simp [h]

theorem count_reset {l : List (Option Ref)} {v : Nat} {r : Ref} (hv : l[v]? = some (some r)) (y : Ref) :
    (l.set v none).count (some y) = l.count (some y) - if r = y then 1 else 0 := by
  obtain ⟨hlt, he⟩ := List.getElem?_eq_some_iff.mp hv
  rw [List.count_set hlt, he]
  by_cases h : r = y <;> simp [h]

theorem Sound.releasable {w : World} (s : Sound w) {v o k : Nat} {p : Piece} (h : w.piece o k = some p)
    (hv : w.vars[v]? = some (some (Ref.obj o)) ∨ w.vars[v]? = some (some (Ref.raw o k))) : 0 < p.owners := by
  rw [s.core.pieces o k p h]
  rcases hv with hv | hv
  · have := List.count_pos_iff.mpr (List.mem_of_getElem? hv)
    unfold countPiece countObj
    rw [if_neg (by omega)]
    omega
  · have := List.count_pos_iff.mpr (List.mem_of_getElem? hv)
    unfold countPiece countRaw
    omega

theorem Sound.shareObj {w : World} (s : Sound w) {o : Nat} (hm : some (Ref.obj o) ∈ w.vars) : Sound (w.share (.obj o)) := by
  have hc := List.count_pos_iff.mpr hm
  have e : ∀ a b, (w.share (.obj o)).piece a b = w.piece a b := fun a b => piece_objOwners w o (· + 1) (w.vars ++ [some (Ref.obj o)]) a b
  refine ⟨?_, ?_, ?_⟩
  · refine (s.core.objOwners o (· + 1) (w.vars ++ [some (Ref.obj o)])).congr ?_ ?_
    · intro a b _
      show _ = (w.vars ++ [some (Ref.obj o)]).count (some (Ref.obj a))
      rw [count_push]
      by_cases h : o = a
      · subst h
        simp [countObj]
      · simp [countObj, h]
    · intro a b p _
      show countPiece w a b = (w.vars ++ [some (Ref.obj o)]).count (some (Ref.raw a b)) + if (w.vars ++ [some (Ref.obj o)]).count (some (Ref.obj a)) = 0 then 0 else 1
      rw [count_push, count_push]
      unfold countPiece countRaw countObj
      by_cases h : o = a
      · subst h
        rw [if_neg (by omega), if_neg (by simp), if_neg (by simp)]
      · have : some (Ref.obj o) ≠ some (Ref.obj a) := by simpa using h
        rw [if_neg this]
        simp
  · intro a ha
    show a < (w.objs.modify o _).length
    rw [List.length_modify]
    rcases List.mem_append.mp ha with h | h
    · exact s.validObj a h
    · have : a = o := by simpa using h
      subst this
      exact s.validObj a hm
  · intro a b ha
    rw [e]
    rcases List.mem_append.mp ha with h | h
    · exact s.validRaw a b h
    · simp at h

theorem Sound.shareRaw {w : World} (s : Sound w) {o k : Nat} {p : Piece} (hp : w.piece o k = some p) (hpos : 0 < p.owners) : Sound (w.share (.raw o k)) := by
  refine ⟨?_, ?_, ?_⟩
  · have c := (s.core.setOwners o k (· + 1) (fun q hq => by
      rw [hp] at hq
      injection hq with hq
      subst hq
      omega)).vars (w.vars ++ [some (Ref.raw o k)])
    refine c.congr ?_ ?_
    · intro a b _
      show w.vars.count _ = (w.vars ++ [some (Ref.raw o k)]).count (some (Ref.obj a))
      rw [count_push]
      simp
    · intro a b q _
      show _ = (w.vars ++ [some (Ref.raw o k)]).count (some (Ref.raw a b)) + if (w.vars ++ [some (Ref.raw o k)]).count (some (Ref.obj a)) = 0 then 0 else 1
      rw [count_push, count_push]
      unfold countPiece countRaw countObj
      by_cases h : o = a ∧ k = b
      · obtain ⟨e1, e2⟩ := h
        subst e1 e2
        simp
        omega
      · have h' : some (Ref.raw o k) ≠ some (Ref.raw a b) := by
          intro hh
          simp at hh
          exact h hh
        rw [if_neg h, if_neg h']
        simp
  · intro a ha
    show a < (w.setOwners o k _).objs.length
    unfold World.setOwners
    dsimp only
    rw [List.length_modify]
    rcases List.mem_append.mp ha with h | h
    · exact s.validObj a h
    · simp at h
  · intro a b ha
    rcases List.mem_append.mp ha with h | h
    · obtain ⟨q, hq⟩ := s.validRaw a b h
      obtain ⟨r, hr, _⟩ := setOwners_piece (o := o) (k := k) (f := (· + 1)) hq
      exact ⟨r, hr⟩
    · have : a = o ∧ b = k := by simpa using h
      obtain ⟨e1, e2⟩ := this
      subst e1 e2
      obtain ⟨r, hr, _⟩ := setOwners_piece (o := a) (k := b) (f := (· + 1)) hp
      exact ⟨r, hr⟩

theorem releasePiece_vars (w : World) (o k : Nat) : (w.releasePiece o k).vars = w.vars := by
  unfold World.releasePiece
  split
  · rfl
  · dsimp only
    split <;> rfl

theorem releasePiece_length (w : World) (o k : Nat) : (w.releasePiece o k).objs.length = w.objs.length := by
  unfold World.releasePiece
  split
  · rfl
  · dsimp only
    split <;> simp [World.setOwners]

theorem releasePieces_vars (n : Nat) (w : World) (o : Nat) : (w.releasePieces o n).vars = w.vars := by
  induction n generalizing w with
  | zero => rfl
  | succ n ih => exact (ih _).trans (releasePiece_vars w o n)

theorem releasePieces_length (n : Nat) (w : World) (o : Nat) : (w.releasePieces o n).objs.length = w.objs.length := by
  induction n generalizing w with
  | zero => rfl
  | succ n ih => exact (ih _).trans (releasePiece_length w o n)

theorem releaseObj_vars (w : World) (o : Nat) : (w.releaseObj o).vars = w.vars := by
  unfold World.releaseObj
  split
  · rfl
  · dsimp only
    split
    · rw [releasePieces_vars]
    · rfl

theorem releaseObj_length (w : World) (o : Nat) : (w.releaseObj o).objs.length = w.objs.length := by
  unfold World.releaseObj
  split
  · rfl
  · dsimp only
    split
    · rw [releasePieces_length]
      simp
    · simp

theorem releaseObj_piece {w : World} {o a b : Nat} {p : Piece} (h : w.piece a b = some p) : ∃ q, (w.releaseObj o).piece a b = some q ∧ q.ptr = p.ptr ∧ q.size = p.size := by
  have h' : ({ w with objs := w.objs.modify o (fun b => { b with owners := b.owners - 1 }) } : World).piece a b = some p := by
    rw [← h]
    exact piece_objOwners w o (· - 1) w.vars a b
  unfold World.releaseObj
  split
  · exact ⟨p, h, rfl, rfl⟩
  · dsimp only
    split
    · exact releasePieces_piece h'
    · exact ⟨p, h', rfl, rfl⟩

theorem Sound.dropRaw {w : World} (s : Sound w) {v o k : Nat} (hv : w.vars[v]? = some (some (Ref.raw o k))) :
    Sound ({ w with vars := w.vars.set v none }.releasePiece o k) := by
  have hpos := fun p (hp : w.piece o k = some p) => s.releasable hp (.inr hv)
  have hvars := releasePiece_vars { w with vars := w.vars.set v none } o k
  have hmem : ∀ r, some r ∈ w.vars.set v none → some r ∈ w.vars := by
    intro r hr
    rcases List.mem_or_eq_of_mem_set hr with h | h
    · exact h
    · simp at h
  have hcpos : 0 < countRaw w o k := List.count_pos_iff.mpr (List.mem_of_getElem? hv)
  refine ⟨?_, ?_, ?_⟩
  · refine ((s.core.vars (w.vars.set v none)).releasePiece o k hpos).congr ?_ ?_
    · intro a b _
      unfold countObj
      rw [hvars, count_reset hv]
      simp
    · intro a b p _
      unfold countPiece countRaw countObj
      rw [hvars, count_reset hv, count_reset hv]
      by_cases h : o = a ∧ k = b
      · obtain ⟨e1, e2⟩ := h
        subst e1 e2
        unfold countRaw at hcpos
        simp
        omega
      · have h' : Ref.raw o k ≠ .raw a b := by
          intro hh
          simp at hh
          exact h hh
        rw [if_neg h, if_neg h']
        simp
  · intro a ha
    rw [hvars] at ha
    rw [releasePiece_length]
    exact s.validObj a (hmem _ ha)
  · intro a b ha
    rw [hvars] at ha
    obtain ⟨p, hp⟩ := s.validRaw a b (hmem _ ha)
    obtain ⟨q, hq, _⟩ := releasePiece_piece (w := { w with vars := w.vars.set v none }) (o := o) (k := k) (a := a) (b := b) (p := p) hp
    exact ⟨q, hq⟩

theorem Sound.dropObj {w : World} (s : Sound w) {v o : Nat} (hv : w.vars[v]? = some (some (Ref.obj o))) :
    Sound ({ w with vars := w.vars.set v none }.releaseObj o) := by
  have hpos := fun k p (hp : w.piece o k = some p) => s.releasable hp (.inl hv)
  have hvars := releaseObj_vars { w with vars := w.vars.set v none } o
  have hmem : ∀ r, some r ∈ w.vars.set v none → some r ∈ w.vars := by
    intro r hr
    rcases List.mem_or_eq_of_mem_set hr with h | h
    · exact h
    · simp at h
  have hcpos : 0 < countObj w o := List.count_pos_iff.mpr (List.mem_of_getElem? hv)
  have hlt := s.validObj o (List.mem_of_getElem? hv)
  obtain ⟨b, hb⟩ : ∃ b, w.objs[o]? = some b := ⟨_, List.getElem?_eq_getElem hlt⟩
  have hown := s.core.objs o b hb
  have hpl : ∀ k p, w.piece o k = some p → k < b.pieces.length := by
    intro k p hp
    unfold World.piece at hp
    rw [hb] at hp
    exact (List.getElem?_eq_some_iff.mp hp).1
  refine ⟨?_, ?_, ?_⟩
  · have c1 := s.core.objOwners o (· - 1) (w.vars.set v none)
    have hsame : ∀ a k, (⟨w.heap, w.objs.modify o (fun b => { b with owners := b.owners - 1 }), w.vars.set v none⟩ : World).piece a k = w.piece a k :=
      fun a k => piece_objOwners w o (· - 1) (w.vars.set v none) a k
    have hco : ∀ a, (if o = a then countObj w a - 1 else countObj w a) = ({ w with vars := w.vars.set v none }.releaseObj o).vars.count (some (Ref.obj a)) := by
      intro a
      rw [hvars]
      show _ = (w.vars.set v none).count _
      rw [count_reset hv]
      by_cases h : o = a
      · subst h
        simp [countObj]
      · simp [countObj, h]
    have hraw : ∀ a k, ({ w with vars := w.vars.set v none }.releaseObj o).vars.count (some (Ref.raw a k)) = countRaw w a k := by
      intro a k
      rw [hvars]
      show (w.vars.set v none).count _ = _
      rw [count_reset hv]
      simp [countRaw]
    have main : Core ({ w with vars := w.vars.set v none }.releaseObj o) (fun a => if o = a then countObj w a - 1 else countObj w a)
        (fun a k => countRaw w a k + if (if o = a then countObj w a - 1 else countObj w a) = 0 then 0 else 1) := by
      unfold World.releaseObj
      simp only [hb]
      by_cases h1 : b.owners = 1
      · rw [if_pos h1]
        refine (c1.releasePieces o b.pieces.length (fun k p _ hp => hpos k p ((hsame o k).symm.trans hp))).congr (fun _ _ _ => rfl) ?_
        intro a k p hp
        have hold : ∃ p', w.piece a k = some p' := by
          rcases hx : w.piece a k with _ | x
          · exfalso
            have hnone : ∀ n (w' : World), w'.piece a k = none → (w'.releasePieces o n).piece a k = none := by
              intro n
              induction n with
              | zero => exact fun _ h => h
              | succ n ih =>
                intro w' h
                refine ih _ ?_
                rcases hy : (w'.releasePiece o n).piece a k with _ | y
                · rfl
                · obtain ⟨q, h1, _⟩ := releasePiece_old hy
                  rw [h] at h1
                  cases h1
            have := hnone b.pieces.length _ ((hsame a k).trans hx)
            rw [this] at hp
            cases hp
          · exact ⟨x, rfl⟩
        obtain ⟨p', hp'⟩ := hold
        unfold countPiece
        by_cases h : o = a
        · subst h
          have := hpl k p' hp'
          rw [if_pos ⟨rfl, this⟩, if_pos rfl, if_neg (show ¬ countObj w o = 0 by omega), if_pos (show countObj w o - 1 = 0 by omega)]
          omega
        · simp [h]
      · rw [if_neg h1]
        refine c1.congr (fun _ _ _ => rfl) ?_
        intro a k p hp
        unfold countPiece
        by_cases h : o = a
        · subst h
          rw [if_pos rfl, if_neg (show ¬ countObj w o = 0 by omega), if_neg (show ¬ countObj w o - 1 = 0 by omega)]
        · simp [h]
    refine main.congr (fun a _ _ => hco a) ?_
    intro a k p _
    unfold countPiece
    show _ = ({ w with vars := w.vars.set v none }.releaseObj o).vars.count (some (Ref.raw a k)) + if ({ w with vars := w.vars.set v none }.releaseObj o).vars.count (some (Ref.obj a)) = 0 then 0 else 1
    rw [hraw, ← hco]
  · intro a ha
    rw [hvars] at ha
    rw [releaseObj_length]
    exact s.validObj a (hmem _ ha)
  · intro a k ha
    rw [hvars] at ha
    obtain ⟨p, hp⟩ := s.validRaw a k (hmem _ ha)
    obtain ⟨q, hq, _⟩ := releaseObj_piece (w := { w with vars := w.vars.set v none }) (o := o) (a := a) (b := k) (p := p) hp
    exact ⟨q, hq⟩

theorem piece_append (w : World) (x : Obj) (h : Heap) (v : List (Option Ref)) (a b : Nat) :
    (⟨h, w.objs ++ [x], v⟩ : World).piece a b = if a = w.objs.length then x.pieces[b]? else w.piece a b := by
  unfold World.piece
  dsimp only
  rw [List.getElem?_append]
  by_cases h1 : a < w.objs.length
  · rw [if_pos h1, if_neg (by omega)]
  · rw [if_neg h1]
    by_cases h2 : a = w.objs.length
    · subst h2
      simp
    · rw [if_neg h2, List.getElem?_eq_none (show w.objs.length ≤ a by omega), List.getElem?_eq_none (by simp; omega)]

theorem Sound.thrown {w : World} (s : Sound w) {h : Heap} (c : Cleaned w.heap h) : Sound { w with heap := h } := by
  have hal : ∀ i, h.Alive i ↔ w.heap.Alive i := by
    intro i
    by_cases hi : i < w.heap.mem.length
    · unfold Heap.Alive
      rw [c.grown.old i hi]
    · exact ⟨fun a => absurd a (c.dead i (by omega)), fun a => absurd a.lt hi⟩
  refine ⟨⟨c.grown.broken.trans s.core.unbroken, s.core.objs, s.core.pieces, ?_, ?_, s.core.inj, ?_⟩, s.validObj, s.validRaw⟩
  · intro o k p i hp hi
    exact (s.core.held o k p i hp hi).trans (hal i).symm
  · intro i hi
    exact s.core.owner i ((hal i).mp hi)
  · intro o k p i hp hi
    exact Nat.lt_of_lt_of_le (s.core.lt o k p i hp hi) c.grown.len

theorem nodup_ptrs {l : List (Option Nat)} (h : (l.filterMap id).Nodup) {k k' i : Nat} (hk : l[k]? = some (some i)) (hk' : l[k']? = some (some i)) : k = k' := by
  induction l generalizing k k' with
  | nil => simp at hk
  | cons x l ih =>
    have hl : (l.filterMap id).Nodup := by
      cases x with
      | none => simpa using h
      | some j =>
        have : j ∉ l.filterMap id ∧ (l.filterMap id).Nodup := by simpa using h
        exact this.2
    have hno : ∀ n : Nat, x = some i → l[n]? = some (some i) → False := by
      intro n hx hn
      subst hx
      have : i ∉ l.filterMap id ∧ (l.filterMap id).Nodup := by simpa using h
      exact this.1 (by simpa using List.mem_of_getElem? hn)
    cases k with
    | zero =>
      cases k' with
      | zero => rfl
      | succ k' => exact (hno k' (by simpa using hk) (by simpa using hk')).elim
    | succ k =>
      cases k' with
      | zero => exact (hno k (by simpa using hk') (by simpa using hk)).elim
      | succ k' => exact congrArg (· + 1) (ih hl (by simpa using hk) (by simpa using hk'))

theorem Sound.delivered {w : World} (s : Sound w) {h : Heap} {ps : List (Option Nat × Nat)} (n : NewBlocks w.heap h (ps.map Prod.fst)) :
    Sound { heap := h, objs := w.objs ++ [⟨ps.map (fun p => ⟨p.1, p.2, 1⟩), 1⟩], vars := w.vars ++ [some (.obj w.objs.length)] } := by
  have hpiece := piece_append w ⟨ps.map (fun p => ⟨p.1, p.2, 1⟩), 1⟩ h (w.vars ++ [some (.obj w.objs.length)])
  have hnew : ∀ (k : Nat) (p : Piece), (ps.map (fun p => (⟨p.1, p.2, 1⟩ : Piece)))[k]? = some p → p.owners = 1 ∧ ∃ q, ps[k]? = some q ∧ p.ptr = q.1 := by
    intro k p hp
    rw [List.getElem?_map] at hp
    rcases hx : ps[k]? with _ | x
    · rw [hx] at hp
      cases hp
    · rw [hx] at hp
      simp only [Option.map_some, Option.some.injEq] at hp
      subst hp
      exact ⟨rfl, x, rfl, rfl⟩
  have hptr : ∀ (k : Nat) (p : Piece) (i : Nat), (ps.map (fun p => (⟨p.1, p.2, 1⟩ : Piece)))[k]? = some p → p.ptr = some i → (ps.map Prod.fst)[k]? = some (some i) := by
    intro k p i hp hi
    obtain ⟨_, q, hq, he⟩ := hnew k p hp
    rw [List.getElem?_map, hq]
    simp [← he, hi]
  have hc0 : w.vars.count (some (Ref.obj w.objs.length)) = 0 := by
    rw [List.count_eq_zero]
    intro hm
    have := s.validObj _ hm
    omega
  have hr0 : ∀ k, w.vars.count (some (Ref.raw w.objs.length k)) = 0 := by
    intro k
    rw [List.count_eq_zero]
    intro hm
    obtain ⟨p, hp⟩ := s.validRaw _ _ hm
    have := piece_lt hp
    omega
  have hal : ∀ i, i < w.heap.mem.length → (h.Alive i ↔ w.heap.Alive i) := by
    intro i hi
    unfold Heap.Alive
    rw [n.grown.old i hi]
  refine ⟨⟨n.grown.broken.trans s.core.unbroken, ?_, ?_, ?_, ?_, ?_, ?_⟩, ?_, ?_⟩
  · intro o b hb
    show b.owners = (w.vars ++ [some (Ref.obj w.objs.length)]).count (some (.obj o))
    rw [count_push]
    dsimp only at hb
    rw [List.getElem?_append] at hb
    by_cases h1 : o < w.objs.length
    · rw [if_pos h1] at hb
      have : ¬ (some (Ref.obj w.objs.length) = some (.obj o)) := by simp; omega
      rw [if_neg this]
      exact s.core.objs o b hb
    · rw [if_neg h1] at hb
      have h2 := (List.getElem?_eq_some_iff.mp hb).1
      have h3 : o = w.objs.length := by simp at h2; omega
      subst h3
      simp at hb
      rw [← hb, hc0]
      simp
  · intro o k p hp
    rw [hpiece] at hp
    show p.owners = (w.vars ++ [some (Ref.obj w.objs.length)]).count (some (.raw o k)) + if (w.vars ++ [some (Ref.obj w.objs.length)]).count (some (.obj o)) = 0 then 0 else 1
    rw [count_push, count_push]
    by_cases h1 : o = w.objs.length
    · rw [if_pos h1] at hp
      subst h1
      rw [(hnew k p hp).1, hr0, hc0]
      simp
    · rw [if_neg h1] at hp
      have : ¬ (some (Ref.obj w.objs.length) = some (.obj o)) := by simp; omega
      have h5 : ¬ (some (Ref.obj w.objs.length) = some (.raw o k)) := by simp
      rw [if_neg this, if_neg h5, s.core.pieces o k p hp]
      rfl
  · intro o k p i hp hi
    rw [hpiece] at hp
    by_cases h1 : o = w.objs.length
    · rw [if_pos h1] at hp
      have hm := List.mem_of_getElem? (hptr k p i hp hi)
      rw [(hnew k p hp).1]
      exact ⟨fun _ => (n.alive i (n.new i hm)).mpr hm, fun _ => by omega⟩
    · rw [if_neg h1] at hp
      have := s.core.lt o k p i hp hi
      exact (s.core.held o k p i hp hi).trans (hal i this).symm
  · intro i hi
    by_cases h1 : i < w.heap.mem.length
    · obtain ⟨o, k, p, hp, hpi⟩ := s.core.owner i ((hal i h1).mp hi)
      refine ⟨o, k, p, ?_, hpi⟩
      rw [hpiece, if_neg (by have := piece_lt hp; omega)]
      exact hp
    · have hm := (n.alive i (by omega)).mp hi
      obtain ⟨k, hk⟩ := List.mem_iff_getElem?.mp hm
      rw [List.getElem?_map] at hk
      rcases hx : ps[k]? with _ | x
      · rw [hx] at hk
        cases hk
      · rw [hx] at hk
        simp only [Option.map_some, Option.some.injEq] at hk
        refine ⟨w.objs.length, k, ⟨x.1, x.2, 1⟩, ?_, hk⟩
        rw [hpiece, if_pos rfl]
        simp [hx]
  · intro o k p o' k' p' i hp hp' hi hi'
    rw [hpiece] at hp hp'
    by_cases h1 : o = w.objs.length
    · rw [if_pos h1] at hp
      by_cases h2 : o' = w.objs.length
      · rw [if_pos h2] at hp'
        exact ⟨by omega, nodup_ptrs n.nodup (hptr k p i hp hi) (hptr k' p' i hp' hi')⟩
      · rw [if_neg h2] at hp'
        have a1 := s.core.lt o' k' p' i hp' hi'
        have a2 := n.new i (List.mem_of_getElem? (hptr k p i hp hi))
        omega
    · rw [if_neg h1] at hp
      by_cases h2 : o' = w.objs.length
      · rw [if_pos h2] at hp'
        have a1 := s.core.lt o k p i hp hi
        have a2 := n.new i (List.mem_of_getElem? (hptr k' p' i hp' hi'))
        omega
      · rw [if_neg h2] at hp'
        exact s.core.inj o k p o' k' p' i hp hp' hi hi'
  · intro o k p i hp hi
    rw [hpiece] at hp
    by_cases h1 : o = w.objs.length
    · rw [if_pos h1] at hp
      have hm := List.mem_of_getElem? (hptr k p i hp hi)
      exact ((n.alive i (n.new i hm)).mpr hm).lt
    · rw [if_neg h1] at hp
      exact Nat.lt_of_lt_of_le (s.core.lt o k p i hp hi) n.grown.len
  · intro o ho
    rw [List.length_append]
    rcases List.mem_append.mp ho with hm | hm
    · have := s.validObj o hm
      simp only [List.length_singleton]
      omega
    · have : o = w.objs.length := by simpa using hm
      simp only [List.length_singleton]
      omega
  · intro o k ho
    rcases List.mem_append.mp ho with hm | hm
    · obtain ⟨p, hp⟩ := s.validRaw o k hm
      exact ⟨p, by rw [hpiece, if_neg (by have := piece_lt hp; omega)]; exact hp⟩
    · simp at hm

theorem Sound.step {w : World} (s : Sound w) {op : Op} (hop : HarmlessOp op) : Sound (w.step op) := by
  cases op with
  | read kind st pos ok accepted fail =>
    have hr := readObject_spec hop st pos ok accepted w.heap
    unfold World.step
    rcases he : readObject kind st pos ok accepted fail w.heap with ⟨h, r⟩
    rw [he] at hr
    simp only [he]
    cases r with
    | none => exact s.thrown hr
    | some ps => exact s.delivered hr
  | raw v k =>
    unfold World.step
    dsimp only
    split
    · rename_i o hv
      split
      · rename_i p hp
        exact s.shareRaw hp (s.releasable hp (.inl hv))
      · exact s
    · exact s
  | copy v =>
    unfold World.step
    dsimp only
    split
    · rename_i r hv
      cases r with
      | obj o => exact s.shareObj (List.mem_of_getElem? hv)
      | raw o k =>
        obtain ⟨p, hp⟩ := s.validRaw o k (List.mem_of_getElem? hv)
        exact s.shareRaw hp (s.releasable hp (.inr hv))
    · exact s
  | drop v =>
    unfold World.step
    dsimp only
    split
    · rename_i o hv
      exact s.dropObj hv
    · rename_i o k hv
      exact s.dropRaw hv
    · exact s

theorem Sound.run {w : World} (s : Sound w) (ops : List Op) (h : ∀ op ∈ ops, HarmlessOp op) : Sound (w.run ops) := by
  induction ops generalizing w with
  | nil => exact s
  | cons op ops ih => exact ih (s.step (h op (List.mem_cons_self ..))) (fun o ho => h o (List.mem_cons_of_mem _ ho))

/-! ## What a variable gives access to is not changed -/

/-- contents change only by being released -/
def Shrinks (h h' : Heap) : Prop := ∀ i b, h.mem[i]? = some (some b) → h'.Alive i → h'.mem[i]? = some (some b)

theorem Shrinks.trans {a b c : Heap} (h : Shrinks a b) (h' : Shrinks b c) (hb : ∀ i, c.Alive i → b.Alive i) : Shrinks a c :=
  fun i x hx hc => h' i x (h i x hx (hb i hc)) hc

theorem free_shrinks (h : Heap) (p : Option Nat) : Shrinks h (h.free p) ∧ ∀ i, (h.free p).Alive i → h.Alive i := by
  cases p with
  | none => exact ⟨fun _ _ hx _ => hx, fun _ h => h⟩
  | some j =>
    unfold Heap.free
    dsimp only
    split
    · rename_i x hx
      have hlt := (List.getElem?_eq_some_iff.mp hx).1
      refine ⟨?_, ?_⟩
      · rintro i b hb ⟨c, hc⟩
        dsimp only at hc ⊢
        by_cases e : j = i
        · subst e
          simp [List.getElem?_set, hlt] at hc
        · simpa [List.getElem?_set, e] using hb
      · rintro i ⟨c, hc⟩
        dsimp only at hc
        by_cases e : j = i
        · subst e
          simp [List.getElem?_set, hlt] at hc
        · exact ⟨c, by simpa [List.getElem?_set, e] using hc⟩
    · exact ⟨fun _ _ hx _ => hx, fun _ h => h⟩

theorem releasePiece_shrinks (w : World) (o k : Nat) : Shrinks w.heap (w.releasePiece o k).heap ∧ ∀ i, (w.releasePiece o k).heap.Alive i → w.heap.Alive i := by
  unfold World.releasePiece
  split
  · exact ⟨fun _ _ hx _ => hx, fun _ h => h⟩
  · dsimp only
    split
    · exact free_shrinks _ _
    · exact ⟨fun _ _ hx _ => hx, fun _ h => h⟩

theorem releasePieces_shrinks (n : Nat) (w : World) (o : Nat) : Shrinks w.heap (w.releasePieces o n).heap ∧ ∀ i, (w.releasePieces o n).heap.Alive i → w.heap.Alive i := by
  induction n generalizing w with
  | zero => exact ⟨fun _ _ hx _ => hx, fun _ h => h⟩
  | succ n ih =>
    obtain ⟨a1, a2⟩ := releasePiece_shrinks w o n
    obtain ⟨b1, b2⟩ := ih (w.releasePiece o n)
    exact ⟨a1.trans b1 b2, fun i hi => a2 i (b2 i hi)⟩

theorem releaseObj_shrinks (w : World) (o : Nat) : Shrinks w.heap (w.releaseObj o).heap := by
  unfold World.releaseObj
  split
  · exact fun _ _ hx _ => hx
  · dsimp only
    split
    · exact (releasePieces_shrinks _ { w with objs := w.objs.modify o (fun b => { b with owners := b.owners - 1 }) } o).1
    · exact fun _ _ hx _ => hx

theorem step_shrinks {w : World} {op : Op} (hop : HarmlessOp op) : Shrinks w.heap (w.step op).heap := by
  cases op with
  | read kind st pos ok accepted fail =>
    have hr := readObject_spec hop st pos ok accepted w.heap
    unfold World.step
    rcases he : readObject kind st pos ok accepted fail w.heap with ⟨h, r⟩
    rw [he] at hr
    simp only [he]
    have hg : Grown w.heap h := by
      cases r with
      | none => exact hr.grown
      | some ps => exact hr.grown
    have : Shrinks w.heap h := fun i b hb _ => by rw [hg.old i (List.getElem?_eq_some_iff.mp hb).1]; exact hb
    cases r with
    | none => exact this
    | some ps => exact this
  | raw v k =>
    unfold World.step
    dsimp only
    split
    · split <;> exact fun _ _ hx _ => hx
    · exact fun _ _ hx _ => hx
  | copy v =>
    unfold World.step
    dsimp only
    split
    · rename_i r hv
      cases r <;> exact fun _ _ hx _ => hx
    · exact fun _ _ hx _ => hx
  | drop v =>
    unfold World.step
    dsimp only
    split
    · exact releaseObj_shrinks { w with vars := w.vars.set v none } _
    · exact (releasePiece_shrinks { w with vars := w.vars.set v none } _ _).1
    · exact fun _ _ hx _ => hx

theorem share_piece {w : World} {r : Ref} {a b : Nat} {p : Piece} (h : w.piece a b = some p) : ∃ q, (w.share r).piece a b = some q ∧ q.ptr = p.ptr ∧ q.size = p.size := by
  cases r with
  | obj o => exact ⟨p, (piece_objOwners w o (· + 1) (w.vars ++ [some (.obj o)]) a b).trans h, rfl, rfl⟩
  | raw o k => exact setOwners_piece (w := w) (o := o) (k := k) (f := (· + 1)) h

theorem step_piece {w : World} {op : Op} {a b : Nat} {p : Piece} (h : w.piece a b = some p) : ∃ q, (w.step op).piece a b = some q ∧ q.ptr = p.ptr ∧ q.size = p.size := by
  cases op with
  | read kind st pos ok accepted fail =>
    unfold World.step
    rcases he : readObject kind st pos ok accepted fail w.heap with ⟨h', r⟩
    simp only [he]
    cases r with
    | none => exact ⟨p, h, rfl, rfl⟩
    | some ps =>
      refine ⟨p, ?_, rfl, rfl⟩
      rw [piece_append, if_neg (by have := piece_lt h; omega)]
      exact h
  | raw v k =>
    unfold World.step
    dsimp only
    split
    · split
      · exact share_piece h
      · exact ⟨p, h, rfl, rfl⟩
    · exact ⟨p, h, rfl, rfl⟩
  | copy v =>
    unfold World.step
    dsimp only
    split
    · exact share_piece h
    · exact ⟨p, h, rfl, rfl⟩
  | drop v =>
    unfold World.step
    dsimp only
    split
    · exact releaseObj_piece (w := { w with vars := w.vars.set v none }) h
    · exact releasePiece_piece (w := { w with vars := w.vars.set v none }) h
    · exact ⟨p, h, rfl, rfl⟩

theorem step_vars {w : World} {op : Op} {v : Nat} {r : Ref} (hk : Keeps v op) (h : w.vars[v]? = some (some r)) : (w.step op).vars[v]? = some (some r) := by
  have happ : ∀ x, (w.vars ++ [x])[v]? = some (some r) := by
    intro x
    rw [List.getElem?_append, if_pos (List.getElem?_eq_some_iff.mp h).1]
    exact h
  cases op with
  | read kind st pos ok accepted fail =>
    unfold World.step
    rcases he : readObject kind st pos ok accepted fail w.heap with ⟨h', q⟩
    simp only [he]
    cases q with
    | none => exact h
    | some ps => exact happ _
  | raw u k =>
    unfold World.step
    dsimp only
    split
    · split
      · exact happ _
      · exact h
    · exact h
  | copy u =>
    unfold World.step
    dsimp only
    split
    · rename_i q hv
      cases q <;> exact happ _
    · exact h
  | drop u =>
    have hne : u ≠ v := hk
    have hset : (w.vars.set u none)[v]? = some (some r) := by
      rw [List.getElem?_set, if_neg hne]
      exact h
    unfold World.step
    dsimp only
    split
    · rw [releaseObj_vars]
      exact hset
    · rw [releasePiece_vars]
      exact hset
    · exact h

theorem step_gives {w : World} {op : Op} {v i : Nat} (hk : Keeps v op) (h : Gives w v i) : Gives (w.step op) v i := by
  rcases h with ⟨o, k, p, h0, h1, h2⟩ | ⟨o, k, p, h0, h1, h2⟩
  · obtain ⟨q, hq, e, _⟩ := step_piece (op := op) h1
    exact .inl ⟨o, k, q, step_vars hk h0, hq, e.trans h2⟩
  · obtain ⟨q, hq, e, _⟩ := step_piece (op := op) h1
    exact .inr ⟨o, k, q, step_vars hk h0, hq, e.trans h2⟩

end Verif.Owned
