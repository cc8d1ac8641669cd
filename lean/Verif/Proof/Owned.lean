import Verif.Spec.Owned

namespace Verif.Owned
open Verif.Czi Verif.Spec.Owned

/-- allocated -/
def Heap.Alive (h : Heap) (i : Nat) : Prop := ∃ b, h.mem[i]? = some (some b)

theorem Heap.Alive.lt {h : Heap} {i : Nat} (a : h.Alive i) : i < h.mem.length := by
  obtain ⟨b, hb⟩ := a
  exact (List.getElem?_eq_some_iff.mp hb).1

theorem free_alive {h : Heap} {i : Nat} (a : h.Alive i) : h.free (some i) = { h with mem := h.mem.set i none } := by
  obtain ⟨b, hb⟩ := a
  unfold Heap.free
  simp only [hb]

theorem freeAll_spec (ps : List (Option Nat)) (h : Heap) (hn : (ps.filterMap id).Nodup) (ha : ∀ i, some i ∈ ps → h.Alive i) :
    (h.freeAll ps).broken = h.broken ∧ (h.freeAll ps).mem.length = h.mem.length ∧
    ∀ i, (h.freeAll ps).mem[i]? = if some i ∈ ps then some none else h.mem[i]? := by
  induction ps generalizing h with
  | nil => simp [Heap.freeAll]
  | cons p ps ih =>
    cases p with
    | none =>
      have := ih h (by simpa using hn) (fun i hi => ha i (List.mem_cons_of_mem _ hi))
      simpa [Heap.freeAll, Heap.free] using this
    | some j =>
      have hj := ha j (List.mem_cons_self ..)
      have hn' : j ∉ ps.filterMap id ∧ (ps.filterMap id).Nodup := by simpa using hn
      have hjn : some j ∉ ps := fun hm => hn'.1 (by simp [List.mem_filterMap, hm])
      have hal : ∀ i, some i ∈ ps → (h.free (some j)).Alive i := by
        intro i hi
        obtain ⟨b, hb⟩ := ha i (List.mem_cons_of_mem _ hi)
        rw [free_alive hj]
        refine ⟨b, ?_⟩
        have : j ≠ i := fun e => hjn (e ▸ hi)
        simp [List.getElem?_set, this, hb]
      obtain ⟨h1, h2, h3⟩ := ih (h.free (some j)) hn'.2 hal
      refine ⟨?_, ?_, ?_⟩
      · show ((h.free (some j)).freeAll ps).broken = _
        rw [h1, free_alive hj]
      · show ((h.free (some j)).freeAll ps).mem.length = _
        rw [h2, free_alive hj]
        simp
      · intro i
        show ((h.free (some j)).freeAll ps).mem[i]? = _
        rw [h3 i, free_alive hj]
        by_cases hi : some i ∈ ps
        · simp [hi]
        · by_cases e : j = i
          · subst e
            simp [List.getElem?_set, hj.lt]
          · simp [hi, List.getElem?_set, e, Ne.symm e]

/-- the heap of a call: what was there is unchanged -/
structure Grown (h h' : Heap) : Prop where
  broken : h'.broken = h.broken
  len : h.mem.length ≤ h'.mem.length
  old : ∀ i, i < h.mem.length → h'.mem[i]? = h.mem[i]?

/-- the new blocks are exactly these -/
structure NewBlocks (h h' : Heap) (ps : List (Option Nat)) : Prop where
  grown : Grown h h'
  nodup : (ps.filterMap id).Nodup
  new : ∀ i, some i ∈ ps → h.mem.length ≤ i
  alive : ∀ i, h.mem.length ≤ i → (h'.Alive i ↔ some i ∈ ps)

theorem allocAll_spec (ok : Nat → Bool) (ps : List Part) (h : Heap) (k : Nat) :
    NewBlocks h (allocAll ok h k ps).1 (allocAll ok h k ps).2 ∧ (allocAll ok h k ps).2.length = ps.length := by
  induction ps generalizing h k with
  | nil =>
    refine ⟨⟨⟨rfl, Nat.le_refl _, fun _ _ => rfl⟩, by simp [allocAll], by simp [allocAll], ?_⟩, rfl⟩
    intro i hi
    simp only [allocAll, List.not_mem_nil, iff_false]
    intro a
    have := a.lt
    omega
  | cons p ps ih =>
    unfold allocAll
    split
    · dsimp only
      obtain ⟨⟨⟨g1, g2, g3⟩, hn, hnew, hal⟩, hl⟩ := ih { h with mem := h.mem ++ [some []] } (k + 1)
      simp only [List.length_append, List.length_singleton] at g2 g3 hnew hal
      refine ⟨⟨⟨g1, by omega, ?_⟩, ?_, ?_, ?_⟩, by simp [hl]⟩
      · intro i hi
        rw [g3 i (by omega)]
        simp [List.getElem?_append, hi]
      · simp only [List.filterMap_cons, id]
        refine List.nodup_cons.mpr ⟨?_, hn⟩
        intro hm
        have := hnew h.mem.length (by simpa using hm)
        omega
      · intro i hi
        rcases List.mem_cons.mp hi with e | e
        · injection e with e
          omega
        · have := hnew i e
          omega
      · intro i hi
        by_cases e : i = h.mem.length
        · subst e
          refine ⟨fun _ => List.mem_cons_self .., fun _ => ?_⟩
          refine ⟨[], ?_⟩
          rw [g3 _ (by omega)]
          simp
        · rw [hal i (by omega)]
          simp [e]
    · dsimp only
      obtain ⟨⟨g, hn, hnew, hal⟩, hl⟩ := ih h (k + 1)
      exact ⟨⟨g, by simpa using hn, by simpa using hnew, by simpa using hal⟩, by simp [hl]⟩

/-- filling changes the contents of the blocks only -/
structure Filled (h h' : Heap) (base : Nat) : Prop where
  broken : h'.broken = h.broken
  len : h'.mem.length = h.mem.length
  old : ∀ i, i < base → h'.mem[i]? = h.mem[i]?
  alive : ∀ i, h'.Alive i ↔ h.Alive i

theorem fillAll_spec (s : Stream) (ps : List (Option Nat × Part)) (h : Heap) (base : Nat) (hb : ∀ i p, (some i, p) ∈ ps → base ≤ i ∧ h.Alive i) :
    Filled h (fillAll s h ps).1 base := by
  induction ps generalizing h with
  | nil => exact ⟨rfl, rfl, fun _ _ => rfl, fun _ => Iff.rfl⟩
  | cons q ps ih =>
    obtain ⟨q, p⟩ := q
    cases q with
    | none => exact ih h (fun i p hi => hb i p (List.mem_cons_of_mem _ hi))
    | some j =>
      have hj := hb j p (List.mem_cons_self ..)
      have f1 : Filled h { h with mem := h.mem.set j (some (s p.off p.n.toNat)) } base := by
        refine ⟨rfl, by simp, ?_, ?_⟩
        · intro i hi
          have : j ≠ i := by omega
          simp [List.getElem?_set, this]
        · intro i
          by_cases e : j = i
          · subst e
            exact ⟨fun _ => hj.2, fun _ => ⟨s p.off p.n.toNat, by simp [List.getElem?_set, hj.2.lt]⟩⟩
          · unfold Heap.Alive
            simp [List.getElem?_set, e]
      unfold fillAll
      dsimp only
      split
      · exact f1
      · have f2 := ih { h with mem := h.mem.set j (some (s p.off p.n.toNat)) } (fun i p hi => by
          have := hb i p (List.mem_cons_of_mem _ hi)
          exact ⟨this.1, (f1.alive i).mpr this.2⟩)
        exact ⟨f2.broken.trans f1.broken, f2.len.trans f1.len, fun i hi => (f2.old i hi).trans (f1.old i hi), fun i => (f2.alive i).trans (f1.alive i)⟩

/-- nothing of the new blocks remains -/
structure Cleaned (h h' : Heap) : Prop where
  grown : Grown h h'
  dead : ∀ i, h.mem.length ≤ i → ¬ h'.Alive i

theorem NewBlocks.cleaned {h h' : Heap} {ps qs : List (Option Nat)} (n : NewBlocks h h' ps) (hq : qs.Perm ps) : Cleaned h (h'.freeAll qs) := by
  have hm : ∀ i, some i ∈ qs ↔ some i ∈ ps := fun i => hq.mem_iff
  have ha : ∀ i, some i ∈ qs → h'.Alive i := fun i hi => (n.alive i (n.new i ((hm i).mp hi))).mpr ((hm i).mp hi)
  obtain ⟨h1, h2, h3⟩ := freeAll_spec qs h' ((hq.filterMap id).nodup_iff.mpr n.nodup) ha
  refine ⟨⟨h1.trans n.grown.broken, by rw [h2]; exact n.grown.len, ?_⟩, ?_⟩
  · intro i hi
    rw [h3 i, if_neg (fun hx => by have := n.new i ((hm i).mp hx); omega)]
    exact n.grown.old i hi
  · intro i hi ⟨b, hb⟩
    rw [h3 i] at hb
    split at hb
    · simp at hb
    · rename_i hx
      exact hx ((hm i).mpr ((n.alive i hi).mp ⟨b, hb⟩))

theorem NewBlocks.perm {h h' : Heap} {ps qs : List (Option Nat)} (n : NewBlocks h h' ps) (hq : qs.Perm ps) : NewBlocks h h' qs := by
  have hm : ∀ i, some i ∈ qs ↔ some i ∈ ps := fun i => hq.mem_iff
  exact ⟨n.grown, (hq.filterMap id).nodup_iff.mpr n.nodup, fun i hi => n.new i ((hm i).mp hi), fun i hi => (n.alive i hi).trans (hm i).symm⟩

theorem readParts_spec (ok : Nat → Bool) (s : Stream) (h : Heap) (ps : List Part) :
    match readParts ok s h ps with
    | (h', none) => Cleaned h h'
    | (h', some qs) => NewBlocks h h' qs ∧ qs.length = ps.length := by
  obtain ⟨n, hl⟩ := allocAll_spec ok ps h 0
  have f := fillAll_spec s ((allocAll ok h 0 ps).2.zip ps) (allocAll ok h 0 ps).1 h.mem.length (fun i p hi => by
    have hm := (List.of_mem_zip hi).1
    exact ⟨n.new i hm, (n.alive i (n.new i hm)).mpr hm⟩)
  have n2 : NewBlocks h (fillAll s (allocAll ok h 0 ps).1 ((allocAll ok h 0 ps).2.zip ps)).1 (allocAll ok h 0 ps).2 :=
    ⟨⟨f.broken.trans n.grown.broken, by rw [f.len]; exact n.grown.len, fun i hi => (f.old i hi).trans (n.grown.old i hi)⟩, n.nodup, n.new,
      fun i hi => (f.alive i).trans (n.alive i hi)⟩
  unfold readParts
  dsimp only
  rcases hr : fillAll s (allocAll ok h 0 ps).1 ((allocAll ok h 0 ps).2.zip ps) with ⟨h', r⟩
  rw [hr] at n2
  cases r with
  | true => exact ⟨n2, hl⟩
  | false => exact n2.cleaned (List.reverse_perm _)

theorem memberOrder_perm {α : Type} (kind : Kind) (l : List α) : (memberOrder kind l).Perm l := by
  unfold memberOrder
  split
  · exact (List.perm_append_comm (l₁ := [_]) (l₂ := [_, _])).symm
  · exact (List.perm_append_comm (l₁ := [_]) (l₂ := [_, _])).symm
  · exact List.Perm.refl _

theorem control_eq (fail : Option Nat) (ps : List (Option Nat)) (h : Heap) (k : Nat) (bs : List (Option Nat)) (hf : ∀ j, j < ps.length → fail ≠ some (k + j)) :
    control fail h k bs ps = (h, true) := by
  induction ps generalizing k bs with
  | nil => rfl
  | cons p ps ih =>
    unfold control
    rw [if_neg (show fail ≠ some k from hf 0 (by simp))]
    exact ih (k + 1) (p :: bs) (fun j hj => by
      have := hf (j + 1) (by simp; omega)
      rwa [show k + (j + 1) = k + 1 + j by omega] at this)

/-- the number of parts -/
def partCount : Kind → Nat
  | .attachment => 1
  | .metadata => 2
  | _ => 3

theorem layout_length {kind : Kind} {s : Stream} {pos : Nat} {ps : List Part} (h : layout kind s pos = some ps) :
    ps.length = partCount kind := by
  unfold layout at h
  cases kind <;> dsimp only at h ⊢
  · split at h
    · injection h with h; subst h; rfl
    · cases h
  · split at h
    · injection h with h; subst h; rfl
    · cases h
  · split at h
    · split at h
      · cases h
      · injection h with h; subst h; rfl
    · cases h
  · split at h
    · split at h
      · cases h
      · injection h with h; subst h; rfl
    · cases h

/-- With a harmless failure the constructor does nothing to the memory, or releases every block once. -/
theorem makeShared_harmless {kind : Kind} {fail : Option Nat} (hf : Harmless kind fail) (hk : kind ≠ .subBlock) (h : Heap) (qs : List (Option Nat))
    (hl : qs.length = partCount kind) :
    makeShared fail (before kind) h qs = (h, true) ∨ makeShared fail (before kind) h qs = (h.freeAll qs.reverse, false) := by
  cases fail with
  | none => exact .inl (control_eq none qs h _ [] (fun _ _ => by simp))
  | some k =>
    cases kind with
    | subBlock => exact absurd rfl hk
    | subBlockRW =>
      have hk3 : 3 ≤ k := hf
      match qs, hl with
      | [a, b, c], _ =>
        have e : makeShared (some k) (before .subBlockRW) h [a, b, c] = control (some k) h 1 [] [a, b, c] := by
          unfold makeShared
          rw [if_neg]
          · rfl
          · simp [before]; omega
        rw [e]
        by_cases h3 : k = 3
        · subst h3
          exact .inr rfl
        · exact .inl (control_eq _ _ _ _ _ (fun j hj => by simp at hj ⊢; omega))
    | attachment =>
      have hk3 : 3 ≤ k := hf
      match qs, hl with
      | [a], _ =>
        have e : makeShared (some k) (before .attachment) h [a] = control (some k) h 3 [] [a] := by
          unfold makeShared
          rw [if_neg]
          · rfl
          · show ¬ decide (k < 3) = true
            rw [decide_eq_true_eq]
            omega
        rw [e]
        by_cases h3 : k = 3
        · subst h3
          exact .inr rfl
        · exact .inl (control_eq _ _ _ _ _ (fun j hj => by simp at hj; simp; omega))
    | metadata =>
      have hk3 : 2 ≤ k := hf
      match qs, hl with
      | [a, b], _ =>
        have e : makeShared (some k) (before .metadata) h [a, b] = control (some k) h 1 [] [a, b] := by
          unfold makeShared
          rw [if_neg]
          · rfl
          · simp [before]; omega
        rw [e]
        by_cases h3 : k = 2
        · subst h3
          exact .inr rfl
        · exact .inl (control_eq _ _ _ _ _ (fun j hj => by simp at hj ⊢; omega))

theorem makeShared_subBlock {fail : Option Nat} (hf : Harmless .subBlock fail) (h : Heap) (qs : List (Option Nat)) (hl : qs.length = 3) :
    makeShared fail (before .subBlock) h qs = (h, true) ∨ makeShared fail (before .subBlock) h qs = (h, false) := by
  cases fail with
  | none => exact .inl (control_eq none qs h _ [] (fun _ _ => by simp))
  | some k =>
    rcases hf with e | hk
    · subst e
      exact .inr rfl
    · left
      have e : makeShared (some k) (before .subBlock) h qs = control (some k) h 1 [] qs := by
        unfold makeShared
        rw [if_neg]
        · rfl
        · simp [before]; omega
      rw [e]
      exact control_eq _ _ _ _ _ (fun j hj => by simp; omega)

theorem map_fst_memberOrder (kind : Kind) (ptrs : List (Option Nat)) (ps : List Part) (hl : ptrs.length = ps.length) :
    ((memberOrder kind (ptrs.zip ps)).map Prod.fst).Perm ptrs := by
  have h1 := (memberOrder_perm kind (ptrs.zip ps)).map Prod.fst
  rwa [List.map_fst_zip (by omega)] at h1

theorem readObject_spec {kind : Kind} {fail : Option Nat} (hf : Harmless kind fail) (s : Stream) (pos : Nat) (ok : Nat → Bool) (accepted : Bool) (h : Heap) :
    match readObject kind s pos ok accepted fail h with
    | (h', none) => Cleaned h h'
    | (h', some r) => NewBlocks h h' (r.map Prod.fst) := by
  have c0 : Cleaned h h := ⟨⟨rfl, Nat.le_refl _, fun _ _ => rfl⟩, fun i hi a => by have := a.lt; omega⟩
  unfold readObject
  rcases hla : layout kind s pos with _ | ps
  · exact c0
  · have hll := layout_length hla
    dsimp only
    have hp := readParts_spec ok s h ps
    rcases hr : readParts ok s h ps with ⟨h1, r⟩
    rw [hr] at hp
    cases r with
    | none => exact hp
    | some ptrs =>
      obtain ⟨n, hl⟩ := hp
      have hperm := map_fst_memberOrder kind ptrs ps hl
      have hq : ((memberOrder kind (ptrs.zip ps)).map Prod.fst).length = ps.length := by rw [hperm.length_eq, hl]
      have hres : ((memberOrder kind (ptrs.zip ps)).map (fun m => (m.1, m.2.size))).map Prod.fst = (memberOrder kind (ptrs.zip ps)).map Prod.fst := by
        rw [List.map_map]
        rfl
      have hclean : Cleaned h (h1.freeAll ((memberOrder kind (ptrs.zip ps)).map Prod.fst).reverse) := n.cleaned ((List.reverse_perm _).trans hperm)
      dsimp only
      by_cases hk : kind = .subBlock
      · subst hk
        rw [if_pos rfl]
        cases accepted with
        | true =>
          rw [if_pos rfl]
          rcases makeShared_subBlock hf h1 ((memberOrder .subBlock (ptrs.zip ps)).map Prod.fst) (by rw [hq, hll]; rfl) with e | e
          · rw [e]
            dsimp only
            rw [hres]
            exact n.perm hperm
          · rw [e]
            exact hclean
        | false => exact hclean
      · rw [if_neg hk]
        rcases makeShared_harmless hf hk h1 ((memberOrder kind (ptrs.zip ps)).map Prod.fst) (by rw [hq, hll]) with e | e
        · rw [e]
          dsimp only
          rw [hres]
          exact n.perm hperm
        · rw [e]
          exact hclean

end Verif.Owned
