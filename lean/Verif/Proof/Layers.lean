import Verif.Proof.SubBlock
import Verif.Spec.Layers
import Mathlib.Tactic.IntervalCases

namespace Verif
open Spec

/-- The layers an entry can have. -/
def knownLayers : List LayerInfo :=
  [(0, 0), (255, 255)] ++ (List.range 10).map (fun i => (2, i + 1)) ++ (List.range 7).map (fun i => (3, i + 1))

theorem layerInfo_known (e : Entry) : layerInfo e ∈ knownLayers := by
  unfold layerInfo
  split
  · decide
  · dsimp only
    split
    · rename_i r h
      have := List.mem_of_find?_eq_some h
      simp only [List.mem_cons, List.not_mem_nil, or_false] at this
      rcases this with rfl | rfl | rfl | rfl | rfl | rfl | rfl | rfl | rfl | rfl <;> decide
    · split
      · rename_i r h
        have := List.mem_of_find?_eq_some h
        simp only [List.mem_cons, List.not_mem_nil, or_false] at this
        rcases this with rfl | rfl | rfl | rfl | rfl | rfl | rfl <;> decide
      · decide

theorem layerOrder_of_known : ∀ a ∈ knownLayers, ∀ b ∈ knownLayers, a ≠ b → layerBefore b a = false →
    (a = (0, 0) ∨ b = (255, 255) ∨ (b ≠ (0, 0) ∧ a ≠ (255, 255) ∧ a.1 ^ a.2 < b.1 ^ b.2)) := by decide +kernel

theorem mapFind_sortLayers (sort : List (LayerInfo × Nat) → List (LayerInfo × Nat)) (p : PyrStats) (k : Int) :
    mapFind (sortLayers sort p) k = (mapFind p k).map sort := by
  unfold mapFind sortLayers
  rw [List.find?_map]
  change Option.map _ (Option.map _ (p.find? (fun q => q.1 == k))) = _
  cases p.find? (fun q => q.1 == k) <;> rfl

theorem keysSorted_sortLayers {sort : List (LayerInfo × Nat) → List (LayerInfo × Nat)} {p : PyrStats} (h : KeysSorted p) :
    KeysSorted (sortLayers sort p) := by
  unfold KeysSorted sortLayers at *
  rw [List.pairwise_map]
  exact h

theorem pyrInv_sort {sort : List (LayerInfo × Nat) → List (LayerInfo × Nat)} (hs : ∀ l, (sort l).Perm l) {p : PyrStats} {es : List Entry}
    (h : PyrInv p es) : PyrInv (sortLayers sort p) es where
  sorted := keysSorted_sortLayers h.sorted
  none := by
    intro k
    rw [mapFind_sortLayers, Option.map_eq_none_iff]
    exact h.none k
  layers := by
    intro k v hv
    rw [mapFind_sortLayers] at hv
    cases hf : mapFind p k with
    | none => rw [hf] at hv; cases hv
    | some w =>
      rw [hf] at hv
      injection hv with hv
      subst hv
      have := h.layers k w hf
      refine ⟨((hs w).map (·.1)).nodup_iff.2 this.1, fun l n => ?_⟩
      rw [(hs w).mem_iff]
      exact this.2 l n

theorem pyrInv_run {sort : List (LayerInfo × Nat) → List (LayerInfo × Nat)} (hs : ∀ l, (sort l).Perm l) :
    ∀ (ops : List PyrOp) (p : PyrStats) (es : List Entry), PyrInv p es → PyrInv (ops.foldl (pyrStep sort) p) (es ++ addedEntries ops)
  | [], p, es, h => by simpa [addedEntries] using h
  | .add e :: ops, p, es, h => by
    rw [List.foldl_cons, show es ++ addedEntries (.add e :: ops) = (es ++ [e]) ++ addedEntries ops by simp [addedEntries]]
    exact pyrInv_run hs ops _ _ (pyrInv_update h e)
  | .ask :: ops, p, es, h => by
    rw [List.foldl_cons]
    exact pyrInv_run hs ops _ _ (pyrInv_sort hs h)

theorem PyrInv.known {p : PyrStats} {es : List Entry} (h : PyrInv p es) {k : Int} {v : List (LayerInfo × Nat)} (hv : mapFind p k = some v) :
    ∀ x ∈ v, x.1 ∈ knownLayers := by
  intro x hx
  have := (h.layers k v hv).2 x.1 x.2
  obtain ⟨h1, h2⟩ := this.1 hx
  obtain ⟨e, he⟩ := List.exists_mem_of_length_pos (l := (ofKey es k).filter (fun e => layerInfo e = x.1)) (by omega)
  have := (List.mem_filter.1 he).2
  rw [← of_decide_eq_true this]
  exact layerInfo_known e

theorem sorted_order {sort : List (LayerInfo × Nat) → List (LayerInfo × Nat)} (hs : StdSort sort)
    {p : PyrStats} {es : List Entry} (h : PyrInv p es) {k : Int} {v : List (LayerInfo × Nat)} (hv : mapFind (sortLayers sort p) k = some v) :
    v.Pairwise (fun a b => LayerOrder a.1 b.1) := by
  have hq := pyrInv_sort hs.perm h
  have hk := hq.known hv
  have hn := (hq.layers k v hv).1
  rw [mapFind_sortLayers] at hv
  cases hf : mapFind p k with
  | none => rw [hf] at hv; cases hv
  | some w =>
    rw [hf] at hv
    injection hv with hv
    have h1 := hs.sorted w (h.layers k w hf).1
    rw [hv] at h1
    have h2 : v.Pairwise (fun a b => a.1 ≠ b.1) := by
      have := hn
      unfold List.Nodup at this
      rw [List.pairwise_map] at this
      exact this
    refine (List.Pairwise.and_mem.1 (h1.and h2)).imp ?_
    rintro a b ⟨ha, hb, h3, h4⟩
    exact ⟨h4, layerOrder_of_known _ (hk a ha) _ (hk b hb) h4 h3⟩

end Verif
