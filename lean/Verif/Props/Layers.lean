import Verif.Proof.Layers

/-!
# C18: the layers of the pyramid statistics

The statistics name a layer by the factor between neighbouring layers and its number. The theorems here say that the name is the right one, and in which
order the layers of a scene are listed, whatever is added and asked before.
-/

namespace Verif
open Spec

/-- **C18 (order).** For every sorting function that does what `std::sort` does, and for every sequence of additions and questions: the
statistics that are returned are exact, and the layers of each scene are listed in their order: full resolution first, then by increasing minification,
and what fits no layer last. -/
theorem C18_layers_in_order (sort : List (LayerInfo × Nat) → List (LayerInfo × Nat)) (hs : StdSort sort)
    (ops : List PyrOp) :
    PyramidExact ((ops ++ [PyrOp.ask]).foldl (pyrStep sort) []) (addedEntries ops) ∧
      ∀ k v, mapFind ((ops ++ [PyrOp.ask]).foldl (pyrStep sort) []) k = some v → v.Pairwise (fun a b => LayerOrder a.1 b.1) := by
  have h := pyrInv_run hs.perm ops [] [] pyrInv_init
  rw [List.nil_append] at h
  rw [List.foldl_append]
  exact ⟨(pyrInv_sort hs.perm h).exact, fun k v hv => sorted_order hs h hv⟩

/-- **C18 (layer 0).** A sub-block is counted on layer 0 exactly if its bitmap is stored in its full size. -/
theorem C18_layer0 (e : Entry) : layerInfo e = (0, 0) ↔ e.width = e.storedWidth ∧ e.height = e.storedHeight := by
  constructor
  · intro h
    unfold layerInfo at h
    split at h
    · rename_i h0
      simpa [Entry.isLayer0] using h0
    · dsimp only at h
      split at h
      · simp at h
      · split at h <;> simp at h
  · rintro ⟨h1, h2⟩
    unfold layerInfo
    rw [if_pos (by simp [Entry.isLayer0, h1, h2])]

private theorem inRange_pos {n d v t : Int} (hd : 0 < d) : inRange n d v t = true ↔ (10 * v - t) * d ≤ 10 * n ∧ 10 * n ≤ (10 * v + t) * d := by
  unfold inRange
  rw [if_neg (by omega), if_neg (by omega)]
  simp

/-- **C18 (the layer is right).** A sub-block that is counted on layer `n` of a pyramid with factor `f` is minified, along the longer side of its bitmap,
by `f` to the power of `n` up to five percent; and there are no other layers. -/
theorem C18_layer_sound (e : Entry) (f n : Nat) (h : layerInfo e = (f, n)) (h0 : (f, n) ≠ (0, 0)) (h1 : (f, n) ≠ (255, 255)) (hd : 0 < (longSide e).2) :
    Regular f n ∧ 20 * ((longSide e).1 - f ^ n * (longSide e).2) ≤ f ^ n * (longSide e).2 ∧
      - (f ^ n * (longSide e).2 : Int) ≤ 20 * ((longSide e).1 - f ^ n * (longSide e).2) := by
  unfold layerInfo at h
  split at h
  · exact absurd h.symm h0
  · dsimp only at h
    have hl : minificationFraction e.width e.height e.storedWidth e.storedHeight = longSide e := rfl
    rw [hl] at h
    generalize longSide e = q at h hd ⊢
    obtain ⟨a, d⟩ := q
    dsimp only at h hd ⊢
    split at h
    · rename_i r hr
      have hm := List.mem_of_find?_eq_some hr
      have hi := List.find?_some hr
      rw [inRange_pos hd] at hi
      injection h with h2 h3
      subst h2
      simp only [List.mem_cons, List.not_mem_nil, or_false] at hm
      rcases hm with rfl | rfl | rfl | rfl | rfl | rfl | rfl | rfl | rfl | rfl <;>
        (dsimp only at h3 hi; subst h3; refine ⟨Or.inl (by omega), ?_, ?_⟩ <;> norm_num <;> omega)
    · split at h
      · rename_i r hr
        have hm := List.mem_of_find?_eq_some hr
        have hi := List.find?_some hr
        rw [inRange_pos hd] at hi
        injection h with h2 h3
        subst h2
        simp only [List.mem_cons, List.not_mem_nil, or_false] at hm
        rcases hm with rfl | rfl | rfl | rfl | rfl | rfl | rfl <;>
          (dsimp only at h3 hi; subst h3; refine ⟨Or.inr (by omega), ?_, ?_⟩ <;> norm_num <;> omega)
      · exact absurd h.symm h1

/-- The layer of a sub-block whose minification is near enough to a power. -/
private theorem layerInfo_of_near (e : Entry) (f n : Nat) (hr : Regular f n) (hd : 0 < (longSide e).2)
    (hn : (longSide e).1 = f ^ n * (longSide e).2 ∨
      (146 ≤ (longSide e).2 ∧ f ^ n * ((longSide e).2 - 1) < (longSide e).1 ∧ (longSide e).1 < f ^ n * ((longSide e).2 + 1))) :
    layerInfo e = (f, n) := by
  have hne : e.isLayer0 = false := by
    by_contra hx
    have hx : e.isLayer0 = true := by simpa using hx
    have : (longSide e).1 = (longSide e).2 := by
      simp only [Entry.isLayer0, Bool.and_eq_true, decide_eq_true_eq] at hx
      unfold longSide
      split
      · exact hx.1
      · exact hx.2
    rw [this] at hn
    generalize (longSide e).2 = d at hn hd
    rcases hr with ⟨rfl, h1, h2⟩ | ⟨rfl, h1, h2⟩ <;> interval_cases n <;> norm_num at hn <;> omega
  unfold layerInfo
  rw [hne]
  dsimp only
  rw [if_neg (by simp)]
  have hl : minificationFraction e.width e.height e.storedWidth e.storedHeight = longSide e := rfl
  rw [hl]
  generalize longSide e = q at hn hd ⊢
  obtain ⟨a, d⟩ := q
  dsimp only at hn hd ⊢
  have hin : ∀ v t : Int, inRange a d v t = true ↔ (10 * v - t) * d ≤ 10 * a ∧ 10 * a ≤ (10 * v + t) * d := fun v t => inRange_pos hd
  rcases hr with ⟨rfl, h1, h2⟩ | ⟨rfl, h1, h2⟩
  · split
    · rename_i r hr
      have hm := List.mem_of_find?_eq_some hr
      have hi := List.find?_some hr
      rw [hin] at hi
      simp only [List.mem_cons, List.not_mem_nil, or_false] at hm
      rcases hm with rfl | rfl | rfl | rfl | rfl | rfl | rfl | rfl | rfl | rfl <;> dsimp only at hi ⊢ <;> interval_cases n <;> norm_num at hn <;>
        first
          | rfl
          | (exfalso; omega)
    · rename_i hr
      exfalso
      rw [List.find?_eq_none] at hr
      simp only [List.mem_cons, List.not_mem_nil, or_false, forall_eq_or_imp, forall_eq, hin] at hr
      interval_cases n <;> norm_num at hn <;> omega
  · split
    · rename_i r hr
      have hm := List.mem_of_find?_eq_some hr
      have hi := List.find?_some hr
      rw [hin] at hi
      exfalso
      simp only [List.mem_cons, List.not_mem_nil, or_false] at hm
      rcases hm with rfl | rfl | rfl | rfl | rfl | rfl | rfl | rfl | rfl | rfl <;> dsimp only at hi <;> interval_cases n <;> norm_num at hn <;> omega
    · split
      · rename_i r hr
        have hm := List.mem_of_find?_eq_some hr
        have hi := List.find?_some hr
        rw [hin] at hi
        simp only [List.mem_cons, List.not_mem_nil, or_false] at hm
        rcases hm with rfl | rfl | rfl | rfl | rfl | rfl | rfl <;> dsimp only at hi ⊢ <;> interval_cases n <;> norm_num at hn <;>
          first
            | rfl
            | (exfalso; omega)
      · rename_i hr
        exfalso
        rw [List.find?_eq_none] at hr
        simp only [List.mem_cons, List.not_mem_nil, or_false, forall_eq_or_imp, forall_eq, hin] at hr
        interval_cases n <;> norm_num at hn <;> omega

/-- **C18 (exact minification).** A sub-block that is minified by exactly `f` to the power of `n` is counted on layer `n` of the pyramid with factor `f`:
factor 2 up to layer 10, factor 3 up to layer 7. -/
theorem C18_layer_exact (e : Entry) (f n : Nat) (hr : Regular f n) (hd : 0 < (longSide e).2) (h : (longSide e).1 = f ^ n * (longSide e).2) :
    layerInfo e = (f, n) := layerInfo_of_near e f n hr hd (Or.inl h)

/-- **C18 (rounded minification).** The same if the size of the bitmap was rounded, up or down, provided that its longer side has at least 146 pixels. -/
theorem C18_layer_rounded (e : Entry) (f n : Nat) (hr : Regular f n) (hs : 146 ≤ (longSide e).2)
    (h1 : f ^ n * ((longSide e).2 - 1) < (longSide e).1) (h2 : (longSide e).1 < f ^ n * ((longSide e).2 + 1)) : layerInfo e = (f, n) :=
  layerInfo_of_near e f n hr (by omega) (Or.inr ⟨hs, h1, h2⟩)

/-- An entry of the given sizes. -/
private def sized (w h sw sh : Int) : Entry :=
  { coordinate := fun _ => none, mIndex := intMax, x := 0, y := 0, width := w, height := h, storedWidth := sw, storedHeight := sh, pixelType := 0,
    filePosition := 0, compression := 0, pyramidType := 0 }

/-- **C18 (small bitmaps; violated without the bound of 146 pixels).** Halving a bitmap of 3 by 3 pixels, rounded down, gives a bitmap that is counted on layer
1 of a pyramid with factor 3; rounded up, it is counted as not belonging to any layer. So is a bitmap of 12673 pixels that is reduced to 100 pixels on layer 7. -/
theorem C18_small_layers_violated :
    layerInfo (sized 3 3 1 1) = (3, 1) ∧ layerInfo (sized 3 3 2 2) = (255, 255) ∧ layerInfo (sized 12673 12673 100 100) = (255, 255) := by decide +kernel

/-- **C18 (violated for the sort).** The comparison that `std::sort` is given says that layer 0 goes before itself, which the standard forbids: that the
order comes out right depends on the implementation never comparing an element with itself. -/
theorem C18_comparison_violated : layerBefore (0, 0) (0, 0) = true := by decide

private def exSort : List (LayerInfo × Nat) → List (LayerInfo × Nat)
  | [] => []
  | x :: r => ins x (exSort r)
where
  ins (x : LayerInfo × Nat) : List (LayerInfo × Nat) → List (LayerInfo × Nat)
  | [] => [x]
  | y :: r => if layerBefore y.1 x.1 then y :: ins x r else x :: y :: r

/-- The class of a layer and its scale: the comparison goes by these. -/
private def rankOf (l : LayerInfo) : Nat × Nat := if l = (0, 0) then (0, 0) else if l = (255, 255) then (2, 0) else (1, layerScale l)

private theorem before_iff {a b : LayerInfo} (h : a ≠ b) :
    layerBefore a b = true ↔ (rankOf a).1 < (rankOf b).1 ∨ (rankOf a).1 = (rankOf b).1 ∧ (rankOf a).2 < (rankOf b).2 := by
  unfold layerBefore rankOf
  by_cases a0 : a = (0, 0)
  · subst a0
    rw [if_pos rfl, if_pos rfl, if_neg (fun h' => h h'.symm)]
    split <;> simp
  · rw [if_neg a0, if_neg a0]
    by_cases a1 : a = (255, 255)
    · subst a1
      rw [if_pos rfl, if_pos rfl]
      by_cases b0 : b = (0, 0)
      · rw [if_pos b0]; simp
      · rw [if_neg b0, if_neg (fun h' => h h'.symm)]; simp
    · rw [if_neg a1, if_neg a1]
      by_cases b0 : b = (0, 0)
      · rw [if_pos b0, if_pos b0]; simp
      · rw [if_neg b0, if_neg b0]
        by_cases b1 : b = (255, 255)
        · rw [if_pos b1, if_pos b1]; simp
        · rw [if_neg b1, if_neg b1]; simp

private theorem ins_perm (x : LayerInfo × Nat) : ∀ l, (exSort.ins x l).Perm (x :: l)
  | [] => by simp [exSort.ins]
  | y :: r => by
    unfold exSort.ins
    split
    · exact ((ins_perm x r).cons y).trans (List.Perm.swap x y r)
    · exact List.Perm.refl _

private theorem exSort_perm : ∀ l, (exSort l).Perm l
  | [] => by simp [exSort]
  | x :: r => (ins_perm x _).trans ((exSort_perm r).cons x)

private theorem ins_sorted (x : LayerInfo × Nat) : ∀ l, (∀ y ∈ l, y.1 ≠ x.1) → (l.map (·.1)).Nodup → l.Pairwise (fun a b => layerBefore b.1 a.1 = false) →
    (exSort.ins x l).Pairwise (fun a b => layerBefore b.1 a.1 = false)
  | [], _, _, _ => by simp [exSort.ins]
  | y :: r, hx, hn, hp => by
    rw [List.pairwise_cons] at hp
    rw [List.map_cons, List.nodup_cons] at hn
    have hyx := hx y List.mem_cons_self
    unfold exSort.ins
    split
    · rename_i hb
      rw [List.pairwise_cons]
      refine ⟨fun z hz => ?_, ins_sorted x r (fun z hz => hx z (List.mem_cons_of_mem _ hz)) hn.2 hp.2⟩
      have := (ins_perm x r).mem_iff.1 hz
      rw [List.mem_cons] at this
      rcases this with rfl | h
      · rw [before_iff hyx] at hb
        by_contra hc
        rw [Bool.not_eq_false, before_iff (Ne.symm hyx)] at hc
        omega
      · exact hp.1 z h
    · rename_i hb
      rw [List.pairwise_cons]
      refine ⟨fun z hz => ?_, List.pairwise_cons.2 hp⟩
      have hzx := hx z hz
      rw [before_iff hyx] at hb
      by_contra hc
      rw [Bool.not_eq_false, before_iff hzx] at hc
      rw [List.mem_cons] at hz
      rcases hz with rfl | hz
      · exact hb hc
      · have h1 := hp.1 z hz
        have hzy : z.1 ≠ y.1 := fun h => hn.1 (h ▸ List.mem_map_of_mem hz)
        rw [← Bool.not_eq_true, before_iff hzy] at h1
        omega

/-- There is such a sorting function: insertion. -/
example : StdSort exSort := by
  refine ⟨exSort_perm, fun l => ?_⟩
  induction l with
  | nil => simp [exSort]
  | cons x r ih =>
    intro hn
    rw [List.map_cons, List.nodup_cons] at hn
    refine ins_sorted x _ (fun y hy h => hn.1 ?_) (((exSort_perm r).map (·.1)).nodup_iff.2 hn.2) (ih hn.2)
    rw [← h]
    exact List.mem_map_of_mem ((exSort_perm r).mem_iff.1 hy)

/-- Three sub-blocks in one scene, added in the wrong order and with a question in between. -/
example : ([PyrOp.add (sized 3 3 1 2), .add (sized 100 100 50 50), .ask, .add (sized 90 90 30 30), .add (sized 10 10 10 10), .ask].foldl (pyrStep exSort) []) =
    [(intMax, [((0, 0), 1), ((2, 1), 1), ((3, 1), 1), ((255, 255), 1)])] := by decide +kernel

example : Regular 2 3 ∧ 0 < (longSide (sized 808 400 101 50)).2 ∧ (longSide (sized 808 400 101 50)).1 = 2 ^ 3 * (longSide (sized 808 400 101 50)).2 ∧
    146 ≤ (longSide (sized 2000 400 251 50)).2 ∧ (2 : Int) ^ 3 * ((longSide (sized 2000 400 251 50)).2 - 1) < (longSide (sized 2000 400 251 50)).1 + 1 := by
  refine ⟨Or.inl ⟨rfl, by omega, by omega⟩, ?_⟩
  decide +kernel

end Verif
