import Verif.Props.ScalingAccessor

/-!
# C60: the visibility optimisation with a zoom other than 1
-/

namespace Verif
open Spec Accessor Flt Scale Blit

/-- Column (or row) `x` of the result does not show a position within the rounding errors of the position `p` of the document. -/
def AwayFrom (p rlo rlen : Int) (n x : Nat) : Prop :=
  docPos rlo rlen n x + pixelSlack * (rlen / n) < p ∨ p + pixelSlack * (rlen / n) < docPos rlo rlen n x

/-- Neither edge of the interval `lo, len` is there, if inside of the region. -/
def AwayFromEdges (lo len rlo rlen : Int) (n x : Nat) : Prop := (lo ≤ rlo ∨ AwayFrom lo rlo rlen n x) ∧ AwayFrom (lo + len) rlo rlen n x

theorem docPos_ge {rlo rlen : Int} {n x : Nat} (hr : 0 < rlen) : (rlo : ℚ) ≤ docPos rlo rlen n x := by
  have hr' : (0 : ℚ) < rlen := by exact_mod_cast hr
  unfold docPos
  have : 0 ≤ (x : ℚ) * rlen / n := by positivity
  linarith

/-- A sub-block that has at least as many pixels as the result, away from its edges: it is shown exactly where its integer rectangle is. -/
theorem shows_iff {lo len stored rlo rlen : Int} {n : Nat} {v : Nat → Prop} {s : Nat → Nat} (h : ShowsAxis lo len stored rlo rlen n v s) (hs : 0 < stored)
    (hr : 0 < rlen) (hn : 0 < n) (hf : len * n ≤ rlen * stored) {x : Nat} (hx : x < n) (ha : AwayFromEdges lo len rlo rlen n x) :
    v x ↔ lo ≤ ⌊docPos rlo rlen n x⌋ ∧ ⌊docPos rlo rlen n x⌋ < lo + len := by
  have hn' : (0 : ℚ) < n := by exact_mod_cast hn
  have hs' : (0 : ℚ) < stored := by exact_mod_cast hs
  have hpos : (0 : ℚ) < pixelSlack * (rlen / n) := by
    unfold pixelSlack
    have : (0 : ℚ) < rlen := by exact_mod_cast hr
    positivity
  have hfine : (len : ℚ) / stored ≤ (rlen : ℚ) / n := by
    rw [div_le_div_iff₀ hs' hn']
    exact_mod_cast hf
  rw [Int.le_floor, Int.floor_lt]
  obtain ⟨a, b⟩ := ha
  unfold AwayFrom at a b
  push_cast at *
  constructor
  · intro hv
    obtain ⟨-, h1, h2⟩ := h.sound x hv
    constructor
    · rcases a with a | a | a
      · have h3 := docPos_ge (rlo := rlo) (x := x) hr (n := n)
        have h4 : (lo : ℚ) ≤ rlo := by exact_mod_cast a
        linarith
      · linarith
      · linarith
    · rcases b with b | b <;> linarith
  · rintro ⟨h1, h2⟩
    refine h.complete x hx ?_ ?_ ?_
    · rcases a with a | a | a
      · exact Or.inl a
      · exact absurd a (by linarith)
      · exact Or.inr a.le
    · rcases b with b | b <;> linarith
    · rcases b with b | b <;> linarith

/-- The position shown lies in the region. -/
theorem docPos_in {rlo rlen : Int} {n x : Nat} (hr : 0 < rlen) (hx : x < n) : rlo ≤ ⌊docPos rlo rlen n x⌋ ∧ ⌊docPos rlo rlen n x⌋ < rlo + rlen := by
  have hn' : (0 : ℚ) < n := by exact_mod_cast (by omega : 0 < n)
  have hr' : (0 : ℚ) < rlen := by exact_mod_cast hr
  have hx' : (x : ℚ) < n := by exact_mod_cast hx
  rw [Int.le_floor, Int.floor_lt]
  unfold docPos
  push_cast
  constructor
  · have : 0 ≤ (x : ℚ) * rlen / n := by positivity
    linarith
  · have : (x : ℚ) * rlen / n < rlen := by
      rw [div_lt_iff₀ hn', mul_comm]
      exact mul_lt_mul_of_pos_left hx' hr'
    linarith

/-- **C60 (visibility optimisation, zoom other than 1; partial: no masks; the sub-blocks fine enough for the zoom have, in both directions, at least as many
pixels as the result; pixels of the result at the edges of sub-blocks excepted).** The result with the optimisation has the same bytes as the one without. At
the edges, with sub-blocks up to 5% coarser than the result, this is violated, see `C60_visibility_violated`. -/
theorem C60_visibility_scaled_partial (sort : List Item → List Item) (hsort : SortsWith zoomLess sort) (k : Kind) (hk : k.NoOverread)
    (items : List Item) (hn : items.Nodup) (hu : ScenesUniform items) (stats : Stats) (hst : DocumentStats stats items) (plane : Coord)
    (hplane : checkPlane stats.dimBounds plane = none) (zoom : ℚ) (hz : 0 < zoom) (hz1 : zoom ≠ 1) (filter : Option (Int → Bool))
    (sortByM : Bool) (pix : Pictures) (roi : IntRect) (dst : Bitmap) (hdst : dst.WF k.db) (hr : UsualRequest roi dst)
    (hs : ∀ p, Candidate items plane roi filter p → Usual k p.2 (pix p.1).1 (pix p.1).2 ∧ (pix p.1).2 = none)
    (hd : sortByM = true → ∀ p, Candidate items plane roi filter p → ¬ OnLayer0 p.2 → exactZoom p.2 ≠ 1)
    (hf : ∀ p, Candidate items plane roi filter p → zoom / (105 / 100) * (1 - zoomSlack) ≤ exactZoom p.2 →
      p.2.width * dst.w ≤ roi.w * p.2.storedWidth ∧ p.2.height * dst.h ≤ roi.h * p.2.storedHeight) :
    ∃ o1 o2, scalingGet sort k items stats plane zoom filter sortByM true pix roi dst = .ok (some o1) ∧
      scalingGet sort k items stats plane zoom filter sortByM false pix roi dst = .ok (some o2) ∧
      (∀ x y j, x < dst.w → y < dst.h → j < k.db → (∀ p, Candidate items plane roi filter p →
          AwayFromEdges p.2.x p.2.width roi.x roi.w dst.w x ∧ AwayFromEdges p.2.y p.2.height roi.y roi.h dst.h y) →
        o1.byteAt k.db x y j = o2.byteAt k.db x y j) ∧
      (∀ i, dst.IsPadding k.db i → o1.buf.get i = o2.buf.get i) := by
  classical
  obtain ⟨L, L', hL, h1, h2, h3, h4⟩ := scalingGet_list hsort k filter sortByM pix roi dst hst hn hplane hu hz
    (fun p hp => ⟨sized_of_usual (hs p hp).1, (hs p hp).1.m⟩) hd
  have hone : ∀ p ∈ L, ∀ d : Bitmap, d.WF k.db → d.w = dst.w → d.h = dst.h → _ := fun p hp d hd hw hh =>
    scaleBlt_scaled hk hz1 (hs p (hL.selects.candidate p hp)).1 hd hw hh hr ((hL.selects.candidate p hp).2.1.2.1 roi rfl)
  have hpaint : ∀ M : List Item, (∀ p ∈ M, p ∈ L) → _ := fun M hM => paintAll_ok k zoom roi pix _ _ M dst hdst (fun p hp d hd hw hh => by
    obtain ⟨out, h1, h2, -, -⟩ := hone p (hM p hp) d hd hw hh
    exact ⟨out, h1, h2⟩)
  obtain ⟨o1, p1, -, -, -, -, p6, p7⟩ := hpaint L' h3
  obtain ⟨o2, q1, -, -, -, -, q6, q7⟩ := hpaint L (fun _ h => h)
  refine ⟨o1, o2, by rw [h2, p1], by rw [h1, q1], ?_, fun i hi => by rw [p7 i hi, q7 i hi]⟩
  intro x y j hx hy hj hedge
  rw [p6 x y j hx hy hj, q6 x y j hx hy hj,
    h4 ⌊docPos roi.x roi.w dst.w x⌋ ⌊docPos roi.y roi.h dst.h y⌋ ⟨(docPos_in hr.w.1 hx).1, (docPos_in hr.w.1 hx).2, (docPos_in hr.h.1 hy).1, (docPos_in hr.h.1 hy).2⟩ _ ?_]
  intro p hp
  have hc := hL.selects.candidate p hp
  obtain ⟨a, b⟩ := hs p hc
  obtain ⟨_, -, -, s1, s2⟩ := hone p hp dst hdst rfl rfl
  obtain ⟨f1, f2⟩ := hf p hc (hL.selects.fineEnough p hp)
  obtain ⟨e1, e2⟩ := hedge p hc
  simp only [b, Bool.and_eq_true, decide_eq_true_eq, shown_iff]
  rw [shows_iff s1 a.w.1 hr.w.1 (by omega) f1 hx e1, shows_iff s2 a.h.1 hr.h.1 (by omega) f2 hy e2]
  simp [NotMasked, IntRect.Has, Entry.rect, and_assoc]

/-- Three sub-blocks of a pyramid with factor 2, all of them stored with exactly half their size: one of 40 columns, and above it two side by side that cover
the same columns, 2 and 38 of them. -/
def seamItems : List Item := [(0, exSb 0 0 0 40 2 20 1), (1, exSb 1 0 0 2 2 1 1), (2, exSb 2 2 0 38 2 19 1)]

/-- Their pictures: all pixels of sub-block `i` are `10 + i`. -/
def seamPix : Pictures := fun i =>
  (⟨if i = 0 then 20 else if i = 1 then 1 else 19, 1, 20, ⟨20, fun _ => if i = 0 then 10 else if i = 1 then 11 else 12⟩⟩, none)

/-- Their statistics. -/
def seamStats : Stats := ((seamItems.map (·.2)).foldl ReaderDir.add ReaderDir.init).upd.stats

/-- The `float` nearest to 0.525. -/
def seamZoom : ℚ := 4404019 / 8388608

/-- The region: all 40 columns and 2 rows. -/
def seamRoi : IntRect := ⟨0, 0, 40, 2⟩

/-- The destination, filled with the background 0. -/
def seamDst : Bitmap := ⟨21, 1, 21, ⟨21, fun _ => 0⟩⟩

/-- The plane: channel 0. -/
def seamPlane : Coord := fun d => if d = .C then some 0 else none

theorem seamRange (sort : List Item → List Item) :
    zoomRange seamZoom (createSortByZoom sort false (subSet seamItems seamPlane seamRoi (some (involvedScenes seamStats.scenes none seamRoi)))) = seamItems := by
  have h0 : subSet seamItems seamPlane seamRoi (some (involvedScenes seamStats.scenes none seamRoi)) = seamItems := by rfl
  have z : ∀ p ∈ seamItems, zoomOf p.2 = 1 / 2 := by decide +kernel
  have h1 : createSortByZoom sort false seamItems = seamItems := by
    unfold createSortByZoom
    rw [if_neg (by simp)]
    apply List.mergeSort_of_pairwise
    have : ∀ a ∈ seamItems, ∀ b ∈ seamItems, decide (zoomOf a.2 ≤ zoomOf b.2) = true := by
      intro a ha b hb
      rw [z a ha, z b hb]; simp
    exact List.pairwise_of_forall_mem_list this
  rw [h0, h1]
  have l : ¬ (1 / 2 : ℚ) < f32 (seamZoom / f32 (105 / 100)) := by decide +kernel
  have u : (1 / 2 : ℚ) < f32 (1 / 2 * f32 (19 / 10)) := by decide +kernel
  have z0 := z (0, exSb 0 0 0 40 2 20 1) (by simp [seamItems])
  have z1 := z (1, exSb 1 0 0 2 2 1 1) (by simp [seamItems])
  have z2 := z (2, exSb 2 2 0 38 2 19 1) (by simp [seamItems])
  dsimp only at z0 z1 z2
  unfold zoomRange seamItems
  simp only [List.dropWhile_cons, z0, l, decide_false, Bool.false_eq_true, if_false, List.takeWhile_cons, z1, z2, u, decide_true, if_true, List.takeWhile_nil]

/-- Whether painting these sub-blocks gives a bitmap with the given value of column 1. -/
private def givesAt1 (l : List Item) (v : UInt8) : Bool :=
  match paintAll (.same 1) seamZoom seamRoi seamPix l seamDst with
  | some o => o.byteAt 1 1 0 0 == v
  | none => false

private theorem givesAt1_spec {l : List Item} {v : UInt8} (h : givesAt1 l v = true) :
    ∃ o, paintAll (.same 1) seamZoom seamRoi seamPix l seamDst = some o ∧ o.byteAt 1 1 0 0 = v := by
  unfold givesAt1 at h
  split at h
  · rename_i o ho
    exact ⟨o, ho, by simpa using h⟩
  · cases h

/-- **C60, violation: the visibility optimisation leaves holes at the seams of sub-blocks.** Three sub-blocks of a pyramid with factor 2, without masks, a zoom
of 0.525 and the size of the bitmap this gives: column 1 lies inside of the first and of the second sub-block. Without the optimisation it shows the first
sub-block; with it the first sub-block is not drawn, because the other two cover it, but neither of them is drawn at this column, which shows the background. -/
theorem C60_visibility_violated (sort : List Item → List Item) : calcSize seamRoi seamZoom = some (seamDst.w, seamDst.h) ∧
    (∀ p ∈ seamItems, Usual (.same 1) p.2 (seamPix p.1).1 (seamPix p.1).2 ∧ 2 * p.2.storedWidth = p.2.width ∧ 2 * p.2.storedHeight = p.2.height) ∧
    UsualRequest seamRoi seamDst ∧ docPos seamRoi.x seamRoi.w seamDst.w 1 < 2 ∧ ∃ o1 o2,
      scalingGet sort (.same 1) seamItems seamStats seamPlane seamZoom none false true seamPix seamRoi seamDst = .ok (some o1) ∧
      scalingGet sort (.same 1) seamItems seamStats seamPlane seamZoom none false false seamPix seamRoi seamDst = .ok (some o2) ∧
      o1.byteAt 1 1 0 0 = 0 ∧ o2.byteAt 1 1 0 0 = 10 := by
  have hp : checkPlane seamStats.dimBounds seamPlane = none := by decide +kernel
  have hi : (involvedScenes seamStats.scenes none seamRoi).length ≤ 1 := by decide +kernel
  refine ⟨by decide +kernel, ?_, ⟨by decide, by decide, by decide, by decide⟩, by decide +kernel, ?_⟩
  · intro p hp
    simp only [seamItems, List.mem_cons, List.not_mem_nil, or_false] at hp
    rcases hp with rfl | rfl | rfl
    all_goals
      refine ⟨⟨by decide, by decide, by decide, by decide, ?_, fun m hm => by cases hm⟩, by decide, by decide⟩
      exact ⟨by decide, by decide⟩
  obtain ⟨o1, a1, a2⟩ := givesAt1_spec (l := [(1, exSb 1 0 0 2 2 1 1), (2, exSb 2 2 0 38 2 19 1)]) (v := 0) (by decide +kernel)
  obtain ⟨o2, b1, b2⟩ := givesAt1_spec (l := seamItems) (v := 10) (by decide +kernel)
  refine ⟨o1, o2, ?_, ?_, a2, b2⟩
  · unfold scalingGet
    rw [hp]
    dsimp only
    rw [if_pos hi]
    unfold paint
    dsimp only
    rw [seamRange, if_pos ⟨rfl, by simp [seamItems]⟩]
    have hv : Coverage.checkForVisibility seamRoi seamItems.length
        (fun i => ((seamItems[i]?).map (·.2.rect)).getD ⟨0, 0, -1, -1⟩) = some [1, 2] := by decide +kernel
    rw [hv, Option.bind_some]
    exact congrArg Except.ok a1
  · unfold scalingGet
    rw [hp]
    dsimp only
    rw [if_pos hi]
    unfold paint
    dsimp only
    rw [seamRange, if_neg (by simp)]
    exact congrArg Except.ok b1

/-- The same sub-blocks with a zoom of 1/2 meet the hypotheses of `C60_visibility_scaled_partial`, so that all columns but column 1, at the edge of two
sub-blocks, are the same with and without the optimisation. -/
example : ∃ o1 o2,
    scalingGet (fun l => (l.attach.mergeSort (fun a b => !zoomLess b.1 a.1)).map (·.1)) (.same 1) seamItems seamStats seamPlane (1 / 2) none true true seamPix
      seamRoi ⟨20, 1, 20, ⟨20, fun _ => 0⟩⟩ = .ok (some o1) ∧
    scalingGet (fun l => (l.attach.mergeSort (fun a b => !zoomLess b.1 a.1)).map (·.1)) (.same 1) seamItems seamStats seamPlane (1 / 2) none true false seamPix
      seamRoi ⟨20, 1, 20, ⟨20, fun _ => 0⟩⟩ = .ok (some o2) ∧
    ∀ x, x < 20 → x ≠ 1 → o1.byteAt 1 x 0 0 = o2.byteAt 1 x 0 0 := by
  have cases3 : ∀ {P : Item → Prop}, (∀ p ∈ seamItems, P p) ↔ P (0, exSb 0 0 0 40 2 20 1) ∧ P (1, exSb 1 0 0 2 2 1 1) ∧ P (2, exSb 2 2 0 38 2 19 1) := by
    intro P; simp [seamItems]
  have hz : ∀ p ∈ seamItems, exactZoom p.2 = 1 / 2 := by decide +kernel
  obtain ⟨o1, o2, h1, h2, h3, -⟩ := C60_visibility_scaled_partial _ (sortsWith_exists zoomLess) (.same 1) trivial seamItems
    (by
      have : (seamItems.map (·.1)).Nodup := by decide
      exact List.Nodup.of_map _ this)
    (Or.inr (cases3.mpr ⟨rfl, rfl, rfl⟩)) seamStats
    (by
      apply documentStats_reader
      exact cases3.mpr ⟨⟨by decide, by decide, fun _ => ⟨.C, rfl⟩⟩, ⟨by decide, by decide, fun _ => ⟨.C, rfl⟩⟩, ⟨by decide, by decide, fun _ => ⟨.C, rfl⟩⟩⟩)
    seamPlane (by decide +kernel) (1 / 2) (by norm_num) (by norm_num) none true seamPix seamRoi ⟨20, 1, 20, ⟨20, fun _ => 0⟩⟩
    ⟨by decide, by decide⟩ ⟨by decide, by decide, by decide, by decide⟩
    (fun p hp => ⟨((C60_visibility_violated id).2.1 p hp.1).1, rfl⟩)
    (fun _ p hp _ h => by rw [hz p hp.1] at h; norm_num at h)
    (fun p hp _ => by
      have h : ∀ p ∈ seamItems, p.2.width * (20 : Nat) ≤ seamRoi.w * p.2.storedWidth ∧ p.2.height * (1 : Nat) ≤ seamRoi.h * p.2.storedHeight := by decide
      exact h p hp.1)
  refine ⟨o1, o2, h1, h2, fun x hx hx1 => h3 x 0 0 hx (by decide) (by decide) ?_⟩
  intro p hp
  have e : ∀ p ∈ seamItems, p.2.y = 0 ∧ p.2.height = 2 ∧ (p.2.x = 0 ∧ p.2.width = 40 ∨ p.2.x = 0 ∧ p.2.width = 2 ∨ p.2.x = 2 ∧ p.2.width = 38) := by decide
  obtain ⟨e1, e2, e3⟩ := e p hp.1
  have hx' : (x : ℚ) = 0 ∨ 2 ≤ (x : ℚ) := by
    rcases Nat.lt_or_ge x 2 with h | h
    · left; exact_mod_cast (by omega : x = 0)
    · right; exact_mod_cast h
  have hx20 : (x : ℚ) + 1 ≤ 20 := by exact_mod_cast hx
  constructor
  · unfold AwayFromEdges AwayFrom docPos pixelSlack seamRoi
    rcases e3 with ⟨a, b⟩ | ⟨a, b⟩ | ⟨a, b⟩ <;> rw [a, b] <;> norm_num
    · left; linarith
    · rcases hx' with h | h
      · left; rw [h]; norm_num
      · right; linarith
    · constructor
      · rcases hx' with h | h
        · left; rw [h]; norm_num
        · right; linarith
      · left; linarith
  · unfold AwayFromEdges AwayFrom docPos pixelSlack seamRoi
    rw [e1, e2]
    norm_num

end Verif
