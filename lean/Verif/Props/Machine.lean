import Verif.Proof.MachineTiles
import Verif.Proof.MachineOverflow
import Verif.Props.SubBlock

/-! # C101 - coordinates at the limits of 32-bit integers -/

namespace Verif
open Blit Accessor Spec Machine

/-! ## Statistics -/

/-- **C101 (statistics; partial: the sub-blocks lie in a rectangle, and the values of each dimension in an interval, of the range of `int`).** However near the limits
of `int` its coordinates are: for every document whose sub-blocks lie in a rectangle with `int` position, size and end points, and whose dimension values lie in
intervals with `int` start, size and end, computing the statistics - with the additions and subtractions of `int` that the code executes - overflows nowhere, and the
statistics are exact: number, bounding boxes, ranges of all dimensions and of the m-index, boxes of all scenes. -/
theorem C101_statistics_partial (es : List Entry) (hes : ∀ e ∈ es, EntryOk e) (hframe : FitsFrame es) (hdims : FitsIntervals es)
    (hn : es.length ≤ 2147483647) : ∃ s, Machine.statistics es = some s ∧ StatsExact s es := by
  obtain ⟨F, hF, hin⟩ := hframe
  have hI : ∀ d, ∃ I : Int × Int, (IsInt I.1 ∧ IsInt I.2 ∧ IsInt (I.1 + I.2)) ∧ ∀ e ∈ es, ∀ v, e.coordinate d = some v → I.1 ≤ v ∧ v < I.1 + I.2 := by
    intro d
    obtain ⟨lo, n, h1, h2, h3, h4⟩ := hdims d
    exact ⟨(lo, n), ⟨h1, h2, h3⟩, h4⟩
  choose I hI1 hI2 using hI
  refine ⟨es.foldl Stats.update Stats.init, ?_, (statsInv_fold es hes).exact⟩
  exact statistics_ok hF hI1 es Stats.init (statsIn_init F I) (fun e he => ⟨hin e he, fun d v hv => hI2 d e he v hv⟩) (Int.le_refl _)
    (by show (0 : Int) + _ ≤ _; omega)

private def entryAt (x y w h c : Int) : Entry :=
  { coordinate := fun d => if d = .C then some c else none, mIndex := intMin, x := x, y := y, width := w, height := h, storedWidth := w, storedHeight := h,
    pixelType := 0, filePosition := 0, compression := 0, pyramidType := 0 }

/-- Two sub-blocks as far from each other as `int` allows. -/
private def farApart : List Entry := [entryAt 2147483547 2147483600 100 47 5, entryAt 0 0 100 5 2147483646]

/-- Instance: the hypotheses hold of `farApart`. -/
example : (∀ e ∈ farApart, EntryOk e) ∧ FitsFrame farApart ∧ FitsIntervals farApart ∧ farApart.length ≤ 2147483647 := by
  refine ⟨?_, ⟨⟨0, 0, 2147483647, 2147483647⟩, by simp [Representable, IsInt], ?_⟩, ?_, by decide⟩
  · intro e he
    simp only [farApart, List.mem_cons, List.not_mem_nil, or_false] at he
    rcases he with rfl | rfl <;> simp [EntryOk, entryAt, HasM, intMin, intMax]
  · intro e he
    simp only [farApart, List.mem_cons, List.not_mem_nil, or_false] at he
    rcases he with rfl | rfl <;> simp [InFrame, Entry.rect, entryAt]
  · intro d
    refine ⟨5, 2147483642, by simp [IsInt], by simp [IsInt], by simp [IsInt], ?_⟩
    intro e he v hv
    simp only [farApart, List.mem_cons, List.not_mem_nil, or_false] at he
    rcases he with rfl | rfl <;> simp only [entryAt] at hv <;> split at hv <;> cases hv <;> omega

/-- Its statistics: a box and an interval ending at the largest `int`. -/
example : (Machine.statistics farApart).map (fun s => (s.count, s.bbox, s.bbox0, s.dimBounds .C)) =
    some (2, ⟨0, 0, 2147483647, 2147483647⟩, ⟨0, 0, 2147483647, 2147483647⟩, some (5, 2147483642)) := by decide +kernel

/-- **C101 (violated: bounding boxes).** Whenever the sub-blocks of a document do not lie in a rectangle with `int` position, size and end points - one of them ends
beyond the largest `int`, or two are too far apart - computing the statistics is undefined (signed overflow). This holds for every document with two sub-blocks or
more, in any order; the statistics are computed when the document is opened. -/
theorem C101_statistics_violated (es : List Entry) (hes : ∀ e ∈ es, EntryInts e) (h2 : 2 ≤ es.length) (hframe : ¬ FitsFrame es) :
    Machine.statistics es = none := by
  cases h : Machine.statistics es with
  | none => rfl
  | some s =>
    exfalso
    have hc := statistics_some es [] h computed_init hes
    rw [List.nil_append] at hc
    obtain ⟨r1, r2, r3, r4, r5, r6⟩ := hc.box.ne (by intro hn; rw [hn] at h2; simp at h2)
    obtain ⟨t1, t2⟩ := hc.box.two h2
    exact hframe ⟨s.bbox, ⟨r1, r2, r5, r6, r3, r4, t1, t2⟩, hc.box.has⟩

/-- Instances: a sub-block that ends beyond the largest `int` beside another one; two sub-blocks too far apart. -/
example : ¬ FitsFrame [entryAt 2147483600 0 100 5 0, entryAt 0 0 1 1 0] ∧ ¬ FitsFrame [entryAt (-1) 0 1 1 0, entryAt 2147483646 0 1 1 0] ∧
    (∀ e ∈ [entryAt 2147483600 0 100 5 0, entryAt 0 0 1 1 0, entryAt (-1) 0 1 1 0, entryAt 2147483646 0 1 1 0], EntryInts e) := by
  refine ⟨?_, ?_, ?_⟩
  · rintro ⟨F, hF, h⟩
    have := h (entryAt 2147483600 0 100 5 0) (by simp)
    simp only [InFrame, Entry.rect, entryAt] at this
    simp only [Representable, IsInt] at hF
    omega
  · rintro ⟨F, hF, h⟩
    have h1 := h (entryAt (-1) 0 1 1 0) (by simp)
    have h2 := h (entryAt 2147483646 0 1 1 0) (by simp)
    simp only [InFrame, Entry.rect, entryAt] at h1 h2
    simp only [Representable, IsInt] at hF
    omega
  · intro e he
    simp only [List.mem_cons, List.not_mem_nil, or_false] at he
    rcases he with rfl | rfl | rfl | rfl <;> simp [EntryInts, IsInt, entryAt]

/-- **C101 (violated: ranges of dimensions).** Whenever two sub-blocks have values of the same dimension whose distance, plus one, is not an `int`, computing the
statistics is undefined; no order of the sub-blocks helps. -/
theorem C101_intervals_violated (es : List Entry) (hes : ∀ e ∈ es, EntryInts e) (e e' : Entry) (he : e ∈ es) (he' : e' ∈ es) (d : Dim) (v v' : Int)
    (hv : e.coordinate d = some v) (hv' : e'.coordinate d = some v') (hfar : v' - v + 1 > 2147483647) : Machine.statistics es = none := by
  cases h : Machine.statistics es with
  | none => rfl
  | some s =>
    exfalso
    have hc := statistics_some es [] h computed_init hes
    rw [List.nil_append] at hc
    obtain ⟨s1, n1, a1, a2, a3, a4⟩ := hc.values e he d v hv
    obtain ⟨s2, n2, b1, b2, b3, b4⟩ := hc.values e' he' d v' hv'
    rw [a1] at b1
    cases b1
    unfold IsInt at a4
    omega

/-- Instance: C = -1 and C = 2147483646. -/
example : Machine.statistics [entryAt 0 0 1 1 (-1), entryAt 0 0 1 1 2147483646] = none :=
  C101_intervals_violated _ (by
      intro e he
      simp only [List.mem_cons, List.not_mem_nil, or_false] at he
      rcases he with rfl | rfl <;> simp [EntryInts, IsInt, entryAt])
    (entryAt 0 0 1 1 (-1)) (entryAt 0 0 1 1 2147483646) (by simp) (by simp) .C (-1) 2147483646 rfl rfl (by decide)

private theorem updateInterval_largest {b : Bounds} {d : Dim} (h : Cov b d 2147483647) : Machine.updateInterval b d 2147483647 = none := by
  obtain ⟨s, n, h1, h2, h3, h4⟩ := h
  unfold Machine.updateInterval
  rw [h1]
  dsimp only
  rw [if_neg (by omega), i32_none (by unfold IsInt; omega)]
  rfl

private theorem updateDims_largest {e : Entry} {d : Dim} (hd : e.coordinate d = some 2147483647) : ∀ (ds : List Dim) (s : Stats),
    (∀ d k n, s.dimBounds d = some (k, n) → IsInt n ∧ 0 < n) → Cov s.dimBounds d 2147483647 → d ∈ ds → ds.foldlM (Machine.updateDim e) s = none
  | [], _, _, _, h => by cases h
  | d' :: ds, s, hb, hc, h => by
    rw [List.foldlM_cons]
    by_cases hdd : d = d'
    · subst hdd
      have : Machine.updateDim e s d = none := by
        unfold Machine.updateDim
        rw [hd]
        dsimp only
        rw [updateInterval_largest hc]
        rfl
      rw [this]
      rfl
    · cases hu : Machine.updateDim e s d' with
      | none => rfl
      | some s1 =>
        have h1 : [d'].foldlM (Machine.updateDim e) s = some s1 := by
          rw [List.foldlM_cons, hu]
          rfl
        obtain ⟨_, u2, u3, _⟩ := updateDims_some [d'] h1 hb
        exact updateDims_largest hd ds s1 u2 (u3 _ _ hc) (by
          rcases List.mem_cons.1 h with h | h
          · exact absurd h hdd
          · exact h)

/-- **C101 (violated: the largest index).** Whenever two sub-blocks of a document have the value 2147483647 of the same dimension, computing the statistics is
undefined, although the value is an `int` and the interval has one element: the code forms the end of the interval. -/
theorem C101_largest_index_violated (l1 l2 l3 : List Entry) (e e' : Entry) (hes : ∀ x ∈ l1 ++ e :: l2, EntryInts x) (d : Dim)
    (he : e.coordinate d = some 2147483647) (he' : e'.coordinate d = some 2147483647) : Machine.statistics (l1 ++ e :: l2 ++ e' :: l3) = none := by
  unfold Machine.statistics
  rw [List.foldlM_append]
  cases h : (l1 ++ e :: l2).foldlM statsUpdate Stats.init with
  | none => rfl
  | some s =>
    have hc := statistics_some _ [] h computed_init hes
    rw [List.nil_append] at hc
    have hcov := hc.values e (by simp) d _ he
    have : statsUpdate s e' = none := by
      unfold statsUpdate
      cases Machine.updateBoundingBox s.bbox e' with
      | none => rfl
      | some b =>
        rw [Option.bind_some]
        cases (if e'.isLayer0 then Machine.updateBoundingBox s.bbox0 e' else some s.bbox0) with
        | none => rfl
        | some b0 =>
          rw [Option.bind_some, updateDims_largest he' e'.coordinate.validDims { s with bbox := b, bbox0 := b0 } hc.sizes hcov (by
            unfold Coord.validDims
            rw [List.mem_filter]
            exact ⟨by cases d <;> decide, by rw [he']; rfl⟩)]
          rfl
    show (e' :: l3).foldlM statsUpdate s = none
    rw [List.foldlM_cons, this]
    rfl

/-- Instance: a single such sub-block is fine, two are not. -/
example : (Machine.statistics [entryAt 0 0 1 1 2147483647]).map (fun s => s.dimBounds .C) = some (some (2147483647, 1)) ∧
    Machine.statistics [entryAt 0 0 1 1 2147483647, entryAt 0 0 1 1 2147483647] = none :=
  ⟨by decide +kernel, C101_largest_index_violated [] [] [] _ _ (by
      intro e he
      simp only [List.nil_append, List.mem_cons, List.not_mem_nil, or_false] at he
      rcases he with rfl
      simp [EntryInts, IsInt, entryAt]) .C rfl rfl⟩

/-! ## Queries -/

private theorem plane_iff (plane : Option Coord) (e : Entry) : (match plane with | none => true | some c => compareCoordinate c e.coordinate) = true ↔
    ∀ c, plane = some c → ∀ d v, c d = some v → e.coordinate d = some v := by
  cases plane with
  | none => simp
  | some c =>
    dsimp only
    constructor
    · intro h c' hc d v hv
      cases hc
      exact (compareCoordinateFrom_iff c e.coordinate Dim.all).1 h d (Dim.mem_all d) v hv
    · intro h
      exact (compareCoordinateFrom_iff c e.coordinate Dim.all).2 (fun d _ v hv => h c rfl d v hv)

private theorem choose_ok {σ : Type} (b : Bool) (o : Option Bool) (v : Bool) (x y : Bool × σ) (h : b = true → o = some v) :
    (if b = true then o.bind fun c => if c = true then some x else some y else some y) = some (if b = true then (if v = true then x else y) else y) := by
  cases b with
  | false => rfl
  | true => rw [h rfl]; cases v <;> rfl

open Classical in
/-- **C101 (queries; partial: the region and the sub-blocks of the plane are rectangles of the range of `int`).** Enumerating the sub-blocks of a plane, a region and
(if requested) layer 0 overflows nowhere, and presents exactly the sub-blocks of that plane that share a pixel with the region, in the order of the directory, until the
callback declines. -/
theorem C101_query_partial {σ : Type} (items : List (Int × Entry)) (plane : Option Coord) (roi : Option IntRect) (l0 : Bool) (f : σ → Int → Entry → Bool × σ) (st : σ)
    (hroi : ∀ r, roi = some r → Representable r) (hitems : ∀ p ∈ items, Matches plane none l0 p.2 → Representable p.2.rect) :
    Machine.enumSubset items plane roi l0 (fun st i e => some (f st i e)) st =
      some (presentItems f (items.filter (fun p => Matches plane roi l0 p.2)) st) := by
  rw [← C19_subset_exact]
  unfold Machine.enumSubset Verif.enumSubset
  refine enumerate_machine items st ?_
  rintro ⟨i, e⟩ hp st
  dsimp only
  split
  · rename_i h0
    refine choose_ok _ _ _ _ _ (fun hc => ?_)
    cases roi with
    | none => rfl
    | some r =>
      have hm : Matches plane none l0 e := by
        refine ⟨(plane_iff plane e).1 hc, (fun r h => by cases h), ?_⟩
        intro hl
        rcases h0 with h0 | h0
        · rw [hl] at h0; exact absurd h0 (by simp)
        · exact ⟨h0.1.symm, h0.2.symm⟩
      have hr := hitems _ hp hm
      have hq := hroi r rfl
      exact doIntersect_ok ⟨hq.2.2.2.2.2.2.1, hq.2.2.2.2.2.2.2⟩ ⟨hr.2.2.2.2.2.2.1, hr.2.2.2.2.2.2.2⟩ hq.2.2.2.2.1 hq.2.2.2.2.2.1
  · rfl

/-- Instance: the largest region beginning at 0, and a sub-block in its last pixel. -/
example : Machine.enumSubset [(0, entryAt 2147483646 5 1 1 0), (1, entryAt (-5) 5 5 1 0)] none (some ⟨0, 0, 2147483647, 2147483647⟩) true
    (fun (st : List Int) i _ => some (true, st ++ [i])) [] = some [0] := by decide +kernel

private theorem step_none {σ τ : Type} (b : Bool) (o : Option Bool) (g : Bool → Option (Bool × σ)) (y : Bool × σ) (k : Bool × σ → Option τ) (ho : o = none)
    (h : b = true ∨ (some y).bind k = none) : ((if b = true then o.bind g else some y).bind k) = none := by
  subst ho
  cases b with
  | true => rfl
  | false => exact h.resolve_left (by simp)

/-- **C101 (violated: queries).** A region whose end is not an `int` - such as one that begins at 1 and is as large as an `int` can tell - makes the enumeration undefined for every
document that has a sub-block in the plane (on layer 0, if requested), wherever that sub-block is, and whatever the callback does. -/
theorem C101_query_violated {σ : Type} (items : List (Int × Entry)) (plane : Option Coord) (r : IntRect) (l0 : Bool) (f : σ → Int → Entry → Option (Bool × σ)) (st : σ)
    (hr : ¬ IsInt (r.x + r.w) ∨ ¬ IsInt (r.y + r.h)) (hex : ∃ p ∈ items, Matches plane none l0 p.2) :
    Machine.enumSubset items plane (some r) l0 f st = none := by
  unfold Machine.enumSubset
  induction items generalizing st with
  | nil => obtain ⟨p, hp, _⟩ := hex; cases hp
  | cons q items ih =>
    obtain ⟨i, e⟩ := q
    unfold Machine.enumerate
    have hu : doIntersect r e.rect = none := doIntersect_undefined (Or.inl (by
      unfold Ends
      rintro ⟨h1, h2⟩
      rcases hr with h | h
      · exact h h1
      · exact h h2))
    split
    · rename_i h0
      refine step_none _ (doIntersect r e.rect) _ _ _ hu ?_
      by_cases hc : ∀ c, plane = some c → ∀ d v, c d = some v → e.coordinate d = some v
      · exact Or.inl ((plane_iff plane e).2 hc)
      · right
        rw [Option.bind_some, if_neg (by simp)]
        refine ih st ?_
        obtain ⟨p, hp, hm⟩ := hex
        rcases List.mem_cons.1 hp with rfl | hp
        · exact absurd hm.1 hc
        · exact ⟨p, hp, hm⟩
    · rename_i h0
      rw [Option.bind_some, if_neg (by simp)]
      refine ih st ?_
      obtain ⟨p, hp, hm⟩ := hex
      rcases List.mem_cons.1 hp with rfl | hp
      · exfalso
        apply h0
        cases l0 with
        | false => exact Or.inl rfl
        | true => exact Or.inr ⟨(hm.2.2 rfl).1.symm, (hm.2.2 rfl).2.symm⟩
      · exact ⟨p, hp, hm⟩

/-- Instance: the region that begins at (1, 1) and is as large as possible. -/
example : Machine.enumSubset [(0, entryAt 0 0 1 1 0)] none (some ⟨1, 1, 2147483647, 2147483647⟩) true (fun (st : List Int) i _ => some (true, st ++ [i])) [] = none :=
  C101_query_violated _ _ _ _ _ _ (Or.inl (by simp [IsInt])) ⟨_, List.mem_cons_self, by simp [Matches, OnLayer0, entryAt]⟩

/-! ## Pictures -/

private theorem offset_fits {xPos yPos : Int} {dst : Bitmap} (hroi : Representable ⟨xPos, yPos, dst.w, dst.h⟩) {e : Entry} (he : Representable e.rect) {bm : Bitmap}
    (hw : (bm.w : Int) = e.width) (hh : (bm.h : Int) = e.height) (hsw : IsInt (dst.w + e.width)) (hsh : IsInt (dst.h + e.height))
    (hint : (⟨xPos, yPos, dst.w, dst.h⟩ : IntRect).doIntersect e.rect = true) : CopyFits bm.w bm.h dst (e.x - xPos) (e.y - yPos) := by
  obtain ⟨px, py, h1, h2⟩ := (doIntersect_iff_shared _ _).1 hint
  simp only [Representable, IsInt, Entry.rect, IntRect.Has, CopyFits] at *
  omega

/-- **C101 (pictures; partial: the region and the sub-blocks are rectangles of the range of `int`, and the sum of the sizes of the region and of each sub-block is an
`int`; with the visibility optimisation, all sub-blocks lie in one rectangle of the range of `int`; otherwise the conditions of C33).** The picture of a region is
computed without overflow anywhere - selecting the sub-blocks, the visibility check, the offsets of the tiles, the clipping - however near the limits of `int`
the region and the sub-blocks are, and each pixel is that of a sub-block painted above all others that cover it, or background. -/
theorem C101_picture_partial (sort : List Item → List Item) (hsort : SortsBy mKey sort) (k : Kind) (items : List Item)
    (bounds : Bounds) (plane : Coord) (useVisibilityCheck : Bool) (pix : Pictures) (xPos yPos : Int) (dst : Bitmap)
    (hplane : checkPlane bounds plane = none) (hdst : dst.WF k.db)
    (hitems : ∀ p ∈ items, Matches (some plane) none true p.2 → -2147483648 ≤ p.2.mIndex ∧ TileOk k (tileAt pix p) ∧
      ((pix p.1).1.w : Int) = p.2.width ∧ ((pix p.1).1.h : Int) = p.2.height)
    (hvis : useVisibilityCheck = true → k.NoOverread ∧ ∀ p ∈ items, (pix p.1).2 = none)
    (hroi : Representable ⟨xPos, yPos, dst.w, dst.h⟩)
    (hfit : ∀ p ∈ items, Matches (some plane) none true p.2 → Representable p.2.rect ∧ IsInt (dst.w + p.2.width) ∧ IsInt (dst.h + p.2.height) ∧
      ∀ m, (pix p.1).2 = some m → IsInt m.w ∧ IsInt m.h)
    (hframe : useVisibilityCheck = true → ∃ frame, Representable frame ∧ ∀ p ∈ items, Matches (some plane) none true p.2 → InFrame frame p.2.rect) :
    ∃ out, Machine.tileAccessorGet sort k items bounds plane true useVisibilityCheck pix xPos yPos dst = .ok (some out) ∧
      out.w = dst.w ∧ out.h = dst.h ∧
      (∀ x y j, x < dst.w → y < dst.h → j < k.db →
        Painted k (fun p => p ∈ items ∧ Matches (some plane) none true p.2) (tileAt pix) (xPos + x) (yPos + y) j
          (dst.byteAt k.db x y j) (out.byteAt k.db x y j)) ∧
      (∀ i, dst.IsPadding k.db i → out.buf.get i = dst.buf.get i) := by
  classical
  have hsame : Machine.tileAccessorGet sort k items bounds plane true useVisibilityCheck pix xPos yPos dst =
      Accessor.tileAccessorGet sort k items bounds plane true useVisibilityCheck pix xPos yPos dst := by
    unfold Machine.tileAccessorGet Accessor.tileAccessorGet
    rw [hplane]
    dsimp only
    have hw : asInt dst.w = dst.w := asInt_ok hroi.2.2.2.2.1
    have hh : asInt dst.h = dst.h := asInt_ok hroi.2.2.2.2.2.1
    rw [hw, hh, layer0SubBlocks_machine hroi (fun p hp hm => (hfit p hp hm).1), Option.bind_some, if_pos rfl]
    congr 1
    obtain ⟨hperm, -⟩ := hsort (Accessor.layer0SubBlocks items plane ⟨xPos, yPos, dst.w, dst.h⟩)
    have hmem : ∀ p ∈ sort (Accessor.layer0SubBlocks items plane ⟨xPos, yPos, dst.w, dst.h⟩),
        (p ∈ items ∧ Matches (some plane) none true p.2) ∧ (⟨xPos, yPos, dst.w, dst.h⟩ : IntRect).doIntersect p.2.rect = true := by
      intro p hp
      rw [hperm.mem_iff, layer0SubBlocks_eq, List.mem_filter, List.mem_filter, decide_eq_true_eq] at hp
      exact hp
    generalize sort (Accessor.layer0SubBlocks items plane ⟨xPos, yPos, dst.w, dst.h⟩) = l at hmem
    have htile : ∀ p ∈ l, CopyFits (pix p.1).1.w (pix p.1).1.h dst (p.2.x - xPos) (p.2.y - yPos) ∧ ∀ m, (pix p.1).2 = some m → IsInt m.w ∧ IsInt m.h := by
      intro p hp
      obtain ⟨⟨m1, m2⟩, m3⟩ := hmem p hp
      obtain ⟨-, -, i1, i2⟩ := hitems p m1 m2
      obtain ⟨f1, f2, f3, f4⟩ := hfit p m1 m2
      exact ⟨offset_fits hroi f1 i1 i2 f2 f3 m3, f4⟩
    unfold Machine.accessorComposeTiles Blit.accessorComposeTiles
    dsimp only
    split
    · rename_i hv
      obtain ⟨F, hF, hin⟩ := hframe hv
      rw [hw, hh, checkForVisibility_machine hF hroi _ _ (by
        intro i hi
        rw [List.length_map] at hi
        rw [List.getElem?_map, List.getElem?_eq_getElem hi]
        obtain ⟨⟨m1, m2⟩, -⟩ := hmem l[i] (List.getElem_mem hi)
        exact hin _ m1 m2)]
      congr 1
      funext vis
      refine composeTiles_machine k xPos yPos _ dst ?_
      intro t ht
      rw [List.mem_filterMap] at ht
      obtain ⟨i, -, hi⟩ := ht
      rw [Option.map_eq_some_iff] at hi
      obtain ⟨q, hq, rfl⟩ := hi
      have := List.mem_of_getElem? hq
      rw [List.mem_map] at this
      obtain ⟨p, hp, rfl⟩ := this
      exact htile p hp
    · refine composeTiles_machine k xPos yPos _ dst ?_
      intro t ht
      rw [List.mem_map] at ht
      obtain ⟨q, hq, rfl⟩ := ht
      rw [List.mem_map] at hq
      obtain ⟨p, hp, rfl⟩ := hq
      exact htile p hp
  rw [hsame]
  exact C33_accessor_topmost_partial sort hsort k items bounds plane useVisibilityCheck pix xPos yPos dst hplane hdst hitems hvis

private def cornerItems : List Item := [(0, entryAt 2147483645 (-2147483648) 2 2 0)]
private def cornerPix : Pictures := fun _ => (⟨2, 2, 2, ⟨4, fun i => if i = 0 then 7 else 9⟩⟩, none)
private def cornerBounds : Bounds := fun d => if d = .C then some (0, 1) else none
private def cornerPlane : Coord := fun d => if d = .C then some 0 else none
private def cornerDst : Bitmap := ⟨3, 2, 3, ⟨6, fun _ => 1⟩⟩

/-- Instance: the region ends at the largest x and begins at the smallest y, and so does the sub-block in it. -/
example : checkPlane cornerBounds cornerPlane = none ∧ cornerDst.WF (Kind.same 1).db ∧
    (∀ p ∈ cornerItems, Matches (some cornerPlane) none true p.2 → -2147483648 ≤ p.2.mIndex ∧ TileOk (.same 1) (tileAt cornerPix p) ∧
      ((cornerPix p.1).1.w : Int) = p.2.width ∧ ((cornerPix p.1).1.h : Int) = p.2.height) ∧
    ((Kind.same 1).NoOverread ∧ ∀ p ∈ cornerItems, (cornerPix p.1).2 = none) ∧ Representable ⟨2147483644, -2147483648, cornerDst.w, cornerDst.h⟩ ∧
    (∀ p ∈ cornerItems, Matches (some cornerPlane) none true p.2 → Representable p.2.rect ∧ IsInt (cornerDst.w + p.2.width) ∧ IsInt (cornerDst.h + p.2.height) ∧
      ∀ m, (cornerPix p.1).2 = some m → IsInt m.w ∧ IsInt m.h) ∧
    ∃ frame, Representable frame ∧ ∀ p ∈ cornerItems, Matches (some cornerPlane) none true p.2 → InFrame frame p.2.rect := by
  refine ⟨by decide +kernel, by simp [Bitmap.WF, Kind.db, cornerDst], ?_, ⟨by simp [Kind.NoOverread], ?_⟩, by simp [Representable, IsInt, cornerDst], ?_,
    ⟨2147483645, -2147483648, 2, 2⟩, by simp [Representable, IsInt], ?_⟩
  · intro p hp _
    rw [cornerItems, List.mem_singleton] at hp
    subst hp
    simp [entryAt, tileAt, cornerPix, TileOk, Bitmap.WF, Kind.sb, Kind.NoOverread, intMin]
  · intro p _
    rfl
  · intro p hp _
    rw [cornerItems, List.mem_singleton] at hp
    subst hp
    simp [entryAt, cornerPix, Representable, IsInt, Entry.rect, cornerDst]
  · intro p hp _
    rw [cornerItems, List.mem_singleton] at hp
    subst hp
    simp [entryAt, InFrame, Entry.rect]

private def okBytes (r : Except PlaneError (Option Bitmap)) : Option (List UInt8) :=
  match r with
  | .ok (some b) => some ((List.range 6).map b.buf.get)
  | _ => none

/-- Its picture, with and without the visibility check: background in the first column, the sub-block in the other two. -/
example : okBytes (Machine.tileAccessorGet (fun l => l) (.same 1) cornerItems cornerBounds cornerPlane true true cornerPix 2147483644 (-2147483648) cornerDst) =
      some [1, 7, 9, 1, 9, 9] ∧
    okBytes (Machine.tileAccessorGet (fun l => l) (.same 1) cornerItems cornerBounds cornerPlane true false cornerPix 2147483644 (-2147483648) cornerDst) =
      some [1, 7, 9, 1, 9, 9] := by decide +kernel

private theorem enumSubset_none {σ : Type} (items : List (Int × Entry)) (plane : Option Coord) (l0 : Bool) (f : σ → Int → Entry → Option (Bool × σ)) (st : σ)
    (hf : ∀ st i e, f st i e = none) (hex : ∃ p ∈ items, Matches plane none l0 p.2) : Machine.enumSubset items plane none l0 f st = none := by
  unfold Machine.enumSubset
  induction items generalizing st with
  | nil => obtain ⟨p, hp, _⟩ := hex; cases hp
  | cons q items ih =>
    obtain ⟨i, e⟩ := q
    unfold Machine.enumerate
    split
    · rename_i h0
      by_cases hc : ∀ c, plane = some c → ∀ d v, c d = some v → e.coordinate d = some v
      · have := (plane_iff plane e).2 hc
        cases plane with
        | none => dsimp only; rw [if_pos rfl, Option.bind_some, if_pos rfl, hf]; rfl
        | some c => dsimp only at this ⊢; rw [if_pos this, Option.bind_some, if_pos rfl, hf]; rfl
      · have hex' : ∃ p ∈ items, Matches plane none l0 p.2 := by
          obtain ⟨p, hp, hm⟩ := hex
          rcases List.mem_cons.1 hp with rfl | hp
          · exact absurd hm.1 hc
          · exact ⟨p, hp, hm⟩
        have hn := mt (plane_iff plane e).1 hc
        cases plane with
        | none => exact absurd rfl hn
        | some c =>
          dsimp only at hn ⊢
          rw [if_neg hn, Option.bind_some, if_neg (by simp)]
          exact ih st hex'
    · rename_i h0
      rw [Option.bind_some, if_neg (by simp)]
      refine ih st ?_
      obtain ⟨p, hp, hm⟩ := hex
      rcases List.mem_cons.1 hp with rfl | hp
      · exfalso
        apply h0
        cases l0 with
        | false => exact Or.inl rfl
        | true => exact Or.inr ⟨(hm.2.2 rfl).1.symm, (hm.2.2 rfl).2.symm⟩
      · exact ⟨p, hp, hm⟩

/-- **C101 (violated: the region of a picture).** If a region (position and size of the bitmap) ends beyond the largest `int`, requesting its picture is undefined for
every document with a layer-0 sub-block in the plane - wherever that is, with and without sorting and visibility check. -/
theorem C101_region_violated (sort : List Item → List Item) (k : Kind) (items : List Item) (bounds : Bounds) (plane : Coord) (sortByM vis : Bool) (pix : Pictures)
    (xPos yPos : Int) (dst : Bitmap) (hplane : checkPlane bounds plane = none) (hw : IsInt dst.w) (hh : IsInt dst.h)
    (hend : xPos + dst.w > 2147483647 ∨ yPos + dst.h > 2147483647) (hex : ∃ p ∈ items, Matches (some plane) none true p.2) :
    Machine.tileAccessorGet sort k items bounds plane sortByM vis pix xPos yPos dst = .ok none := by
  unfold Machine.tileAccessorGet
  rw [hplane]
  dsimp only
  rw [asInt_ok hw, asInt_ok hh]
  unfold Machine.layer0SubBlocks
  rw [enumSubset_none items (some plane) true _ _ (fun st i e => by
    rw [doIntersect_undefined (Or.inl (by
      unfold Ends IsInt
      dsimp only
      omega))]
    rfl) hex]
  rfl

/-- Instance. -/
example : ∃ p ∈ cornerItems, Matches (some cornerPlane) none true p.2 := by
  refine ⟨_, List.mem_cons_self, ?_, (fun r h => by cases h), fun _ => ⟨rfl, rfl⟩⟩
  intro c hc d v hv
  cases hc
  exact hv

private theorem composeTiles_none (k : Kind) (xPos yPos : Int) : ∀ (ts : List Tile) (dst : Bitmap),
    (∃ t ∈ ts, t.mask = none ∧ IsInt t.bm.w ∧ ¬ IsInt (t.x - xPos + t.bm.w)) → Machine.composeTiles k xPos yPos ts dst = none
  | [], _, h => by obtain ⟨t, ht, _⟩ := h; cases ht
  | t :: ts, dst, h => by
    unfold Machine.composeTiles
    obtain ⟨t', ht', hm, hi, hn⟩ := h
    cases h1 : i32 (t.x - xPos) with
    | none => rfl
    | some dx =>
      cases h2 : i32 (t.y - yPos) with
      | none => rfl
      | some dy =>
        obtain ⟨_, rfl⟩ := i32_some h1
        rw [Option.bind_some, Option.bind_some]
        rcases List.mem_cons.1 ht' with rfl | ht'
        · unfold Machine.copyWithOffsetAndMask
          rw [hm]
          dsimp only
          unfold Machine.copyWithOffset
          rw [asInt_ok hi, intersect_undefined (Or.inl (fun h => hn h.1))]
          rfl
        · cases Machine.copyWithOffsetAndMask k t.bm dst t.mask (t.x - xPos) dy with
          | none => rfl
          | some out => exact composeTiles_none k xPos yPos ts out ⟨t', ht', hm, hi, hn⟩

/-- **C101 (violated: offsets of tiles).** Even if the region and all sub-blocks are rectangles of the range of `int`: if a sub-block that shares a pixel with the region
ends more than 2147483647 pixels to the right of the region's left edge, its picture is undefined (no visibility check), although no pixel beyond the region is asked for. -/
theorem C101_offset_violated (sort : List Item → List Item) (hsort : ∀ l, (sort l).Perm l) (k : Kind) (items : List Item) (bounds : Bounds) (plane : Coord)
    (sortByM : Bool) (pix : Pictures) (xPos yPos : Int) (dst : Bitmap) (hplane : checkPlane bounds plane = none)
    (hroi : Representable ⟨xPos, yPos, dst.w, dst.h⟩) (hitems : ∀ p ∈ items, Matches (some plane) none true p.2 → Representable p.2.rect)
    (p : Item) (hp : p ∈ items) (hm : Matches (some plane) (some ⟨xPos, yPos, dst.w, dst.h⟩) true p.2) (hpix : (pix p.1).2 = none)
    (hw : ((pix p.1).1.w : Int) = p.2.width) (hfar : p.2.x + p.2.width - xPos > 2147483647) :
    Machine.tileAccessorGet sort k items bounds plane sortByM false pix xPos yPos dst = .ok none := by
  classical
  unfold Machine.tileAccessorGet
  rw [hplane]
  dsimp only
  rw [asInt_ok hroi.2.2.2.2.1, asInt_ok hroi.2.2.2.2.2.1, layer0SubBlocks_machine hroi hitems, Option.bind_some]
  have hm0 : Matches (some plane) none true p.2 := ⟨hm.1, (fun r h => by cases h), hm.2.2⟩
  have hfound : p ∈ Accessor.layer0SubBlocks items plane ⟨xPos, yPos, dst.w, dst.h⟩ := by
    rw [layer0SubBlocks_eq, List.mem_filter, List.mem_filter, decide_eq_true_eq]
    refine ⟨⟨hp, hm0⟩, (doIntersect_iff_shared _ _).2 ?_⟩
    exact hm.2.1 _ rfl
  have hord : p ∈ (if sortByM then sort (Accessor.layer0SubBlocks items plane ⟨xPos, yPos, dst.w, dst.h⟩)
      else Accessor.layer0SubBlocks items plane ⟨xPos, yPos, dst.w, dst.h⟩) := by
    split
    · exact (hsort _).mem_iff.2 hfound
    · exact hfound
  unfold Machine.accessorComposeTiles
  dsimp only
  rw [if_neg (by simp), composeTiles_none k xPos yPos _ dst ?_]
  refine ⟨⟨p.2.rect.x, p.2.rect.y, (pix p.1).1, (pix p.1).2⟩, ?_, hpix, ?_, ?_⟩
  · rw [List.mem_map]
    exact ⟨_, List.mem_map.2 ⟨p, hord, rfl⟩, rfl⟩
  · have := (hitems p hp hm0).2.2.2.2.1
    dsimp only
    rw [hw]
    exact this
  · dsimp only
    rw [hw]
    unfold Entry.rect IsInt
    dsimp only
    omega

/-- Instance: a sub-block of 2147483647 pixels width beginning at 0, and the region of the two pixels -1 and 0. -/
example : Representable ⟨-1, 0, 2, 1⟩ ∧ Representable (entryAt 0 0 2147483647 1 0).rect ∧
    Matches (some cornerPlane) (some ⟨-1, 0, 2, 1⟩) true (entryAt 0 0 2147483647 1 0) ∧
    (entryAt 0 0 2147483647 1 0).x + (entryAt 0 0 2147483647 1 0).width - (-1) > 2147483647 := by
  refine ⟨by simp [Representable, IsInt], by simp [Representable, IsInt, Entry.rect, entryAt], ⟨?_, ?_, fun _ => ⟨rfl, rfl⟩⟩, by simp [entryAt]⟩
  · intro c hc d v hv
    cases hc
    exact hv
  · intro r hr
    cases hr
    exact ⟨0, 0, by simp [IntRect.Has], by simp [IntRect.Has, entryAt]⟩

end Verif
