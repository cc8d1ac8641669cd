import Verif.Proof.Coord
import Verif.Proof.Enum

/-!
# C22 coordinate comparison, C23 enumeration of coordinates, C24 file codes, C25 frames of reference, C50 GUIDs
-/

namespace Verif
open Spec EnumAll

/-! ## C22 -/

/-- **C22 (order).** `Utils::Compare` returns -1, 0 or 1; 0 exactly for equal coordinates (same dimensions, same
values); swapping the arguments flips the sign; "not greater" is transitive. -/
theorem C22_compare_total_order :
    (∀ a b : Coord, a.compare b = -1 ∨ a.compare b = 0 ∨ a.compare b = 1) ∧
    (∀ a b : Coord, a.compare b = 0 ↔ ∀ d, a d = b d) ∧
    (∀ a b : Coord, b.compare a = - a.compare b) ∧
    (∀ a b c : Coord, a.compare b ≤ 0 → b.compare c ≤ 0 → a.compare c ≤ 0) := by
  refine ⟨fun a b => compareFrom_values a b _, fun a b => ?_, fun a b => compareFrom_neg a b _,
    fun a b c => compareFrom_trans a b c _⟩
  unfold Coord.compare
  rw [compareFrom_eq_zero]
  exact ⟨fun h d => h d (Dim.mem_all d), fun h d _ => h d⟩

/-- **C22 (lexicographic).** The sign is decided by the first dimension (order Z,C,T,R,S,I,H,V,B) in which the
coordinates differ; there a missing value is smaller than every value. -/
theorem C22_compare_first_difference (a b : Coord) (pre post : List Dim) (d : Dim)
    (hall : Dim.all = pre ++ d :: post) (hpre : ∀ e ∈ pre, a e = b e) :
    (∀ x y, a d = some x → b d = some y → x < y → a.compare b = -1) ∧
    (∀ y, a d = none → b d = some y → a.compare b = -1) := by
  have key : ∀ pre, (∀ e ∈ pre, a e = b e) → compareFrom a b (pre ++ d :: post) = compareFrom a b (d :: post) := by
    intro pre
    induction pre with
    | nil => intro _; rfl
    | cons e pre ih =>
      intro h
      have he := h e (by simp)
      rw [List.cons_append]
      conv_lhs => unfold compareFrom
      rw [he]
      cases b e with
      | none => exact ih (fun e' h' => h e' (by simp [h']))
      | some v => simp; exact ih (fun e' h' => h e' (by simp [h']))
  unfold Coord.compare
  rw [hall, key pre hpre]
  constructor
  · intro x y h1 h2 h3
    unfold compareFrom
    simp only [h1, h2]
    rw [if_neg (by omega), if_pos h3]
  · intro y h1 h2
    unfold compareFrom
    simp [h1, h2]

/-- **C22 (matching).** `CompareCoordinate(a,b)` holds iff every dimension of `a` is present in `b` with the same
value. -/
theorem C22_compareCoordinate_iff (a b : Coord) :
    compareCoordinate a b = true ↔ ∀ d v, a d = some v → b d = some v := by
  unfold compareCoordinate
  rw [compareCoordinateFrom_iff]
  exact ⟨fun h d => h d (Dim.mem_all d), fun h d _ => h d⟩

example : ((Coord.empty.set .Z 1).set .C 2).compare ((Coord.empty.set .Z 1).set .T 7) = 1 ∧
    (Coord.empty.set .Z 1).compare ((Coord.empty.set .Z 1).set .T 7) = -1 := by decide

/-! ## C23 -/

/-- **C23 (partial: every declared interval is non-empty).** For bounds with at least one dimension, all with
positive size, there is one list `L` - containing exactly the coordinates within the bounds, each once, in odometer
order - such that for every callback the enumeration terminates and presents exactly `L` to it, stopping right
after the first `false` answer (and then returning `false`, otherwise `true`). For empty intervals the
property is violated, see `C23_empty_interval_delivers`. -/
theorem C23_enumerates_exactly_partial (b : Bounds) (hne : ∃ d, (b d).isSome)
    (hsize : ∀ d s n, b d = some (s, n) → 1 ≤ n) :
    ∃ L : List Coord, (∀ c, c ∈ L ↔ InBounds b c) ∧ L.Nodup ∧ L.Pairwise Before ∧
      ∀ (σ : Type) (f : σ → Nat → Coord → Bool × σ) (st : σ) (fuel : Nat), L.length ≤ fuel →
        enumAll b f fuel st = some (present f 0 L st) := by
  have hnd : b.validDims.Nodup := Dim.nodup_all.sublist List.filter_sublist
  have hmem : ∀ d, d ∈ b.validDims ↔ (b d).isSome := by
    intro d; unfold Bounds.validDims; simp [Dim.mem_all]
  have hned : NonEmptyDims b b.validDims := by
    intro d hd
    rw [hmem] at hd
    obtain ⟨⟨s, n⟩, h⟩ := Option.isSome_iff_exists.1 hd
    exact ⟨s, n, h, hsize d s n h⟩
  have hnn : b.validDims ≠ [] := by
    obtain ⟨d, hd⟩ := hne
    intro h
    have := (hmem d).2 hd
    rw [h] at this; simp at this
  have hpw : (coords b b.validDims).Pairwise Before := by
    refine (List.Pairwise.imp_of_mem ?_ (coords_pairwise b _ hnd))
    rintro c c' hc hc' ⟨pre, d, post, h1, h2, v, v', h3, h4, h5⟩
    have hd : d ∈ Dim.all := Dim.mem_all d
    obtain ⟨p, q, hpq⟩ := List.append_of_mem hd
    refine ⟨p, d, q, hpq, ?_, v, v', h3, h4, h5⟩
    intro e he
    by_cases hv : e ∈ b.validDims
    · -- both `post` and `q` are what follows `d`
      refine h2 e ?_
      have hf : b.validDims = p.filter (fun d => (b d).isSome) ++ d :: q.filter (fun d => (b d).isSome) := by
        unfold Bounds.validDims
        rw [hpq, List.filter_append, List.filter_cons_of_pos (p := fun d => (b d).isSome) ((hmem d).1 (by rw [h1]; simp))]
      have hnd' := hnd
      rw [h1] at hf
      have : post = q.filter (fun d => (b d).isSome) := by
        rw [h1] at hnd'
        clear h2 h3 h4 h5 he hpq
        have hdpre : d ∉ pre := by
          intro h
          rw [List.nodup_append] at hnd'
          exact hnd'.2.2 d h d (by simp) rfl
        have hdp : d ∉ p.filter (fun d => (b d).isSome) := by
          rw [hf, List.nodup_append] at hnd'
          intro h
          exact hnd'.2.2 d h d (by simp) rfl
        have := List.append_eq_append_iff.1 hf
        rcases this with ⟨as, ha1, ha2⟩ | ⟨bs, hb1, hb2⟩
        · cases as with
          | nil => simpa using ha2
          | cons x as =>
            simp only [List.cons_append, List.cons.injEq] at ha2
            exact absurd (by rw [ha1, ← ha2.1]; simp) hdp
        · cases bs with
          | nil => simpa using hb2.symm
          | cons x bs =>
            simp only [List.cons_append, List.cons.injEq] at hb2
            exact absurd (by rw [hb1, ← hb2.1]; simp) hdpre
      rw [this, List.mem_filter]
      exact ⟨he, (hmem e).1 hv⟩
    · rw [coords_none b _ c hc e hv, coords_none b _ c' hc' e hv]
  refine ⟨coords b b.validDims, ?_, ?_, hpw, ?_⟩
  · intro c
    rw [mem_coords b _ hnd]
    unfold InBounds
    constructor
    · rintro ⟨h1, h2⟩ d
      by_cases hd : d ∈ b.validDims
      · exact h2 d hd
      · have : b d = none := by
          rw [hmem] at hd; simpa using hd
        rw [this]; exact h1 d hd
    · intro h
      refine ⟨?_, fun d _ => h d⟩
      intro e he
      rw [hmem] at he
      have : b e = none := by simpa using he
      have h' := h e
      rw [this] at h'; exact h'
  · refine hpw.imp ?_
    rintro c c' ⟨_, d, _, _, _, v, v', h1, h2, h3⟩ rfl
    rw [h1] at h2; cases h2; omega
  · intro σ f st fuel hf
    unfold enumAll
    rw [if_neg hnn]
    have hh := coords_head b _ hnd hned
    have hrun := coords_run b _ hnd hned hnn
    cases hL : coords b b.validDims with
    | nil => rw [hL] at hh; simp at hh
    | cons c t =>
      rw [hL] at hh hrun
      simp only [List.head?_cons, Option.some.injEq] at hh
      rw [← hh]
      refine run_of_isRun b _ f t c 0 fuel st ?_ (by rw [hL] at hf; simpa using hf)
      refine isRun_congr ?_ hrun
      intro a _
      exact (advance_eq_adv b _ [] a (by simp) hnd (by intro d hd; simp at hd)).symm

/-- Without any dimension nothing is delivered and the result is `true`. -/
theorem C23_no_dimension (σ : Type) (f : σ → Nat → Coord → Bool × σ) (st : σ) (fuel : Nat) :
    enumAll (fun _ => none) f fuel st = some (true, st) := by
  have : Bounds.validDims (fun _ => none) = [] := by decide
  simp [enumAll, this]

/-- The bounds "Z0:2 T5:3" meet the hypotheses. -/
example : let b : Bounds := fun d => match d with | .Z => some (0, 2) | .T => some (5, 3) | _ => none
    (∃ d, (b d).isSome) ∧ ∀ d s n, b d = some (s, n) → 1 ≤ n := by
  refine ⟨⟨.Z, rfl⟩, ?_⟩
  intro d s n h
  cases d <;> simp at h <;> omega

/-- and the enumeration presents 6 coordinates, starting with (Z0,T5), (Z1,T5), (Z0,T6) -/
example : (enumAll (fun d => match d with | .Z => some (0, 2) | .T => some (5, 3) | _ => none)
    (fun (l : List (Option Int × Option Int)) _ c => (true, l ++ [(c .Z, c .T)])) 10 []) =
    some (true, [(some 0, some 5), (some 1, some 5), (some 0, some 6), (some 1, some 6), (some 0, some 7), (some 1, some 7)]) := by
  decide +kernel

/-- **C23 violated for empty intervals:** for the bounds "Z0:0", which contain no coordinate, the callback is
nevertheless called with Z=0. -/
theorem C23_empty_interval_delivers :
    let b : Bounds := fun d => if d = .Z then some (0, 0) else none
    (¬ ∃ c, InBounds b c) ∧
    enumAll b (fun (l : List (Option Int)) _ c => (true, l ++ [c .Z])) 1 [] = some (true, [some 0]) := by
  refine ⟨?_, by decide⟩
  rintro ⟨c, h⟩
  have := h .Z
  simp at this
  omega

/-! ## C24 -/

/-- **C24.** Decoding an encoded pixel type / compression mode / pyramid type / dimension yields it back. -/
theorem C24_round_trip :
    (∀ p, pixelTypeFromInt (intFromPixelType p) = p) ∧
    (∀ m, compressionModeFromInt (compressionModeToInt m) = m) ∧
    (∀ p, p ≠ .Invalid → pyramidTypeFromByte (byteFromPyramidType p) = p) ∧
    (∀ d, charToDimension (dimensionToChar d) = some d) := by
  refine ⟨?_, ?_, ?_, ?_⟩ <;> intro x <;> cases x <;> decide

/-- **C24.** A code decodes to a valid value only if it is that value's code: all other codes decode to Invalid,
and two different codes never decode to the same valid value. -/
theorem C24_unambiguous :
    (∀ i : Int, pixelTypeFromInt i ≠ .Invalid → intFromPixelType (pixelTypeFromInt i) = i) ∧
    (∀ i : Int, compressionModeFromInt i ≠ .Invalid → compressionModeToInt (compressionModeFromInt i) = i) ∧
    (∀ b : UInt8, pyramidTypeFromByte b ≠ .Invalid → byteFromPyramidType (pyramidTypeFromByte b) = b) ∧
    (∀ (c : Char) d, charToDimension c = some d → c = dimensionToChar d ∨ c = (dimensionToChar d).toLower) := by
  refine ⟨?_, ?_, ?_, ?_⟩
  · intro i h
    unfold pixelTypeFromInt at *
    repeat' split at h
    all_goals (first | (subst_vars; rfl) | exact absurd rfl h)
  · intro i h
    unfold compressionModeFromInt at *
    repeat' split at h
    all_goals (first | (subst_vars; rfl) | exact absurd rfl h)
  · intro i h
    unfold pyramidTypeFromByte at *
    repeat' split at h
    all_goals (first | (subst_vars; rfl) | exact absurd rfl h)
  · intro c d h
    unfold charToDimension at h
    repeat' split at h
    all_goals first
      | (cases h; rename_i hc; rcases hc with rfl | rfl <;> decide)
      | cases h

/-- **C24.** Distinct values have distinct codes. -/
theorem C24_injective :
    (∀ p q, intFromPixelType p = intFromPixelType q → p = q) ∧
    (∀ p q, compressionModeToInt p = compressionModeToInt q → p = q) ∧
    (∀ p q, p ≠ .Invalid → q ≠ .Invalid → byteFromPyramidType p = byteFromPyramidType q → p = q) ∧
    (∀ d e, dimensionToChar d = dimensionToChar e → d = e) := by
  refine ⟨?_, ?_, ?_, ?_⟩ <;> intro x y <;> cases x <;> cases y <;> decide

/-! ## C25 -/

/-- **C25 (points).** With the default frame chosen as `Open` does, transforming from any usable frame to any usable frame
succeeds; transforming the result back gives the original point; a detour through a third frame changes nothing. -/
theorem C25_points_inverse (openOption : Frame) (ox oy : Int) (a b c : Frame)
    (ha : a.Usable) (hb : b.Usable) (hc : c.Usable) (px py : Int) :
    ∃ f qx qy, transformPoint (chooseDefaultFrame openOption) ox oy a px py b = some (f, qx, qy) ∧
      (∃ g, transformPoint (chooseDefaultFrame openOption) ox oy b qx qy a = some (g, px, py)) ∧
      transformPoint (chooseDefaultFrame openOption) ox oy b qx qy c =
        transformPoint (chooseDefaultFrame openOption) ox oy a px py c ∧
      transformPoint (chooseDefaultFrame openOption) ox oy f qx qy c =
        transformPoint (chooseDefaultFrame openOption) ox oy a px py c := by
  have h1 := transformPoint_eq openOption ox oy px py a b ha hb
  have hu := frameCons_usable openOption b
  refine ⟨_, _, _, h1, ⟨frameCons openOption a, ?_⟩, ?_, ?_⟩
  · rw [transformPoint_eq _ _ _ _ _ _ _ hb ha]
    simp only [Option.some.injEq, Prod.mk.injEq, true_and]; omega
  · rw [transformPoint_eq _ _ _ _ _ _ _ hb hc, transformPoint_eq _ _ _ _ _ _ _ ha hc]
    simp only [Option.some.injEq, Prod.mk.injEq, true_and]; omega
  · rw [transformPoint_eq _ _ _ _ _ _ _ hu.1 hc, transformPoint_eq _ _ _ _ _ _ _ ha hc]
    have : ∀ v, frameOff openOption (frameCons openOption b) v = frameOff openOption b v := by
      intro v; unfold frameOff; rw [hu.2]
    rw [this, this]
    simp only [Option.some.injEq, Prod.mk.injEq, true_and]; omega

/-- **C25 (rectangles).** Rectangle transformation succeeds between usable frames, keeps the size, is undone by the
transformation back, and whether two rectangles share a pixel does not depend on the frame. -/
theorem C25_rectangles (openOption : Frame) (ox oy : Int) (a b : Frame) (ha : a.Usable) (hb : b.Usable)
    (r s : IntRect) :
    ∃ f r' s', transformRectangle (chooseDefaultFrame openOption) ox oy a r b = some (f, r') ∧
      transformRectangle (chooseDefaultFrame openOption) ox oy a s b = some (f, s') ∧
      r'.w = r.w ∧ r'.h = r.h ∧
      (∃ g, transformRectangle (chooseDefaultFrame openOption) ox oy b r' a = some (g, r)) ∧
      IntRect.doIntersect r' s' = IntRect.doIntersect r s := by
  have hinter : ∀ dx dy : Int, IntRect.doIntersect ⟨r.x + dx, r.y + dy, r.w, r.h⟩ ⟨s.x + dx, s.y + dy, s.w, s.h⟩ =
      IntRect.doIntersect r s := by
    intro dx dy
    rw [Bool.eq_iff_iff]
    unfold IntRect.doIntersect IntRect.intersect
    simp only [Bool.and_eq_true, decide_eq_true_eq]
    split <;> split <;> simp only [] <;> omega
  have h1 := fun px py => transformPoint_eq openOption ox oy px py a b ha hb
  have h2 := fun px py => transformPoint_eq openOption ox oy px py b a hb ha
  have h3 := hinter (frameOff openOption a ox - frameOff openOption b ox) (frameOff openOption a oy - frameOff openOption b oy)
  refine ⟨frameCons openOption b, ⟨r.x + (frameOff openOption a ox - frameOff openOption b ox), r.y + (frameOff openOption a oy - frameOff openOption b oy), r.w, r.h⟩,
    ⟨s.x + (frameOff openOption a ox - frameOff openOption b ox), s.y + (frameOff openOption a oy - frameOff openOption b oy), s.w, s.h⟩,
    ?_, ?_, rfl, rfl, ⟨frameCons openOption a, ?_⟩, h3⟩
  · simp only [transformRectangle, h1, Option.some.injEq, Prod.mk.injEq, IntRect.mk.injEq, true_and]
    omega
  · simp only [transformRectangle, h1, Option.some.injEq, Prod.mk.injEq, IntRect.mk.injEq, true_and]
    omega
  · simp only [transformRectangle, h2, Option.some.injEq, Prod.mk.injEq, true_and]
    cases r
    simp only [IntRect.mk.injEq]
    omega

/-- The pixel frame really differs from the raw frame. -/
example : transformPoint .Raw 10 20 .Pixel 1 2 .Raw = some (.Raw, 11, 22) ∧
    transformPoint .Raw 10 20 .Default 11 22 .Pixel = some (.Pixel, 1, 2) := by decide

/-- **C25 (origin).** The origin of the pixel coordinate system is the upper-left corner `(ox, oy)` of the bounding box
of layer 0, and `Default` means what was selected when opening. -/
theorem C25_pixel_origin (o : Frame) (ox oy px py : Int) :
    transformPoint (chooseDefaultFrame o) ox oy .Raw px py .Pixel = some (.Pixel, px - ox, py - oy) ∧
    transformPoint (chooseDefaultFrame o) ox oy .Pixel 0 0 .Raw = some (.Raw, ox, oy) ∧
    transformPoint (chooseDefaultFrame o) ox oy .Default px py .Raw =
      some (.Raw, if o = .Pixel then (px + ox, py + oy) else (px, py)) := by
  cases o <;> simp [transformPoint, consolidateFrame, chooseDefaultFrame]

/-- An invalid frame is rejected. -/
theorem C25_invalid_rejected (d f : Frame) (ox oy px py : Int) :
    transformPoint d ox oy .Invalid px py f = none ∧ transformPoint d ox oy f px py .Invalid = none := by
  constructor
  · rfl
  · unfold transformPoint
    cases consolidateFrame d f <;> rfl

/-! ## C50 -/

/-- **C50.** `GUID::compare` returns -1, 0 or 1; 0 iff the GUIDs are equal (also per `operator==`); it is
antisymmetric and transitive. -/
theorem C50_guid_total_order :
    (∀ a b : Guid, a.compare b = -1 ∨ a.compare b = 0 ∨ a.compare b = 1) ∧
    (∀ a b : Guid, a.compare b = 0 ↔ a = b) ∧
    (∀ a b : Guid, a.eq b = true ↔ a = b) ∧
    (∀ a b : Guid, b.compare a = - a.compare b) ∧
    (∀ a b c : Guid, a.compare b ≤ 0 → b.compare c ≤ 0 → a.compare c ≤ 0) := by
  refine ⟨?_, ?_, ?_, ?_, ?_⟩
  · intro a b
    unfold Guid.compare
    split
    · split <;> simp
    · split
      · split <;> simp
      · split
        · split <;> simp
        · exact compareBytes_vals _ _
  · intro a b
    unfold Guid.compare
    by_cases h1 : a.data1 = b.data1
    · by_cases h2 : a.data2 = b.data2
      · by_cases h3 : a.data3 = b.data3
        · simp only [h1, h2, h3, ne_eq, not_true_eq_false, if_false]
          rw [compareBytes_zero _ _ (by simp)]
          cases a; cases b
          simp_all [Vector.toList_inj]
        · simp only [h1, h2, h3, ne_eq, not_true_eq_false, if_false, not_false_eq_true, if_true]
          constructor
          · intro h; split at h <;> simp at h
          · rintro rfl; exact absurd rfl h3
      · simp only [h1, h2, ne_eq, not_true_eq_false, if_false, not_false_eq_true, if_true]
        constructor
        · intro h; split at h <;> simp at h
        · rintro rfl; exact absurd rfl h2
    · simp only [h1, ne_eq, not_false_eq_true, if_true]
      constructor
      · intro h; split at h <;> simp at h
      · rintro rfl; exact absurd rfl h1
  · intro a b
    unfold Guid.eq
    simp only [Bool.and_eq_true, beq_iff_eq, List.all_eq_true, List.mem_range]
    constructor
    · rintro ⟨⟨⟨h1, h2⟩, h3⟩, h4⟩
      have : a.data4.toList = b.data4.toList := by
        apply List.ext_getElem? 
        intro i
        by_cases hi : i < 8
        · exact h4 i hi
        · rw [List.getElem?_eq_none (by simp; omega), List.getElem?_eq_none (by simp; omega)]
      cases a; cases b
      simp_all [Vector.toList_inj]
    · rintro rfl; simp
  · intro a b
    unfold Guid.compare
    simp only [ne_eq, ite_not, UInt32.lt_iff_toNat_lt, UInt16.lt_iff_toNat_lt, ← UInt32.toNat_inj, ← UInt16.toNat_inj]
    rw [compareBytes_neg a.data4.toList]
    repeat' split
    all_goals omega
  · intro a b c
    unfold Guid.compare
    simp only [ne_eq, ite_not, UInt32.lt_iff_toNat_lt, UInt16.lt_iff_toNat_lt, ← UInt32.toNat_inj, ← UInt16.toNat_inj]
    have ht := compareBytes_trans a.data4.toList b.data4.toList c.data4.toList (by simp) (by simp)
    have v1 := compareBytes_vals a.data4.toList b.data4.toList
    have v2 := compareBytes_vals b.data4.toList c.data4.toList
    have v3 := compareBytes_vals a.data4.toList c.data4.toList
    intro h1 h2
    repeat' split at h1
    all_goals (repeat' split at h2)
    all_goals (repeat' split)
    all_goals omega

/-- **C50 (order).** The order is that of the text form: the comparison gives -1 exactly if the hexadecimal digits of the first GUID, read as one number, are the smaller number. -/
theorem C50_guid_lexical (a b : Guid) : a.compare b = -1 ↔ guidNumber a < guidNumber b := by
  have hb := compareBytes_number a.data4.toList b.data4.toList (by simp)
  have ha4 := bytesNumber_lt a.data4.toList
  have hb4 := bytesNumber_lt b.data4.toList
  simp only [Vector.length_toList] at ha4 hb4
  have a2 := a.data2.toNat_lt
  have b2 := b.data2.toNat_lt
  have a3 := a.data3.toNat_lt
  have b3 := b.data3.toNat_lt
  unfold Guid.compare guidNumber
  simp only [ne_eq, ite_not, UInt32.lt_iff_toNat_lt, UInt16.lt_iff_toNat_lt, ← UInt32.toNat_inj, ← UInt16.toNat_inj]
  generalize bytesNumber a.data4.toList = na at *
  generalize bytesNumber b.data4.toList = nb at *
  repeat' split
  all_goals omega

/-- The third group counts more than the bytes behind it. -/
example : Guid.compare ⟨1, 2, 3, #v[255, 0, 0, 0, 0, 0, 0, 0]⟩ ⟨1, 2, 4, #v[0, 0, 0, 0, 0, 0, 0, 1]⟩ = -1 :=
  (C50_guid_lexical _ _).2 (by decide)

end Verif
