import Verif.Model.PlaneScan
import Verif.Spec.PlaneScan
import Verif.Proof.Bounds
import Verif.Props.Regions

/-!
# C100 the plane scan of the command line tool
-/

namespace Verif
open Spec Blit Accessor Czi PlaneScan Flt

private theorem chk_ok {v : Int} (h1 : -2147483648 ≤ v) (h2 : v ≤ 2147483647) : chk v = some v := by
  unfold chk intMin intMax; rw [if_pos ⟨h1, h2⟩]

private theorem mapM_all {α β : Type} {f : α → Option β} {g : α → β} {l : List α} (h : ∀ a ∈ l, f a = some (g a)) : l.mapM f = some (l.map g) := by
  induction l with
  | nil => rfl
  | cons a l ih =>
    rw [List.mapM_cons, h a (by simp), ih (fun b hb => h b (by simp [hb]))]
    rfl

/-- The number of tiles. -/
private def count (len : Int) (t : Nat) : Nat := ((len + t - 1) / t).toNat

private theorem count_lt {len : Int} {t x : Nat} (ht : 0 < t) (hl : 0 ≤ len) : x < count len t ↔ (x : Int) * t < len := by
  unfold count
  have h0 : 0 ≤ (len + t - 1) / (t : Int) := Int.ediv_nonneg (by omega) (by omega)
  rw [Int.lt_toNat, ← Int.add_one_le_iff, Int.le_ediv_iff_mul_le (by omega), Int.add_mul, Int.one_mul]
  omega

private theorem tileCount_ok {len : Int} {t : Nat} (ht : 0 < t) (hl : 0 ≤ len) (h : len + t ≤ 2147483647) : tileCount len t = some ((len + t - 1) / t) := by
  have h0 : 0 ≤ (len + t - 1) / (t : Int) := Int.ediv_nonneg (by omega) (by omega)
  have h1 : (len + t - 1) / (t : Int) ≤ len + t - 1 := Int.ediv_le_self _ (by omega)
  unfold tileCount
  rw [chk_ok (by omega) h, Option.bind_some, chk_ok (by omega) (by omega), Option.bind_some, if_neg (by omega), Int.tdiv_eq_ediv_of_nonneg (by omega),
    chk_ok (by omega) (by omega)]

private theorem asInt32_small {n : Nat} (h : n ≤ 2147483647) : asInt32 n = n := by unfold asInt32; rw [if_pos (by omega)]

/-- The requested tiling can be computed with `int`. -/
structure ScanOk (roi : IntRect) (w h : Nat) : Prop where
  roiW : 0 ≤ roi.w ∧ roi.w + w ≤ 2147483647
  roiH : 0 ≤ roi.h ∧ roi.h + h ≤ 2147483647
  x : -2147483648 ≤ roi.x ∧ roi.x + roi.w ≤ 2147483647
  y : -2147483648 ≤ roi.y ∧ roi.y + roi.h ≤ 2147483647
  w : 0 < w
  h : 0 < h

private def rectAt (roi : IntRect) (w h x y : Nat) : IntRect :=
  ⟨roi.x + x * w, roi.y + y * h, min (w : Int) (roi.w - x * w), min (h : Int) (roi.h - y * h)⟩

private theorem scan_eq {roi : IntRect} {w h : Nat} (ok : ScanOk roi w h) :
    scanRects roi w h = some ((List.range (count roi.h h)).map fun y => (List.range (count roi.w w)).map fun x => rectAt roi w h x y).flatten := by
  obtain ⟨a, b, c, d, e, f⟩ := ok
  unfold scanRects
  rw [asInt32_small (by omega), asInt32_small (by omega), tileCount_ok f b.1 b.2, Option.bind_some]
  rw [mapM_all (g := fun y => (List.range (count roi.w w)).map fun x => rectAt roi w h x y)]
  · rfl
  · intro y hy
    have hy' := (count_lt f b.1).mp (List.mem_range.mp hy)
    have y0 : 0 ≤ (y : Int) * h := by positivity
    unfold scanRow
    rw [tileCount_ok e a.1 a.2, Option.bind_some]
    apply mapM_all
    intro x hx
    have hx' := (count_lt e a.1).mp (List.mem_range.mp hx)
    have x0 : 0 ≤ (x : Int) * w := by positivity
    unfold tileRect
    rw [chk_ok (by omega) (by omega), Option.bind_some, chk_ok (by omega) (by omega), Option.bind_some, chk_ok (by omega) (by omega), Option.bind_some,
      chk_ok (by omega) (by omega), Option.bind_some, chk_ok (by omega) (by omega), Option.bind_some, chk_ok (by omega) (by omega), Option.bind_some]
    rfl

private theorem step_le {x x' t : Nat} (h : x < x') : (x : Int) * t + t ≤ x' * t := by
  have : ((x : Int) + 1) * t ≤ x' * t := Int.mul_le_mul_of_nonneg_right (by omega) (by omega)
  rw [Int.add_mul, Int.one_mul] at this
  exact this

/-- **C100 (the tiles; partial: region and tile together must be in the range of `int`).** For every region and tile size: the tiles are computed without overflow, each
is inside the region and at most of the tile size, every pixel of the region is in exactly one of them, and they are written row by row. -/
theorem C100_tiles_partial (roi : IntRect) (w h : Nat) (ok : ScanOk roi w h) : ∃ rs, scanRects roi w h = some rs ∧ Tiling roi w h rs := by
  refine ⟨_, scan_eq ok, ?_⟩
  obtain ⟨a, b, c, d, e, f⟩ := ok
  have mem : ∀ r ∈ ((List.range (count roi.h h)).map fun y => (List.range (count roi.w w)).map fun x => rectAt roi w h x y).flatten,
      ∃ x y : Nat, (x : Int) * w < roi.w ∧ (y : Int) * h < roi.h ∧ r = rectAt roi w h x y := by
    intro r hr
    simp only [List.mem_flatten, List.mem_map, List.mem_range] at hr
    obtain ⟨_, ⟨y, hy, rfl⟩, hr⟩ := hr
    simp only [List.mem_map, List.mem_range] at hr
    obtain ⟨x, hx, rfl⟩ := hr
    exact ⟨x, y, (count_lt e a.1).mp hx, (count_lt f b.1).mp hy, rfl⟩
  constructor
  · intro r hr
    obtain ⟨x, y, h1, h2, rfl⟩ := mem r hr
    simp only [rectAt]
    omega
  · intro r hr
    obtain ⟨x, y, h1, h2, rfl⟩ := mem r hr
    have x0 : 0 ≤ (x : Int) * w := by positivity
    have y0 : 0 ≤ (y : Int) * h := by positivity
    simp only [rectAt]
    omega
  · intro px py hp
    simp only [IntRect.Has] at hp
    have axis : ∀ (q : Int) (t : Nat), 0 < t → 0 ≤ q → ∃ i : Nat, (i : Int) * t ≤ q ∧ q < i * t + t := by
      intro q t ht hq
      refine ⟨(q / t).toNat, ?_⟩
      rw [Int.toNat_of_nonneg (Int.ediv_nonneg hq (by omega))]
      have h1 := Int.ediv_mul_le q (b := (t : Int)) (by omega)
      have h2 := Int.lt_ediv_add_one_mul_self q (b := (t : Int)) (by omega)
      rw [Int.add_mul, Int.one_mul] at h2
      exact ⟨h1, h2⟩
    obtain ⟨x, x1, x2⟩ := axis (px - roi.x) w e (by omega)
    obtain ⟨y, y1, y2⟩ := axis (py - roi.y) h f (by omega)
    refine ⟨rectAt roi w h x y, ?_, ?_⟩
    · simp only [List.mem_flatten, List.mem_map, List.mem_range]
      exact ⟨_, ⟨y, (count_lt f b.1).mpr (by omega), rfl⟩, List.mem_map.mpr ⟨x, List.mem_range.mpr ((count_lt e a.1).mpr (by omega)), rfl⟩⟩
    · simp only [IntRect.Has, rectAt]
      omega
  · rw [List.pairwise_flatten]
    constructor
    · intro l hl
      obtain ⟨y, hy, rfl⟩ := List.mem_map.mp hl
      rw [List.pairwise_map]
      refine List.pairwise_lt_range.imp ?_
      intro x x' hx
      right
      have := step_le (t := w) hx
      simp only [rectAt, true_and]
      omega
    · rw [List.pairwise_map]
      refine List.pairwise_lt_range.imp ?_
      intro y y' hy r hr r' hr'
      simp only [List.mem_map, List.mem_range] at hr hr'
      obtain ⟨x, _, rfl⟩ := hr
      obtain ⟨x', _, rfl⟩ := hr'
      left
      have := step_le (t := h) hy
      simp only [rectAt]
      omega

/-- No pixel is in two tiles of a tiling. -/
private theorem tiling_unique {roi : IntRect} {w h : Nat} {rs : List IntRect} (t : Tiling roi w h rs) {a b : IntRect} (ha : a ∈ rs) (hb : b ∈ rs) {px py : Int}
    (h1 : a.Has px py) (h2 : b.Has px py) : a = b := by
  by_contra hne
  simp only [IntRect.Has] at h1 h2
  have := t.ordered
  obtain ⟨i, hi, rfl⟩ := List.mem_iff_getElem.mp ha
  obtain ⟨j, hj, rfl⟩ := List.mem_iff_getElem.mp hb
  rw [List.pairwise_iff_getElem] at this
  rcases Nat.lt_trichotomy i j with h | h | h
  · have := this i j hi hj h; omega
  · subst h; exact hne rfl
  · have := this j i hj hi h; omega

private theorem printInt_no {v : Int} : '_' ∉ Text.printInt v := by
  intro h
  have hd := (Text.decimal_spec v.natAbs).1.2
  unfold Text.printInt at h
  split at h
  · rcases List.mem_cons.mp h with h | h
    · exact absurd h (by decide)
    · exact absurd (hd _ h) (by unfold IsDigit; decide)
  · exact absurd (hd _ h) (by unfold IsDigit; decide)

private theorem split_at {a b r s : List Char} (ha : '_' ∉ a) (hb : '_' ∉ b) (h : a ++ '_' :: r = b ++ '_' :: s) : a = b ∧ r = s := by
  induction a generalizing b with
  | nil =>
    cases b with
    | nil => simpa using h
    | cons c b => simp only [List.nil_append, List.cons_append, List.cons.injEq] at h; exact absurd (h.1 ▸ List.mem_cons_self) hb
  | cons c a ih =>
    cases b with
    | nil => simp only [List.nil_append, List.cons_append, List.cons.injEq] at h; exact absurd (h.1 ▸ List.mem_cons_self) ha
    | cons d b =>
      simp only [List.cons_append, List.cons.injEq] at h
      obtain ⟨e1, e2⟩ := ih (fun m => ha (List.mem_cons_of_mem _ m)) (fun m => hb (List.mem_cons_of_mem _ m)) h.2
      exact ⟨by rw [h.1, e1], e2⟩

private theorem print_inj {a b : Int} (ha : IsInt32 a) (hb : IsInt32 b) (h : Text.printInt a = Text.printInt b) : a = b := by
  have h1 := Text.tryParseInt_print a ha
  rw [h, Text.tryParseInt_print b hb] at h1
  exact (Option.some.inj h1).symm

/-- **C100 (file names).** Different tiles are written into different files. -/
theorem C100_names (base : List Char) (a b : IntRect) (ha : IsInt32 a.x ∧ IsInt32 a.y ∧ IsInt32 a.w ∧ IsInt32 a.h)
    (hb : IsInt32 b.x ∧ IsInt32 b.y ∧ IsInt32 b.w ∧ IsInt32 b.h) (h : fileName base a = fileName base b) : a = b := by
  unfold fileName at h
  have h := List.append_cancel_left h
  have h := List.append_cancel_left h
  simp only [show "_Y".toList = '_' :: ['Y'] from rfl, show "_W".toList = '_' :: ['W'] from rfl, show "_H".toList = '_' :: ['H'] from rfl, List.cons_append] at h
  obtain ⟨e1, h⟩ := split_at printInt_no printInt_no h
  obtain ⟨e2, h⟩ := split_at printInt_no printInt_no (List.cons.inj h).2
  obtain ⟨e3, h⟩ := split_at printInt_no printInt_no (List.cons.inj h).2
  have h := (List.cons.inj h).2
  rw [List.nil_append, List.nil_append] at h
  have e4 := List.append_cancel_right h
  cases a; cases b
  simp only [IntRect.mk.injEq]
  exact ⟨print_inj ha.1 hb.1 e1, print_inj ha.2.1 hb.2.1 e2, print_inj ha.2.2.1 hb.2.2.1 e3, print_inj ha.2.2.2 hb.2.2.2 e4⟩

private theorem writeAll_ok {get : IntRect → Outcome Bitmap} {g : IntRect → Bitmap} {base : List Char} {rs : List IntRect} (h : ∀ r ∈ rs, get r = .ok (g r)) :
    writeAll get base rs = (rs.map fun r => (fileName base r, g r), .done) := by
  induction rs with
  | nil => rfl
  | cons r rs ih =>
    unfold writeAll
    rw [h r (by simp), ih (fun r hr => h r (by simp [hr]))]
    rfl

private theorem calcSize_one {r : IntRect} (hw : 0 < r.w ∧ r.w ≤ 2 ^ 19) (hh : 0 < r.h ∧ r.h ≤ 2 ^ 19) : calcSize r 1 = some (r.w.toNat, r.h.toNat) := by
  unfold calcSize
  dsimp only
  have a1 : (0 : ℚ) < r.w := by exact_mod_cast hw.1
  have a2 : (r.w : ℚ) ≤ 2 ^ 19 := by exact_mod_cast hw.2
  have b1 : (0 : ℚ) < r.h := by exact_mod_cast hh.1
  have b2 : (r.h : ℚ) ≤ 2 ^ 19 := by exact_mod_cast hh.2
  rw [f32_size hw.1 hw.2, f32_size hh.1 hh.2, mul_one, mul_one, f32_size hw.1 hw.2, f32_size hh.1 hh.2,
    if_pos ⟨by linarith, by linarith, by linarith, by linarith⟩]
  have t : ∀ z : Int, truncInt (z : ℚ) = z := by
    intro z; unfold truncInt; split <;> simp
  rw [t, t]

/-- **C100 (the pictures; partial: region and tile in the range of `int`, a zoom of 1, tiles of at most `2^19` pixels in each direction, no visibility optimisation,
sub-blocks as in C99).** The command ends regularly; and for every pixel of the region there is exactly one file - named after its rectangle - with this pixel, and it
has the value that it has in the picture of the whole region. So the files together are that picture. -/
theorem C100_mosaic_partial (sort : List Item → List Item) (hsort : SortsWith zoomLess sort) (k : Kind)
    (items : List Item) (hn : items.Nodup) (hu : ScenesUniform items) (stats : Stats) (hst : DocumentStats stats items) (plane : Coord)
    (hplane : checkPlane stats.dimBounds plane = none) (filter : Option (Int → Bool)) (pix : Pictures) (bg : Nat → UInt8) (create : Nat → Nat → Bitmap)
    (hcreate : ∀ w h, (create w h).w = w ∧ (create w h).h = h ∧ (create w h).WF k.db ∧ OneColour k.db bg (create w h))
    (hs : ∀ p ∈ items, Usual k p.2 (pix p.1).1 (pix p.1).2 ∧ TileOk k (tileAt pix p) ∧ (¬ OnLayer0 p.2 → exactZoom p.2 < 95 / 100))
    (hm : MDecides (fun p => p ∈ items ∧ Matches (some plane) none true p.2) (tileAt pix))
    (base : List Char) (roi : IntRect) (w h : Nat) (ok : ScanOk roi w h) (hw : w ≤ 2 ^ 19) (hh : h ≤ 2 ^ 19) :
    ∃ files whole, planeScan (scalingGetNew sort k items stats plane 1 filter true false pix create) base roi w h = (files, .done) ∧
      scalingGet sort k items stats plane 1 filter true false pix roi (create roi.w.toNat roi.h.toNat) = .ok (some whole) ∧
      (files.map (·.1)).Nodup ∧
      ∀ px py, roi.Has px py → ∃ r bm, (fileName base r, bm) ∈ files ∧ r.Has px py ∧ (bm.w : Int) = r.w ∧ (bm.h : Int) = r.h ∧
        (∀ j, j < k.db → bm.byteAt k.db (px - r.x).toNat (py - r.y).toNat j = whole.byteAt k.db (px - roi.x).toNat (py - roi.y).toNat j) ∧
        ∀ r' bm', (fileName base r', bm') ∈ files → (IsInt32 r'.x ∧ IsInt32 r'.y ∧ IsInt32 r'.w ∧ IsInt32 r'.h) → r'.Has px py → r' = r ∧ bm' = bm := by
  obtain ⟨rs, e1, til⟩ := C100_tiles_partial roi w h ok
  have size : ∀ r : IntRect, 0 ≤ r.w → 0 ≤ r.h → ((create r.w.toNat r.h.toNat).w : Int) = r.w ∧ ((create r.w.toNat r.h.toNat).h : Int) = r.h := by
    intro r h1 h2
    rw [(hcreate _ _).1, (hcreate _ _).2.1]
    omega
  have both : ∀ r r' : IntRect, 0 ≤ r.w → 0 ≤ r.h → 0 ≤ r'.w → 0 ≤ r'.h → _ := fun r r' h1 h2 h3 h4 =>
    C99_unscaled_partial sort hsort k items hn hu stats hst plane hplane filter true pix bg r r' (create r.w.toNat r.h.toNat) (create r'.w.toNat r'.h.toNat)
      (hcreate _ _).2.2.1 (hcreate _ _).2.2.1 (size r h1 h2) (size r' h3 h4) (hcreate _ _).2.2.2 (hcreate _ _).2.2.2 hs (fun _ => hm)
  obtain ⟨whole, _, g1, _⟩ := both roi roi ok.roiW.1 ok.roiH.1 ok.roiW.1 ok.roiH.1
  have pic : ∀ r ∈ rs, ∃ b, scalingGetNew sort k items stats plane 1 filter true false pix create r = .ok b ∧ (b.w : Int) = r.w ∧ (b.h : Int) = r.h ∧
      Agree k.db b r.x r.y whole roi.x roi.y := by
    intro r hr
    have s := til.size r hr
    obtain ⟨o, o', a1, a2, a3, a4, _, _, a5⟩ := both r roi (by omega) (by omega) ok.roiW.1 ok.roiH.1
    rw [a2] at g1
    have : o' = whole := by injection g1 with g1; injection g1
    subst this
    refine ⟨o, ?_, ?_, ?_, a5⟩
    · unfold scalingGetNew
      rw [calcSize_one (by omega) (by omega)]
      dsimp only
      rw [a1]
    · rw [a3]; exact (size r (by omega) (by omega)).1
    · rw [a4]; exact (size r (by omega) (by omega)).2
  have hwhole : (whole.w : Int) = roi.w ∧ (whole.h : Int) = roi.h := by
    obtain ⟨o, o', a1, a2, a3, a4, _⟩ := both roi roi ok.roiW.1 ok.roiH.1 ok.roiW.1 ok.roiH.1
    rw [a1] at g1
    have : o = whole := by injection g1 with g1; injection g1
    subst this
    rw [a3, a4]
    exact size roi ok.roiW.1 ok.roiH.1
  have : Nonempty Bitmap := ⟨whole⟩
  choose! g hg using pic
  have ints : ∀ r ∈ rs, IsInt32 r.x ∧ IsInt32 r.y ∧ IsInt32 r.w ∧ IsInt32 r.h := by
    intro r hr
    have s := til.size r hr
    have i := til.inside r hr
    obtain ⟨a, b, c, d, e, f⟩ := ok
    unfold IsInt32
    omega
  refine ⟨rs.map fun r => (fileName base r, g r), whole, ?_, g1, ?_, ?_⟩
  · unfold planeScan
    rw [e1]
    exact writeAll_ok fun r hr => (hg r hr).1
  · rw [List.map_map, List.Nodup, List.pairwise_map]
    refine til.ordered.imp_of_mem ?_
    intro a b ha hb hab e
    have := C100_names base a b (ints a ha) (ints b hb) e
    subst this
    have := til.size a ha
    omega
  · intro px py hp
    obtain ⟨r, hr, hr'⟩ := til.covers px py hp
    have i := til.inside r hr
    obtain ⟨q1, q2, q3, q4⟩ := hg r hr
    refine ⟨r, g r, List.mem_map.mpr ⟨r, hr, rfl⟩, hr', q2, q3, ?_, ?_⟩
    · intro j hj
      simp only [IntRect.Has] at hp hr'
      exact q4 _ _ _ _ (by omega) (by omega) (by omega) (by omega) (by omega) (by omega) j hj
    · intro r' bm' hm' hi hh'
      obtain ⟨r2, hr2, e⟩ := List.mem_map.mp hm'
      injection e with e e'
      have := C100_names base r2 r' (ints r2 hr2) hi e
      subst this
      have := tiling_unique til hr2 hr hh' hr'
      subst this
      exact ⟨rfl, e'.symm⟩

/-- **C100, violation: large tile sizes.** A tile height of 2^31 or more (the option accepts every `uint32_t` but 0) becomes negative: nothing at all is written, and the
command reports success - for every region of at least two rows, whatever else is requested. -/
theorem C100_large_tile_violated (get : IntRect → Outcome Bitmap) (base : List Char) (roi : IntRect) (w h : Nat) (hh : 2147483648 ≤ h ∧ h < 4294967296)
    (hroi : 2 ≤ roi.h ∧ roi.h ≤ 2147483647) : planeScan get base roi w h = ([], .done) := by
  have ht : asInt32 h = (h : Int) - 4294967296 := by unfold asInt32; rw [if_neg (by omega)]
  have hz : ∃ n, tileCount roi.h (asInt32 h) = some n ∧ n ≤ 0 := by
    rw [ht]
    unfold tileCount
    rw [chk_ok (by omega) (by omega), Option.bind_some, chk_ok (by omega) (by omega), Option.bind_some, if_neg (by omega)]
    generalize hA : roi.h + ((h : Int) - 4294967296) - 1 = A
    generalize hT : (h : Int) - 4294967296 = T
    have q : A.tdiv T = -(A.tdiv (-T)) := by rw [Int.tdiv_neg, Int.neg_neg]
    rcases Int.lt_or_le A 0 with hn | hn
    · have z : A.tdiv (-T) = 0 := by
        rw [show A = -(-A) by omega, Int.neg_tdiv, Int.tdiv_eq_zero_of_lt (by omega) (by omega)]; rfl
      rw [q, z]
      exact ⟨0, rfl, by omega⟩
    · have l : 0 ≤ A.tdiv (-T) := Int.tdiv_nonneg hn (by omega)
      have u : A.tdiv (-T) ≤ A := by
        rw [Int.tdiv_eq_ediv_of_nonneg hn]; exact Int.ediv_le_self _ hn
      rw [q, chk_ok (by omega) (by omega)]
      exact ⟨_, rfl, by omega⟩
  obtain ⟨n, h1, h2⟩ := hz
  unfold planeScan scanRects
  rw [h1, Option.bind_some, show n.toNat = 0 by omega]
  rfl

/-- **C100, violation: overflow.** If the height of the region and that of a tile together exceed the largest `int` - a tile height of 2147483647, for example, meant as
'everything in one tile' - the number of tiles is computed with signed overflow: the behaviour is undefined. -/
theorem C100_overflow_violated (get : IntRect → Outcome Bitmap) (base : List Char) (roi : IntRect) (w h : Nat) (hh : h ≤ 2147483647)
    (hroi : 2147483647 < roi.h + h) : planeScan get base roi w h = ([], .undefined) := by
  unfold planeScan scanRects tileCount
  rw [asInt32_small hh, show chk (roi.h + (h : Int)) = none by unfold chk intMin intMax; rw [if_neg (by omega)]]
  rfl

/-- Instance of the hypotheses of the C100 theorems: a region of 1000 x 700 pixels at a negative position with the default tile size (2 x 2 tiles), and for the
violations a tile height of 2^31 and of 2^31 - 1. -/
example : ScanOk ⟨-10, 5, 1000, 700⟩ 512 512 ∧ (512 : Nat) ≤ 2 ^ 19 ∧
    scanRects ⟨-10, 5, 1000, 700⟩ 512 512 = some [⟨-10, 5, 512, 512⟩, ⟨502, 5, 488, 512⟩, ⟨-10, 517, 512, 188⟩, ⟨502, 517, 488, 188⟩] ∧
    scanRects ⟨-10, 5, 1000, 700⟩ 512 2147483648 = some [] ∧ scanRects ⟨-10, 5, 1000, 700⟩ 512 2147483647 = none :=
  ⟨⟨by decide, by decide, by decide, by decide, by decide, by decide⟩, by decide, by decide +kernel, by decide +kernel, by decide +kernel⟩

/-- The bitmaps created for tiles can be as `C100_mosaic_partial` requires. -/
example : ∀ w h : Nat, ∃ b : Bitmap, b.w = w ∧ b.h = h ∧ b.WF (Kind.same 1).db ∧ OneColour (Kind.same 1).db (fun _ => 9) b :=
  fun w h => ⟨⟨w, h, w, ⟨w * h, fun _ => 9⟩⟩, rfl, rfl, by
    cases h with
    | zero => simp [Bitmap.WF, Kind.db]
    | succ h => simp [Bitmap.WF, Kind.db, Nat.mul_add, Nat.mul_comm], fun _ _ _ _ _ _ => rfl⟩

end Verif
