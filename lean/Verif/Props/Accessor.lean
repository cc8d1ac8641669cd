import Verif.Model.Accessor
import Verif.Spec.Accessor
import Verif.Props.Compose
import Verif.Props.SubBlock

/-!
# C33 Tile composition, the whole tile accessor
-/

namespace Verif
open Spec Blit Accessor

/-! ## Helpers -/

theorem present_collect (c : Int → Entry → Bool) : ∀ (l : List Item) (acc : List Item),
    presentItems (fun (st : List Item) i e => if c i e = true then (true, st ++ [(i, e)]) else (true, st)) l acc =
      acc ++ l.filter (fun p => c p.1 p.2) := by
  intro l
  induction l with
  | nil => intro acc; simp [presentItems]
  | cons p l ih =>
    intro acc
    obtain ⟨i, e⟩ := p
    unfold presentItems
    by_cases h : c i e = true
    · simp only [h, if_true, ih, List.filter_cons, List.append_assoc, List.singleton_append]
    · simp only [h, if_false, if_true, ih, List.filter_cons, Bool.false_eq_true]

open Classical in
theorem layer0SubBlocks_eq (items : List Item) (plane : Coord) (roi : IntRect) :
    layer0SubBlocks items plane roi =
      (items.filter (fun p => Matches (some plane) none true p.2)).filter (fun p => roi.doIntersect p.2.rect) := by
  unfold layer0SubBlocks
  rw [C19_subset_exact, present_collect (fun _ e => roi.doIntersect e.rect)]
  simp

theorem getLast_filter_max {α : Type} (key : α → Int) (paint : α → Bool) : ∀ (l : List α),
    l.Pairwise (fun a b => key a ≤ key b) →
    match (l.filter paint).getLast? with
    | none => ∀ p ∈ l, paint p = false
    | some p => p ∈ l ∧ paint p = true ∧ ∀ q ∈ l, paint q = true → key q ≤ key p := by
  intro l hl
  cases h : (l.filter paint).getLast? with
  | none =>
    rw [List.getLast?_eq_none_iff, List.filter_eq_nil_iff] at h
    intro p hp
    simpa using h p hp
  | some p =>
    obtain ⟨ys, hys⟩ := List.getLast?_eq_some_iff.mp h
    have hp : p ∈ l.filter paint := by rw [hys]; simp
    rw [List.mem_filter] at hp
    refine ⟨hp.1, hp.2, ?_⟩
    intro q hq hq2
    have hf : (l.filter paint).Pairwise (fun a b => key a ≤ key b) := hl.sublist List.filter_sublist
    rw [hys, List.pairwise_append] at hf
    have hq3 : q ∈ ys ++ [p] := by rw [← hys, List.mem_filter]; exact ⟨hq, hq2⟩
    rcases List.mem_append.mp hq3 with h1 | h1
    · exact hf.2.2 q h1 p (by simp)
    · rw [List.mem_singleton] at h1; subst h1; exact Int.le_refl _

theorem expected_map (k : Kind) {α : Type} (place : α → Tile) (l : List α) (bg : UInt8) (px py : Int) (j : Nat) :
    expected k (l.map place) bg px py j =
      match (l.filter (fun p => (place p).paints px py)).getLast? with
      | some p => (place p).colour k px py j
      | none => bg := by
  unfold expected
  rw [List.filter_map, List.getLast?_map]
  show (match Option.map place (l.filter (fun p => (place p).paints px py)).getLast? with
      | some t => t.colour k px py j | none => bg) = _
  cases (l.filter (fun p => (place p).paints px py)).getLast? <;> rfl

theorem mKey_not_above {p q : Item} (h : mKey q ≤ mKey p) (hq : -2147483648 ≤ q.2.mIndex) : ¬ PaintedAbove q.2 p.2 := by
  intro ⟨h1, h2⟩
  unfold ValidM at h1 h2
  unfold mKey intMax intMin at h
  rw [if_pos h1] at h
  by_cases hp : p.2.mIndex ≠ 2147483647 ∧ p.2.mIndex ≠ -2147483648
  · rw [if_pos hp] at h
    have := h2 hp
    omega
  · rw [if_neg hp] at h
    omega

/-- The last painter of a list sorted by m-index is a correct one. -/
theorem sorted_painted (k : Kind) (candidate : Item → Prop) (place : Item → Tile) (l : List Item) (px py : Int) (j : Nat)
    (bg : UInt8) (hl : l.Pairwise (fun a b => mKey a ≤ mKey b)) (h1 : ∀ p ∈ l, candidate p)
    (h2 : ∀ p, candidate p → (place p).paints px py = true → p ∈ l) (h3 : ∀ p ∈ l, -2147483648 ≤ p.2.mIndex) :
    Painted k candidate place px py j bg (expected k (l.map place) bg px py j) := by
  rw [expected_map]
  have hm := getLast_filter_max mKey (fun p => (place p).paints px py) l hl
  cases h : (l.filter (fun p => (place p).paints px py)).getLast? with
  | none =>
    rw [h] at hm
    left
    refine ⟨?_, rfl⟩
    intro p hp
    cases hb : (place p).paints px py with
    | false => rfl
    | true => have := hm p (h2 p hp hb); rw [hb] at this; exact this
  | some p =>
    rw [h] at hm
    obtain ⟨m1, m2, m3⟩ := hm
    right
    exact ⟨p, h1 p m1, m2, rfl, fun q hq hq2 => mKey_not_above (m3 q (h2 q hq hq2) hq2) (h3 q (h2 q hq hq2))⟩

/-- A tile whose bitmap has the size of its rectangle paints a pixel of the region only if it intersects the region. -/
theorem paints_intersects (roi : IntRect) (e : Entry) (t : Tile) (px py : Int) (hx : t.x = e.x) (hy : t.y = e.y)
    (hw : (t.bm.w : Int) = e.width) (hh : (t.bm.h : Int) = e.height) (hroi : roi.Has px py) (hp : t.paints px py = true) :
    roi.doIntersect e.rect = true := by
  rw [doIntersect_iff_shared]
  refine ⟨px, py, hroi, ?_⟩
  unfold Tile.paints at hp
  rw [Bool.and_eq_true, decide_eq_true_eq] at hp
  obtain ⟨⟨a, b, c, d⟩, _⟩ := hp
  unfold IntRect.Has Entry.rect
  dsimp only
  omega

/-- Sub-block `p` as a tile of the picture in document coordinates. -/
def tileAt (pix : Pictures) (p : Item) : Tile := ⟨p.2.x, p.2.y, (pix p.1).1, (pix p.1).2⟩

/-! ## C33 -/

/-- **C33 (the tile accessor; partial: without tile borders, converters must not read beyond their source pixel).** For every
repository, every plane accepted by the plane check, every position (negative too) and every destination bitmap, with sorting by
m-index: the accessor accesses no memory outside the bitmaps, and every pixel gets the value of a layer-0 sub-block of the plane
that covers it, above which - by m-index - there is no other one covering it; a pixel covered by none keeps the background. This
holds for every behaviour of the (unstable) sort, and with the visibility optimisation too if no sub-block has a mask. -/
theorem C33_accessor_topmost_partial (sort : List Item → List Item) (hsort : SortsBy mKey sort) (k : Kind) (items : List Item)
    (bounds : Bounds) (plane : Coord) (useVisibilityCheck : Bool) (pix : Pictures) (xPos yPos : Int) (dst : Bitmap)
    (hplane : checkPlane bounds plane = none) (hdst : dst.WF k.db)
    (hitems : ∀ p ∈ items, Matches (some plane) none true p.2 → -2147483648 ≤ p.2.mIndex ∧ TileOk k (tileAt pix p) ∧
      ((pix p.1).1.w : Int) = p.2.width ∧ ((pix p.1).1.h : Int) = p.2.height)
    (hvis : useVisibilityCheck = true → k.NoOverread ∧ ∀ p ∈ items, (pix p.1).2 = none) :
    ∃ out, tileAccessorGet sort k items bounds plane true useVisibilityCheck pix xPos yPos dst = .ok (some out) ∧
      out.w = dst.w ∧ out.h = dst.h ∧
      (∀ x y j, x < dst.w → y < dst.h → j < k.db →
        Painted k (fun p => p ∈ items ∧ Matches (some plane) none true p.2) (tileAt pix) (xPos + x) (yPos + y) j
          (dst.byteAt k.db x y j) (out.byteAt k.db x y j)) ∧
      (∀ i, dst.IsPadding k.db i → out.buf.get i = dst.buf.get i) := by
  classical
  unfold tileAccessorGet
  rw [hplane]
  dsimp only
  rw [if_pos rfl]
  obtain ⟨hperm, hpw⟩ := hsort (layer0SubBlocks items plane ⟨xPos, yPos, dst.w, dst.h⟩)
  have hmem : ∀ p, p ∈ sort (layer0SubBlocks items plane ⟨xPos, yPos, dst.w, dst.h⟩) ↔
      (p ∈ items ∧ Matches (some plane) none true p.2) ∧ (⟨xPos, yPos, dst.w, dst.h⟩ : IntRect).doIntersect p.2.rect = true := by
    intro p
    rw [hperm.mem_iff, layer0SubBlocks_eq, List.mem_filter, List.mem_filter, decide_eq_true_eq]
  generalize sort (layer0SubBlocks items plane ⟨xPos, yPos, dst.w, dst.h⟩) = L at hpw hmem
  have hplain : ∃ o2, accessorComposeTiles k false xPos yPos (L.map fun p => (p.2.rect, (pix p.1).1, (pix p.1).2)) dst = some o2 ∧
      o2.w = dst.w ∧ o2.h = dst.h ∧
      (∀ x y j, x < dst.w → y < dst.h → j < k.db → o2.byteAt k.db x y j =
        expected k (L.map (tileAt pix)) (dst.byteAt k.db x y j) (xPos + x) (yPos + y) j) ∧
      (∀ i, dst.IsPadding k.db i → o2.buf.get i = dst.buf.get i) := by
    have hok : ∀ t ∈ L.map (tileAt pix), TileOk k t := by
      intro t ht
      obtain ⟨p, hp, rfl⟩ := List.mem_map.mp ht
      exact (hitems p ((hmem p).mp hp).1.1 ((hmem p).mp hp).1.2).2.1
    obtain ⟨out, q1, q2, q3, _, _, q6, q7⟩ := composeTiles_ok k xPos yPos (L.map (tileAt pix)) dst hdst hok
    refine ⟨out, ?_, q2, q3, q6, q7⟩
    unfold accessorComposeTiles
    rw [if_neg (by simp), List.map_map]
    exact q1
  obtain ⟨o2, g1, g2, g3, g4, g5⟩ := hplain
  have hpaint : ∀ x y j, x < dst.w → y < dst.h → j < k.db →
      Painted k (fun p => p ∈ items ∧ Matches (some plane) none true p.2) (tileAt pix) (xPos + x) (yPos + y) j
          (dst.byteAt k.db x y j) (o2.byteAt k.db x y j) := by
    intro x y j hx hy hj
    rw [g4 x y j hx hy hj]
    refine sorted_painted k _ _ L _ _ j _ hpw (fun p hp => ((hmem p).mp hp).1) ?_ ?_
    · intro p hp hpp
      refine (hmem p).mpr ⟨hp, ?_⟩
      obtain ⟨_, _, hw, hh⟩ := hitems p hp.1 hp.2
      exact paints_intersects _ p.2 (tileAt pix p) (xPos + x) (yPos + y) rfl rfl hw hh
        (by unfold IntRect.Has; dsimp only; omega) hpp
    · intro p hp
      exact (hitems p ((hmem p).mp hp).1.1 ((hmem p).mp hp).1.2).1
  cases useVisibilityCheck with
  | false => exact ⟨o2, by rw [g1], g2, g3, hpaint, g5⟩
  | true =>
    obtain ⟨hk, hnone⟩ := hvis rfl
    have hs : ∀ s ∈ L.map (fun p => ((p.2.rect, (pix p.1).1, (pix p.1).2) : IntRect × Bitmap × Option Mask)),
        s.2.1.WF k.sb ∧ s.1.w = s.2.1.w ∧ s.1.h = s.2.1.h ∧ s.2.2 = none := by
      intro s hs
      obtain ⟨p, hp, rfl⟩ := List.mem_map.mp hs
      obtain ⟨_, ht, hw, hh⟩ := hitems p ((hmem p).mp hp).1.1 ((hmem p).mp hp).1.2
      exact ⟨ht.1, hw.symm, hh.symm, hnone p ((hmem p).mp hp).1.1⟩
    obtain ⟨o1, o2', c1, c2, c3, c4, c5, c6, _⟩ := C32_visibility_same_picture_partial k hk dst hdst xPos yPos _ hs
    rw [g1] at c2
    cases c2
    refine ⟨o1, by rw [c1], by rw [c5, g2], by rw [c6, g3], ?_, ?_⟩
    · intro x y j hx hy hj
      rw [c3 x y j hx hy hj]
      exact hpaint x y j hx hy hj
    · intro i hi
      rw [c4 i hi, g5 i hi]

theorem mKey_total (a b : Item) : (decide (mKey a ≤ mKey b) || decide (mKey b ≤ mKey a)) = true := by
  rw [Bool.or_eq_true, decide_eq_true_eq, decide_eq_true_eq]
  omega

/-- A function with the guarantees of `std::sort` exists. -/
theorem mergeSort_sorts : SortsBy mKey (fun l => l.mergeSort (fun a b => decide (mKey a ≤ mKey b))) := by
  intro l
  refine ⟨List.mergeSort_perm _ _, ?_⟩
  have h := List.pairwise_mergeSort (le := fun a b : Item => decide (mKey a ≤ mKey b))
    (fun a b c h1 h2 => by simp only [decide_eq_true_eq] at h1 h2 ⊢; omega) mKey_total l
  simpa using h

theorem expected_filter (k : Kind) (place : Item → Tile) (keep : Item → Bool) (l : List Item) (bg : UInt8) (px py : Int) (j : Nat)
    (h : ∀ p ∈ l, (place p).paints px py = true → keep p = true) :
    expected k ((l.filter keep).map place) bg px py j = expected k (l.map place) bg px py j := by
  rw [expected_map, expected_map, List.filter_filter]
  have : l.filter (fun p => (place p).paints px py && keep p) = l.filter (fun p => (place p).paints px py) := by
    apply List.filter_congr
    intro p hp
    cases hb : (place p).paints px py with
    | false => rfl
    | true => rw [h p hp hb]; rfl
  rw [this]

open Classical in
/-- **C33 (the tile accessor without sorting; same restrictions).** Every pixel gets the value of the last layer-0 sub-block of
the plane, in the order of the repository, that covers it, or keeps the background. -/
theorem C33_accessor_directory_order_partial (sort : List Item → List Item) (k : Kind) (items : List Item)
    (bounds : Bounds) (plane : Coord) (pix : Pictures) (xPos yPos : Int) (dst : Bitmap)
    (hplane : checkPlane bounds plane = none) (hdst : dst.WF k.db)
    (hitems : ∀ p ∈ items, Matches (some plane) none true p.2 → TileOk k (tileAt pix p) ∧
      ((pix p.1).1.w : Int) = p.2.width ∧ ((pix p.1).1.h : Int) = p.2.height) :
    ∃ out, tileAccessorGet sort k items bounds plane false false pix xPos yPos dst = .ok (some out) ∧
      out.w = dst.w ∧ out.h = dst.h ∧
      (∀ x y j, x < dst.w → y < dst.h → j < k.db →
        out.byteAt k.db x y j = expected k ((items.filter (fun p => Matches (some plane) none true p.2)).map (tileAt pix))
          (dst.byteAt k.db x y j) (xPos + x) (yPos + y) j) ∧
      (∀ i, dst.IsPadding k.db i → out.buf.get i = dst.buf.get i) := by
  unfold tileAccessorGet
  rw [hplane]
  dsimp only
  rw [if_neg (by simp), layer0SubBlocks_eq]
  have hM : ∀ p ∈ items.filter (fun p => Matches (some plane) none true p.2),
      p ∈ items ∧ Matches (some plane) none true p.2 := by
    intro p hp
    rw [List.mem_filter, decide_eq_true_eq] at hp
    exact hp
  generalize items.filter (fun p => Matches (some plane) none true p.2) = M at hM
  have hok : ∀ t ∈ (M.filter (fun p => (⟨xPos, yPos, dst.w, dst.h⟩ : IntRect).doIntersect p.2.rect)).map (tileAt pix), TileOk k t := by
    intro t ht
    obtain ⟨p, hp, rfl⟩ := List.mem_map.mp ht
    have := hM p (List.mem_filter.mp hp).1
    exact (hitems p this.1 this.2).1
  obtain ⟨out, q1, q2, q3, _, _, q6, q7⟩ := composeTiles_ok k xPos yPos _ dst hdst hok
  refine ⟨out, ?_, q2, q3, ?_, q7⟩
  · unfold accessorComposeTiles
    rw [if_neg (by simp), List.map_map]
    exact congrArg _ q1
  · intro x y j hx hy hj
    rw [q6 x y j hx hy hj]
    apply expected_filter
    intro p hp hpp
    obtain ⟨_, hw, hh⟩ := hitems p (hM p hp).1 (hM p hp).2
    exact paints_intersects _ p.2 (tileAt pix p) (xPos + x) (yPos + y) rfl rfl hw hh
      (by unfold IntRect.Has; dsimp only; omega) hpp

/-- The plane check comes first: a plane that is not accepted leads to its exception, whatever the rest of the arguments. -/
theorem C33_accessor_bad_plane (sort : List Item → List Item) (k : Kind) (items : List Item) (bounds : Bounds) (plane : Coord)
    (sortByM vis : Bool) (pix : Pictures) (xPos yPos : Int) (dst : Bitmap) (e : PlaneError)
    (h : checkPlane bounds plane = some e) :
    tileAccessorGet sort k items bounds plane sortByM vis pix xPos yPos dst = .error e := by
  unfold tileAccessorGet
  rw [h]

/-- Two overlapping 2x2 sub-blocks of one plane with m-indices 7 and 3 (the upper one first in the directory). -/
def exampleItems : List Item :=
  [(0, ⟨fun d => if d = .C then some 0 else none, 7, 0, 0, 2, 2, 2, 2, 0, 0, 0, 0⟩),
   (1, ⟨fun d => if d = .C then some 0 else none, 3, 1, 1, 2, 2, 2, 2, 0, 0, 0, 0⟩)]

/-- Their pictures. -/
def examplePix : Pictures := fun i => (⟨2, 2, 2, ⟨4, fun _ => if i = 0 then 5 else 6⟩⟩, none)

/-- Instance of the hypotheses of the C33 accessor theorems. -/
example : SortsBy mKey (fun l => l.mergeSort (fun a b => decide (mKey a ≤ mKey b))) ∧
    checkPlane (fun d => if d = .C then some (0, 1) else none) (fun d => if d = .C then some 0 else none) = none ∧
    (⟨3, 3, 3, ⟨9, fun _ => 0⟩⟩ : Bitmap).WF (Kind.same 1).db ∧
    ∀ p ∈ exampleItems, Matches (some (fun d => if d = .C then some 0 else none)) none true p.2 →
      -2147483648 ≤ p.2.mIndex ∧ TileOk (.same 1) (tileAt examplePix p) ∧
      ((examplePix p.1).1.w : Int) = p.2.width ∧ ((examplePix p.1).1.h : Int) = p.2.height := by
  refine ⟨mergeSort_sorts, by decide +kernel, by simp [Bitmap.WF, Kind.db], ?_⟩
  intro p hp _
  simp only [exampleItems, List.mem_cons, List.not_mem_nil, or_false] at hp
  rcases hp with rfl | rfl <;>
    simp [tileAt, examplePix, TileOk, Bitmap.WF, Kind.sb, Kind.NoOverread]

/-- Both example sub-blocks are candidates. -/
example : ∀ p ∈ exampleItems, Matches (some (fun d => if d = .C then some 0 else none)) none true p.2 := by
  intro p hp
  simp only [exampleItems, List.mem_cons, List.not_mem_nil, or_false] at hp
  rcases hp with rfl | rfl <;> simp [Matches, OnLayer0]

end Verif
