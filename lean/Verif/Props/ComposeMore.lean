import Verif.Props.Compose

/-!
# C32, C33, C35: what exactly the code does where it violates the properties
-/

namespace Verif
open Spec Coverage Blit

/-! ## C32 - visibility optimisation and masks -/

/-- The part of sub-block `i` that is not hidden by the rectangles of the sub-blocks above it has a pixel in the region. -/
def Visible (roi : IntRect) (rects : List IntRect) (i : Nat) : Prop :=
  ∃ r, rects[i]? = some r ∧ ∃ px py, roi.Has px py ∧ r.Has px py ∧
    ∀ j r', i < j → rects[j]? = some r' → ¬ r'.Has px py

/-- **C32 (what is drawn).** With the visibility optimisation the accessor draws exactly those sub-blocks which have a pixel in the
region of interest that lies in no rectangle of a sub-block above, in the order given. -/
theorem C32_draws_exactly_visible (k : Kind) (dst : Bitmap) (xPos yPos : Int) (sbs : List (IntRect × Bitmap × Option Mask)) :
    ∃ vis : List Nat, vis.Pairwise (· < ·) ∧
      (∀ i, i ∈ vis ↔ Visible ⟨xPos, yPos, dst.w, dst.h⟩ (sbs.map (·.1)) i) ∧
      accessorComposeTiles k true xPos yPos sbs dst =
        composeTiles k xPos yPos (vis.filterMap fun i => (sbs[i]?).map fun s => ⟨s.1.x, s.1.y, s.2.1, s.2.2⟩) dst := by
  obtain ⟨vis, v1, v2, v3, v4, v5⟩ := checkForVisibility_exact ⟨xPos, yPos, dst.w, dst.h⟩ sbs.length
    (fun i => ((sbs[i]?).map (·.1)).getD ⟨0, 0, -1, -1⟩)
  refine ⟨vis, v2, ?_, by unfold accessorComposeTiles; simp only [v1, if_true, Option.bind_some]⟩
  intro i
  constructor
  · intro hi
    have hil := v3 i hi
    obtain ⟨px, py, h1, h2, h3⟩ := v5 i hi
    rw [List.getElem?_eq_getElem hil] at h2
    refine ⟨sbs[i].1, by simp [List.getElem?_eq_getElem hil], px, py, h1, h2, ?_⟩
    intro j r' hj hr
    have hjl : j < sbs.length := by
      by_contra hc
      rw [List.getElem?_eq_none (by simp; omega)] at hr; simp at hr
    have := h3 j hj hjl
    rw [List.getElem?_map, List.getElem?_eq_getElem hjl] at hr
    rw [List.getElem?_eq_getElem hjl] at this
    simp only [Option.map_some, Option.getD_some, Option.some.injEq] at hr this
    rw [← hr]; exact this
  · rintro ⟨r, hr, px, py, h1, h2, h3⟩
    have hil : i < sbs.length := by
      by_contra hc
      rw [List.getElem?_eq_none (by simp; omega)] at hr; simp at hr
    rw [List.getElem?_map, List.getElem?_eq_getElem hil] at hr
    simp only [Option.map_some, Option.some.injEq] at hr
    refine v4 i hil px py h1 (by rw [List.getElem?_eq_getElem hil]; simp only [Option.map_some, Option.getD_some]; rw [hr]; exact h2) ?_
    intro j hj hjl
    rw [List.getElem?_eq_getElem hjl]
    exact h3 j _ hj (by simp [List.getElem?_eq_getElem hjl])

/-- The tile of a sub-block. -/
private abbrev tl (s : IntRect × Bitmap × Option Mask) : Tile := ⟨s.1.x, s.1.y, s.2.1, s.2.2⟩

/-- **C32 (partial, with masks).** If no masked-out pixel of a sub-block lies over a pixel of a sub-block below it, the optimisation
does not change the picture. (What is missing is false: `C32_masks_violated`.) -/
theorem C32_visibility_masks_partial (k : Kind) (dst : Bitmap) (hdst : dst.WF k.db)
    (xPos yPos : Int) (sbs : List (IntRect × Bitmap × Option Mask))
    (hs : ∀ s ∈ sbs, TileOk k ⟨s.1.x, s.1.y, s.2.1, s.2.2⟩ ∧ s.1.w = s.2.1.w ∧ s.1.h = s.2.1.h)
    (hm : sbs.Pairwise fun low up => ∀ px py, low.1.Has px py → up.1.Has px py →
      Tile.paints ⟨up.1.x, up.1.y, up.2.1, up.2.2⟩ px py = true) :
    ∃ o1 o2, accessorComposeTiles k true xPos yPos sbs dst = some o1 ∧
      accessorComposeTiles k false xPos yPos sbs dst = some o2 ∧
      (∀ x y j, x < dst.w → y < dst.h → j < k.db → o1.byteAt k.db x y j = o2.byteAt k.db x y j) ∧
      (∀ i, dst.IsPadding k.db i → o1.buf.get i = o2.buf.get i) ∧
      o1.w = o2.w ∧ o1.h = o2.h ∧ o1.stride = o2.stride := by
  obtain ⟨vis, v1, v2, v3, v4⟩ := checkForVisibility_ok ⟨xPos, yPos, dst.w, dst.h⟩ sbs.length
    (fun i => ((sbs[i]?).map (·.1)).getD ⟨0, 0, -1, -1⟩)
  unfold accessorComposeTiles
  simp only [v1, Bool.false_eq_true, if_false, if_true, Option.bind_some]
  obtain ⟨o1, p1, pw, ph, ps, _, p2, p3⟩ := composeTiles_ok k xPos yPos
    (vis.filterMap fun i => (sbs[i]?).map tl) dst hdst (by
      intro t ht
      rw [List.mem_filterMap] at ht
      obtain ⟨i, hi, he⟩ := ht
      have hil := v3 i hi
      simp only [List.getElem?_eq_getElem hil, Option.map_some, Option.some.injEq] at he
      rw [← he]; exact (hs _ (List.getElem_mem _)).1)
  obtain ⟨o2, q1, qw, qh, qs, _, q2, q3⟩ := composeTiles_ok k xPos yPos (sbs.map tl) dst hdst (by
      intro t ht
      rw [List.mem_map] at ht
      obtain ⟨s, h, rfl⟩ := ht
      exact (hs s h).1)
  refine ⟨o1, o2, p1, q1, ?_, fun i hi => by rw [p3 i hi, q3 i hi], by rw [pw, qw], by rw [ph, qh], by rw [ps, qs]⟩
  intro x y j hx hy hj
  rw [p2 x y j hx hy hj, q2 x y j hx hy hj]
  unfold expected
  have hhas : ∀ i, (h : i < sbs.length) → ∀ px py, Tile.paints (tl sbs[i]) px py = true → (sbs[i].1).Has px py := by
    intro i h px py hp
    obtain ⟨_, b, c⟩ := hs sbs[i] (List.getElem_mem _)
    simp only [Tile.paints, Bool.and_eq_true, decide_eq_true_eq] at hp
    unfold IntRect.Has
    rw [b, c]; exact hp.1
  rw [select_top sbs tl vis (fun t => t.paints (xPos + ↑x) (yPos + ↑y)) v2 v3 ?_]
  intro i hi hpi hlast
  refine v4 i hi (xPos + x) (yPos + y) (by unfold IntRect.Has; simp only; omega) ?_ ?_
  · simp only [List.getElem?_eq_getElem hi, Option.map_some, Option.getD_some]
    exact hhas i hi _ _ hpi
  · intro l hl1 hl2 hc
    simp only [List.getElem?_eq_getElem hl2, Option.map_some, Option.getD_some] at hc
    have h1 := hlast l hl1 hl2
    have h2 := List.pairwise_iff_getElem.1 hm i l hi hl2 hl1 _ _ (hhas i hi _ _ hpi) hc
    rw [h2] at h1
    exact absurd h1 (by simp)

/-- Instance: the masked-out pixel of the upper sub-block is not over the lower one. -/
example : ∀ s ∈ [((⟨0,0,1,1⟩ : IntRect), (⟨1, 1, 1, Buf.ofList [5]⟩ : Bitmap), (none : Option Mask)),
      (⟨0,0,2,1⟩, ⟨2, 1, 2, Buf.ofList [6, 7]⟩, some ⟨2, 1, 1, Buf.ofList [0x80]⟩)],
      TileOk (.same 1) ⟨s.1.x, s.1.y, s.2.1, s.2.2⟩ ∧ s.1.w = s.2.1.w ∧ s.1.h = s.2.1.h := by
  simp [TileOk, Kind.NoOverread, Bitmap.WF, Mask.WF, Buf.ofList, Kind.sb, Kind.IsSame]

example : ([((⟨0,0,1,1⟩ : IntRect), (⟨1, 1, 1, Buf.ofList [5]⟩ : Bitmap), (none : Option Mask)),
      (⟨0,0,2,1⟩, ⟨2, 1, 2, Buf.ofList [6, 7]⟩, some ⟨2, 1, 1, Buf.ofList [0x80]⟩)]).Pairwise
    fun low up => ∀ px py, low.1.Has px py → up.1.Has px py → Tile.paints ⟨up.1.x, up.1.y, up.2.1, up.2.2⟩ px py = true := by
  simp only [List.pairwise_cons, List.mem_cons, List.not_mem_nil, or_false, forall_eq, IsEmpty.forall_iff, implies_true, and_true,
    List.Pairwise.nil]
  intro px py h _
  have h1 : px = 0 := by unfold IntRect.Has at h; simp only at h; omega
  have h2 : py = 0 := by unfold IntRect.Has at h; simp only at h; omega
  subst h1 h2
  decide

/-- **C32 violated with masks, in general.** Take any two sub-blocks, the rectangle of the lower one inside that of the upper one. At
every pixel of the lower one (in the region) at which the upper one is masked out, the picture without the optimisation shows
the lower sub-block, with the optimisation the background: the pictures differ unless the lower sub-block happens to have the
background's colour. -/
theorem C32_masks_violated (k : Kind) (dst : Bitmap) (hdst : dst.WF k.db) (xPos yPos : Int)
    (low up : IntRect × Bitmap × Option Mask)
    (hs : ∀ s ∈ [low, up], TileOk k ⟨s.1.x, s.1.y, s.2.1, s.2.2⟩ ∧ s.1.w = s.2.1.w ∧ s.1.h = s.2.1.h)
    (hcov : ∀ px py, low.1.Has px py → up.1.Has px py)
    (x y : Nat) (hx : x < dst.w) (hy : y < dst.h)
    (hlow : Tile.paints ⟨low.1.x, low.1.y, low.2.1, low.2.2⟩ (xPos + x) (yPos + y) = true)
    (hup : Tile.paints ⟨up.1.x, up.1.y, up.2.1, up.2.2⟩ (xPos + x) (yPos + y) = false) :
    ∃ o1 o2, accessorComposeTiles k true xPos yPos [low, up] dst = some o1 ∧
      accessorComposeTiles k false xPos yPos [low, up] dst = some o2 ∧
      ∀ j, j < k.db → o1.byteAt k.db x y j = dst.byteAt k.db x y j ∧
        o2.byteAt k.db x y j = Tile.colour ⟨low.1.x, low.1.y, low.2.1, low.2.2⟩ k (xPos + x) (yPos + y) j := by
  obtain ⟨vis, v1, v2, v3⟩ := C32_draws_exactly_visible k dst xPos yPos [low, up]
  have h0 : 0 ∉ vis := by
    rw [v2]
    rintro ⟨r, hr, px, py, _, h2, h3⟩
    simp only [List.map_cons, List.map_nil, List.getElem?_cons_zero, Option.some.injEq] at hr
    subst hr
    exact h3 1 up.1 (by omega) (by simp) (hcov _ _ h2)
  have hvis : vis = [] ∨ vis = [1] := by
    have hall : ∀ i ∈ vis, i = 1 := by
      intro i hi
      obtain ⟨r, hr, _⟩ := (v2 i).1 hi
      have : i < 2 := by
        by_contra hc
        rw [List.getElem?_eq_none (by simp; omega)] at hr; simp at hr
      have : i ≠ 0 := fun h => h0 (h ▸ hi)
      omega
    match vis, v1, hall with
    | [], _, _ => exact Or.inl rfl
    | [a], _, h => exact Or.inr (by rw [h a (by simp)])
    | a :: b :: t, hp, h =>
      have h1 := h a (by simp)
      have h2 := h b (by simp)
      have := (List.pairwise_cons.1 hp).1 b (by simp)
      omega
  obtain ⟨o2, q1, _, _, _, _, q2, _⟩ := composeTiles_ok k xPos yPos ([low, up].map tl) dst hdst (by
      intro t ht
      rw [List.mem_map] at ht
      obtain ⟨s, h, rfl⟩ := ht
      exact (hs s h).1)
  have hpic : ∃ o1, composeTiles k xPos yPos (vis.filterMap fun i => (([low, up])[i]?).map tl) dst = some o1 ∧
      ∀ j, j < k.db → o1.byteAt k.db x y j = dst.byteAt k.db x y j := by
    rcases hvis with h | h
    · subst h; exact ⟨dst, rfl, fun _ _ => rfl⟩
    · subst h
      obtain ⟨o1, p1, _, _, _, _, p2, _⟩ := composeTiles_ok k xPos yPos [tl up] dst hdst (by
        intro t ht
        rw [List.mem_singleton] at ht
        subst ht
        exact (hs up (by simp)).1)
      refine ⟨o1, p1, fun j hj => ?_⟩
      rw [p2 x y j hx hy hj]
      simp [expected, hup]
  obtain ⟨o1, p1, p2⟩ := hpic
  refine ⟨o1, o2, by rw [v3]; exact p1, by unfold accessorComposeTiles; simpa using q1, fun j hj => ⟨p2 j hj, ?_⟩⟩
  rw [q2 x y j hx hy hj]
  simp [expected, hup, hlow]

example : ∀ px py, (⟨0,0,1,1⟩ : IntRect).Has px py → (⟨0,0,2,1⟩ : IntRect).Has px py := by
  intro px py h; unfold IntRect.Has at *; simp only at *; omega

/-! ## C33 - converters reading beyond the source pixel -/

theorem loop_none {σ : Type} {f : Nat → σ → Option σ} : ∀ {n : Nat} {s : σ} (k : Nat), k < n → (∀ s, f k s = none) → loop n f s = none
  | 0, _, _, h, _ => by omega
  | n + 1, s, k, h, hf => by
    by_cases hk : k = n
    · subst hk
      unfold loop
      cases loop k f s with
      | none => rfl
      | some s' => exact hf s'
    · unfold loop
      rw [loop_none k (by omega) hf]
      rfl

/-- **C33/C57, defect 1 in general.** Copying with a converter that reads more bytes than a source pixel has (Bgr24 to Bgr48: six
instead of three) accesses memory outside of the source buffer whenever the last pixel of the bitmap is copied and the buffer does
not contain that many bytes after its beginning, as in every bitmap without row padding. -/
theorem C33_overread_violated (c : Conv) (src dst : Bitmap) (xOff yOff : Int)
    (hsize : src.buf.size < (src.h - 1) * src.stride + (src.w - 1) * c.sb + c.rd)
    (x y : Nat) (hx : x < dst.w) (hy : y < dst.h) (hw : 0 < src.w) (hh : 0 < src.h)
    (hxl : (x : Int) - xOff = src.w - 1) (hyl : (y : Int) - yOff = src.h - 1) :
    copyWithOffset (.conv c) src dst xOff yOff false = none := by
  unfold copyWithOffset
  simp only
  have hi : ¬ ((IntRect.intersect ⟨xOff, yOff, src.w, src.h⟩ ⟨0, 0, dst.w, dst.h⟩).w = 0 ∨
      (IntRect.intersect ⟨xOff, yOff, src.w, src.h⟩ ⟨0, 0, dst.w, dst.h⟩).h = 0) := by
    intro h
    exact noclip_of src.w src.h dst.w dst.h xOff yOff x y h hx hy (by omega)
  rw [if_neg hi]
  have hcl := clip_of src.w src.h dst.w dst.h xOff yOff hi
  simp only [Kind.sb, Kind.db]
  generalize (IntRect.intersect ⟨xOff, yOff, src.w, src.h⟩ ⟨0, 0, dst.w, dst.h⟩) = I at hcl hi
  generalize I.x.toNat = ix at hcl ⊢
  generalize I.y.toNat = iy at hcl ⊢
  generalize I.w.toNat = W at hcl ⊢
  generalize I.h.toNat = H at hcl ⊢
  generalize (max (-xOff) 0).toNat = sx at hcl ⊢
  generalize (max (-yOff) 0).toNat = sy at hcl ⊢
  have g1 := (hcl.inx x hx).1 (by omega)
  have g2 := (hcl.iny y hy).1 (by omega)
  have c1 := hcl.ex; have c2 := hcl.ey; have c3 := hcl.sx; have c4 := hcl.sy; have c5 := hcl.hw; have c6 := hcl.hh
  have eW : sx + (W - 1) = src.w - 1 := by omega
  have eH : sy + (H - 1) = src.h - 1 := by omega
  unfold copyConv
  rw [loop_none (H - 1) (by omega) ?_]
  · rfl
  · intro b
    refine loop_none (W - 1) (by omega) ?_
    intro b'
    unfold Conv.apply
    rw [if_neg]
    rintro ⟨_, h⟩
    rw [← eH, ← eW, Nat.add_mul, Nat.add_mul] at hsize
    omega

/-- A bitmap without row padding is such a bitmap. -/
example (src : Bitmap) (hw : 0 < src.w) (hs : src.buf.size = (src.h - 1) * src.stride + src.w * convBgr24ToBgr48.sb) :
    src.buf.size < (src.h - 1) * src.stride + (src.w - 1) * convBgr24ToBgr48.sb + convBgr24ToBgr48.rd := by
  obtain ⟨h1, h2⟩ : convBgr24ToBgr48.sb = 3 ∧ convBgr24ToBgr48.rd = 6 := by decide
  rw [h1] at hs ⊢
  omega

/-! ## C33 - tile borders -/

theorem memset_row_post (bpp w base : Nat) (hb : 0 < bpp) (b : Buf) (h1 : base + w * bpp ≤ b.size) :
    ∃ b', b.memset base 0 (w * bpp) = some b' ∧ RowPost bpp w base (fun _ => true) (fun _ _ => 0) b b' := by
  unfold Buf.memset
  rw [if_pos h1]
  refine ⟨_, rfl, rfl, ?_, ?_⟩
  · intro x j hx hj
    have := col_bound hx hj
    simp only [if_true]
    rw [if_pos ⟨by omega, by omega⟩]
  · intro i hi
    simp only
    rw [if_neg]
    rintro ⟨h3, h4⟩
    refine hi ((i - base) / bpp) ((i - base) % bpp) ?_ (Nat.mod_lt _ hb) ?_
    · rw [Nat.div_lt_iff_lt_mul hb]; omega
    · have := Nat.div_add_mod (i - base) bpp
      rw [Nat.mul_comm] at this; omega

/-- The three writes of an inner row. -/
theorem inner_row_post (bpp w base s : Nat) (hb : 0 < bpp) (hw : 2 ≤ w) (src b : Buf) (h1 : base + w * bpp ≤ b.size)
    (h2 : s + w * bpp ≤ src.size) :
    ∃ b', ((b.memcpy (base + bpp) src s (w * bpp - 2 * bpp)).bind fun b1 =>
        (b1.memset base 0 bpp).bind fun b2 => b2.memset (base + w * bpp - bpp) 0 bpp) = some b' ∧
      RowPost bpp w base (fun _ => true) (fun x j => if x = 0 ∨ x = w - 1 then 0 else src.get (s + (x - 1) * bpp + j)) b b' := by
  have hw2 : 2 * bpp ≤ w * bpp := Nat.mul_le_mul_right _ hw
  rw [memcpy_eq (by omega) (by omega)]
  simp only [Option.bind_some]
  unfold Buf.memset
  rw [if_pos (by simp only; omega)]
  simp only [Option.bind_some]
  rw [if_pos (by omega)]
  refine ⟨_, rfl, rfl, ?_, ?_⟩
  · intro x j hx hj
    have hxj := col_bound hx hj
    simp only [if_true]
    by_cases hl : x = w - 1
    · have : w * bpp = x * bpp + bpp := by
        have : w = x + 1 := by omega
        rw [this, Nat.add_mul]; omega
      rw [if_pos ⟨by omega, by omega⟩, if_pos (Or.inr hl)]
    · have hle : x * bpp + bpp ≤ w * bpp - bpp := by
        have h3 : (x + 2) * bpp ≤ w * bpp := Nat.mul_le_mul_right _ (by omega)
        rw [Nat.add_mul] at h3; omega
      rw [if_neg (by omega)]
      by_cases h0 : x = 0
      · subst h0
        rw [if_pos (by omega), if_pos (Or.inl rfl)]
      · have hge : bpp ≤ x * bpp := Nat.le_mul_of_pos_left _ (by omega)
        rw [if_neg (by omega), if_pos (by omega), if_neg (by omega)]
        congr 1
        have : x * bpp = (x - 1) * bpp + bpp := by
          rw [← Nat.succ_mul]; congr 1; omega
        omega
  · intro i hi
    have hno : ¬ (base ≤ i ∧ i < base + w * bpp) := by
      rintro ⟨h3, h4⟩
      refine hi ((i - base) / bpp) ((i - base) % bpp) ?_ (Nat.mod_lt _ hb) ?_
      · rw [Nat.div_lt_iff_lt_mul hb]; omega
      · have := Nat.div_add_mod (i - base) bpp
        rw [Nat.mul_comm] at this; omega
    simp only
    rw [if_neg (by omega), if_neg (by omega), if_neg (by omega)]

/-- What the copy with a tile border produces in a region of `W` times `H` pixels. -/
theorem border_block (bpp W H d ds s ss : Nat) (hb : 0 < bpp) (hW : 0 < W) (hH : 0 < H) (hWH : 2 ≤ W ∨ H ≤ 2) (src dst : Buf)
    (hds : W * bpp ≤ ds)
    (hd : ∀ y, y < H → d + y * ds + W * bpp ≤ dst.size) (hs : ∀ y, y < H → s + y * ss + W * bpp ≤ src.size) :
    ∃ b, copySamePixelType bpp src s ss dst d ds W H true = some b ∧
      BlockPost bpp W H d ds (fun _ _ => true)
        (fun x y j => if x = 0 ∨ x = W - 1 ∨ y = 0 ∨ y = H - 1 then 0 else src.get (s + y * ss + (x - 1) * bpp + j)) dst b := by
  unfold copySamePixelType
  simp only [Bool.true_eq_false, if_false]
  obtain ⟨b0, p1, p2⟩ := memset_row_post bpp W d hb dst (by have := hd 0 (by omega); omega)
  rw [p1]
  simp only [Option.bind_some]
  obtain ⟨b1, q1, q2⟩ := blockLoop_post bpp W (H - 2) (d + ds) ds (fun _ _ => true)
    (fun x y j => if x = 0 ∨ x = W - 1 then 0 else src.get (s + (y + 1) * ss + (x - 1) * bpp + j)) b0
    (fun k b => if W * bpp < 2 * bpp then none
      else (b.memcpy (d + (k + 1) * ds + bpp) src (s + (k + 1) * ss) (W * bpp - 2 * bpp)).bind fun b1 =>
        (b1.memset (d + (k + 1) * ds) 0 bpp).bind fun b2 =>
        b2.memset (d + (k + 1) * ds + W * bpp - bpp) 0 bpp) hds (by
      intro k b hk hbs
      have hW2 : 2 ≤ W := by omega
      rw [if_neg (by have : 2 * bpp ≤ W * bpp := Nat.mul_le_mul_right _ hW2; omega)]
      have h1 := hd (k + 1) (by omega)
      have h2 := hs (k + 1) (by omega)
      obtain ⟨b', r1, r2⟩ := inner_row_post bpp W (d + (k + 1) * ds) (s + (k + 1) * ss) hb hW2 src b (by rw [hbs, p2.size]; exact h1) h2
      refine ⟨b', r1, ?_⟩
      rw [show d + ds + k * ds = d + (k + 1) * ds by rw [Nat.add_mul]; omega]
      exact r2)
  rw [q1]
  simp only [Option.bind_some]
  obtain ⟨b2, r1, r2⟩ := memset_row_post bpp W (d + (H - 1) * ds) hb b1 (by have := hd (H - 1) (by omega); rw [q2.size, p2.size]; omega)
  refine ⟨b2, r1, by rw [r2.size, q2.size, p2.size], ?_, ?_⟩
  · intro x y j hx hy hj
    have hxj := col_bound hx hj
    have hrow : ∀ {y1 y2 x1 j1 : Nat}, x1 < W → j1 < bpp → d + y1 * ds + x * bpp + j = d + y2 * ds + x1 * bpp + j1 → y1 = y2 := by
      intro y1 y2 x1 j1 h1 h2 h3
      have h4 := col_bound h1 h2
      exact (row_inj (y := y1) (y' := y2) (s := ds) (r := x * bpp + j) (r' := x1 * bpp + j1) (by omega) (by omega) (by omega)).1
    simp only [if_true]
    by_cases hl : y = H - 1
    · subst hl
      have := r2.inside x j hx hj
      rw [this]; simp
    · rw [r2.outside _ (fun x1 j1 h1 h2 h3 => hl (hrow h1 h2 h3))]
      by_cases h0 : y = 0
      · subst h0
        rw [q2.outside _ (fun x1 y1 j1 h1 h2 h3 h4 => by
          have := hrow (y1 := 0) (y2 := y1 + 1) h1 h3 (by rw [h4, Nat.add_mul]; omega)
          omega)]
        have := p2.inside x j hx hj
        rw [Nat.zero_mul, Nat.add_zero, this]; simp
      · have := q2.inside x (y - 1) j hx (by omega) hj
        rw [show d + ds + (y - 1) * ds + x * bpp + j = d + y * ds + x * bpp + j by
          have : y * ds = (y - 1) * ds + ds := by rw [← Nat.succ_mul]; congr 1; omega
          omega] at this
        rw [this, show y - 1 + 1 = y by omega]
        simp [h0, hl]
  · intro i hi
    rw [r2.outside, q2.outside, p2.outside]
    · intro x j hx hj; have := hi x 0 j hx hH hj; omega
    · intro x y j hx hy hj
      have := hi x (y + 1) j hx (by omega) hj
      rw [Nat.add_mul] at this; omega
    · intro x j hx hj; exact hi x (H - 1) j hx (by omega) hj

/-- **C33 violated with tile borders: what is drawn instead.** Copying a tile with a border into a bitmap, for every position at which
the visible part of the tile is at least two pixels wide or at most two pixels high: the outermost pixels of the visible part
become black, and every pixel inside shows *the left neighbour* of the source pixel belonging there. -/
theorem C33_border_violated (bpp : Nat) (hb : 0 < bpp) (src dst : Bitmap) (xOff yOff : Int) (hdst : dst.WF bpp) (hsrc : src.WF bpp)
    (left right top bottom : Int) (hl : left = max xOff 0) (hr : right = min (xOff + src.w) dst.w)
    (ht : top = max yOff 0) (hbt : bottom = min (yOff + src.h) dst.h) (hne : left < right ∧ top < bottom)
    (hwh : 2 ≤ right - left ∨ bottom - top ≤ 2) :
    ∃ out, copyWithOffset (.same bpp) src dst xOff yOff true = some out ∧
      ∀ x y j : Nat, x < dst.w → y < dst.h → j < bpp →
        (¬ (left ≤ x ∧ x < right ∧ top ≤ y ∧ y < bottom) → out.byteAt bpp x y j = dst.byteAt bpp x y j) ∧
        (left ≤ x → x < right → top ≤ y → y < bottom → (x = left ∨ x = right - 1 ∨ y = top ∨ y = bottom - 1) → out.byteAt bpp x y j = 0) ∧
        (left < x → x < right - 1 → top < y → y < bottom - 1 →
          out.byteAt bpp x y j = src.byteAt bpp (x - 1 - xOff).toNat (y - yOff).toNat j) := by
  unfold copyWithOffset
  simp only
  have hi : ¬ ((IntRect.intersect ⟨xOff, yOff, src.w, src.h⟩ ⟨0, 0, dst.w, dst.h⟩).w = 0 ∨
      (IntRect.intersect ⟨xOff, yOff, src.w, src.h⟩ ⟨0, 0, dst.w, dst.h⟩).h = 0) := by
    intro h
    exact noclip_of src.w src.h dst.w dst.h xOff yOff left.toNat top.toNat h (by omega) (by omega) (by omega)
  rw [if_neg hi]
  have hcl := clip_of src.w src.h dst.w dst.h xOff yOff hi
  have hI : (IntRect.intersect ⟨xOff, yOff, src.w, src.h⟩ ⟨0, 0, dst.w, dst.h⟩) = ⟨left, top, right - left, bottom - top⟩ := by
    unfold IntRect.intersect
    simp only
    split
    · rw [IntRect.mk.injEq]; omega
    · omega
  rw [hI] at hcl ⊢
  simp only [Kind.sb, Kind.db] at hcl ⊢
  have el : (left.toNat : Int) = left := by omega
  have et : (top.toNat : Int) = top := by omega
  have eW : ((right - left).toNat : Int) = right - left := by omega
  have eH : ((bottom - top).toNat : Int) = bottom - top := by omega
  generalize left.toNat = ix at hcl el ⊢
  generalize top.toNat = iy at hcl et ⊢
  generalize (right - left).toNat = W at hcl eW ⊢
  generalize (bottom - top).toNat = H at hcl eH ⊢
  generalize (max (-xOff) 0).toNat = sx at hcl ⊢
  generalize (max (-yOff) 0).toNat = sy at hcl ⊢
  have c1 := hcl.sx; have c2 := hcl.sy; have c3 := hcl.dx; have c4 := hcl.dy
  have c5 := hcl.ex; have c6 := hcl.ey; have c7 := hcl.hw; have c8 := hcl.hh
  have hW : W * bpp ≤ dst.stride := le_trans (Nat.mul_le_mul_right _ (by omega)) hdst.1
  obtain ⟨b, hb1, hb2⟩ := border_block bpp W H (iy * dst.stride + ix * bpp) dst.stride (sy * src.stride + sx * bpp) src.stride hb c7 c8
    (by omega) src.buf dst.buf hW (by
      intro y hy
      have h1 := hdst.2 (by omega)
      have h2 := row_in (s := dst.stride) (y := iy + y) (by omega) h1
      have h3 : (ix + W) * bpp ≤ dst.w * bpp := Nat.mul_le_mul_right _ (by omega)
      rw [Nat.add_mul] at h2 h3; omega) (by
      intro y hy
      have h1 := hsrc.2 (by omega)
      have h2 := row_in (s := src.stride) (y := sy + y) (by omega) h1
      have h3 : (sx + W) * bpp ≤ src.w * bpp := Nat.mul_le_mul_right _ (by omega)
      rw [Nat.add_mul] at h2 h3; omega)
  rw [hb1]
  refine ⟨{ dst with buf := b }, rfl, ?_⟩
  have htp := tilePost_of_block (mk' := fun x y => decide (ix ≤ x ∧ x < ix + W ∧ iy ≤ y ∧ y < iy + H))
    (val' := fun x y j => if x - ix = 0 ∨ x - ix = W - 1 ∨ y - iy = 0 ∨ y - iy = H - 1 then 0 else
      src.buf.get (sy * src.stride + sx * bpp + (y - iy) * src.stride + (x - ix - 1) * bpp + j)) hcl hb2 hdst.1
    (by
      intro x y j hx hy hj
      refine ⟨by simp; omega, fun _ => ?_⟩
      simp only [Nat.add_sub_cancel_left])
    (by intro x y _ _ h; exact decide_eq_false h)
  intro x y j hx hy hj
  have hin := htp.inside x y j hx hy hj
  simp only [decide_eq_true_eq] at hin
  refine ⟨?_, ?_, ?_⟩
  · intro hn
    rw [hin, if_neg (by omega)]
  · intro h1 h2 h3 h4 h5
    rw [hin, if_pos (by omega), if_pos (by omega)]
  · intro h1 h2 h3 h4
    rw [hin, if_pos (by omega), if_neg (by omega)]
    simp only [Bitmap.byteAt]
    congr 1
    have a1 : ((x : Int) - 1 - xOff).toNat = sx + (x - ix - 1) := by omega
    have a2 : ((y : Int) - yOff).toNat = sy + (y - iy) := by omega
    rw [a1, a2, Nat.add_mul, Nat.add_mul]; omega

/-- **C33, defect 3 in general:** if exactly one column of the tile is visible, and more than two rows, the copy length is negative. -/
theorem C33_border_one_column_violated (bpp : Nat) (hb : 0 < bpp) (src dst : Bitmap) (xOff yOff : Int)
    (hcol : min (xOff + src.w) dst.w - max xOff 0 = 1) (hrows : 3 ≤ min (yOff + src.h) dst.h - max yOff 0) :
    copyWithOffset (.same bpp) src dst xOff yOff true = none := by
  unfold copyWithOffset
  simp only
  have hI : (IntRect.intersect ⟨xOff, yOff, src.w, src.h⟩ ⟨0, 0, dst.w, dst.h⟩) =
      ⟨max xOff 0, max yOff 0, min (xOff + src.w) dst.w - max xOff 0, min (yOff + src.h) dst.h - max yOff 0⟩ := by
    unfold IntRect.intersect
    simp only
    split
    · rw [IntRect.mk.injEq]; omega
    · omega
  rw [hI]
  simp only
  rw [if_neg (by omega), hcol]
  generalize min (yOff + src.h) dst.h - max yOff 0 = h at hrows
  have hh : 3 ≤ h.toNat := by omega
  generalize h.toNat = H at hh
  unfold copySamePixelType
  simp only [Bool.true_eq_false, if_false]
  cases (dst.buf.memset ((max yOff 0).toNat * dst.stride + (max xOff 0).toNat * (Kind.same bpp).db) 0 ((1 : Int).toNat * bpp)) with
  | none => rfl
  | some b0 =>
    simp only [Option.bind_some]
    rw [loop_none 0 (by omega) ?_]
    · rfl
    · intro b
      rw [if_pos]
      show 1 * bpp < 2 * bpp
      omega

/-- Instances: a 4x3 tile partly left of a 5x5 bitmap; a tile of which one column is visible. -/
example : (⟨5, 5, 5, Buf.ofList (List.replicate 25 9)⟩ : Bitmap).WF 1 ∧ (⟨4, 3, 4, Buf.ofList [1,2,3,4,5,6,7,8,9,10,11,12]⟩ : Bitmap).WF 1 ∧
    min ((-1 : Int) + 4) 5 - max (-1) 0 = 3 ∧ min ((-3 : Int) + 4) 5 - max (-3) 0 = 1 ∧ min ((1 : Int) + 3) 5 - max 1 0 = 3 := by
  simp [Bitmap.WF, Buf.ofList]

/-! ## C35 - converting copy with mask -/

theorem repeat_same {b0 : Buf} (v : Nat → UInt8) (base n : Nat) (bit : Nat → Bool) (f : Nat → Buf → Option Buf) : ∀ (w : Nat),
    (∀ x b, x < w → b.size = b0.size → ∃ b', f x b = some b' ∧ b'.size = b.size ∧
      ∀ i, b'.get i = if bit x = true ∧ base ≤ i ∧ i < base + n then v (i - base) else b.get i) →
    ∃ b, loop w f b0 = some b ∧ b.size = b0.size ∧
      ∀ i, b.get i = if (∃ x, x < w ∧ bit x = true) ∧ base ≤ i ∧ i < base + n then v (i - base) else b0.get i
  | 0, _ => ⟨b0, rfl, rfl, fun i => by rw [if_neg]; rintro ⟨⟨x, hx, _⟩, _⟩; omega⟩
  | w + 1, h => by
    obtain ⟨b, h1, h2, h3⟩ := repeat_same v base n bit f w (fun x b hx => h x b (by omega))
    obtain ⟨b', g1, g2, g3⟩ := h w b (by omega) h2
    refine ⟨b', by rw [loop, h1]; exact g1, by rw [g2, h2], fun i => ?_⟩
    rw [g3, h3]
    by_cases hr : base ≤ i ∧ i < base + n
    · by_cases hb : bit w = true
      · rw [if_pos ⟨hb, hr⟩, if_pos ⟨⟨w, by omega, hb⟩, hr⟩]
      · rw [if_neg (fun h => hb h.1)]
        by_cases hex : ∃ x, x < w ∧ bit x = true
        · obtain ⟨x, hx, hbx⟩ := hex
          rw [if_pos ⟨⟨x, hx, hbx⟩, hr⟩, if_pos ⟨⟨x, by omega, hbx⟩, hr⟩]
        · rw [if_neg (fun h => hex h.1), if_neg]
          rintro ⟨⟨x, hx, hbx⟩, _⟩
          by_cases hxw : x = w
          · exact hb (hxw ▸ hbx)
          · exact hex ⟨x, by omega, hbx⟩
    · rw [if_neg (fun h => hr h.2), if_neg (fun h => hr h.2), if_neg (fun h => hr h.2)]

/-- Is there an unmasked pixel of row `r` of the source inside the destination? -/
def RowShows (src dst : Bitmap) (m : Mask) (xOff r : Int) : Prop :=
  ∃ x : Nat, x < dst.w ∧ Unmasked src m (x - xOff) r
where
  /-- the source pixel `(px,py)` exists and is not masked out -/
  Unmasked (src : Bitmap) (m : Mask) (px py : Int) : Prop :=
    0 ≤ px ∧ px < src.w ∧ 0 ≤ py ∧ py < src.h ∧ px < m.w ∧ py < m.h ∧ m.at px.toNat py.toNat = true

open RowShows in
/-- **C35 violated by every converting masked copy: what it does instead.** For every converter that stays within the source pixel,
every source, destination, mask and position: only the first column of the common region is ever written - with the conversion of the
first source pixel of the row, and if any pixel of the row is unmasked, even if the first one is masked out. All other pixels
keep their old contents although they may be unmasked. -/
theorem C35_converting_masked_copy_violated (c : Conv) (hc : c.rd ≤ c.sb) (src dst : Bitmap) (m : Mask) (xOff yOff : Int)
    (hdst : dst.WF c.db) (hsrc : src.WF c.sb) (hm : m.WF) :
    ∃ out, copyWithOffsetAndMask (.conv c) src dst (some m) xOff yOff = some out ∧
      ∀ x y j : Nat, x < dst.w → y < dst.h → j < c.db →
        ((x : Int) = max xOff 0 → RowShows src dst m xOff (y - yOff) →
          out.byteAt c.db x y j = c.f (fun k => src.byteAt c.sb (x - xOff).toNat (y - yOff).toNat k) j) ∧
        (¬ ((x : Int) = max xOff 0 ∧ RowShows src dst m xOff (y - yOff)) → out.byteAt c.db x y j = dst.byteAt c.db x y j) := by
  classical
  unfold copyWithOffsetAndMask
  simp only
  by_cases hi : (IntRect.intersect ⟨xOff, yOff, ((min src.w m.w : Nat) : Int), ((min src.h m.h : Nat) : Int)⟩ ⟨0, 0, dst.w, dst.h⟩).w = 0 ∨
      (IntRect.intersect ⟨xOff, yOff, ((min src.w m.w : Nat) : Int), ((min src.h m.h : Nat) : Int)⟩ ⟨0, 0, dst.w, dst.h⟩).h = 0
  · rw [if_pos hi]
    refine ⟨dst, rfl, fun x y j hx hy hj => ⟨fun _ h2 => ?_, fun _ => rfl⟩⟩
    exfalso
    obtain ⟨x', hx', h⟩ := h2
    unfold Unmasked at h
    exact noclip_of (min src.w m.w) (min src.h m.h) dst.w dst.h xOff yOff x' y hi hx' hy (by omega)
  · rw [if_neg hi]
    have hcl := clip_of (min src.w m.w) (min src.h m.h) dst.w dst.h xOff yOff hi
    have hmx : ∀ x : Nat, ((x : Int) = max xOff 0 ↔ x = (IntRect.intersect ⟨xOff, yOff, ((min src.w m.w : Nat) : Int), ((min src.h m.h : Nat) : Int)⟩ ⟨0, 0, dst.w, dst.h⟩).x.toNat) := by
      intro x
      have h1 := hcl.ex
      have h2 : (max (-xOff) 0).toNat = -xOff ∨ (max (-xOff) 0).toNat = 0 := by omega
      omega
    simp only [Kind.sb, Kind.db]
    generalize (IntRect.intersect ⟨xOff, yOff, ((min src.w m.w : Nat) : Int), ((min src.h m.h : Nat) : Int)⟩ ⟨0, 0, dst.w, dst.h⟩) = I at hcl hi hmx
    generalize I.x.toNat = ix at hcl hmx ⊢
    generalize I.y.toNat = iy at hcl ⊢
    generalize I.w.toNat = W at hcl ⊢
    generalize I.h.toNat = H at hcl ⊢
    generalize (max (-xOff) 0).toNat = sx at hcl ⊢
    generalize (max (-yOff) 0).toNat = sy at hcl ⊢
    have c1 := hcl.sx; have c2 := hcl.sy; have c3 := hcl.dx; have c4 := hcl.dy
    have c5 := hcl.ex; have c6 := hcl.ey; have c7 := hcl.hw; have c8 := hcl.hh
    have hd : ∀ y, y < H → iy * dst.stride + ix * c.db + y * dst.stride + W * c.db ≤ dst.buf.size := by
      intro y hy
      have h1 := hdst.2 (by omega)
      have h2 := row_in (s := dst.stride) (y := iy + y) (by omega) h1
      have h3 : (ix + W) * c.db ≤ dst.w * c.db := Nat.mul_le_mul_right _ (by omega)
      rw [Nat.add_mul] at h2 h3; omega
    have hs : ∀ y, y < H → sy * src.stride + sx * c.sb + y * src.stride + W * c.sb ≤ src.buf.size := by
      intro y hy
      have h1 := hsrc.2 (by omega)
      have h2 := row_in (s := src.stride) (y := sy + y) (by omega) h1
      have h3 : (sx + W) * c.sb ≤ src.w * c.sb := Nat.mul_le_mul_right _ (by omega)
      rw [Nat.add_mul] at h2 h3; omega
    have hWdb : c.db ≤ W * c.db := Nat.le_mul_of_pos_left _ c7
    have hWsb : c.sb ≤ W * c.sb := Nat.le_mul_of_pos_left _ c7
    have hrow : ∀ y (b : Buf), y < H → b.size = dst.buf.size → ∃ b', loop W (fun x b' => (maskBitUnchecked m.buf m.stride (x + sx) (y + sy)).bind fun bit =>
        if bit then c.apply b' (iy * dst.stride + ix * c.db + y * dst.stride) src.buf (sy * src.stride + sx * c.sb + y * src.stride) else some b') b = some b' ∧
        b'.size = b.size ∧
        ∀ i, b'.get i = if (∃ x, x < W ∧ m.at (x + sx) (y + sy) = true) ∧ iy * dst.stride + ix * c.db + y * dst.stride ≤ i ∧
            i < iy * dst.stride + ix * c.db + y * dst.stride + c.db
          then c.f (fun k => src.buf.get (sy * src.stride + sx * c.sb + y * src.stride + k)) (i - (iy * dst.stride + ix * c.db + y * dst.stride)) else b.get i := by
      intro y b hy hb
      refine repeat_same (b0 := b) (c.f (fun k => src.buf.get (sy * src.stride + sx * c.sb + y * src.stride + k))) _ c.db (fun x => m.at (x + sx) (y + sy)) _ W ?_
      intro x b' hx hb'
      rw [maskBit_at m hm _ _ (by omega) (by omega)]
      simp only [Option.bind_some]
      have h1 := hd y hy
      have h2 := hs y hy
      by_cases hbit : m.at (x + sx) (y + sy) = true
      · rw [if_pos hbit, conv_eq (by omega) (by omega)]
        exact ⟨_, rfl, rfl, fun i => by simp [hbit]⟩
      · rw [if_neg hbit]
        exact ⟨b', rfl, rfl, fun i => by simp [hbit]⟩
    have hblock : ∃ b, copyConvWithMask c src.buf (sy * src.stride + sx * c.sb) src.stride dst.buf (iy * dst.stride + ix * c.db) dst.stride W H m.buf m.stride sx sy = some b ∧
        BlockPost c.db 1 H (iy * dst.stride + ix * c.db) dst.stride (fun _ y => decide (∃ x, x < W ∧ m.at (x + sx) (y + sy) = true))
          (fun _ y j => c.f (fun k => src.buf.get (sy * src.stride + sx * c.sb + y * src.stride + k)) j) dst.buf b := by
      unfold copyConvWithMask
      apply blockLoop_post
      · have h3 : (ix + W) * c.db ≤ dst.w * c.db := Nat.mul_le_mul_right _ (by omega)
        have := hdst.1
        rw [Nat.add_mul] at h3; omega
      · intro y b hy hb
        obtain ⟨b', h1, h2, h3⟩ := hrow y b hy hb
        refine ⟨b', h1, h2, ?_, ?_⟩
        · intro x j hx hj
          have : x = 0 := by omega
          subst this
          rw [h3]
          simp only [decide_eq_true_eq, Nat.zero_mul, Nat.add_zero]
          by_cases hex : ∃ x, x < W ∧ m.at (x + sx) (y + sy) = true
          · rw [if_pos ⟨hex, by omega, by omega⟩, if_pos hex]
            congr 1; omega
          · rw [if_neg (fun h => hex h.1), if_neg hex]
        · intro i hi
          rw [h3, if_neg]
          rintro ⟨_, h4, h5⟩
          exact hi 0 (i - (iy * dst.stride + ix * c.db + y * dst.stride)) (by omega) (by omega) (by omega)
    obtain ⟨b, hb1, hb2⟩ := hblock
    refine ⟨{ dst with buf := b }, by rw [hb1]; rfl, ?_⟩
    have hclip1 : Clip (min src.w m.w) (min src.h m.h) dst.w dst.h xOff yOff ix iy sx sy W H := hcl
    have hrows : ∀ y : Nat, iy ≤ y → y < iy + H → (RowShows src dst m xOff (y - yOff) ↔ ∃ x, x < W ∧ m.at (x + sx) (y - iy + sy) = true) := by
      intro y hy1 hy2
      have ey : ((y : Int) - yOff).toNat = y - iy + sy := by omega
      constructor
      · rintro ⟨x, hx, h⟩
        unfold Unmasked at h
        have h1 := (hcl.inx x hx).1 (by omega)
        refine ⟨x - ix, by omega, ?_⟩
        have ex : ((x : Int) - xOff).toNat = x - ix + sx := by omega
        rw [← ex, ← ey]; exact h.2.2.2.2.2.2
      · rintro ⟨x, hx, h⟩
        refine ⟨ix + x, by omega, ?_⟩
        unfold Unmasked
        have ex : (((ix + x : Nat) : Int) - xOff).toNat = x + sx := by omega
        have h1 := (hcl.inx (ix + x) (by omega)).2 (by omega)
        rw [ex, ey]
        exact ⟨by omega, by omega, by omega, by omega, by omega, by omega, h⟩
    intro x y j hx hy hj
    rw [hmx]
    have e : ∀ y' j', iy * dst.stride + ix * c.db + y' * dst.stride + 0 * c.db + j' = (iy + y') * dst.stride + ix * c.db + j' := by
      intro y' j'; rw [Nat.add_mul]; omega
    by_cases hreg : x = ix ∧ iy ≤ y ∧ y < iy + H
    · obtain ⟨hx0, hy1, hy2⟩ := hreg
      subst hx0
      have h1 := hb2.inside 0 (y - iy) j (by omega) (by omega) hj
      rw [e, show iy + (y - iy) = y by omega] at h1
      simp only [decide_eq_true_eq] at h1
      have h2 := hrows y hy1 hy2
      constructor
      · intro _ hrw
        rw [if_pos (h2.1 hrw)] at h1
        simp only [Bitmap.byteAt]
        rw [h1]
        congr 1
        funext k
        congr 1
        have a1 : ((x : Int) - xOff).toNat = sx := by omega
        have a2 : ((y : Int) - yOff).toNat = sy + (y - iy) := by omega
        rw [a1, a2, Nat.add_mul]; omega
      · intro hn
        rw [if_neg (fun h => hn ⟨rfl, h2.2 h⟩)] at h1
        simp only [Bitmap.byteAt]
        exact h1
    · constructor
      · intro h1 h2
        exfalso
        apply hreg
        obtain ⟨x', hx', h⟩ := h2
        unfold Unmasked at h
        exact ⟨h1, (hcl.iny y hy).1 (by omega)⟩
      · intro _
        simp only [Bitmap.byteAt]
        apply hb2.outside
        intro x' y' j' hx' hy' hj' he
        have : x' = 0 := by omega
        subst this
        rw [e] at he
        have h1 := col_bound hx hj
        have h2 := col_bound (show ix < dst.w by omega) hj'
        have h0 := hdst.1
        have h3 := row_inj (y := y) (y' := iy + y') (s := dst.stride) (r := x * c.db + j) (r' := ix * c.db + j') (by omega) (by omega) (by omega)
        have h4 := row_inj hj hj' h3.2
        omega

end Verif
