import Verif.Spec.Blit
import Verif.Proof.Rect

namespace Verif

theorem loop_inv {σ : Type} (P : Nat → σ → Prop) (f : Nat → σ → Option σ) (n : Nat) (s : σ)
    (h0 : P 0 s) (hs : ∀ i s, i < n → P i s → ∃ s', f i s = some s' ∧ P (i+1) s') :
    ∃ s', loop n f s = some s' ∧ P n s' := by
  induction n with
  | zero => exact ⟨s, rfl, h0⟩
  | succ n ih =>
    obtain ⟨s1, h1, h2⟩ := ih (fun i s hi hp => hs i s (by omega) hp)
    obtain ⟨s2, h3, h4⟩ := hs n s1 (by omega) h2
    exact ⟨s2, by simp [loop, h1, h3], h4⟩

theorem row_lt {y y' s : Nat} (h : y < y') : y * s + s ≤ y' * s := by
  have : (y + 1) * s ≤ y' * s := Nat.mul_le_mul_right s h
  rw [Nat.add_mul] at this; omega

/-- Decoding of `y * s + r` with `r < s`. -/
theorem row_inj {y y' r r' s : Nat} (hr : r < s) (hr' : r' < s) (h : y * s + r = y' * s + r') :
    y = y' ∧ r = r' := by
  have hy : y = y' := by
    rcases Nat.lt_trichotomy y y' with h1 | h1 | h1
    · have := row_lt (s := s) h1; omega
    · exact h1
    · have := row_lt (s := s) h1; omega
  subst hy; exact ⟨rfl, by omega⟩

theorem col_bound {x w b j : Nat} (hx : x < w) (hj : j < b) : x * b + j < w * b := by
  have := row_lt (s := b) hx; omega

theorem memcpy_eq {dst : Buf} {d : Nat} {src : Buf} {s n : Nat} (h1 : d + n ≤ dst.size) (h2 : s + n ≤ src.size) :
    dst.memcpy d src s n = some { dst with get := fun i => if d ≤ i ∧ i < d + n then src.get (s + (i - d)) else dst.get i } :=
  if_pos ⟨h1, h2⟩

namespace Blit

theorem conv_eq {c : Conv} {dst : Buf} {d : Nat} {src : Buf} {s : Nat} (h1 : d + c.db ≤ dst.size) (h2 : s + c.rd ≤ src.size) :
    c.apply dst d src s = some { dst with get := fun i => if d ≤ i ∧ i < d + c.db then c.f (fun k => src.get (s + k)) (i - d)
                                     else dst.get i } :=
  if_pos ⟨h1, h2⟩

/-- Effect of one row starting at `base`. -/
structure RowPost (db w base : Nat) (mk : Nat → Bool) (val : Nat → Nat → UInt8) (b0 b : Buf) : Prop where
  size : b.size = b0.size
  inside : ∀ x j, x < w → j < db → b.get (base + x * db + j) = if mk x then val x j else b0.get (base + x * db + j)
  outside : ∀ i, (∀ x j, x < w → j < db → i ≠ base + x * db + j) → b.get i = b0.get i

theorem rowLoop_post (db w base : Nat) (mk : Nat → Bool) (val : Nat → Nat → UInt8) (b0 : Buf)
    (f : Nat → Buf → Option Buf)
    (hf : ∀ x b, x < w → b.size = b0.size → ∃ b', f x b = some b' ∧ b'.size = b.size ∧
      ∀ i, b'.get i = if mk x = true ∧ base + x * db ≤ i ∧ i < base + x * db + db then val x (i - (base + x * db)) else b.get i) :
    ∃ b, loop w f b0 = some b ∧ RowPost db w base mk val b0 b := by
  obtain ⟨b, h1, h2⟩ := loop_inv (fun X b => RowPost db X base mk val b0 b) f w b0
    ⟨rfl, by intro x j hx; omega, by intros; rfl⟩ (by
      intro X b hX hb
      obtain ⟨b', hb1, hb2, hb3⟩ := hf X b hX hb.size
      refine ⟨b', hb1, by rw [hb2, hb.size], ?_, ?_⟩
      · intro x j hx hj
        rw [hb3]
        by_cases hxX : x = X
        · subst hxX
          by_cases hm : mk x = true
          · rw [if_pos ⟨hm, by omega, by omega⟩, if_pos hm]
            congr 1; omega
          · rw [if_neg (by tauto), if_neg hm]
            apply hb.outside
            intro x' j' hx' hj' he
            have := row_inj hj hj' (y := x) (y' := x') (s := db) (by omega)
            omega
        · rw [if_neg]
          · exact hb.inside x j (by omega) hj
          · rintro ⟨_, h3, h4⟩
            have := row_lt (s := db) (show x < X by omega)
            omega
      · intro i hi
        rw [hb3, if_neg]
        · exact hb.outside i (fun x j hx hj => hi x j (by omega) hj)
        · rintro ⟨_, h3, h4⟩
          exact hi X (i - (base + X * db)) (by omega) (by omega) (by omega))
  exact ⟨b, h1, h2⟩

/-- Effect of copying a `w × h` block. -/
structure BlockPost (db w h d ds : Nat) (mk : Nat → Nat → Bool) (val : Nat → Nat → Nat → UInt8) (b0 b : Buf) : Prop where
  size : b.size = b0.size
  inside : ∀ x y j, x < w → y < h → j < db →
    b.get (d + y * ds + x * db + j) = if mk x y then val x y j else b0.get (d + y * ds + x * db + j)
  outside : ∀ i, (∀ x y j, x < w → y < h → j < db → i ≠ d + y * ds + x * db + j) → b.get i = b0.get i

theorem blockLoop_post (db w h d ds : Nat) (mk : Nat → Nat → Bool) (val : Nat → Nat → Nat → UInt8) (b0 : Buf)
    (f : Nat → Buf → Option Buf) (hds : w * db ≤ ds)
    (hf : ∀ y b, y < h → b.size = b0.size → ∃ b', f y b = some b' ∧
      RowPost db w (d + y * ds) (fun x => mk x y) (fun x j => val x y j) b b') :
    ∃ b, loop h f b0 = some b ∧ BlockPost db w h d ds mk val b0 b := by
  obtain ⟨b, h1, h2⟩ := loop_inv (fun Y b => BlockPost db w Y d ds mk val b0 b) f h b0
    ⟨rfl, by intro x y j _ hy; omega, by intros; rfl⟩ (by
      intro Y b hY hb
      obtain ⟨b', hb1, hb2⟩ := hf Y b hY hb.size
      refine ⟨b', hb1, by rw [hb2.size, hb.size], ?_, ?_⟩
      · intro x y j hx hy hj
        by_cases hyY : y = Y
        · subst hyY
          rw [hb2.inside x j hx hj]
          split
          · rfl
          · apply hb.outside
            intro x' y' j' hx' hy' hj' he
            have h1 := col_bound hx hj
            have h2 := col_bound hx' hj'
            have := row_inj (y := y) (y' := y') (s := ds) (r := x * db + j) (r' := x' * db + j') (by omega) (by omega) (by omega)
            omega
        · rw [hb2.outside, hb.inside x y j hx (by omega) hj]
          intro x' j' hx' hj' he
          have h1 := col_bound hx hj
          have h2 := col_bound hx' hj'
          have := row_inj (y := y) (y' := Y) (s := ds) (r := x * db + j) (r' := x' * db + j') (by omega) (by omega) (by omega)
          omega
      · intro i hi
        rw [hb2.outside, hb.outside]
        · intro x y j hx hy hj; exact hi x y j hx (by omega) hj
        · intro x j hx hj; exact hi x Y j hx (by omega) hj)
  exact ⟨b, h1, h2⟩

theorem memcpy_row_post (bpp w base : Nat) (src b : Buf) (s : Nat) (h1 : base + w * bpp ≤ b.size)
    (h2 : s + w * bpp ≤ src.size) :
    ∃ b', b.memcpy base src s (w * bpp) = some b' ∧
      RowPost bpp w base (fun _ => true) (fun x j => src.get (s + x * bpp + j)) b b' := by
  refine ⟨_, memcpy_eq h1 h2, rfl, ?_, ?_⟩
  · intro x j hx hj
    have := col_bound hx hj
    simp only [if_true]
    rw [if_pos ⟨by omega, by omega⟩]
    congr 1; omega
  · intro i hi
    simp only
    rw [if_neg]
    rintro ⟨h3, h4⟩
    have hb : 0 < bpp := by
      rcases Nat.eq_zero_or_pos bpp with h | h
      · subst h; omega
      · exact h
    refine hi ((i - base) / bpp) ((i - base) % bpp) ?_ (Nat.mod_lt _ hb) ?_
    · rw [Nat.div_lt_iff_lt_mul hb]; omega
    · have := Nat.div_add_mod (i - base) bpp
      rw [Nat.mul_comm] at this; omega

theorem conv_row_post (c : Conv) (w base : Nat) (src b : Buf) (s : Nat) (h1 : base + w * c.db ≤ b.size)
    (h2 : w * c.sb + s ≤ src.size) (hrd : c.rd ≤ c.sb) :
    ∃ b', loop w (fun x b' => c.apply b' (base + x * c.db) src (s + x * c.sb)) b = some b' ∧
      RowPost c.db w base (fun _ => true) (fun x j => c.f (fun k => src.get (s + x * c.sb + k)) j) b b' := by
  apply rowLoop_post
  intro x b' hx hb'
  have e1 := row_lt (s := c.db) hx
  have e2 := row_lt (s := c.sb) hx
  refine ⟨_, conv_eq (by omega) (by omega), rfl, ?_⟩
  intro i
  simp

theorem maskrow_post (bpp w base : Nat) (src b : Buf) (s : Nat) (bit : Nat → Bool)
    (mb : Nat → Option Bool) (hmb : ∀ x, x < w → mb x = some (bit x))
    (h1 : base + w * bpp ≤ b.size) (h2 : s + w * bpp ≤ src.size) :
    ∃ b', loop w (fun x b' => (mb x).bind fun bit =>
        if bit then b'.memcpy (base + x * bpp) src (s + x * bpp) bpp else some b') b = some b' ∧
      RowPost bpp w base bit (fun x j => src.get (s + x * bpp + j)) b b' := by
  apply rowLoop_post
  intro x b' hx hb'
  have e1 := row_lt (s := bpp) hx
  rw [hmb x hx]
  simp only [Option.bind_some]
  by_cases hbit : bit x = true
  · rw [if_pos hbit]
    refine ⟨_, memcpy_eq (by omega) (by omega), rfl, ?_⟩
    intro i
    simp [hbit]
  · rw [if_neg hbit]
    exact ⟨b', rfl, rfl, by intro i; simp [hbit]⟩

/-- The mask test of the code is the specification's bit test. -/
theorem uint8_bit (v : UInt8) (k : Nat) (hk : k < 8) :
    decide (v &&& ((1 : UInt8) <<< k.toUInt8) ≠ 0) = v.toNat.testBit k := by
  have key : ∀ k : Fin 8, ∀ v : BitVec 8,
      decide (UInt8.ofBitVec v &&& ((1 : UInt8) <<< k.val.toUInt8) ≠ 0) = v.toNat.testBit k.val := by
    decide +kernel
  have := key ⟨k, hk⟩ v.toBitVec
  simpa using this

theorem maskBit_at (m : Mask) (hm : m.WF) (x y : Nat) (hx : x < m.w) (hy : y < m.h) :
    maskBitUnchecked m.buf m.stride x y = some (m.at x y) := by
  obtain ⟨h1, h2⟩ := hm
  have h3 := h2 (by omega)
  have h4 : y * m.stride ≤ (m.h - 1) * m.stride := Nat.mul_le_mul_right _ (by omega)
  unfold maskBitUnchecked Buf.read Mask.at
  rw [if_pos (by omega), Option.map_some]
  rw [uint8_bit _ _ (by omega)]


/-- The clipped region in natural numbers. -/
structure Clip (sw sh dw dh : Nat) (xOff yOff : Int) (ix iy tx ty W H : Nat) : Prop where
  sx : tx + W ≤ sw
  sy : ty + H ≤ sh
  dx : ix + W ≤ dw
  dy : iy + H ≤ dh
  ex : (ix : Int) - xOff = tx
  ey : (iy : Int) - yOff = ty
  inx : ∀ x : Nat, x < dw → ((xOff ≤ x ∧ (x : Int) < xOff + sw) ↔ (ix ≤ x ∧ x < ix + W))
  iny : ∀ y : Nat, y < dh → ((yOff ≤ y ∧ (y : Int) < yOff + sh) ↔ (iy ≤ y ∧ y < iy + H))
  hw : 0 < W
  hh : 0 < H

theorem clip_of (sw sh dw dh : Nat) (xOff yOff : Int) :
    let i := IntRect.intersect ⟨xOff, yOff, sw, sh⟩ ⟨0, 0, dw, dh⟩
    ¬ (i.w = 0 ∨ i.h = 0) →
    Clip sw sh dw dh xOff yOff i.x.toNat i.y.toNat (max (-xOff) 0).toNat (max (-yOff) 0).toNat i.w.toNat i.h.toNat := by
  intro i hi
  have hi' : i = IntRect.intersect ⟨xOff, yOff, sw, sh⟩ ⟨0, 0, dw, dh⟩ := rfl
  unfold IntRect.intersect at hi'
  simp only at hi'
  split at hi'
  · rw [hi'] at hi ⊢
    simp only at hi ⊢
    constructor <;> (try intro v hv) <;> omega
  · rw [hi'] at hi; simp at hi

theorem noclip_of (sw sh dw dh : Nat) (xOff yOff : Int) (dx dy : Nat) :
    let i := IntRect.intersect ⟨xOff, yOff, sw, sh⟩ ⟨0, 0, dw, dh⟩
    (i.w = 0 ∨ i.h = 0) → dx < dw → dy < dh →
    ¬ (xOff ≤ dx ∧ (dx : Int) < xOff + sw ∧ yOff ≤ dy ∧ (dy : Int) < yOff + sh) := by
  intro i hi hdx hdy hc
  have hh : i.Has dx dy := by
    rw [intersect_has]
    unfold IntRect.Has; simp only; omega
  unfold IntRect.Has at hh
  omega

/-- Result of painting one tile, in destination coordinates. -/
structure TilePost (db : Nat) (dst out : Bitmap) (mk : Nat → Nat → Bool) (val : Nat → Nat → Nat → UInt8) : Prop where
  w : out.w = dst.w
  h : out.h = dst.h
  stride : out.stride = dst.stride
  size : out.buf.size = dst.buf.size
  inside : ∀ x y j, x < dst.w → y < dst.h → j < db →
    out.byteAt db x y j = if mk x y then val x y j else dst.byteAt db x y j
  outside : ∀ i, dst.IsPadding db i → out.buf.get i = dst.buf.get i

/-- from block to destination coordinates -/
theorem tilePost_of_block {db sw sh : Nat} {dst : Bitmap} {xOff yOff : Int} {ix iy tx ty W H : Nat}
    (hc : Clip sw sh dst.w dst.h xOff yOff ix iy tx ty W H)
    {mk : Nat → Nat → Bool} {val : Nat → Nat → Nat → UInt8} {b : Buf}
    (hb : BlockPost db W H (iy * dst.stride + ix * db) dst.stride mk val dst.buf b)
    {mk' : Nat → Nat → Bool} {val' : Nat → Nat → Nat → UInt8}
    (hwf : dst.w * db ≤ dst.stride)
    (hin : ∀ x y j, x < W → y < H → j < db → mk' (ix + x) (iy + y) = mk x y ∧ (mk x y = true → val' (ix + x) (iy + y) j = val x y j))
    (hout : ∀ x y, x < dst.w → y < dst.h → ¬ (ix ≤ x ∧ x < ix + W ∧ iy ≤ y ∧ y < iy + H) → mk' x y = false) :
    TilePost db dst { dst with buf := b } mk' val' := by
  have e : ∀ x y j, iy * dst.stride + ix * db + y * dst.stride + x * db + j
      = (iy + y) * dst.stride + (ix + x) * db + j := by
    intro x y j; rw [Nat.add_mul, Nat.add_mul]; omega
  refine ⟨rfl, rfl, rfl, hb.size, ?_, ?_⟩
  · intro x y j hx hy hj
    by_cases hreg : ix ≤ x ∧ x < ix + W ∧ iy ≤ y ∧ y < iy + H
    · obtain ⟨x', rfl⟩ := Nat.exists_eq_add_of_le hreg.1
      obtain ⟨y', rfl⟩ := Nat.exists_eq_add_of_le hreg.2.2.1
      have h1 := hb.inside x' y' j (by omega) (by omega) hj
      have h2 := hin x' y' j (by omega) (by omega) hj
      rw [e] at h1
      simp only [Bitmap.byteAt]
      rw [h1, h2.1]
      by_cases hm : mk x' y' = true
      · rw [if_pos hm, if_pos hm, h2.2 hm]
      · rw [if_neg hm, if_neg hm]
    · rw [hout x y hx hy hreg]
      simp only [Bitmap.byteAt, Bool.false_eq_true, if_false]
      apply hb.outside
      intro x' y' j' hx' hy' hj' he
      rw [e] at he
      have h1 := col_bound hx hj
      have h2 := col_bound (show ix + x' < dst.w by have := hc.dx; omega) hj'
      have h3 := row_inj (y := y) (y' := iy + y') (s := dst.stride) (r := x * db + j) (r' := (ix + x') * db + j')
        (by omega) (by omega) (by omega)
      have h4 := row_inj hj hj' h3.2
      omega
  · intro i hi
    apply hb.outside
    intro x y j hx hy hj he
    rw [e] at he
    exact hi (ix + x) (iy + y) j (by have := hc.dx; omega) (by have := hc.dy; omega) hj he

theorem tilePost_id {db : Nat} (dst : Bitmap) {mk : Nat → Nat → Bool} {val : Nat → Nat → Nat → UInt8}
    (h : ∀ x y, x < dst.w → y < dst.h → mk x y = false) : TilePost db dst dst mk val :=
  ⟨rfl, rfl, rfl, rfl, by intro x y j hx hy _; simp [h x y hx hy], by intros; rfl⟩

theorem row_in {h s n y : Nat} {size : Nat} (hy : y < h) (hs : (h - 1) * s + n ≤ size) : y * s + n ≤ size := by
  have : y * s ≤ (h - 1) * s := Nat.mul_le_mul_right s (by omega)
  omega

/-- `paints` in offset form -/
theorem paints_off (t : Tile) (px py : Int) :
    t.paints px py = (decide (0 ≤ px - t.x ∧ px - t.x < t.bm.w ∧ 0 ≤ py - t.y ∧ py - t.y < t.bm.h) &&
      match t.mask with
      | none => true
      | some m => decide (px - t.x < m.w ∧ py - t.y < m.h) && m.at (px - t.x).toNat (py - t.y).toNat) := by
  unfold Tile.paints
  congr 1
  rw [decide_eq_decide]; omega

theorem compose_ok (k : Kind) (dst : Bitmap) (t : Tile) (xPos yPos : Int)
    (hdst : dst.WF k.db) (hsrc : t.bm.WF k.sb)
    (hk : match t.mask with | none => k.NoOverread | some m => k.IsSame ∧ m.WF) :
    ∃ out, composeMaskAware k dst t xPos yPos = some out ∧
      TilePost k.db dst out (fun x y => t.paints (xPos + x) (yPos + y))
        (fun x y j => t.colour k (xPos + x) (yPos + y) j) := by
  obtain ⟨tx0, ty0, bm, mask⟩ := t
  unfold composeMaskAware copyWithOffsetAndMask
  simp only
  simp only at hsrc hk
  cases mask with
  | none =>
    simp only at hk ⊢
    unfold copyWithOffset
    simp only
    by_cases hi : (IntRect.intersect ⟨tx0 - xPos, ty0 - yPos, bm.w, bm.h⟩ ⟨0, 0, dst.w, dst.h⟩).w = 0 ∨
        (IntRect.intersect ⟨tx0 - xPos, ty0 - yPos, bm.w, bm.h⟩ ⟨0, 0, dst.w, dst.h⟩).h = 0
    · rw [if_pos hi]
      refine ⟨dst, rfl, tilePost_id dst ?_⟩
      intro x y hx hy
      have := noclip_of bm.w bm.h dst.w dst.h (tx0 - xPos) (ty0 - yPos) x y hi hx hy
      simp only [Tile.paints, Bool.and_true, decide_eq_false_iff_not]
      intro h; apply this; omega
    · rw [if_neg hi]
      have hc := clip_of bm.w bm.h dst.w dst.h (tx0 - xPos) (ty0 - yPos) hi
      generalize (IntRect.intersect ⟨tx0 - xPos, ty0 - yPos, bm.w, bm.h⟩ ⟨0, 0, dst.w, dst.h⟩) = I at hc hi
      generalize I.x.toNat = ix at hc ⊢
      generalize I.y.toNat = iy at hc ⊢
      generalize I.w.toNat = W at hc ⊢
      generalize I.h.toNat = H at hc ⊢
      generalize (max (-(tx0 - xPos)) 0).toNat = sx at hc ⊢
      generalize (max (-(ty0 - yPos)) 0).toNat = sy at hc ⊢
      have c1 := hc.sx; have c2 := hc.sy; have c3 := hc.dx; have c4 := hc.dy
      have c5 := hc.ex; have c6 := hc.ey; have c7 := hc.hw; have c8 := hc.hh
      have hW : W * k.db ≤ dst.stride := le_trans (Nat.mul_le_mul_right _ (by omega)) hdst.1
      have hd : ∀ y, y < H → iy * dst.stride + ix * k.db + y * dst.stride + W * k.db ≤ dst.buf.size := by
        intro y hy
        have h1 := hdst.2 (by omega)
        have h2 := row_in (s := dst.stride) (y := iy + y) (by omega) h1
        have h3 : (ix + W) * k.db ≤ dst.w * k.db := Nat.mul_le_mul_right _ (by omega)
        rw [Nat.add_mul] at h2 h3; omega
      have hs : ∀ y, y < H → sy * bm.stride + sx * k.sb + y * bm.stride + W * k.sb ≤ bm.buf.size := by
        intro y hy
        have h1 := hsrc.2 (by omega)
        have h2 := row_in (s := bm.stride) (y := sy + y) (by omega) h1
        have h3 : (sx + W) * k.sb ≤ bm.w * k.sb := Nat.mul_le_mul_right _ (by omega)
        rw [Nat.add_mul] at h2 h3; omega
      have main : ∃ b, (match k with
          | .same bpp => copySamePixelType bpp bm.buf (sy * bm.stride + sx * k.sb) bm.stride dst.buf
              (iy * dst.stride + ix * k.db) dst.stride W H false
          | .conv c => copyConv c bm.buf (sy * bm.stride + sx * k.sb) bm.stride dst.buf
              (iy * dst.stride + ix * k.db) dst.stride W H) = some b ∧
          BlockPost k.db W H (iy * dst.stride + ix * k.db) dst.stride (fun _ _ => true)
            (fun x y j => k.value (fun i => bm.buf.get (sy * bm.stride + sx * k.sb + y * bm.stride + x * k.sb + i)) j)
            dst.buf b := by
        cases k with
        | same bpp =>
          simp only [copySamePixelType, if_true]
          apply blockLoop_post _ _ _ _ _ _ _ _ _ hW
          intro y b hy hbs
          exact memcpy_row_post bpp W _ bm.buf b _ (by rw [hbs]; exact hd y hy) (hs y hy)
        | conv c =>
          simp only [copyConv]
          apply blockLoop_post _ _ _ _ _ _ _ _ _ hW
          intro y b hy hbs
          exact conv_row_post c W _ bm.buf b _ (by rw [hbs]; exact hd y hy) (by have := hs y hy; simp only [Kind.sb] at *; omega) hk
      obtain ⟨b, hb1, hb2⟩ := main
      refine ⟨{ dst with buf := b }, ?_, ?_⟩
      · cases k <;> simp only [Kind.db, Kind.sb] at hb1 ⊢ <;> rw [hb1] <;> rfl
      · refine tilePost_of_block hc hb2 hdst.1 ?_ ?_
        · intro x y j hx hy hj
          have g1 := (hc.inx (ix + x) (by omega)).2 ⟨by omega, by omega⟩
          have g2 := (hc.iny (iy + y) (by omega)).2 ⟨by omega, by omega⟩
          constructor
          · simp only [Tile.paints, Bool.and_true, decide_eq_true_eq]
            omega
          · intro _
            simp only [Tile.colour, Bitmap.byteAt]
            have a1 : (xPos + ((ix + x : Nat) : Int) - tx0).toNat = sx + x := by omega
            have a2 : (yPos + ((iy + y : Nat) : Int) - ty0).toNat = sy + y := by omega
            rw [a1, a2]
            congr 1
            funext i
            congr 1
            rw [Nat.add_mul, Nat.add_mul]; omega
        · intro x y hx hy hreg
          have g1 := hc.inx x hx
          have g2 := hc.iny y hy
          simp only [Tile.paints, Bool.and_true, decide_eq_false_iff_not]
          intro h
          apply hreg
          have := g1.1 (by omega)
          have := g2.1 (by omega)
          omega
  | some m =>
    simp only at hk ⊢
    obtain ⟨hsame, hm⟩ := hk
    cases k with
    | conv c => exact hsame.elim
    | same bpp =>
    simp only [Kind.db, Kind.sb] at *
    by_cases hi : (IntRect.intersect ⟨tx0 - xPos, ty0 - yPos, ((min bm.w m.w : Nat) : Int), ((min bm.h m.h : Nat) : Int)⟩ ⟨0, 0, dst.w, dst.h⟩).w = 0 ∨
        (IntRect.intersect ⟨tx0 - xPos, ty0 - yPos, ((min bm.w m.w : Nat) : Int), ((min bm.h m.h : Nat) : Int)⟩ ⟨0, 0, dst.w, dst.h⟩).h = 0
    · rw [if_pos hi]
      refine ⟨dst, rfl, tilePost_id dst ?_⟩
      intro x y hx hy
      have := noclip_of (min bm.w m.w) (min bm.h m.h) dst.w dst.h (tx0 - xPos) (ty0 - yPos) x y hi hx hy
      simp only [Tile.paints, Bool.and_eq_false_iff, decide_eq_false_iff_not]
      by_cases h1 : tx0 ≤ xPos + ↑x ∧ xPos + ↑x < tx0 + bm.w ∧ ty0 ≤ yPos + ↑y ∧ yPos + ↑y < ty0 + bm.h
      · right; left; intro h2; apply this; omega
      · exact Or.inl h1
    · rw [if_neg hi]
      have hc := clip_of (min bm.w m.w) (min bm.h m.h) dst.w dst.h (tx0 - xPos) (ty0 - yPos) hi
      generalize (IntRect.intersect ⟨tx0 - xPos, ty0 - yPos, ((min bm.w m.w : Nat) : Int), ((min bm.h m.h : Nat) : Int)⟩ ⟨0, 0, dst.w, dst.h⟩) = I at hc hi
      generalize I.x.toNat = ix at hc ⊢
      generalize I.y.toNat = iy at hc ⊢
      generalize I.w.toNat = W at hc ⊢
      generalize I.h.toNat = H at hc ⊢
      generalize (max (-(tx0 - xPos)) 0).toNat = sx at hc ⊢
      generalize (max (-(ty0 - yPos)) 0).toNat = sy at hc ⊢
      have c1 := hc.sx; have c2 := hc.sy; have c3 := hc.dx; have c4 := hc.dy
      have c5 := hc.ex; have c6 := hc.ey; have c7 := hc.hw; have c8 := hc.hh
      have hW : W * bpp ≤ dst.stride := le_trans (Nat.mul_le_mul_right _ (by omega)) hdst.1
      have hd : ∀ y, y < H → iy * dst.stride + ix * bpp + y * dst.stride + W * bpp ≤ dst.buf.size := by
        intro y hy
        have h1 := hdst.2 (by omega)
        have h2 := row_in (s := dst.stride) (y := iy + y) (by omega) h1
        have h3 : (ix + W) * bpp ≤ dst.w * bpp := Nat.mul_le_mul_right _ (by omega)
        rw [Nat.add_mul] at h2 h3; omega
      have hs : ∀ y, y < H → sy * bm.stride + sx * bpp + y * bm.stride + W * bpp ≤ bm.buf.size := by
        intro y hy
        have h1 := hsrc.2 (by omega)
        have h2 := row_in (s := bm.stride) (y := sy + y) (by omega) h1
        have h3 : (sx + W) * bpp ≤ bm.w * bpp := Nat.mul_le_mul_right _ (by omega)
        rw [Nat.add_mul] at h2 h3; omega
      obtain ⟨b, hb1, hb2⟩ : ∃ b, copySameWithMask bpp bm.buf (sy * bm.stride + sx * bpp) bm.stride dst.buf
              (iy * dst.stride + ix * bpp) dst.stride W H m.buf m.stride sx sy = some b ∧
          BlockPost bpp W H (iy * dst.stride + ix * bpp) dst.stride (fun x y => m.at (x + sx) (y + sy))
            (fun x y j => bm.buf.get (sy * bm.stride + sx * bpp + y * bm.stride + x * bpp + j))
            dst.buf b := by
        unfold copySameWithMask
        apply blockLoop_post _ _ _ _ _ _ _ _ _ hW
        intro y b hy hbs
        exact maskrow_post bpp W _ bm.buf b _ (fun x => m.at (x + sx) (y + sy)) _
          (fun x hx => maskBit_at m hm _ _ (by omega) (by omega)) (by rw [hbs]; exact hd y hy) (hs y hy)
      refine ⟨{ dst with buf := b }, by rw [hb1]; rfl, ?_⟩
      refine tilePost_of_block hc hb2 hdst.1 ?_ ?_
      · intro x y j hx hy hj
        have g1 := (hc.inx (ix + x) (by omega)).2 ⟨by omega, by omega⟩
        have g2 := (hc.iny (iy + y) (by omega)).2 ⟨by omega, by omega⟩
        have a1 : (xPos + ((ix + x : Nat) : Int) - tx0).toNat = sx + x := by omega
        have a2 : (yPos + ((iy + y : Nat) : Int) - ty0).toNat = sy + y := by omega
        constructor
        · simp only [Tile.paints]
          rw [a1, a2, decide_eq_true (by omega), decide_eq_true (by omega)]
          simp [Nat.add_comm]
        · intro _
          simp only [Tile.colour, Bitmap.byteAt, Kind.value, Kind.sb]
          rw [a1, a2]
          congr 1
          rw [Nat.add_mul, Nat.add_mul]; omega
      · intro x y hx hy hreg
        have g1 := hc.inx x hx
        have g2 := hc.iny y hy
        simp only [Tile.paints, Bool.and_eq_false_iff, decide_eq_false_iff_not]
        by_cases h1 : tx0 ≤ xPos + ↑x ∧ xPos + ↑x < tx0 + bm.w ∧ ty0 ≤ yPos + ↑y ∧ yPos + ↑y < ty0 + bm.h
        · right; left; intro h2; apply hreg
          have := g1.1 (by omega)
          have := g2.1 (by omega)
          omega
        · exact Or.inl h1

end Blit
end Verif
