import Verif.Model.Scale
import Verif.Proof.Blit
import Verif.Proof.Float

namespace Verif.Scale
open Blit Flt Czi Bitonal

theorem tilePost_of_region {db : Nat} {dst : Bitmap} {ix iy W H : Nat}
    (hd : ∀ x y, x < W → y < H → ix + x < dst.w ∧ iy + y < dst.h)
    {mk : Nat → Nat → Bool} {val : Nat → Nat → Nat → UInt8} {b : Buf}
    (hb : BlockPost db W H (iy * dst.stride + ix * db) dst.stride mk val dst.buf b)
    {mk' : Nat → Nat → Bool} {val' : Nat → Nat → Nat → UInt8}
    (hwf : dst.w * db ≤ dst.stride)
    (hin : ∀ x y j, x < W → y < H → j < db → mk' (ix + x) (iy + y) = mk x y ∧ (mk x y = true → val' (ix + x) (iy + y) j = val x y j))
    (hout : ∀ x y, x < dst.w → y < dst.h → ¬ (ix ≤ x ∧ x < ix + W ∧ iy ≤ y ∧ y < iy + H) → mk' x y = false) :
    TilePost db dst { dst with buf := b } mk' val' := by
  have e : ∀ x y j, iy * dst.stride + ix * db + y * dst.stride + x * db + j
      = (iy + y) * dst.stride + (ix + x) * db + j := by
    intro x y j; rw [Nat.add_mul, Nat.add_mul]; omega
  refine ⟨rfl, rfl, rfl, hb.size, ?_, ?_⟩
  · intro x y j hx hy hj
    by_cases hreg : ix ≤ x ∧ x < ix + W ∧ iy ≤ y ∧ y < iy + H
    · obtain ⟨x', rfl⟩ := Nat.exists_eq_add_of_le hreg.1
      obtain ⟨y', rfl⟩ := Nat.exists_eq_add_of_le hreg.2.2.1
      have h1 := hb.inside x' y' j (by omega) (by omega) hj
      have h2 := hin x' y' j (by omega) (by omega) hj
      rw [e] at h1
      simp only [Bitmap.byteAt]
      rw [h1, h2.1]
      by_cases hm : mk x' y' = true
      · rw [if_pos hm, if_pos hm, h2.2 hm]
      · rw [if_neg hm, if_neg hm]
    · rw [hout x y hx hy hreg]
      simp only [Bitmap.byteAt, Bool.false_eq_true, if_false]
      apply hb.outside
      intro x' y' j' hx' hy' hj' he
      rw [e] at he
      have h1 := col_bound hx hj
      have h2 := col_bound (hd x' y' hx' hy').1 hj'
      have h3 := row_inj (y := y) (y' := iy + y') (s := dst.stride) (r := x * db + j) (r' := (ix + x') * db + j')
        (by omega) (by omega) (by omega)
      have h4 := row_inj hj hj' h3.2
      omega
  · intro i hi
    apply hb.outside
    intro x y j hx hy hj he
    rw [e] at he
    exact hi (ix + x) (iy + y) j (hd x y hx hy).1 (hd x y hx hy).2 hj he

theorem range_bound {a : Axis} {r : Nat × Nat} (h : a.range = some r) : ∀ i, i < r.2 → r.1 + i < a.dstN := by
  intro i hi
  unfold Axis.range at h
  split at h
  · simp at h
  · simp only [Option.bind_eq_some_iff, Option.map_eq_some_iff] at h
    obtain ⟨begin, _, last, _, lo, _, hi', _, rfl⟩ := h
    dsimp only at hi ⊢
    omega

theorem source_bound (a : Axis) (h : 0 < a.srcN) (x : Nat) : 0 ≤ a.source x ∧ a.source x < a.srcN := by
  unfold Axis.source
  split
  · omega
  · split <;> omega

/-- Is the source pixel to be used? -/
def shown (mask : Option Mask) (sx sy : Nat) : Bool :=
  match mask with
  | none => true
  | some m => decide (sx < m.w ∧ sy < m.h) && m.at sx sy

theorem scalePixel_ok {c : Conv} (hrd : c.rd ≤ c.sb) {mask : Option Mask} (hm : ∀ m, mask = some m → m.WF) {src : Bitmap}
    (hsrc : src.WF c.sb) {sx sy : Int} (hx : 0 ≤ sx ∧ sx < src.w) (hy : 0 ≤ sy ∧ sy < src.h) {stride x y : Nat} {b : Buf}
    (hb : y * stride + x * c.db + c.db ≤ b.size) :
    ∃ b', scalePixel c mask src stride sx sy x y b = some b' ∧ b'.size = b.size ∧
      ∀ i, b'.get i = if shown mask sx.toNat sy.toNat = true ∧ y * stride + x * c.db ≤ i ∧ i < y * stride + x * c.db + c.db then
        c.f (fun k => src.byteAt c.sb sx.toNat sy.toNat k) (i - (y * stride + x * c.db)) else b.get i := by
  unfold scalePixel
  rw [if_neg (by omega)]
  have hs : sy.toNat * src.stride + sx.toNat * c.sb + c.rd ≤ src.buf.size := by
    have h1 := row_in (y := sy.toNat) (show sy.toNat < src.h by omega) (hsrc.2 (by omega))
    have h2 : sx.toNat * c.sb + c.sb ≤ src.w * c.sb := by
      have := Nat.mul_le_mul_right c.sb (show sx.toNat + 1 ≤ src.w by omega)
      rw [Nat.add_mul] at this; omega
    omega
  have hc : c.apply b (y * stride + x * c.db) src.buf (sy.toNat * src.stride + sx.toNat * c.sb) = _ := conv_eq hb hs
  dsimp only
  rw [hc]
  cases mask with
  | none =>
    refine ⟨_, rfl, rfl, ?_⟩
    intro i
    simp only [shown, true_and]
    rfl
  | some m =>
    dsimp only
    by_cases hin : sx < m.w ∧ sy < m.h
    · rw [if_pos hin, maskBit_at m (hm m rfl) _ _ (by omega) (by omega)]
      have hin' : sx.toNat < m.w ∧ sy.toNat < m.h := by omega
      simp only [Option.bind_some]
      cases hbit : m.at sx.toNat sy.toNat with
      | true =>
        refine ⟨_, rfl, rfl, ?_⟩
        intro i
        simp only [shown, hin', hbit, true_and, decide_true, Bool.and_true]
        rfl
      | false =>
        refine ⟨b, rfl, rfl, ?_⟩
        intro i
        simp [shown, hbit]
    · rw [if_neg hin]
      refine ⟨b, rfl, rfl, ?_⟩
      intro i
      have hin' : ¬ (sx.toNat < m.w ∧ sy.toNat < m.h) := by omega
      simp [shown, hin']

/-- Scaling is memory-safe and sets exactly the visited pixels (that are not masked out). -/
theorem scaleLoops_ok {c : Conv} (hrd : c.rd ≤ c.sb) {mask : Option Mask} (hm : ∀ m, mask = some m → m.WF) {src dst : Bitmap}
    (hsrc : src.WF c.sb) (hdst : dst.WF c.db) (hw : 0 < src.w) (hh : 0 < src.h) {ax ay : Axis} (hax : ax.srcN = src.w ∧ ax.dstN = dst.w)
    (hay : ay.srcN = src.h ∧ ay.dstN = dst.h) {rx ry : Nat × Nat} (hrx : ax.range = some rx) (hry : ay.range = some ry) :
    ∃ out, scaleLoops c mask src dst ax ay = some out ∧
      TilePost c.db dst out
        (fun x y => decide (rx.1 ≤ x ∧ x < rx.1 + rx.2 ∧ ry.1 ≤ y ∧ y < ry.1 + ry.2) &&
          shown mask (ax.source x).toNat (ay.source y).toNat)
        (fun x y j => c.f (fun k => src.byteAt c.sb (ax.source x).toNat (ay.source y).toNat k) j) := by
  have hbx := range_bound hrx
  have hby := range_bound hry
  rw [hax.2] at hbx
  rw [hay.2] at hby
  unfold scaleLoops
  rw [hrx, hry]
  simp only [Option.bind_some]
  by_cases hz : rx.2 = 0
  · have e : loop ry.2 (fun j b => loop rx.2 (fun i b' =>
      scalePixel c mask src dst.stride (ax.source (rx.1 + i)) (ay.source (ry.1 + j)) (rx.1 + i) (ry.1 + j) b') b) dst.buf = some dst.buf := by
      rw [hz]
      have : ∀ n, loop n (fun j b => loop 0 (fun i b' =>
        scalePixel c mask src dst.stride (ax.source (rx.1 + i)) (ay.source (ry.1 + j)) (rx.1 + i) (ry.1 + j) b') b) dst.buf = some dst.buf := by
        intro n
        induction n with
        | zero => rfl
        | succ n ih => simp only [loop] at ih ⊢; rw [ih]; rfl
      exact this _
    rw [e]
    refine ⟨dst, rfl, tilePost_id dst ?_⟩
    intro x y _ _
    have : ¬ (rx.1 ≤ x ∧ x < rx.1 + rx.2 ∧ ry.1 ≤ y ∧ y < ry.1 + ry.2) := by omega
    simp [this]
  · have hW : rx.2 * c.db ≤ dst.stride := by
      refine le_trans (Nat.mul_le_mul_right _ ?_) hdst.1
      have := hbx (rx.2 - 1) (by omega)
      omega
    obtain ⟨b, h1, h2⟩ := blockLoop_post c.db rx.2 ry.2 (ry.1 * dst.stride + rx.1 * c.db) dst.stride
      (fun x y => shown mask (ax.source (rx.1 + x)).toNat (ay.source (ry.1 + y)).toNat)
      (fun x y j => c.f (fun k => src.byteAt c.sb (ax.source (rx.1 + x)).toNat (ay.source (ry.1 + y)).toNat k) j) dst.buf
      (fun j b => loop rx.2 (fun i b' =>
        scalePixel c mask src dst.stride (ax.source (rx.1 + i)) (ay.source (ry.1 + j)) (rx.1 + i) (ry.1 + j) b') b) hW (by
      intro y b hy hb
      refine rowLoop_post c.db rx.2 _ _ _ b _ ?_
      intro x b' hx hb'
      have sx := source_bound ax (by omega) (rx.1 + x)
      have sy := source_bound ay (by omega) (ry.1 + y)
      rw [hax.1] at sx
      rw [hay.1] at sy
      have e : ry.1 * dst.stride + rx.1 * c.db + y * dst.stride + x * c.db = (ry.1 + y) * dst.stride + (rx.1 + x) * c.db := by
        rw [Nat.add_mul, Nat.add_mul]; omega
      have hfit : (ry.1 + y) * dst.stride + (rx.1 + x) * c.db + c.db ≤ b'.size := by
        have h3 := hbx x hx
        have h4 := hby y hy
        have h5 := row_in h4 (hdst.2 (by omega))
        have h6 := Nat.mul_le_mul_right c.db (show rx.1 + x + 1 ≤ dst.w by omega)
        rw [Nat.add_mul _ 1] at h6
        rw [hb', hb]
        omega
      rw [e]
      exact scalePixel_ok hrd hm hsrc sx sy hfit)
    rw [h1]
    refine ⟨_, rfl, tilePost_of_region (ix := rx.1) (iy := ry.1) (W := rx.2) (H := ry.2)
      (fun x y hx hy => ⟨hbx x hx, hby y hy⟩) h2 hdst.1 ?_ ?_⟩
    · intro x y j hx hy _
      have : rx.1 ≤ rx.1 + x ∧ rx.1 + x < rx.1 + rx.2 ∧ ry.1 ≤ ry.1 + y ∧ ry.1 + y < ry.1 + ry.2 := by omega
      simp only [this, and_self, decide_true, Bool.true_and, true_and]
      exact fun _ => trivial
    · intro x y _ _ hn
      simp [hn]

end Verif.Scale
