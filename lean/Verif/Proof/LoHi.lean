import Verif.Model.LoHi
import Verif.Spec.LoHi
import Verif.Proof.Blit

namespace Verif.LoHi
open Verif Verif.Blit

theorem row_le {y x w h : Nat} (hy : y < h) (hx : x ≤ w) : y * w + x ≤ w * h := by
  have := row_lt (s := w) hy
  rw [Nat.mul_comm w h]; omega

/-- State after the first `k` words have been unpacked. -/
structure UInv (src : Buf) (w stride h : Nat) (old : Buf) (k : Nat) (b : Buf) : Prop where
  size : b.size = old.size
  low : ∀ y x, y < h → x < w → y * w + x < k → b.get (y * w + x) = src.get (y * stride + 2 * x)
  high : ∀ y x, y < h → x < w → y * w + x < k → b.get (w * h + (y * w + x)) = src.get (y * stride + 2 * x + 1)
  rest : ∀ i, 2 * (w * h) ≤ i → b.get i = old.get i

theorem uinv_step {src : Buf} {w stride h : Nat} {old : Buf} {y x n : Nat} {b b' : Buf} (hy : y < h) (hx : x + n ≤ w)
    (hb : UInv src w stride h old (y * w + x) b) (hs : b'.size = b.size)
    (hg : ∀ i, b'.get i = if y * w + x ≤ i ∧ i < y * w + x + n then src.get (y * stride + 2 * (x + (i - (y * w + x))))
      else if w * h + (y * w + x) ≤ i ∧ i < w * h + (y * w + x) + n then
        src.get (y * stride + 2 * (x + (i - (w * h + (y * w + x)))) + 1)
      else b.get i) :
    UInv src w stride h old (y * w + (x + n)) b' := by
  have hle := row_le hy hx
  refine ⟨by rw [hs, hb.size], ?_, ?_, ?_⟩
  · intro y' x' hy' hx' hk
    have hle' := row_le hy' (show x' + 1 ≤ w by omega)
    rw [hg]
    by_cases hc : y * w + x ≤ y' * w + x'
    · rw [if_pos ⟨hc, by omega⟩]
      have hy2 : y' = y := by
        rcases Nat.lt_trichotomy y' y with h1 | h1 | h1
        · have := row_lt (s := w) h1; omega
        · exact h1
        · have := row_lt (s := w) h1; omega
      subst hy2
      congr 2; omega
    · rw [if_neg (by omega), if_neg (by omega)]
      exact hb.low y' x' hy' hx' (by omega)
  · intro y' x' hy' hx' hk
    have hle' := row_le hy' (show x' + 1 ≤ w by omega)
    rw [hg, if_neg (by omega)]
    by_cases hc : y * w + x ≤ y' * w + x'
    · rw [if_pos ⟨by omega, by omega⟩]
      have hy2 : y' = y := by
        rcases Nat.lt_trichotomy y' y with h1 | h1 | h1
        · have := row_lt (s := w) h1; omega
        · exact h1
        · have := row_lt (s := w) h1; omega
      subst hy2
      congr 3; omega
    · rw [if_neg (by omega)]
      exact hb.high y' x' hy' hx' (by omega)
  · intro i hi
    rw [hg, if_neg (by omega), if_neg (by omega)]
    exact hb.rest i hi

theorem half_eq (w h : Nat) : (w * 2 * h) / 2 = w * h := by
  rw [Nat.mul_right_comm]; exact Nat.mul_div_cancel _ (by omega)

theorem unpackWord_eq (src : Buf) (s half p : Nat) (dst : Buf) (h1 : s + 2 ≤ src.size) (h2 : p + half < dst.size) (hp : 0 < half) :
    ∃ b, unpackWord src s half p dst = some b ∧ b.size = dst.size ∧
      ∀ i, b.get i = if i = p then src.get s else if i = p + half then src.get (s + 1) else dst.get i := by
  refine ⟨⟨dst.size, fun j => if j = p + half then src.get (s + 1) else if j = p then src.get s else dst.get j⟩, by
    simp only [unpackWord, Buf.read, Buf.write, if_pos (show s < src.size by omega), if_pos (show s + 1 < src.size by omega),
      if_pos (show p < dst.size by omega), if_pos h2, Option.bind_eq_bind, Option.bind_some], rfl, ?_⟩
  intro i
  dsimp only
  by_cases h3 : i = p
  · subst h3; rw [if_neg (by omega)]; simp
  · simp [h3]

theorem uinv_word {src : Buf} {w stride h : Nat} {old : Buf} {y x : Nat} {b : Buf} (hy : y < h) (hx : x < w)
    (hsrc : (h - 1) * stride + 2 * w ≤ src.size) (hdst : 2 * (w * h) ≤ old.size)
    (hb : UInv src w stride h old (y * w + x) b) (s p : Nat) (hs : s = y * stride + 2 * x) (hp : p = y * w + x) :
    ∃ b', unpackWord src s (w * h) p b = some b' ∧ UInv src w stride h old (y * w + (x + 1)) b' := by
  subst hs; subst hp
  have hle := row_le hy (show x + 1 ≤ w by omega)
  have hin := row_in (n := 2 * w) hy hsrc
  obtain ⟨b', h1, h2, h3⟩ := unpackWord_eq src (y * stride + 2 * x) (w * h) (y * w + x) b (by omega) (by rw [hb.size]; omega) (by omega)
  refine ⟨b', h1, uinv_step hy (n := 1) (by omega) hb h2 ?_⟩
  intro i
  rw [h3]
  by_cases e1 : i = y * w + x
  · subst e1; rw [if_pos rfl, if_pos ⟨by omega, by omega⟩]; congr 2; omega
  · rw [if_neg e1, if_neg (show ¬ (y * w + x ≤ i ∧ i < y * w + x + 1) by omega)]
    by_cases e2 : i = y * w + x + w * h
    · rw [if_pos e2, if_pos ⟨by omega, by omega⟩]; congr 3; omega
    · rw [if_neg e2, if_neg (by omega)]

/-- A row whose words `x0..x0+m` are done one by one. -/
theorem uinv_words {src : Buf} {w stride h : Nat} {old : Buf} {y x0 m : Nat} {b : Buf} (hy : y < h) (hx : x0 + m ≤ w)
    (hsrc : (h - 1) * stride + 2 * w ≤ src.size) (hdst : 2 * (w * h) ≤ old.size)
    (hb : UInv src w stride h old (y * w + x0) b) (s p : Nat) (hs : s = y * stride + 2 * x0) (hp : p = y * w + x0) :
    ∃ b', loop m (fun i dst => unpackWord src (s + 2 * i) (w * h) (p + i) dst) b = some b' ∧
      UInv src w stride h old (y * w + (x0 + m)) b' := by
  refine loop_inv (fun i b => UInv src w stride h old (y * w + (x0 + i)) b) _ m b hb ?_
  intro i b hi hb
  exact uinv_word hy (by omega) hsrc hdst hb _ _ (by omega) (by omega)

theorem uinv_rows {src : Buf} {w stride h : Nat} {old : Buf} (f : Nat → Buf → Option Buf)
    (hf : ∀ y b, y < h → UInv src w stride h old (y * w + 0) b → ∃ b', f y b = some b' ∧ UInv src w stride h old (y * w + w) b') :
    ∃ b, loop h f old = some b ∧ Unpacked src w stride h old b := by
  obtain ⟨b, h1, h2⟩ := loop_inv (fun y b => UInv src w stride h old (y * w) b) f h old
    ⟨rfl, by intros; omega, by intros; omega, by intros; rfl⟩ (by
      intro y b hy hb
      obtain ⟨b', h1, h2⟩ := hf y b hy hb
      refine ⟨b', h1, ?_⟩
      rw [Nat.add_mul, Nat.one_mul]; exact h2)
  refine ⟨b, h1, h2.size, ?_, ?_, h2.rest⟩
  · intro y x hy hx
    have := row_le hy (show x + 1 ≤ w by omega)
    exact h2.low y x hy hx (by rw [Nat.mul_comm h w]; omega)
  · intro y x hy hx
    have := row_le hy (show x + 1 ≤ w by omega)
    exact h2.high y x hy hx (by rw [Nat.mul_comm h w]; omega)

theorem unpackC_spec (src : Buf) (w stride h : Nat) (dst : Buf) (hsrc : (h - 1) * stride + 2 * w ≤ src.size)
    (hdst : 2 * (w * h) ≤ dst.size) : ∃ b, unpackC src w stride h dst = some b ∧ Unpacked src w stride h dst b := by
  unfold unpackC
  simp only [half_eq]
  refine uinv_rows _ ?_
  intro y b hy hb
  obtain ⟨b', h1, h2⟩ := uinv_words (m := w) hy (by omega) hsrc hdst hb (y * stride) (y * w) (by omega) (by omega)
  exact ⟨b', h1, by simpa using h2⟩

/-- One vector of `n` words at word `x` of row `y`. -/
theorem uinv_vec {src : Buf} {w stride h : Nat} {old : Buf} {y x n : Nat} {b : Buf} (hy : y < h) (hx : x + n ≤ w)
    (hdst : 2 * (w * h) ≤ old.size) (hb : UInv src w stride h old (y * w + x) b) (lo hi : Nat → UInt8)
    (hlo : ∀ j, j < n → lo j = src.get (y * stride + 2 * (x + j))) (hhi : ∀ j, j < n → hi j = src.get (y * stride + 2 * (x + j) + 1))
    (p : Nat) (hp : p = y * w + x) :
    ∃ b', ((writeVec b p n lo).bind fun dst => writeVec dst (p + w * h) n hi) = some b' ∧
      UInv src w stride h old (y * w + (x + n)) b' := by
  subst hp
  have hle := row_le hy hx
  have hs := hb.size
  refine ⟨⟨b.size, fun i =>
        if y * w + x + w * h ≤ i ∧ i < y * w + x + w * h + n then hi (i - (y * w + x + w * h))
        else if y * w + x ≤ i ∧ i < y * w + x + n then lo (i - (y * w + x)) else b.get i⟩, by
    simp only [writeVec, if_pos (show y * w + x + n ≤ b.size by omega), Option.bind_some,
      if_pos (show y * w + x + w * h + n ≤ b.size by omega)], uinv_step hy hx hb rfl ?_⟩
  intro i
  dsimp only
  by_cases h1 : y * w + x + w * h ≤ i ∧ i < y * w + x + w * h + n
  · rw [if_pos h1, if_neg (by omega), if_pos ⟨by omega, by omega⟩, hhi _ (by omega)]
    congr 4; omega
  · rw [if_neg h1]
    by_cases h2 : y * w + x ≤ i ∧ i < y * w + x + n
    · rw [if_pos h2, if_pos h2, hlo _ (by omega)]
    · rw [if_neg h2, if_neg h2, if_neg (by omega)]

theorem avx_lo (d : Nat → UInt8) (j : Nat) (hj : j < 16) :
    permute4x64 (shuffleEpi8 d shuffleConst) 0xd8 j = d (2 * j) ∧
    permute4x64 (shuffleEpi8 d shuffleConst) 0xd8 (16 + j) = d (2 * j + 1) := by
  have : j ∈ List.range 16 := by simp [hj]
  have key : ∀ j ∈ List.range 16,
      (8 * (0xd8 / 4 ^ (j / 8) % 4) + j % 8) / 16 * 16 + shuffleConst (8 * (0xd8 / 4 ^ (j / 8) % 4) + j % 8) % 16 = 2 * j ∧
      shuffleConst (8 * (0xd8 / 4 ^ (j / 8) % 4) + j % 8) < 128 ∧
      (8 * (0xd8 / 4 ^ ((16 + j) / 8) % 4) + (16 + j) % 8) / 16 * 16 + shuffleConst (8 * (0xd8 / 4 ^ ((16 + j) / 8) % 4) + (16 + j) % 8) % 16 = 2 * j + 1 ∧
      shuffleConst (8 * (0xd8 / 4 ^ ((16 + j) / 8) % 4) + (16 + j) % 8) < 128 := by decide
  obtain ⟨k1, k2, k3, k4⟩ := key j this
  unfold permute4x64 shuffleEpi8
  rw [if_neg (by omega), if_neg (by omega), k1, k3]
  exact ⟨rfl, rfl⟩

theorem readVec_eq (b : Buf) (off n : Nat) (h : off + n ≤ b.size) : readVec b off n = some (fun i => b.get (off + i)) := if_pos h

theorem unpackAvx_spec (src : Buf) (w stride h : Nat) (dst : Buf) (hsrc : (h - 1) * stride + 2 * w ≤ src.size)
    (hdst : 2 * (w * h) ≤ dst.size) : ∃ b, unpackAvx src w stride h dst = some b ∧ Unpacked src w stride h dst b := by
  unfold unpackAvx
  simp only [half_eq]
  refine uinv_rows _ ?_
  intro y b hy hb
  have hin := row_in (n := 2 * w) hy hsrc
  obtain ⟨b1, h1, h2⟩ := loop_inv (fun i b => UInv src w stride h dst (y * w + 16 * i) b)
    (fun i dst => do
      let d ← readVec src (y * stride + 32 * i) 32
      let shuffled := permute4x64 (shuffleEpi8 d shuffleConst) 0xd8
      let dst ← writeVec dst (y * w + 16 * i) 16 shuffled
      writeVec dst (y * w + 16 * i + w * h) 16 (fun j => shuffled (16 + j))) (w / 16) b (by simpa using hb) (by
      intro i b hi hb
      have hw : 16 * i + 16 ≤ w := by have := Nat.div_mul_le_self w 16; omega
      rw [readVec_eq _ _ _ (by omega)]
      obtain ⟨b', h3, h4⟩ := uinv_vec (n := 16) hy hw hdst hb
        (permute4x64 (shuffleEpi8 (fun k => src.get (y * stride + 32 * i + k)) shuffleConst) 0xd8)
        (fun j => permute4x64 (shuffleEpi8 (fun k => src.get (y * stride + 32 * i + k)) shuffleConst) 0xd8 (16 + j))
        (fun j hj => by rw [(avx_lo (fun i_1 => src.get (y * stride + 32 * i + i_1)) j hj).1]; congr 1; omega)
        (fun j hj => by rw [(avx_lo (fun i_1 => src.get (y * stride + 32 * i + i_1)) j hj).2]; congr 1; omega)
        (y * w + 16 * i) rfl
      exact ⟨b', h3, h4⟩)
  simp only [h1, Option.bind_some]
  obtain ⟨b', h3, h4⟩ := uinv_words (m := w % 16) hy (x0 := 16 * (w / 16)) (by omega) hsrc hdst h2
    (y * stride + 32 * (w / 16)) (y * w + 16 * (w / 16)) (by omega) (by omega)
  refine ⟨b', h3, ?_⟩
  have : 16 * (w / 16) + w % 16 = w := Nat.div_add_mod w 16
  rw [this] at h4; exact h4

theorem unpackNeon_spec (src : Buf) (w stride h : Nat) (dst : Buf) (hsrc : (h - 1) * stride + 2 * w ≤ src.size)
    (hdst : 2 * (w * h) ≤ dst.size) : ∃ b, unpackNeon src w stride h dst = some b ∧ Unpacked src w stride h dst b := by
  unfold unpackNeon
  simp only [half_eq]
  refine uinv_rows _ ?_
  intro y b hy hb
  have hin := row_in (n := 2 * w) hy hsrc
  obtain ⟨b1, h1, h2⟩ := loop_inv (fun i b => UInv src w stride h dst (y * w + 8 * i) b)
    (fun i dst => do
      let d ← readVec src (y * stride + 16 * i) 16
      let dst ← writeVec dst (y * w + 8 * i) 8 (fun j => d (2 * j))
      writeVec dst (y * w + 8 * i + w * h) 8 (fun j => d (2 * j + 1))) (w / 8) b (by simpa using hb) (by
      intro i b hi hb
      have hw : 8 * i + 8 ≤ w := by have := Nat.div_mul_le_self w 8; omega
      rw [readVec_eq _ _ _ (by omega)]
      obtain ⟨b', h3, h4⟩ := uinv_vec (n := 8) hy hw hdst hb (fun j => src.get (y * stride + 16 * i + 2 * j))
        (fun j => src.get (y * stride + 16 * i + (2 * j + 1)))
        (fun j hj => by try dsimp only
                        congr 1; omega)
        (fun j hj => by try dsimp only
                        congr 1; omega)
        (y * w + 8 * i) rfl
      exact ⟨b', h3, h4⟩)
  simp only [h1, Option.bind_some]
  obtain ⟨b', h3, h4⟩ := uinv_words (m := w % 8) hy (x0 := 8 * (w / 8)) (by omega) hsrc hdst h2
    (y * stride + 16 * (w / 8)) (y * w + 8 * (w / 8)) (by omega) (by omega)
  refine ⟨b', h3, ?_⟩
  have : 8 * (w / 8) + w % 8 = w := Nat.div_add_mod w 8
  rw [this] at h4; exact h4

/-! ## Packing -/

/-- The value at byte `j` of word `x` in row `y`. -/
def pval (src : Buf) (half w y x j : Nat) : UInt8 := src.get (y * w + x + j * half)

theorem rowPost_step {base X n : Nat} {val : Nat → Nat → UInt8} {b0 b b' : Buf}
    (hb : RowPost 2 X base (fun _ => true) val b0 b) (hs : b'.size = b.size)
    (hg : ∀ i, b'.get i = if base + X * 2 ≤ i ∧ i < base + (X + n) * 2 then val ((i - base) / 2) ((i - base) % 2) else b.get i) :
    RowPost 2 (X + n) base (fun _ => true) val b0 b' := by
  refine ⟨by rw [hs, hb.size], ?_, ?_⟩
  · intro x j hx hj
    rw [hg]
    by_cases hc : X ≤ x
    · rw [if_pos ⟨by omega, by omega⟩]
      simp only [if_true]
      congr 1 <;> omega
    · rw [if_neg (by omega)]
      exact hb.inside x j (by omega) hj
  · intro i hi
    rw [hg, if_neg]
    · exact hb.outside i (fun x j hx hj => hi x j (by omega) hj)
    · rintro ⟨h1, h2⟩
      exact hi ((i - base) / 2) ((i - base) % 2) (by omega) (by omega) (by omega)

theorem packWord_eq (src : Buf) (p half d : Nat) (dst : Buf) (h1 : p < src.size) (h1' : p + half < src.size) (h2 : d + 1 < dst.size) :
    ∃ b, packWord src p half d dst = some b ∧ b.size = dst.size ∧
      ∀ i, b.get i = if i = d then src.get p else if i = d + 1 then src.get (p + half) else dst.get i := by
  refine ⟨⟨dst.size, fun j => if j = d + 1 then src.get (p + half) else if j = d then src.get p else dst.get j⟩, by
    simp only [packWord, Buf.read, Buf.write, if_pos h1, if_pos h1',
      if_pos (show d < dst.size by omega), if_pos h2, Option.bind_eq_bind, Option.bind_some], rfl, ?_⟩
  intro i
  dsimp only
  by_cases h3 : i = d
  · subst h3; simp
  · simp [h3]

/-- Words `x0..x0+m` of a row, one by one. -/
theorem pack_words {src : Buf} {half w h : Nat} {y x0 m base : Nat} {b0 b : Buf} (hy : y < h) (hx : x0 + m ≤ w)
    (hsrc : half + w * h ≤ src.size) (hdst : base + 2 * w ≤ b0.size)
    (hb : RowPost 2 x0 base (fun _ => true) (fun x j => pval src half w y x j) b0 b) (p d : Nat) (hp : p = y * w + x0)
    (hd : d = base + 2 * x0) :
    ∃ b', loop m (fun i dst => packWord src (p + i) half (d + 2 * i) dst) b = some b' ∧
      RowPost 2 (x0 + m) base (fun _ => true) (fun x j => pval src half w y x j) b0 b' := by
  subst hp; subst hd
  refine loop_inv (fun i b => RowPost 2 (x0 + i) base (fun _ => true) (fun x j => pval src half w y x j) b0 b) _ m b hb ?_
  intro i b hi hb
  have hle := row_le hy (show x0 + i + 1 ≤ w by omega)
  obtain ⟨b', h1, h2, h3⟩ := packWord_eq src (y * w + x0 + i) half (base + 2 * x0 + 2 * i) b (by omega) (by omega)
    (by rw [hb.size]; omega)
  refine ⟨b', h1, rowPost_step (X := x0 + i) (n := 1) hb h2 ?_⟩
  intro k
  rw [h3]
  unfold pval
  by_cases e1 : k = base + 2 * x0 + 2 * i
  · subst e1
    rw [if_pos rfl]
    rw [if_pos ⟨by omega, by omega⟩]
    have e2 : (base + 2 * x0 + 2 * i - base) / 2 = x0 + i := by omega
    have e3 : (base + 2 * x0 + 2 * i - base) % 2 = 0 := by omega
    rw [e2, e3]; congr 1; omega
  · rw [if_neg e1]
    by_cases e2 : k = base + 2 * x0 + 2 * i + 1
    · subst e2
      rw [if_pos rfl, if_pos ⟨by omega, by omega⟩]
      have e2 : (base + 2 * x0 + 2 * i + 1 - base) / 2 = x0 + i := by omega
      have e3 : (base + 2 * x0 + 2 * i + 1 - base) % 2 = 1 := by omega
      rw [e2, e3]; congr 1; omega
    · rw [if_neg e2, if_neg (by omega)]

theorem packed_of_block {src : Buf} {half w h stride : Nat} {old b : Buf}
    (hb : BlockPost 2 w h 0 stride (fun _ _ => true) (fun x y j => pval src half w y x j) old b) :
    Packed src half w h stride old b := by
  refine ⟨hb.size, ?_, ?_, ?_⟩
  · intro y x hy hx
    have := hb.inside x y 0 hx hy (by omega)
    simp only [if_true, pval] at this
    rw [show y * stride + 2 * x = 0 + y * stride + x * 2 + 0 by omega, this]; congr 1; omega
  · intro y x hy hx
    have := hb.inside x y 1 hx hy (by omega)
    simp only [if_true, pval] at this
    rw [show y * stride + 2 * x + 1 = 0 + y * stride + x * 2 + 1 by omega, this]; congr 1; omega
  · intro i hi
    apply hb.outside
    intro x y j hx hy hj
    have := hi y x hy hx
    omega

theorem pack_rows {src : Buf} {half w h stride : Nat} {old : Buf} (hst : 2 * w ≤ stride) (f : Nat → Buf → Option Buf)
    (hf : ∀ y b, y < h → b.size = old.size → ∃ b', f y b = some b' ∧
      RowPost 2 w (y * stride) (fun _ => true) (fun x j => pval src half w y x j) b b') :
    ∃ b, loop h f old = some b ∧ Packed src half w h stride old b := by
  obtain ⟨b, h1, h2⟩ := blockLoop_post 2 w h 0 stride (fun _ _ => true) (fun x y j => pval src half w y x j) old f (by omega) (by
    intro y b hy hb
    obtain ⟨b', h3, h4⟩ := hf y b hy hb
    exact ⟨b', h3, by simpa using h4⟩)
  exact ⟨b, h1, packed_of_block h2⟩

theorem rowPost_zero (base : Nat) (val : Nat → Nat → UInt8) (b : Buf) : RowPost 2 0 base (fun _ => true) val b b :=
  ⟨rfl, by intros; omega, by intros; rfl⟩

theorem packC_spec (src : Buf) (size w h stride : Nat) (dst : Buf) (hsrc : size / 2 + w * h ≤ src.size) (hst : 2 * w ≤ stride)
    (hdst : (h - 1) * stride + 2 * w ≤ dst.size) :
    ∃ b, packC src size w h stride dst = some b ∧ Packed src (size / 2) w h stride dst b := by
  unfold packC
  refine pack_rows hst _ ?_
  intro y b hy hb
  have hin := row_in (n := 2 * w) hy hdst
  obtain ⟨b', h1, h2⟩ := pack_words (b0 := b) (m := w) hy (x0 := 0) (base := y * stride) (by omega) hsrc (by omega)
    (rowPost_zero _ _ b) (y * w) (y * stride) (by omega) (by omega)
  exact ⟨b', h1, by simpa using h2⟩

theorem pack_vec {src : Buf} {half w : Nat} {y X n base : Nat} {b0 b : Buf} (hX : X + n ≤ w)
    (hdst : base + 2 * w ≤ b0.size)
    (hb : RowPost 2 X base (fun _ => true) (fun x j => pval src half w y x j) b0 b) (v : Nat → UInt8)
    (hv : ∀ j, j < 2 * n → v j = src.get (y * w + X + j / 2 + j % 2 * half)) (d : Nat) (hd : d = base + 2 * X) :
    ∃ b', writeVec b d (2 * n) v = some b' ∧
      RowPost 2 (X + n) base (fun _ => true) (fun x j => pval src half w y x j) b0 b' := by
  subst hd
  have hs := hb.size
  refine ⟨_, if_pos (by omega), rowPost_step hb rfl ?_⟩
  intro i
  dsimp only
  by_cases h1 : base + 2 * X ≤ i ∧ i < base + 2 * X + 2 * n
  · rw [if_pos h1, if_pos ⟨by omega, by omega⟩, hv _ (by omega), pval]
    have e1 : (i - base) / 2 = X + (i - (base + 2 * X)) / 2 := by omega
    have e2 : (i - base) % 2 = (i - (base + 2 * X)) % 2 := by omega
    rw [e1, e2]; congr 1; omega
  · rw [if_neg h1, if_neg (by omega)]

theorem avx_pack (a b u : Nat → UInt8) (j : Nat) (hj : j < 32) :
    unpackloEpi8 (permute4x64 (fun i => if i < 16 then a i else u i) 0x50) (permute4x64 (fun i => if i < 16 then b i else u i) 0x50) j =
      if j % 2 = 0 then a (j / 2) else b (j / 2) := by
  have key : ∀ j ∈ List.range 32, 8 * (0x50 / 4 ^ ((j / 16 * 16 + j % 16 / 2) / 8) % 4) + (j / 16 * 16 + j % 16 / 2) % 8 = j / 2 := by decide
  have k := key j (by simp [hj])
  unfold unpackloEpi8 permute4x64
  simp only [k, if_pos (show j / 2 < 16 by omega)]

theorem packAvx_spec (u : Nat → UInt8) (src : Buf) (size w h stride : Nat) (dst : Buf) (hsrc : size / 2 + w * h ≤ src.size) (hst : 2 * w ≤ stride)
    (hdst : (h - 1) * stride + 2 * w ≤ dst.size) :
    ∃ b, packAvx u src size w h stride dst = some b ∧ Packed src (size / 2) w h stride dst b := by
  unfold packAvx
  refine pack_rows hst _ ?_
  intro y b hy hb
  have hin := row_in (n := 2 * w) hy hdst
  obtain ⟨b1, h1, h2⟩ := loop_inv (fun i b1 => RowPost 2 (16 * i) (y * stride) (fun _ => true) (fun x j => pval src (size / 2) w y x j) b b1)
    (fun x dst => do
      let a ← readVec src (y * w + 16 * x) 16
      let b ← readVec src (y * w + 16 * x + size / 2) 16
      let a := permute4x64 (fun i => if i < 16 then a i else u i) 0x50
      let b := permute4x64 (fun i => if i < 16 then b i else u i) 0x50
      writeVec dst (y * stride + 32 * x) 32 (unpackloEpi8 a b)) (w / 16) b (by simpa using rowPost_zero _ _ b) (by
      intro i b1 hi hb1
      have hw : 16 * i + 16 ≤ w := by have := Nat.div_mul_le_self w 16; omega
      have hle := row_le hy hw
      rw [readVec_eq _ _ _ (by omega), readVec_eq _ _ _ (by omega)]
      obtain ⟨b', h3, h4⟩ := pack_vec (src := src) (half := size / 2) (w := w) (n := 16) (y := y) hw (by omega) hb1
        (unpackloEpi8 (permute4x64 (fun k => if k < 16 then src.get (y * w + 16 * i + k) else u k) 0x50)
          (permute4x64 (fun k => if k < 16 then src.get (y * w + 16 * i + size / 2 + k) else u k) 0x50))
        (fun j hj => by
          rw [avx_pack (fun k => src.get (y * w + 16 * i + k)) (fun k => src.get (y * w + 16 * i + size / 2 + k)) u j (by omega)]
          rcases Nat.mod_two_eq_zero_or_one j with hm | hm
          · rw [hm, if_pos rfl]; congr 1; omega
          · rw [hm, if_neg (by omega)]; congr 1; omega)
        (y * stride + 32 * i) (by omega)
      exact ⟨b', h3, h4⟩)
  simp only [h1, Option.bind_some]
  obtain ⟨b', h3, h4⟩ := pack_words (b0 := b) (m := w % 16) hy (x0 := 16 * (w / 16)) (base := y * stride) (by omega) hsrc (by omega)
    h2 (y * w + 16 * (w / 16)) (y * stride + 32 * (w / 16)) (by omega) (by omega)
  refine ⟨b', h3, ?_⟩
  have : 16 * (w / 16) + w % 16 = w := Nat.div_add_mod w 16
  rw [this] at h4; exact h4

theorem packNeon_spec (src : Buf) (size w h stride : Nat) (dst : Buf) (hsrc : size / 2 + w * h ≤ src.size) (hst : 2 * w ≤ stride)
    (hdst : (h - 1) * stride + 2 * w ≤ dst.size) :
    ∃ b, packNeon src size w h stride dst = some b ∧ Packed src (size / 2) w h stride dst b := by
  unfold packNeon
  refine pack_rows hst _ ?_
  intro y b hy hb
  have hin := row_in (n := 2 * w) hy hdst
  obtain ⟨b1, h1, h2⟩ := loop_inv (fun i b1 => RowPost 2 (8 * i) (y * stride) (fun _ => true) (fun x j => pval src (size / 2) w y x j) b b1)
    (fun x dst => do
      let a ← readVec src (y * w + 8 * x) 8
      let b ← readVec src (y * w + 8 * x + size / 2) 8
      writeVec dst (y * stride + 16 * x) 16 (fun j => if j % 2 = 0 then a (j / 2) else b (j / 2))) (w / 8) b (by simpa using rowPost_zero _ _ b) (by
      intro i b1 hi hb1
      have hw : 8 * i + 8 ≤ w := by have := Nat.div_mul_le_self w 8; omega
      have hle := row_le hy hw
      rw [readVec_eq _ _ _ (by omega), readVec_eq _ _ _ (by omega)]
      obtain ⟨b', h3, h4⟩ := pack_vec (src := src) (half := size / 2) (w := w) (n := 8) (y := y) hw (by omega) hb1
        (fun j => if j % 2 = 0 then src.get (y * w + 8 * i + j / 2) else src.get (y * w + 8 * i + size / 2 + j / 2))
        (fun j hj => by
          skip
          rcases Nat.mod_two_eq_zero_or_one j with hm | hm
          · rw [hm, if_pos rfl]; congr 1; omega
          · rw [hm, if_neg (by omega)]; congr 1; omega)
        (y * stride + 16 * i) (by omega)
      exact ⟨b', h3, h4⟩)
  simp only [h1, Option.bind_some]
  obtain ⟨b', h3, h4⟩ := pack_words (b0 := b) (m := w % 8) hy (x0 := 8 * (w / 8)) (base := y * stride) (by omega) hsrc (by omega)
    h2 (y * w + 8 * (w / 8)) (y * stride + 16 * (w / 8)) (by omega) (by omega)
  refine ⟨b', h3, ?_⟩
  have : 8 * (w / 8) + w % 8 = w := Nat.div_add_mod w 8
  rw [this] at h4; exact h4

end Verif.LoHi
