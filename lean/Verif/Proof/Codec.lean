import Verif.Model.Parse

/-! Lemmas about the little-endian codec and the fields of structures. -/

namespace Verif.Czi

@[simp] theorem le_length (n v : Nat) : (le n v).length = n := by
  induction n generalizing v with
  | zero => rfl
  | succ n ih => simp [le, ih]

@[simp] theorem leInt_length (n : Nat) (i : Int) : (leInt n i).length = n := by simp [leInt]

@[simp] theorem zeros_length (n : Nat) : (zeros n).length = n := by simp [zeros]

theorem zeros_append (a b : Nat) : zeros a ++ zeros b = zeros (a + b) := by
  simp [zeros, List.replicate_append_replicate]

theorem unle_le (n v : Nat) : unle (le n v) = v % 256 ^ n := by
  induction n generalizing v with
  | zero => simp [le, unle, Nat.mod_one]
  | succ n ih =>
    simp only [le, unle, ih]
    have h1 : (UInt8.ofNat v).toNat = v % 256 := by simp
    rw [h1]
    have := Nat.mod_mul (x := v) (a := 256) (b := 256 ^ n)
    rw [Nat.pow_succ, Nat.mul_comm (256 ^ n) 256, this]

theorem unle_le_of_lt {n v : Nat} (h : v < 256 ^ n) : unle (le n v) = v := by
  rw [unle_le, Nat.mod_eq_of_lt h]

theorem unle_lt (l : List UInt8) : unle l < 256 ^ l.length := by
  induction l with
  | nil => simp [unle]
  | cons b bs ih =>
    have := b.toNat_lt
    simp only [unle, List.length_cons, Nat.pow_succ]
    omega

theorem unleInt_leInt {n : Nat} {i : Int} (hn : 0 < n) (h1 : -(256 ^ n : Nat) ≤ 2 * i) (h2 : 2 * i < (256 ^ n : Nat)) :
    unleInt (leInt n i) = i := by
  have hev : 2 ∣ 256 ^ n := by
    obtain ⟨m, rfl⟩ : ∃ m, n = m + 1 := ⟨n - 1, by omega⟩
    exact ⟨128 * 256 ^ m, by rw [Nat.pow_succ]; omega⟩
  have hpos : 0 < 256 ^ n := Nat.pow_pos (by decide)
  unfold unleInt toSigned
  rw [leInt_length]
  unfold leInt
  rw [unle_le]
  generalize 256 ^ n = p at *
  have e : ((i % (p : Int)).toNat : Nat) % p = (i % (p : Int)).toNat := by
    apply Nat.mod_eq_of_lt
    have := Int.emod_lt_of_pos i (by omega : (0 : Int) < p)
    have := Int.emod_nonneg i (by omega : (p : Int) ≠ 0)
    omega
  rw [e]
  by_cases hi : 0 ≤ i
  · have : i % (p : Int) = i := Int.emod_eq_of_lt hi (by omega)
    rw [this, if_pos (by omega)]
    omega
  · have : i % (p : Int) = i + p := by
      rw [← Int.add_emod_right]
      exact Int.emod_eq_of_lt (by omega) (by omega)
    rw [this, if_neg (by omega)]
    omega

/-- 32-bit signed range. -/
def In32 (i : Int) : Prop := -2147483648 ≤ i ∧ i ≤ 2147483647

theorem unleInt4 {i : Int} (h : In32 i) : unleInt (leInt 4 i) = i := by
  unfold In32 at h
  exact unleInt_leInt (n := 4) (by decide) (by omega) (by omega)

theorem unle8 {v : Nat} (h : v < 2 ^ 64) : unle (le 8 v) = v := unle_le_of_lt (by omega)

theorem unleInt_le {n v : Nat} (h : 2 * v < 256 ^ n) : unleInt (le n v) = v := by
  unfold unleInt toSigned
  rw [le_length, unle_le_of_lt (by omega), if_pos h]

theorem unleInt_le8 {v : Nat} (h : v < 2 ^ 63) : unleInt (le 8 v) = v := unleInt_le (by omega)

/-! ## Fields -/

@[simp] theorem field_length (l : List UInt8) (off n : Nat) : (field l off n).length = min n (l.length - off) := by
  simp [field]

theorem field_right {a b : List UInt8} {off n : Nat} (h : a.length ≤ off) :
    field (a ++ b) off n = field b (off - a.length) n := by
  unfold field
  rw [List.drop_append]
  have : a.drop off = [] := List.drop_eq_nil_iff.2 h
  simp [this]

theorem field_left {a b : List UInt8} {off n : Nat} (h : off + n ≤ a.length) : field (a ++ b) off n = field a off n := by
  unfold field
  rw [List.drop_append, List.take_append_of_le_length]
  simp
  omega

theorem field_self {a : List UInt8} {n : Nat} (h : n = a.length) : field a 0 n = a := by
  subst h
  simp [field]

theorem field_mid {a b c : List UInt8} {off n : Nat} (h1 : a.length = off) (h2 : b.length = n) : field (a ++ (b ++ c)) off n = b := by
  subst h1 h2
  rw [field_right (Nat.le_refl _), Nat.sub_self, field_left (by omega), field_self rfl]

theorem field_field {a : List UInt8} {o n o' n' : Nat} (h : o' + n' ≤ n) : field (field a o n) o' n' = field a (o + o') n' := by
  unfold field
  rw [List.drop_take, List.take_take, List.drop_drop]
  congr 1
  omega

theorem field_drop (a : List UInt8) (k o n : Nat) : field (a.drop k) o n = field a (k + o) n := by
  simp [field, List.drop_drop]

theorem field_getD {a : List UInt8} {o n i : Nat} (h : i < n) : (field a o n).getD i 0 = a.getD (o + i) 0 := by
  unfold field
  simp [List.getD_eq_getElem?_getD, h]

theorem getD_append_left {a b : List UInt8} {i : Nat} (h : i < a.length) : (a ++ b).getD i 0 = a.getD i 0 := by
  simp [List.getD_eq_getElem?_getD, List.getElem?_append_left h]

theorem getD_append_right {a b : List UInt8} {i : Nat} (h : a.length ≤ i) :
    (a ++ b).getD i 0 = b.getD (i - a.length) 0 := by
  simp [List.getD_eq_getElem?_getD, List.getElem?_append_right h]

@[simp] theorem ascii_DV_length : (ascii "DV").length = 2 := rfl
@[simp] theorem ascii_A1_length : (ascii "A1").length = 2 := rfl
@[simp] theorem fileMagic_length : fileMagic.length = 16 := by decide
@[simp] theorem subDirMagic_length : subDirMagic.length = 16 := by decide
@[simp] theorem subBlockMagic_length : subBlockMagic.length = 16 := by decide
@[simp] theorem metadataMagic_length : metadataMagic.length = 16 := by decide
@[simp] theorem attDirMagic_length : attDirMagic.length = 16 := by decide
@[simp] theorem attMagic_length : attMagic.length = 16 := by decide
@[simp] theorem deletedMagic_length : deletedMagic.length = 16 := by decide

theorem segHeader_length {m : List UInt8} (h : m.length = 16) (a u : Nat) : (segHeader m a u).length = 32 := by
  simp [segHeader, h]

@[simp] theorem guidBytes_length (g : Guid) : (guidBytes g).length = 16 := by simp [guidBytes]

@[simp] theorem dimBytes_length (c : Char) (a b d : Int) : (dimBytes c a b d).length = 20 := by simp [dimBytes]

@[simp] theorem fileHeader_length (g : Guid) (a b c : Nat) : (fileHeader g a b c).length = 544 := by
  simp [fileHeader, segHeader]

@[simp] theorem attEntryBytes_length (p : Nat) (g : Guid) (c : Vector UInt8 8) (n : Vector UInt8 80) :
    (attEntryBytes p g c n).length = 128 := by simp [attEntryBytes]

theorem vecOf_toList {n : Nat} (v : Vector UInt8 n) : vecOf n v.toList = v := by
  unfold vecOf
  ext i h
  simp [h]

theorem guidOf_guidBytes (g : Guid) : guidOf (guidBytes g) = g := by
  obtain ⟨a, b, c, d⟩ := g
  have ha := a.toNat_lt
  have hb := b.toNat_lt
  have hc := c.toNat_lt
  simp [guidOf, guidBytes, fieldNat, field_right, field_left, field_self, unle_le, vecOf_toList]

/-! ## The file header -/

theorem segMagic_segHeader {m r : List UInt8} (h : m.length = 16) (a u : Nat) : segMagic (segHeader m a u ++ r) = m := by
  unfold segMagic segHeader
  rw [field_left (by simp [h]), field_left (by simp [h]), field_left (by omega), field_self h.symm]

theorem headerOf_fileHeader (g : Guid) {a b c : Nat} (ha : a < 2 ^ 64) (hb : b < 2 ^ 64) (hc : c < 2 ^ 64) :
    headerOf (fileHeader g a b c) = ⟨1, 0, g, a, b, c⟩ := by
  have e1 : unleInt (leInt 4 1) = 1 := unleInt4 (by constructor <;> decide)
  have e0 : unleInt (leInt 4 0) = 0 := unleInt4 (by constructor <;> decide)
  simp [headerOf, fileHeader, segHeader, fieldInt, fieldNat, field_right, field_left, field_self, guidOf_guidBytes, unle8, ha,
    hb, hc, e1, e0]

end Verif.Czi
