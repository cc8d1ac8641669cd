import Verif.Spec.ByteOrder
import Verif.Proof.Codec
import Verif.Proof.Entries
import Verif.Proof.Blit
import Verif.Proof.EditOpen

/-!
# Hosts with the other byte order: proofs
-/

namespace Verif.ByteOrder
open Verif.Czi
theorem mask (v k : Nat) : v &&& (255 <<< k) = (v / 2 ^ k % 256) <<< k := by
  apply Nat.eq_of_testBit_eq
  intro i
  rw [Nat.testBit_and, Nat.testBit_shiftLeft, Nat.testBit_shiftLeft]
  by_cases h : k ≤ i
  · have e : (255 : Nat) = 2 ^ 8 - 1 := rfl
    have e2 : (256 : Nat) = 2 ^ 8 := rfl
    rw [e, e2, Nat.testBit_two_pow_sub_one, Nat.testBit_mod_two_pow, Nat.testBit_div_two_pow]
    simp only [h, decide_true, Bool.true_and]
    rw [show i - k + k = i by omega, Bool.and_comm]
  · simp [h]

theorem or_high {x b k : Nat} (h : x < 2 ^ k) : x ||| (b * 2 ^ k) = x + b * 2 ^ k := by
  rw [Nat.or_comm, ← Nat.shiftLeft_eq, ← Nat.shiftLeft_add_eq_or_of_lt h, Nat.shiftLeft_eq, Nat.add_comm]

theorem right (v m k j : Nat) (hm : m = 255 <<< k) (h : j ≤ k) : (v &&& m) >>> j = (v / 2 ^ k % 256) * 2 ^ (k - j) := by
  rw [hm, mask, Nat.shiftLeft_eq, Nat.shiftRight_eq_div_pow]
  have e : 2 ^ k = 2 ^ (k - j) * 2 ^ j := by rw [← Nat.pow_add]; congr 1; omega
  generalize v / 2 ^ k % 256 = x
  rw [e, ← Nat.mul_assoc, Nat.mul_div_cancel _ (Nat.pow_pos (by omega))]

theorem left (v m k j n : Nat) (hm : m = 255 <<< k) (h : k + j + 8 ≤ n) : (v &&& m) <<< j % 2 ^ n = (v / 2 ^ k % 256) * 2 ^ (k + j) := by
  rw [hm, mask, Nat.shiftLeft_eq, Nat.shiftLeft_eq, Nat.mul_assoc, ← Nat.pow_add]
  apply Nat.mod_eq_of_lt
  have h1 : v / 2 ^ k % 256 < 2 ^ 8 := Nat.mod_lt _ (by omega)
  calc v / 2 ^ k % 256 * 2 ^ (k + j) < 2 ^ 8 * 2 ^ (k + j) := Nat.mul_lt_mul_of_pos_right h1 (Nat.pow_pos (by omega))
    _ = 2 ^ (k + j + 8) := by rw [← Nat.pow_add]; congr 1; omega
    _ ≤ 2 ^ n := Nat.pow_le_pow_right (by omega) h

theorem swap16_toNat (v : BitVec 16) : (swap16 v).toNat = v.toNat / 256 % 256 + v.toNat % 256 * 256 := by
  unfold swap16
  have l := left v.toNat (255 % 2 ^ 16) 0 8 16 (by rfl) (by omega)
  have r := right v.toNat (65280 % 2 ^ 16) 8 8 (by decide) (by omega)
  simp only [BitVec.toNat_or, BitVec.toNat_shiftLeft, BitVec.toNat_and, BitVec.toNat_ushiftRight, BitVec.toNat_ofNat]
  rw [l, r, Nat.or_comm, or_high (by omega)]
  omega

theorem swap32_toNat (v : BitVec 32) :
    (swap32 v).toNat = v.toNat / 2 ^ 24 % 256 + v.toNat / 2 ^ 16 % 256 * 2 ^ 8 + v.toNat / 2 ^ 8 % 256 * 2 ^ 16 + v.toNat % 256 * 2 ^ 24 := by
  unfold swap32
  have r1 := right v.toNat (4278190080 % 2 ^ 32) 24 24 (by decide) (by omega)
  have r2 := right v.toNat (16711680 % 2 ^ 32) 16 8 (by decide) (by omega)
  have l1 := left v.toNat (65280 % 2 ^ 32) 8 8 32 (by decide) (by omega)
  have l2 := left v.toNat (255 % 2 ^ 32) 0 24 32 (by decide) (by omega)
  simp only [BitVec.toNat_or, BitVec.toNat_shiftLeft, BitVec.toNat_and, BitVec.toNat_ushiftRight, BitVec.toNat_ofNat]
  rw [l1, l2, r1, r2]
  simp only [Nat.sub_self, Nat.pow_zero, Nat.mul_one, Nat.div_one, Nat.reduceSub, Nat.reduceAdd]
  have bd : ∀ x : Nat, x % 256 < 256 := fun x => Nat.mod_lt _ (by omega)
  have h1 := bd (v.toNat / 2 ^ 24)
  have h2 := bd (v.toNat / 2 ^ 16)
  have h3 := bd (v.toNat / 2 ^ 8)
  generalize v.toNat / 2 ^ 24 % 256 = b1 at *
  generalize v.toNat / 2 ^ 16 % 256 = b2 at *
  generalize v.toNat / 2 ^ 8 % 256 = b3 at *
  have o1 : b1 ||| b2 * 2 ^ 8 = b1 + b2 * 2 ^ 8 := or_high (by omega)
  rw [o1]
  have o2 : b1 + b2 * 2 ^ 8 ||| b3 * 2 ^ 16 = b1 + b2 * 2 ^ 8 + b3 * 2 ^ 16 := or_high (by omega)
  rw [o2, or_high (by omega)]

theorem swap64_toNat (v : BitVec 64) :
    (swap64 v).toNat = v.toNat / 2 ^ 56 % 256 + v.toNat / 2 ^ 48 % 256 * 2 ^ 8 + v.toNat / 2 ^ 40 % 256 * 2 ^ 16 + v.toNat / 2 ^ 32 % 256 * 2 ^ 24 +
      v.toNat / 2 ^ 24 % 256 * 2 ^ 32 + v.toNat / 2 ^ 16 % 256 * 2 ^ 40 + v.toNat / 2 ^ 8 % 256 * 2 ^ 48 + v.toNat % 256 * 2 ^ 56 := by
  unfold swap64
  have r1 := right v.toNat (0xff00000000000000 % 2 ^ 64) 56 56 (by decide) (by omega)
  have r2 := right v.toNat (0x00ff000000000000 % 2 ^ 64) 48 40 (by decide) (by omega)
  have r3 := right v.toNat (0x0000ff0000000000 % 2 ^ 64) 40 24 (by decide) (by omega)
  have r4 := right v.toNat (0x000000ff00000000 % 2 ^ 64) 32 8 (by decide) (by omega)
  have l1 := left v.toNat (0xff000000 % 2 ^ 64) 24 8 64 (by decide) (by omega)
  have l2 := left v.toNat (0xff0000 % 2 ^ 64) 16 24 64 (by decide) (by omega)
  have l3 := left v.toNat (0xff00 % 2 ^ 64) 8 40 64 (by decide) (by omega)
  have l4 := left v.toNat (0xff % 2 ^ 64) 0 56 64 (by decide) (by omega)
  simp only [BitVec.toNat_or, BitVec.toNat_shiftLeft, BitVec.toNat_and, BitVec.toNat_ushiftRight, BitVec.toNat_ofNat]
  rw [l1, l2, l3, l4, r1, r2, r3, r4]
  simp only [Nat.sub_self, Nat.pow_zero, Nat.mul_one, Nat.div_one, Nat.reduceSub, Nat.reduceAdd]
  have bd : ∀ x : Nat, x % 256 < 256 := fun x => Nat.mod_lt _ (by omega)
  have h1 := bd (v.toNat / 2 ^ 56)
  have h2 := bd (v.toNat / 2 ^ 48)
  have h3 := bd (v.toNat / 2 ^ 40)
  have h4 := bd (v.toNat / 2 ^ 32)
  have h5 := bd (v.toNat / 2 ^ 24)
  have h6 := bd (v.toNat / 2 ^ 16)
  have h7 := bd (v.toNat / 2 ^ 8)
  clear r1 r2 r3 r4 l1 l2 l3 l4
  generalize v.toNat / 2 ^ 56 % 256 = b1 at *
  generalize v.toNat / 2 ^ 48 % 256 = b2 at *
  generalize v.toNat / 2 ^ 40 % 256 = b3 at *
  generalize v.toNat / 2 ^ 32 % 256 = b4 at *
  generalize v.toNat / 2 ^ 24 % 256 = b5 at *
  generalize v.toNat / 2 ^ 16 % 256 = b6 at *
  generalize v.toNat / 2 ^ 8 % 256 = b7 at *
  have o2 : b1 ||| b2 * 2 ^ 8 = b1 + b2 * 2 ^ 8 := or_high (by omega)
  rw [o2]
  have o3 : b1 + b2 * 2 ^ 8 ||| b3 * 2 ^ 16 = b1 + b2 * 2 ^ 8 + b3 * 2 ^ 16 := or_high (by omega)
  rw [o3]
  have o4 : b1 + b2 * 2 ^ 8 + b3 * 2 ^ 16 ||| b4 * 2 ^ 24 = b1 + b2 * 2 ^ 8 + b3 * 2 ^ 16 + b4 * 2 ^ 24 := or_high (by omega)
  rw [o4]
  have o5 : b1 + b2 * 2 ^ 8 + b3 * 2 ^ 16 + b4 * 2 ^ 24 ||| b5 * 2 ^ 32 = b1 + b2 * 2 ^ 8 + b3 * 2 ^ 16 + b4 * 2 ^ 24 + b5 * 2 ^ 32 := or_high (by omega)
  rw [o5]
  have o6 : b1 + b2 * 2 ^ 8 + b3 * 2 ^ 16 + b4 * 2 ^ 24 + b5 * 2 ^ 32 ||| b6 * 2 ^ 40 = b1 + b2 * 2 ^ 8 + b3 * 2 ^ 16 + b4 * 2 ^ 24 + b5 * 2 ^ 32 + b6 * 2 ^ 40 := or_high (by omega)
  rw [o6]
  have o7 : b1 + b2 * 2 ^ 8 + b3 * 2 ^ 16 + b4 * 2 ^ 24 + b5 * 2 ^ 32 + b6 * 2 ^ 40 ||| b7 * 2 ^ 48 = b1 + b2 * 2 ^ 8 + b3 * 2 ^ 16 + b4 * 2 ^ 24 + b5 * 2 ^ 32 + b6 * 2 ^ 40 + b7 * 2 ^ 48 := or_high (by omega)
  rw [o7]
  rw [or_high (by omega)]

theorem swap64_of (v : BitVec 64) (b0 b1 b2 b3 b4 b5 b6 b7 : Nat) (h0 : b0 < 256) (h1 : b1 < 256) (h2 : b2 < 256) (h3 : b3 < 256) (h4 : b4 < 256) (h5 : b5 < 256) (h6 : b6 < 256) (h7 : b7 < 256) (h : v.toNat = b0 + 256 * (b1 + 256 * (b2 + 256 * (b3 + 256 * (b4 + 256 * (b5 + 256 * (b6 + 256 * (b7 + 256 * 0)))))))) :
    (swap64 v).toNat = b7 + b6 * 2 ^ 8 + b5 * 2 ^ 16 + b4 * 2 ^ 24 + b3 * 2 ^ 32 + b2 * 2 ^ 40 + b1 * 2 ^ 48 + b0 * 2 ^ 56 := by
  rw [swap64_toNat]
  generalize v.toNat = n at *
  have q7 : n / 2 ^ 56 = b7 + 256 * 0 := by omega
  have q6 : n / 2 ^ 48 = b6 + 256 * (b7 + 256 * 0) := by omega
  have q5 : n / 2 ^ 40 = b5 + 256 * (b6 + 256 * (b7 + 256 * 0)) := by omega
  have q4 : n / 2 ^ 32 = b4 + 256 * (b5 + 256 * (b6 + 256 * (b7 + 256 * 0))) := by omega
  have q3 : n / 2 ^ 24 = b3 + 256 * (b4 + 256 * (b5 + 256 * (b6 + 256 * (b7 + 256 * 0)))) := by omega
  have q2 : n / 2 ^ 16 = b2 + 256 * (b3 + 256 * (b4 + 256 * (b5 + 256 * (b6 + 256 * (b7 + 256 * 0))))) := by omega
  have q1 : n / 2 ^ 8 = b1 + 256 * (b2 + 256 * (b3 + 256 * (b4 + 256 * (b5 + 256 * (b6 + 256 * (b7 + 256 * 0)))))) := by omega
  have m (x y : Nat) (hx : x < 256) : (x + 256 * y) % 256 = x := by omega
  rw [q1, q2, q3, q4, q5, q6, q7, h, m b0 _ h0, m b1 _ h1, m b2 _ h2, m b3 _ h3, m b4 _ h4, m b5 _ h5, m b6 _ h6, m b7 _ h7]

theorem swap_unle2 (a b : UInt8) : swapNat 2 (unle [a, b]) = unle [b, a] := by
  have := a.toNat_lt
  have := b.toNat_lt
  simp only [swapNat, swap16_toNat, unle, BitVec.toNat_ofNat]
  omega

theorem swap32_of (v : BitVec 32) (b0 b1 b2 b3 : Nat) (h0 : b0 < 256) (h1 : b1 < 256) (h2 : b2 < 256) (h3 : b3 < 256)
    (h : v.toNat = b0 + 256 * (b1 + 256 * (b2 + 256 * (b3 + 256 * 0)))) : (swap32 v).toNat = b3 + b2 * 2 ^ 8 + b1 * 2 ^ 16 + b0 * 2 ^ 24 := by
  rw [swap32_toNat]
  generalize v.toNat = n at *
  have q3 : n / 2 ^ 24 = b3 + 256 * 0 := by omega
  have q2 : n / 2 ^ 16 = b2 + 256 * (b3 + 256 * 0) := by omega
  have q1 : n / 2 ^ 8 = b1 + 256 * (b2 + 256 * (b3 + 256 * 0)) := by omega
  have m (x y : Nat) (hx : x < 256) : (x + 256 * y) % 256 = x := by omega
  rw [q1, q2, q3, h, m b0 _ h0, m b1 _ h1, m b2 _ h2, m b3 _ h3]

theorem unle_lt : ∀ l : List UInt8, unle l < 256 ^ l.length
  | [] => by decide
  | a :: l => by
    have := a.toNat_lt
    have := unle_lt l
    show a.toNat + 256 * unle l < 256 ^ (l.length + 1)
    rw [Nat.pow_succ]
    omega

theorem swap_unle4 (a b c d : UInt8) : swapNat 4 (unle [a, b, c, d]) = unle [d, c, b, a] := by
  have hlt : unle [a, b, c, d] < 2 ^ 32 := Nat.lt_of_lt_of_le (unle_lt _) (by show 256 ^ 4 ≤ 2 ^ 32; decide)
  have ht : (BitVec.ofNat 32 (unle [a, b, c, d])).toNat = unle [a, b, c, d] := by
    rw [BitVec.toNat_ofNat]
    exact Nat.mod_eq_of_lt hlt
  refine (swap32_of _ a.toNat b.toNat c.toNat d.toNat a.toNat_lt b.toNat_lt c.toNat_lt d.toNat_lt ht).trans ?_
  simp only [unle]
  omega

theorem swap_unle8 (a b c d e f g i : UInt8) : swapNat 8 (unle [a, b, c, d, e, f, g, i]) = unle [i, g, f, e, d, c, b, a] := by
  have hlt : unle [a, b, c, d, e, f, g, i] < 2 ^ 64 := Nat.lt_of_lt_of_le (unle_lt _) (by show 256 ^ 8 ≤ 2 ^ 64; decide)
  have ht : (BitVec.ofNat 64 (unle [a, b, c, d, e, f, g, i])).toNat = unle [a, b, c, d, e, f, g, i] := by
    rw [BitVec.toNat_ofNat]
    exact Nat.mod_eq_of_lt hlt
  refine (swap64_of _ a.toNat b.toNat c.toNat d.toNat e.toNat f.toNat g.toNat i.toNat a.toNat_lt b.toNat_lt c.toNat_lt d.toNat_lt e.toNat_lt f.toNat_lt
    g.toNat_lt i.toNat_lt ht).trans ?_
  simp only [unle]
  omega

theorem swap_unle (w : Nat) (hw : w = 2 ∨ w = 4 ∨ w = 8) (l : List UInt8) (h : l.length = w) : swapNat w (unle l) = unle l.reverse := by
  rcases hw with rfl | rfl | rfl
  · match l, h with
    | [a, b], _ => exact swap_unle2 a b
  · match l, h with
    | [a, b, c, d], _ => exact swap_unle4 a b c d
  · match l, h with
    | [a, b, c, d, e, f, g, i], _ => exact swap_unle8 a b c d e f g i

/-! ## Fields of a list -/

theorem field_mid (pre x post : List UInt8) (o w : Nat) (ho : o = pre.length) (hx : x.length = w) : field (pre ++ (x ++ post)) o w = x := by
  subst ho hx
  unfold field
  rw [List.drop_left, List.take_left]

theorem swapAt_mid (pre x post : List UInt8) (o w : Nat) (ho : o = pre.length) (hw : w = 2 ∨ w = 4 ∨ w = 8) (hx : x.length = w) :
    swapAt (pre ++ (x ++ post)) o w = pre ++ (x.reverse ++ post) := by
  unfold swapAt hostNat hostBytes
  rw [field_mid pre x post o w ho hx, swap_unle w hw _ (by rw [List.length_reverse, hx]), List.reverse_reverse]
  subst ho hx
  rw [le_unle, List.take_left, List.append_assoc, ← List.append_assoc pre x post, ← List.length_append, List.drop_left]

open Spec

theorem image_append (big : Bool) (a b : List Item) : image big (a ++ b) = image big a ++ image big b := by
  induction a with
  | nil => rfl
  | cons i r ih =>
    cases i with
    | num w v => show (if big then _ else _) ++ image big (r ++ b) = ((if big then _ else _) ++ image big r) ++ image big b; rw [ih, List.append_assoc]
    | bytes l => show l ++ image big (r ++ b) = (l ++ image big r) ++ image big b; rw [ih, List.append_assoc]

/-- The size of a member. -/
def memberSize : Member → Nat
  | .number w => w
  | .array n => n

/-- The numbers of a declaration, by offset and width. -/
def numbersOf : Nat → List Member → List (Nat × Nat)
  | _, [] => []
  | off, .number w :: r => (off, w) :: numbersOf (off + w) r
  | off, .array n :: r => numbersOf (off + n) r

/-- All numbers have two, four or eight bytes. -/
def plain : List Member → Bool
  | [] => true
  | .number w :: r => (w == 2 || w == 4 || w == 8) && plain r
  | .array _ :: r => plain r

theorem convert_append (f g : List (Nat × Nat)) (b : List UInt8) : convert (f ++ g) b = convert g (convert f b) := by
  unfold convert
  rw [List.foldl_append]

theorem numLen (big : Bool) (w v : Nat) : (if big then (le w v).reverse else le w v).length = w := by
  cases big
  · exact le_length w v
  · exact (List.length_reverse).trans (le_length w v)

theorem numRev (big : Bool) (w v : Nat) : (if big then (le w v).reverse else le w v).reverse = if !big then (le w v).reverse else le w v := by
  cases big
  · rfl
  · exact List.reverse_reverse _

/-- Converting all numbers of a structure anywhere in memory. -/
theorem convert_items (big : Bool) (items : List Item) (hp : plain (items.map Item.member) = true) (pre post : List UInt8) (off : Nat) (ho : off = pre.length) :
    convert (numbersOf off (items.map Item.member)) (pre ++ (image big items ++ post)) = pre ++ (image (!big) items ++ post) := by
  induction items generalizing pre off with
  | nil => rfl
  | cons i r ih =>
    cases i with
    | num w v =>
      have hp : ((w == 2 || w == 4 || w == 8) && plain (r.map Item.member)) = true := hp
      rw [Bool.and_eq_true, Bool.or_eq_true, Bool.or_eq_true, beq_iff_eq, beq_iff_eq, beq_iff_eq] at hp
      obtain ⟨hw, hp⟩ := hp
      show convert (numbersOf (off + w) (r.map Item.member)) (swapAt (pre ++ (((if big then (le w v).reverse else le w v) ++ image big r) ++ post)) off w) = _
      rw [List.append_assoc _ (image big r) post, swapAt_mid pre _ _ off w ho (by omega) (numLen big w v), numRev, ← List.append_assoc pre]
      rw [ih hp _ _ (by rw [List.length_append, numLen, ho])]
      show _ = pre ++ (((if !big then (le w v).reverse else le w v) ++ image (!big) r) ++ post)
      simp only [List.append_assoc]
    | bytes l =>
      show convert (numbersOf (off + l.length) (r.map Item.member)) (pre ++ ((l ++ image big r) ++ post)) = pre ++ ((l ++ image (!big) r) ++ post)
      rw [List.append_assoc l, ← List.append_assoc pre l, ih hp _ _ (by rw [List.length_append, ho])]
      simp only [List.append_assoc]

theorem structure_fields (s : Struct) (b : List UInt8) : s.conversion b = convert (numbersOf 0 s.decl) b := by
  cases s <;> rfl

theorem structure_plain (s : Struct) : plain s.decl = true := by
  cases s <;> decide

/-! ## Directory entries -/

theorem numbersOf_append (off : Nat) (a b : List Member) : numbersOf off (a ++ b) = numbersOf off a ++ numbersOf (off + (a.map memberSize).sum) b := by
  induction a generalizing off with
  | nil => rfl
  | cons m r ih =>
    cases m with
    | number w =>
      show (off, w) :: numbersOf (off + w) (r ++ b) = (off, w) :: (numbersOf (off + w) r ++ _)
      rw [ih, List.map_cons, List.sum_cons, Nat.add_assoc]
      rfl
    | array w =>
      show numbersOf (off + w) (r ++ b) = numbersOf (off + w) r ++ _
      rw [ih, List.map_cons, List.sum_cons, Nat.add_assoc]
      rfl

theorem dvFields_eq (off : Nat) : dvFields off = numbersOf off dvDecl := rfl

theorem dim_image (big : Bool) (d : DimRec) : image big d.items = d.name ++ ((if big then (le 4 d.start).reverse else le 4 d.start) ++
    ((if big then (le 4 d.size).reverse else le 4 d.size) ++ ((if big then (le 4 d.coordinate).reverse else le 4 d.coordinate) ++
      (if big then (le 4 d.stored).reverse else le 4 d.stored)))) := by
  show _ ++ (_ ++ (_ ++ (_ ++ (_ ++ [])))) = _
  rw [List.append_nil]

theorem convert_dim (big : Bool) (d : DimRec) (hn : d.name.length = 4) (pre post : List UInt8) (off : Nat) (ho : off = pre.length) :
    convert [(off + 4, 4), (off + 8, 4), (off + 16, 4)] (pre ++ (image big d.items ++ post)) =
      pre ++ (d.name ++ ((if !big then (le 4 d.start).reverse else le 4 d.start) ++ ((if !big then (le 4 d.size).reverse else le 4 d.size) ++
        ((if big then (le 4 d.coordinate).reverse else le 4 d.coordinate) ++ (if !big then (le 4 d.stored).reverse else le 4 d.stored)))) ++ post) := by
  rw [dim_image]
  have la := numLen big 4 d.start
  have lb := numLen big 4 d.size
  have lc := numLen big 4 d.coordinate
  have ld := numLen big 4 d.stored
  rw [← numRev big, ← numRev big, ← numRev big]
  generalize (if big then (le 4 d.start).reverse else le 4 d.start) = a at *
  generalize (if big then (le 4 d.size).reverse else le 4 d.size) = b at *
  generalize (if big then (le 4 d.coordinate).reverse else le 4 d.coordinate) = c at *
  generalize (if big then (le 4 d.stored).reverse else le 4 d.stored) = e at *
  show swapAt (swapAt (swapAt _ _ _) _ _) _ _ = _
  have e1 : pre ++ (d.name ++ (a ++ (b ++ (c ++ e))) ++ post) = (pre ++ d.name) ++ (a ++ (b ++ (c ++ (e ++ post)))) := by simp only [List.append_assoc]
  rw [e1, swapAt_mid (pre ++ d.name) a _ _ 4 (by rw [List.length_append]; omega) (by omega) la]
  have e2 : (pre ++ d.name) ++ (a.reverse ++ (b ++ (c ++ (e ++ post)))) = (pre ++ d.name ++ a.reverse) ++ (b ++ (c ++ (e ++ post))) := by simp only [List.append_assoc]
  rw [e2, swapAt_mid (pre ++ d.name ++ a.reverse) b _ _ 4 (by rw [List.length_append, List.length_append, List.length_reverse]; omega) (by omega) lb]
  have e3 : (pre ++ d.name ++ a.reverse) ++ (b.reverse ++ (c ++ (e ++ post))) = (pre ++ d.name ++ a.reverse ++ b.reverse ++ c) ++ (e ++ post) := by
    simp only [List.append_assoc]
  rw [e3, swapAt_mid _ e _ _ 4 (by rw [List.length_append, List.length_append, List.length_append, List.length_append, List.length_reverse, List.length_reverse]; omega)
    (by omega) ld]
  simp only [List.append_assoc]

theorem dim_length (big : Bool) (d : DimRec) (hn : d.name.length = 4) : (image big d.items).length = 20 := by
  rw [dim_image]
  simp only [List.length_append, numLen, hn]

theorem zero_image (big : Bool) : (if big then (le 4 0).reverse else le 4 0) = if !big then (le 4 0).reverse else le 4 0 := by
  cases big <;> rfl

theorem convert_dims (big : Bool) (dims : List DimRec) (h : ∀ d ∈ dims, d.name.length = 4 ∧ d.coordinate = 0) (pre post : List UInt8) (off : Nat)
    (ho : off = pre.length) :
    convert (dimFields off dims.length) (pre ++ (image big (dims.flatMap DimRec.items) ++ post)) = pre ++ (image (!big) (dims.flatMap DimRec.items) ++ post) := by
  induction dims generalizing pre off with
  | nil => rfl
  | cons d r ih =>
    obtain ⟨hn, hz⟩ := h d (List.mem_cons_self ..)
    show convert ([(off + 4, 4), (off + 8, 4), (off + 16, 4)] ++ dimFields (off + 20) r.length) (pre ++ (image big (d.items ++ r.flatMap DimRec.items) ++ post)) = _
    rw [convert_append, image_append, List.append_assoc, convert_dim big d hn pre _ off ho]
    have e : d.name ++ ((if !big then (le 4 d.start).reverse else le 4 d.start) ++ ((if !big then (le 4 d.size).reverse else le 4 d.size) ++
        ((if big then (le 4 d.coordinate).reverse else le 4 d.coordinate) ++ (if !big then (le 4 d.stored).reverse else le 4 d.stored)))) = image (!big) d.items := by
      rw [dim_image, hz, zero_image big]
    rw [e, ← List.append_assoc pre, ih (fun d hd => h d (List.mem_cons_of_mem _ hd)) _ _ (by rw [List.length_append, dim_length _ d hn, ho])]
    show _ = pre ++ (image (!big) (d.items ++ r.flatMap DimRec.items) ++ post)
    rw [image_append]
    simp only [List.append_assoc]

/-- The fixed part of an entry. -/
def headItems (e : DV) : List Item :=
  [.bytes (ascii "DV"), .num 4 e.pixelType, .num 8 e.position, .num 4 e.part, .num 4 e.compression, .bytes e.spare, .num 4 e.dims.length]

theorem dv_items (e : DV) : e.items = headItems e ++ e.dims.flatMap DimRec.items := rfl

theorem image_length (big : Bool) (items : List Item) : (image big items).length = ((items.map Item.member).map memberSize).sum := by
  induction items with
  | nil => rfl
  | cons i r ih =>
    cases i with
    | num w v => show (_ ++ image big r).length = w + _; rw [List.length_append, numLen, ih]; rfl
    | bytes l => show (_ ++ image big r).length = l.length + _; rw [List.length_append, ih]; rfl

theorem head_members (e : DV) (h : e.spare.length = 6) : (headItems e).map Item.member = dvDecl := by
  show [Member.array 2, .number 4, .number 8, .number 4, .number 4, .array e.spare.length, .number 4] = _
  rw [h]
  rfl

theorem head_length (big : Bool) (e : DV) (h : e.spare.length = 6) : (image big (headItems e)).length = 32 := by
  rw [image_length, head_members e h]
  rfl

/-- The count in the memory of an entry on a big-endian host. -/
theorem head_count (e : DV) (h : e.spare.length = 6) (hc : e.dims.length < 2 ^ 31) (pre post : List UInt8) (o : Nat) (ho : o = pre.length + 28) :
    hostNat (field (pre ++ (image true (headItems e) ++ post)) o 4) = e.dims.length := by
  have e1 : image true (headItems e) = (ascii "DV" ++ ((le 4 e.pixelType).reverse ++ ((le 8 e.position).reverse ++ ((le 4 e.part).reverse ++
      ((le 4 e.compression).reverse ++ e.spare))))) ++ (le 4 e.dims.length).reverse := by
    show _ ++ (_ ++ (_ ++ (_ ++ (_ ++ (_ ++ (_ ++ [])))))) = _
    simp only [List.append_assoc, List.append_nil]
    rfl
  rw [e1]
  have e2 (x : List UInt8) : pre ++ (x ++ (le 4 e.dims.length).reverse ++ post) = (pre ++ x) ++ ((le 4 e.dims.length).reverse ++ post) := by simp only [List.append_assoc]
  rw [e2, field_mid _ _ _ _ 4 ?_ (by rw [List.length_reverse, le_length])]
  · unfold hostNat
    rw [List.reverse_reverse]
    exact unle_le_of_lt (by omega)
  · simp only [List.length_append, List.length_reverse, le_length, h]
    have : (ascii "DV").length = 2 := by decide
    omega

theorem convert_head (big : Bool) (e : DV) (h : e.spare.length = 6) (pre post : List UInt8) (off : Nat) (ho : off = pre.length) :
    convert (dvFields off) (pre ++ (image big (headItems e) ++ post)) = pre ++ (image (!big) (headItems e) ++ post) := by
  rw [dvFields_eq, ← head_members e h]
  apply convert_items big (headItems e) _ pre post off ho
  rw [head_members e h]
  decide

theorem convert_entry (big : Bool) (e : DV) (h : e.Fits) (pre post : List UInt8) (off : Nat) (ho : off = pre.length) :
    convert (dimFields (off + 32) e.dims.length) (convert (dvFields off) (pre ++ (image big e.items ++ post))) = pre ++ (image (!big) e.items ++ post) := by
  obtain ⟨hs, hc, hd⟩ := h
  rw [dv_items, image_append, image_append, List.append_assoc, convert_head big e hs pre _ off ho, ← List.append_assoc pre,
    convert_dims big e.dims hd _ _ _ (by rw [List.length_append, head_length _ e hs, ho])]
  simp only [List.append_assoc]

theorem dims_length (big : Bool) (dims : List DimRec) (h : ∀ d ∈ dims, d.name.length = 4 ∧ d.coordinate = 0) :
    (image big (dims.flatMap DimRec.items)).length = dims.length * 20 := by
  induction dims with
  | nil => rfl
  | cons d r ih =>
    show (image big (d.items ++ r.flatMap DimRec.items)).length = (r.length + 1) * 20
    rw [image_append, List.length_append, dim_length _ d (h d (List.mem_cons_self ..)).1, ih (fun d hd => h d (List.mem_cons_of_mem _ hd))]
    omega

theorem entry_length (big : Bool) (e : DV) (h : e.Fits) : (image big e.items).length = 32 + e.dims.length * 20 := by
  rw [dv_items, image_append, List.length_append, head_length _ e h.1, dims_length _ _ h.2.2]

theorem convert_entries (entries : List DV) (h : ∀ e ∈ entries, e.Fits) (pre post : List UInt8) (off : Nat) (ho : off = pre.length) :
    convertEntries entries.length off (pre ++ (image true (entries.flatMap DV.items) ++ post)) = pre ++ (image false (entries.flatMap DV.items) ++ post) := by
  induction entries generalizing pre off with
  | nil => rfl
  | cons e r ih =>
    have he := h e (List.mem_cons_self ..)
    show convertEntries r.length (off + (32 + hostNat (field (pre ++ (image true (e.items ++ r.flatMap DV.items) ++ post)) (off + 28) 4) * 20))
      (convert (dimFields (off + 32) (hostNat (field (pre ++ (image true (e.items ++ r.flatMap DV.items) ++ post)) (off + 28) 4)))
        (convert (dvFields off) (pre ++ (image true (e.items ++ r.flatMap DV.items) ++ post)))) = pre ++ (image false (e.items ++ r.flatMap DV.items) ++ post)
    have hcnt : hostNat (field (pre ++ (image true (e.items ++ r.flatMap DV.items) ++ post)) (off + 28) 4) = e.dims.length := by
      rw [image_append, dv_items, image_append, List.append_assoc, List.append_assoc]
      exact head_count e he.1 he.2.1 pre _ _ (by omega)
    rw [hcnt, image_append, image_append, List.append_assoc, convert_entry true e he pre _ off ho, ← List.append_assoc pre,
      ih (fun e he => h e (List.mem_cons_of_mem _ he)) _ _ (by rw [List.length_append, entry_length _ e he, ho])]
    simp only [List.append_assoc, Bool.not_true]

theorem convert_directory (magic : List UInt8) (allocated used : Nat) (entries : List DV) (spare post : List UInt8) (hm : magic.length = 16)
    (hs : spare.length = 124) (hn : entries.length < 2 ^ 31) (h : ∀ e ∈ entries, e.Fits) :
    convertSubDir (image true (directoryItems magic allocated used entries spare) ++ post) = image false (directoryItems magic allocated used entries spare) ++ post := by
  unfold directoryItems convertSubDir
  generalize hhd : [Item.bytes magic, .num 8 allocated, .num 8 used, .num 4 entries.length, .bytes spare] = hd
  have hmem : hd.map Item.member = subDirDecl := by
    rw [← hhd]
    show [Member.array magic.length, .number 8, .number 8, .number 4, .array spare.length] = _
    rw [hm, hs]
    rfl
  have hcnt : hostNat (field (image true (hd ++ entries.flatMap DV.items) ++ post) 32 4) = entries.length := by
    have e1 : image true hd = (magic ++ ((le 8 allocated).reverse ++ (le 8 used).reverse)) ++ ((le 4 entries.length).reverse ++ spare) := by
      rw [← hhd]
      show _ ++ (_ ++ (_ ++ (_ ++ (_ ++ [])))) = _
      simp only [List.append_assoc, List.append_nil]
      rfl
    rw [image_append, e1, List.append_assoc, List.append_assoc, List.append_assoc (le 4 _).reverse,
      field_mid _ _ _ 32 4 (by simp only [List.length_append, List.length_reverse, le_length, hm]) (by rw [List.length_reverse, le_length])]
    unfold hostNat
    rw [List.reverse_reverse]
    exact unle_le_of_lt (by omega)
  have hl : (image false hd).length = 160 := by
    rw [image_length, hmem]
    rfl
  have hc := convert_items true hd (by rw [hmem]; decide) [] (image true (entries.flatMap DV.items) ++ post) 0 rfl
  rw [hmem] at hc
  simp only [List.nil_append, Bool.not_true] at hc
  show convertEntries (hostNat (field (image true (hd ++ entries.flatMap DV.items) ++ post) 32 4)) 160
    (convert (numbersOf 0 subDirDecl) (image true (hd ++ entries.flatMap DV.items) ++ post)) = _
  rw [hcnt, image_append, List.append_assoc, hc, convert_entries entries h _ _ _ hl.symm, image_append, List.append_assoc]

theorem convert_subBlock (magic : List UInt8) (allocated used metadata attachment data : Nat) (e : DV) (post : List UInt8) (hm : magic.length = 16) (h : e.Fits) :
    convertSubBlock (image true (subBlockItems magic allocated used metadata attachment data e) ++ post) =
      image false (subBlockItems magic allocated used metadata attachment data e) ++ post := by
  unfold subBlockItems convertSubBlock
  generalize hhd : [Item.bytes magic, .num 8 allocated, .num 8 used, .num 4 metadata, .num 4 attachment, .num 8 data] = hd
  have hmem : hd.map Item.member = subBlockDecl := by
    rw [← hhd]
    show [Member.array magic.length, .number 8, .number 8, .number 4, .number 4, .number 8] = _
    rw [hm]
    rfl
  have hl (b : Bool) : (image b hd).length = 48 := by
    rw [image_length, hmem]
    rfl
  have hc := convert_items true hd (by rw [hmem]; decide) [] (image true e.items ++ post) 0 rfl
  rw [hmem] at hc
  simp only [List.nil_append, Bool.not_true] at hc
  have hcnt : hostNat (field (image true (hd ++ e.items) ++ post) 76 4) = e.dims.length := by
    rw [image_append, dv_items, image_append, List.append_assoc, List.append_assoc]
    exact head_count e h.1 h.2.1 _ _ _ (by rw [hl])
  show (if field (convert (numbersOf 0 subBlockDecl) (image true (hd ++ e.items) ++ post)) 48 2 = ascii "DV" then
      convert (dimFields 80 (hostNat (field (image true (hd ++ e.items) ++ post) 76 4)))
        (convert (dvFields 48) (convert (numbersOf 0 subBlockDecl) (image true (hd ++ e.items) ++ post)))
    else _) = _
  rw [hcnt, image_append, List.append_assoc, hc]
  have hs : field (image false hd ++ (image true e.items ++ post)) 48 2 = ascii "DV" := by
    rw [dv_items, image_append]
    show field (image false hd ++ (((ascii "DV" ++ _) ++ _) ++ post)) 48 2 = _
    rw [List.append_assoc, List.append_assoc]
    exact field_mid _ _ _ 48 2 (hl false).symm (by decide)
  rw [if_pos hs, convert_entry true e h _ _ 48 (hl false).symm, image_append, List.append_assoc]
  rfl

/-! ## The records of a writer -/

theorem leInt4 (i : Int) : leInt 4 i = le 4 (i % (2 ^ 32 : Int)).toNat := rfl

theorem dimRec_image (c : Char) (start size stored : Int) : image false (dimRec c start size stored).items = dimBytes c start size stored := by
  rw [dim_image]
  unfold dimRec dimBytes
  simp only [Bool.false_eq_true, if_false, ← leInt4]
  rw [show le 4 0 = zeros 4 from rfl]
  simp only [List.append_assoc, List.cons_append]

theorem flat_image (l : List DimRec) : image false (l.flatMap DimRec.items) = (l.map (fun d => image false d.items)).flatten := by
  induction l with
  | nil => rfl
  | cons d r ih =>
    show image false (d.items ++ r.flatMap DimRec.items) = image false d.items ++ _
    rw [image_append, ih]

theorem entryRec_dims (e : Entry) : (entryRec e).dims.map (fun d => image false d.items) = entryDims e := by
  unfold entryRec entryDims dimList Entry.mOpt
  dsimp only
  rw [List.map_append, List.map_append, List.map_map]
  have h1 : ((fun d : DimRec => image false d.items) ∘ fun d => dimRec (dimensionToChar d) ((e.coordinate d).getD 0) 1 1) =
      fun d => dimBytes (dimensionToChar d) ((e.coordinate d).getD 0) 1 1 := by
    funext d
    exact dimRec_image _ _ _ _
  rw [h1]
  cases e.isMIndexValid <;> simp [dimRec_image]

theorem entryRec_image (e : Entry) : image false (entryRec e).items = entryBytes e := by
  have hl : (entryRec e).dims.length = (entryDims e).length := by rw [← entryRec_dims, List.length_map]
  have hle : (entryDims e).length ≤ 12 := dimList_length_le _ _ _ _ _ _ _ _
  rw [dv_items, image_append, flat_image, entryRec_dims]
  have e1 : image false (headItems (entryRec e)) = ascii "DV" ++ (le 4 (e.pixelType % (2 ^ 32 : Int)).toNat ++ (le 8 e.filePosition ++ (le 4 0 ++
      (le 4 (e.compression % (2 ^ 32 : Int)).toNat ++ ((e.pyramidType :: zeros 5) ++ (le 4 (entryRec e).dims.length ++ [])))))) := rfl
  rw [e1, hl]
  unfold entryBytes dvBytes
  rw [leInt4, leInt4, leInt4, show le 4 0 = zeros 4 from rfl]
  have e2 : (((entryDims e).length : Int) % (2 ^ 32 : Int)).toNat = (entryDims e).length := by omega
  rw [e2]
  simp only [List.append_assoc, List.append_nil, List.cons_append, List.nil_append]

theorem entryRec_fits (e : Entry) : (entryRec e).Fits := by
  have hl : (entryRec e).dims.length = (entryDims e).length := by rw [← entryRec_dims, List.length_map]
  have hle : (entryDims e).length ≤ 12 := dimList_length_le _ _ _ _ _ _ _ _
  refine ⟨rfl, by omega, ?_⟩
  intro d hd
  unfold entryRec at hd
  simp only [List.mem_append, List.mem_cons, List.not_mem_nil, or_false, List.mem_map] at hd
  rcases hd with ((rfl | rfl) | hd) | ⟨x, -, rfl⟩
  · exact ⟨rfl, rfl⟩
  · exact ⟨rfl, rfl⟩
  · split at hd
    · rw [List.mem_singleton] at hd
      subst hd
      exact ⟨rfl, rfl⟩
    · cases hd
  · exact ⟨rfl, rfl⟩

/-! ## The file header -/

/-- The members of the file header. -/
def headerItems (g : Guid) (subDir metadata attDir : Nat) : List Item :=
  [.bytes fileMagic, .num 8 512, .num 8 512, .num 4 1, .num 4 0, .num 4 0, .num 4 0, .num 4 g.data1.toNat, .num 2 g.data2.toNat, .num 2 g.data3.toNat,
    .bytes g.data4.toList, .num 4 g.data1.toNat, .num 2 g.data2.toNat, .num 2 g.data3.toNat, .bytes g.data4.toList, .num 4 0, .num 8 subDir, .num 8 metadata, .num 4 0,
    .num 8 attDir, .bytes (zeros 432)]

theorem hostFileHeader_image (g : Guid) (a b c : Nat) : hostFileHeader g a b c = image true (headerItems g a b c) := by
  unfold hostFileHeader hostGuidBytes hostBytes headerItems
  simp only [image, if_true, List.append_assoc, List.append_nil]
  rfl

theorem fileHeader_image (g : Guid) (a b c : Nat) : fileHeader g a b c = image false (headerItems g a b c) := by
  unfold fileHeader segHeader guidBytes headerItems
  simp only [image, Bool.false_eq_true, if_false, List.append_assoc, List.append_nil]
  rfl

theorem headerItems_decl (g : Guid) (a b c : Nat) : (headerItems g a b c).map Item.member = fileHeaderDecl := by
  unfold headerItems
  simp only [List.map_cons, List.map_nil, Item.member, Vector.length_toList, zeros, List.length_replicate]
  rfl

theorem updatedHeader_eq (g : Guid) (a b c : Nat) : updatedHeader g a b c = fileHeader g a b c := by
  unfold updatedHeader
  rw [hostFileHeader_image, fileHeader_image]
  have h := convert_items true (headerItems g a b c) (by rw [headerItems_decl]; decide) [] [] 0 rfl
  rw [headerItems_decl] at h
  simp only [List.nil_append, List.append_nil, Bool.not_true] at h
  exact h

theorem vecOf_toList (v : Vector UInt8 8) : vecOf 8 v.toList = v := by
  ext i hi
  simp [vecOf, hi]

theorem hostGuid_guidBytes (g : Guid) : hostGuid (guidBytes g) = mirrored g := by
  unfold hostGuid mirrored hostNat guidBytes
  have l1 := le_length 4 g.data1.toNat
  have l2 := le_length 2 g.data2.toNat
  have l3 := le_length 2 g.data3.toNat
  have e (x y z w : List UInt8) : x ++ y ++ z ++ w = x ++ (y ++ (z ++ w)) := by simp only [List.append_assoc]
  rw [e]
  have f0 := field_mid [] (le 4 g.data1.toNat) (le 2 g.data2.toNat ++ (le 2 g.data3.toNat ++ g.data4.toList)) 0 4 rfl l1
  have f1 := field_mid (le 4 g.data1.toNat) (le 2 g.data2.toNat) (le 2 g.data3.toNat ++ g.data4.toList) 4 2 l1.symm l2
  have f2 := field_mid (le 4 g.data1.toNat ++ le 2 g.data2.toNat) (le 2 g.data3.toNat) g.data4.toList 6 2 (by rw [List.length_append, l1, l2]) l3
  have f3 := field_mid (le 4 g.data1.toNat ++ le 2 g.data2.toNat ++ le 2 g.data3.toNat) g.data4.toList [] 8 8
    (by rw [List.length_append, List.length_append, l1, l2, l3]) (by rw [Vector.length_toList])
  simp only [List.append_assoc, List.nil_append, List.append_nil] at f0 f1 f2 f3
  rw [f0, f1, f2, f3, vecOf_toList]

theorem newDocument_eq (g : Guid) : newDocument g = (fileHeader g 0 0 0, 16777216, mirrored g) := by
  have h : convert fileHeaderFields (hostFileHeader g 0 0 0) = fileHeader g 0 0 0 := updatedHeader_eq g 0 0 0
  unfold newDocument hostHeader
  dsimp only
  rw [h]
  have e : fileHeader g 0 0 0 = (segHeader fileMagic 512 512) ++ (leInt 4 1 ++ ((leInt 4 0 ++ (zeros 8 ++ guidBytes g)) ++ (guidBytes g ++
      (zeros 4 ++ (le 8 0 ++ (le 8 0 ++ (zeros 4 ++ (le 8 0 ++ zeros 432)))))))) := by
    unfold fileHeader
    simp only [List.append_assoc]
  have hs : (segHeader fileMagic 512 512).length = 32 := by decide
  have hg : (guidBytes g).length = 16 := by
    unfold guidBytes
    simp only [List.length_append, le_length, Vector.length_toList]
  have f1 : field (fileHeader g 0 0 0) 32 4 = leInt 4 1 := by
    rw [e]
    exact field_mid _ _ _ 32 4 hs.symm (by decide)
  have f2 : field (fileHeader g 0 0 0) 64 16 = guidBytes g := by
    rw [e, ← List.append_assoc (leInt 4 1), ← List.append_assoc (segHeader fileMagic 512 512)]
    refine field_mid _ _ _ 64 16 ?_ hg
    simp only [List.length_append, hs, hg]
    decide
  rw [f1, f2, hostGuid_guidBytes]
  have : hostNat (leInt 4 1) = 16777216 := by decide +kernel
  rw [this]

theorem forcedGuid_eq (g : Guid) : forcedGuid g = (guidBytes g, mirrored g) := by
  have h : convert (guidFields 0) (hostGuidBytes g) = guidBytes g := by
    have := convert_items true [.num 4 g.data1.toNat, .num 2 g.data2.toNat, .num 2 g.data3.toNat, .bytes g.data4.toList] rfl [] [] 0 rfl
    simp only [List.nil_append, List.append_nil, Bool.not_true] at this
    have e1 : image true [.num 4 g.data1.toNat, .num 2 g.data2.toNat, .num 2 g.data3.toNat, .bytes g.data4.toList] = hostGuidBytes g := by
      unfold hostGuidBytes hostBytes
      simp only [image, if_true, List.append_assoc, List.append_nil]
    have e2 : image false [.num 4 g.data1.toNat, .num 2 g.data2.toNat, .num 2 g.data3.toNat, .bytes g.data4.toList] = guidBytes g := by
      unfold guidBytes
      simp only [image, Bool.false_eq_true, if_false, List.append_assoc, List.append_nil]
    rw [e1, e2] at this
    exact this
  unfold forcedGuid
  dsimp only
  rw [h, hostGuid_guidBytes]

theorem mirrored_ne (g : Guid) (h : (le 4 g.data1.toNat).reverse ≠ le 4 g.data1.toNat) : mirrored g ≠ g := by
  intro he
  apply h
  have h1 : (UInt32.ofNat (unle (le 4 g.data1.toNat).reverse)) = g.data1 := congrArg Guid.data1 he
  have hl : ((le 4 g.data1.toNat).reverse).length = 4 := by rw [List.length_reverse, le_length]
  have hlt := unle_lt (le 4 g.data1.toNat).reverse
  rw [hl] at hlt
  have h2 := congrArg UInt32.toNat h1
  rw [UInt32.toNat_ofNat'] at h2
  have h3 : unle (le 4 g.data1.toNat).reverse = g.data1.toNat := by omega
  have h4 := le_unle (le 4 g.data1.toNat).reverse
  rw [hl, h3] at h4
  exact h4.symm

/-! ## Pixels -/

theorem convertWord_ok (src : Buf) (s : Nat) (dst : Buf) (d : Nat) (hs : s + 2 ≤ src.size) (hd : d + 2 ≤ dst.size) :
    ∃ b, convertWord src s dst d = some b ∧ b.size = dst.size ∧ (∀ j, j < d ∨ d + 2 ≤ j → b.get j = dst.get j) ∧ hostWord b d = sample src s := by
  unfold convertWord Buf.read Buf.write
  rw [if_pos (by omega), if_pos (by omega)]
  simp only [Option.bind_some]
  rw [if_pos (by omega), Option.bind_some]
  dsimp only
  rw [if_pos (by omega)]
  refine ⟨_, rfl, rfl, ?_, ?_⟩
  · intro j hj
    dsimp only
    rw [if_neg (by omega), if_neg (by omega)]
  · unfold hostWord sample
    dsimp only
    rw [if_neg (by omega), if_pos rfl, if_pos rfl]
    have ha := (src.get s).toNat_lt
    have hb := (src.get (s + 1)).toNat_lt
    generalize (src.get s).toNat = a at *
    generalize (src.get (s + 1)).toNat = b at *
    have e : (swap16 (BitVec.ofNat 16 (256 * a + b))).toNat = a + 256 * b := by
      rw [swap16_toNat, BitVec.toNat_ofNat]
      omega
    rw [e, UInt8.toNat_ofNat', UInt8.toNat_ofNat']
    omega

theorem convertRows_ok (src : Buf) (ss : Nat) (dst : Buf) (ds n h : Nat) (hn : 2 * n ≤ ds) (hs : ∀ y < h, y * ss + 2 * n ≤ src.size)
    (hd : ∀ y < h, y * ds + 2 * n ≤ dst.size) :
    ∃ b, convertRows src ss dst ds n h = some b ∧ b.size = dst.size ∧ ∀ y < h, ∀ x < n, hostWord b (y * ds + 2 * x) = sample src (y * ss + 2 * x) := by
  unfold convertRows
  have key := loop_inv (fun y (b : Buf) => b.size = dst.size ∧ ∀ y' < y, ∀ x < n, hostWord b (y' * ds + 2 * x) = sample src (y' * ss + 2 * x))
    (fun y dst => loop n (fun x dst => convertWord src (y * ss + 2 * x) dst (y * ds + 2 * x)) dst) h dst ⟨rfl, fun y hy => absurd hy (Nat.not_lt_zero _)⟩ ?_
  · exact key
  intro y b hy hb
  have inner := loop_inv (fun x (c : Buf) => c.size = dst.size ∧ (∀ y' < y, ∀ x < n, hostWord c (y' * ds + 2 * x) = sample src (y' * ss + 2 * x)) ∧
      ∀ x' < x, hostWord c (y * ds + 2 * x') = sample src (y * ss + 2 * x'))
    (fun x dst => convertWord src (y * ss + 2 * x) dst (y * ds + 2 * x)) n b ⟨hb.1, hb.2, fun x hx => absurd hx (Nat.not_lt_zero _)⟩ ?_
  · obtain ⟨c, hc, h1, h2, h3⟩ := inner
    refine ⟨c, hc, h1, ?_⟩
    intro y' hy' x hx
    rcases Nat.lt_or_ge y' y with hlt | hge
    · exact h2 y' hlt x hx
    · have : y' = y := by omega
      subst this
      exact h3 x hx
  intro x c hx ⟨h1, h2, h3⟩
  have b1 := hs y hy
  have b2 := hd y hy
  obtain ⟨c', k1, k2, k3, k4⟩ := convertWord_ok src (y * ss + 2 * x) c (y * ds + 2 * x) (by omega) (by omega)
  refine ⟨c', k1, by omega, ?_, ?_⟩
  · intro y' hy' x' hx'
    have hm : (y' + 1) * ds ≤ y * ds := Nat.mul_le_mul_right _ hy'
    rw [Nat.succ_mul] at hm
    rw [← h2 y' hy' x' hx']
    unfold hostWord
    rw [k3 _ (by omega), k3 _ (by omega)]
  · intro x' hx'
    rcases Nat.lt_or_ge x' x with hlt | hge
    · rw [← h3 x' hlt]
      unfold hostWord
      rw [k3 _ (by omega), k3 _ (by omega)]
    · have : x' = x := by omega
      subst this
      exact k4

theorem sample_ne (b : Buf) (i : Nat) (h : b.get i ≠ b.get (i + 1)) : hostWord b i ≠ sample b i := by
  unfold hostWord sample
  intro he
  apply h
  have ha := (b.get i).toNat_lt
  have hb := (b.get (i + 1)).toNat_lt
  exact UInt8.toNat_inj.mp (by omega)

end Verif.ByteOrder
