import Verif.Model.Convert

/-! # What converting a pixel means, in terms of the values of its channels -/

namespace Verif.Spec
open Verif.Blit

/-- The values of the channels of a pixel with the given bytes (16-bit values are little endian), for the integer pixel types. -/
def channels : PixelType → (Nat → UInt8) → List Nat
  | .Gray8, s => [(s 0).toNat]
  | .Gray16, s => [(s 0).toNat + 256 * (s 1).toNat]
  | .Bgr24, s => [(s 0).toNat, (s 1).toNat, (s 2).toNat]
  | .Bgr48, s => [(s 0).toNat + 256 * (s 1).toNat, (s 2).toNat + 256 * (s 3).toNat, (s 4).toNat + 256 * (s 5).toNat]
  | _, _ => []

/-- Bytes of a pixel. -/
def pixelBytes : PixelType → Nat
  | .Gray8 => 1
  | .Gray16 => 2
  | .Gray32Float => 4
  | .Bgr24 => 3
  | .Bgra32 => 4
  | .Bgr48 => 6
  | _ => 0

/-- The pixel types with 16 bits per channel. -/
def Deep (p : PixelType) : Prop := p = .Gray16 ∨ p = .Bgr48

/-- The pixel types with one channel. -/
def Grey (p : PixelType) : Prop := p = .Gray8 ∨ p = .Gray16

/-- The integer pixel types that can be converted. -/
def IntegerType (p : PixelType) : Prop := p = .Gray8 ∨ p = .Gray16 ∨ p = .Bgr24 ∨ p = .Bgr48

/-- `v` in a channel of type `ps` becomes `v'` in a channel of type `pd`: the same value if it fits, otherwise its upper
eight bits. -/
def DepthChanged (ps pd : PixelType) (v v' : Nat) : Prop :=
  (Deep ps ∧ ¬ Deep pd → v' = v / 256) ∧ (¬ (Deep ps ∧ ¬ Deep pd) → v' = v)

/-- The mean of three values as a whole number: the nearest for eight-bit values, rounded down for 16-bit values. -/
def IsMean (deep : Prop) (a b c m : Nat) : Prop :=
  (deep → 3 * m ≤ a + b + c ∧ a + b + c < 3 * m + 3) ∧ (¬ deep → 3 * m ≤ a + b + c + 1 ∧ a + b + c ≤ 3 * m + 1)

/-- The channels `d` of a pixel of type `pd` are those expected for a pixel of type `ps` with channels `s`. -/
def Converted (ps pd : PixelType) (s d : List Nat) : Prop :=
  match s, d with
  | [v], [v'] => DepthChanged ps pd v v'
  | [v], [b, g, r] => DepthChanged ps pd v b ∧ DepthChanged ps pd v g ∧ DepthChanged ps pd v r
  | [b, g, r], [v'] => ∃ m, IsMean (Deep ps) b g r m ∧ DepthChanged ps pd m v'
  | [b, g, r], [b', g', r'] => DepthChanged ps pd b b' ∧ DepthChanged ps pd g g' ∧ DepthChanged ps pd r r'
  | _, _ => False

end Verif.Spec
