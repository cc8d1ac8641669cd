import Verif.Model.Enum

namespace Verif

/-- The frames a user can name: everything but `Invalid`. -/
def Frame.Usable (f : Frame) : Prop := f ≠ .Invalid

/-- The number written by the bytes of a list, the first one being the most significant. -/
def bytesNumber : List UInt8 → Nat
  | [] => 0
  | b :: bs => b.toNat * 256 ^ bs.length + bytesNumber bs

/-- A GUID as one number of 128 bits: the hexadecimal digits of its text form `{XXXXXXXX-XXXX-XXXX-XXXX-XXXXXXXXXXXX}` read from left to right. -/
def guidNumber (g : Guid) : Nat :=
  ((g.data1.toNat * 2 ^ 16 + g.data2.toNat) * 2 ^ 16 + g.data3.toNat) * 2 ^ 64 + bytesNumber g.data4.toList

end Verif
