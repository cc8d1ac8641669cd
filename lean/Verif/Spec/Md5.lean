import Verif.Model.Disk

/-! # MD5, after RFC 1321

Written from the RFC, independently of the implementation: padding, 64 operations given by a table of constants, the shift amounts and the
order of the words given by formulas. -/

namespace Verif.Spec.Md5

open Verif.Czi (le unle)

/-- The four-word state (A, B, C, D). -/
abbrev State := UInt32 × UInt32 × UInt32 × UInt32

/-- RFC 1321, 3.4: the auxiliary functions, by round. -/
def aux (round : Nat) (x y z : UInt32) : UInt32 :=
  match round with
  | 0 => (x &&& y) ||| (~~~x &&& z)
  | 1 => (x &&& z) ||| (y &&& ~~~z)
  | 2 => x ^^^ y ^^^ z
  | _ => y ^^^ (x ||| ~~~z)

/-- RFC 1321, 3.4: T[i+1] = integer part of 4294967296 * |sin(i+1)|. -/
def T : List UInt32 :=
  [0xd76aa478, 0xe8c7b756, 0x242070db, 0xc1bdceee, 0xf57c0faf, 0x4787c62a, 0xa8304613, 0xfd469501, 0x698098d8, 0x8b44f7af, 0xffff5bb1, 0x895cd7be, 0x6b901122, 0xfd987193, 0xa679438e, 0x49b40821, 0xf61e2562, 0xc040b340, 0x265e5a51, 0xe9b6c7aa, 0xd62f105d, 0x02441453, 0xd8a1e681, 0xe7d3fbc8, 0x21e1cde6, 0xc33707d6, 0xf4d50d87, 0x455a14ed, 0xa9e3e905, 0xfcefa3f8, 0x676f02d9, 0x8d2a4c8a, 0xfffa3942, 0x8771f681, 0x6d9d6122, 0xfde5380c, 0xa4beea44, 0x4bdecfa9, 0xf6bb4b60, 0xbebfbc70, 0x289b7ec6, 0xeaa127fa, 0xd4ef3085, 0x04881d05, 0xd9d4d039, 0xe6db99e5, 0x1fa27cf8, 0xc4ac5665, 0xf4292244, 0x432aff97, 0xab9423a7, 0xfc93a039, 0x655b59c3, 0x8f0ccc92, 0xffeff47d, 0x85845dd1, 0x6fa87e4f, 0xfe2ce6e0, 0xa3014314, 0x4e0811a1, 0xf7537e82, 0xbd3af235, 0x2ad7d2bb, 0xeb86d391]

/-- The index of the word used in operation `i`. -/
def wordIndex (i : Nat) : Nat :=
  match i / 16 with
  | 0 => i
  | 1 => (5 * i + 1) % 16
  | 2 => (3 * i + 5) % 16
  | _ => 7 * i % 16

/-- The shift amounts of a round, repeating every four operations. -/
def shift (i : Nat) : UInt32 :=
  match i / 16, i % 4 with
  | 0, 0 => 7 | 0, 1 => 12 | 0, 2 => 17 | 0, _ => 22
  | 1, 0 => 5 | 1, 1 => 9 | 1, 2 => 14 | 1, _ => 20
  | 2, 0 => 4 | 2, 1 => 11 | 2, 2 => 16 | 2, _ => 23
  | _, 0 => 6 | _, 1 => 10 | _, 2 => 15 | _, _ => 21

/-- Circular shift to the left. -/
def rotl (x s : UInt32) : UInt32 := (x <<< s) ||| (x >>> (32 - s))

/-- Word `n` of a block: four bytes, the low-order byte first. -/
def X (block : List UInt8) (n : Nat) : UInt32 := UInt32.ofNat (unle ((block.drop (4 * n)).take 4))

/-- Operation `i`: a = b + ((a + F(b,c,d) + X[k] + T[i]) <<< s), after which the roles of the four words rotate. -/
def operation (block : List UInt8) (s : State) (i : Nat) : State :=
  let (a, b, c, d) := s
  (d, b + rotl (a + (aux (i / 16) b c d + X block (wordIndex i) + T.getD i 0)) (shift i), b, c)

/-- Processing one block of 64 bytes. -/
def compress (s : State) (block : List UInt8) : State :=
  let t := (List.range 64).foldl (operation block) s
  (t.1 + s.1, t.2.1 + s.2.1, t.2.2.1 + s.2.2.1, t.2.2.2 + s.2.2.2)

/-- The initial state. -/
def init : State := (0x67452301, 0xefcdab89, 0x98badcfe, 0x10325476)

/-- Processing the complete 64-byte blocks of a message, in order. -/
def process (s : State) (m : List UInt8) : State :=
  if 64 ≤ m.length then process (compress s (m.take 64)) (m.drop 64) else s
termination_by m.length
decreasing_by simp; omega

/-- RFC 1321, 3.1 and 3.2: a one bit, zeros up to 56 modulo 64, and the number of *bits* of the message as 8 bytes, low-order byte
first, modulo 2^64. -/
def pad (m : List UInt8) : List UInt8 :=
  m ++ [0x80] ++ List.replicate ((119 - m.length % 64) % 64) 0 ++ le 8 (8 * m.length)

/-- The hash: 16 bytes, each word with its low-order byte first. -/
def md5 (m : List UInt8) : List UInt8 :=
  let s := process init (pad m)
  le 4 s.1.toNat ++ le 4 s.2.1.toNat ++ le 4 s.2.2.1.toNat ++ le 4 s.2.2.2.toNat

end Verif.Spec.Md5
