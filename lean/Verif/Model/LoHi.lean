import Verif.Model.Mem

/-!
# Lo-hi byte packing (utilities.cpp, utilities_simd.cpp)

16-bit words are little endian in memory (x86/ARM), as the code assumes. Running pointers are written as index
expressions; every access goes through the bounds-checked `Buf` operations.
-/

namespace Verif.LoHi
open Verif

/-- `CheckLoHiByteUnpackArgumentsAndThrow`, utilities.cpp:496-514: the product `width * 2` is computed in `uint32_t`.
`true` = arguments accepted (null pointers are not modelled). -/
def checkUnpack (width stride : Nat) : Bool := !(stride < (width * 2) % 2 ^ 32)

/-- `CheckLoHiBytePackArgumentsAndThrow`, utilities.cpp:516-541. -/
def checkPack (sizeSrc width height stride : Nat) : Bool :=
  !(sizeSrc < width * height * 2) && !(stride < (width * 2) % 2 ^ 32)

/-- The scalar loop body of unpacking, utilities.cpp:552-555 (identical in utilities_simd.cpp:164-168 and 265-268):
the word at byte offset `s` of the source is split to `p` and `p + half` of the destination. -/
def unpackWord (src : Buf) (s : Nat) (half p : Nat) (dst : Buf) : Option Buf := do
  let lo ← src.read s
  let hi ← src.read (s + 1)
  let dst ← dst.write p lo
  dst.write (p + half) hi

/-- The scalar loop body of packing, utilities.cpp:572-574 (identical in utilities_simd.cpp:200-202 and 299-301). -/
def packWord (src : Buf) (p half : Nat) (d : Nat) (dst : Buf) : Option Buf := do
  let lo ← src.read p
  let hi ← src.read (p + half)
  let dst ← dst.write d lo
  dst.write (d + 1) hi

/-- `LoHiByteUnpackStrided_C`, utilities.cpp:543-559. -/
def unpackC (src : Buf) (wordCount stride lineCount : Nat) (dst : Buf) : Option Buf :=
  let half := (wordCount * 2 * lineCount) / 2
  loop lineCount (fun y dst =>
    loop wordCount (fun x dst => unpackWord src (y * stride + 2 * x) half (y * wordCount + x) dst) dst) dst

/-- `LoHiBytePackStrided_C`, utilities.cpp:561-577. -/
def packC (src : Buf) (sizeSrc width height stride : Nat) (dst : Buf) : Option Buf :=
  let half := sizeSrc / 2
  loop height (fun y dst =>
    loop width (fun x dst => packWord src (y * width + x) half (y * stride + 2 * x) dst) dst) dst

/-! ## AVX2 -/

/-- Unaligned vector load of `n` bytes. -/
def readVec (b : Buf) (off n : Nat) : Option (Nat → UInt8) :=
  if off + n ≤ b.size then some (fun i => b.get (off + i)) else none

/-- Unaligned vector store of `n` bytes. -/
def writeVec (b : Buf) (off n : Nat) (v : Nat → UInt8) : Option Buf :=
  if off + n ≤ b.size then some { b with get := fun i => if off ≤ i ∧ i < off + n then v (i - off) else b.get i } else none

/-- `_mm256_shuffle_epi8`: per 128-bit lane, byte `i` is byte `sel i % 16` of the lane, or 0 if bit 7 is set. -/
def shuffleEpi8 (d : Nat → UInt8) (sel : Nat → Nat) : Nat → UInt8 :=
  fun i => if sel i ≥ 128 then 0 else d (i / 16 * 16 + sel i % 16)

/-- `_mm256_permute4x64_epi64`: quad word `q` of the result is quad word `(imm >> 2q) & 3`. -/
def permute4x64 (a : Nat → UInt8) (imm : Nat) : Nat → UInt8 :=
  fun i => a (8 * (imm / 4 ^ (i / 8) % 4) + i % 8)

/-- `_mm256_unpacklo_epi8`: per 128-bit lane, interleave the low 8 bytes of `a` and `b`. -/
def unpackloEpi8 (a b : Nat → UInt8) : Nat → UInt8 :=
  fun i => if i % 2 = 0 then a (i / 16 * 16 + i % 16 / 2) else b (i / 16 * 16 + i % 16 / 2)

/-- `shuffleConst128` (bytes 0..15) broadcast to both lanes, utilities_simd.cpp:139-143 and 149. -/
def shuffleConst (i : Nat) : Nat :=
  [0x0, 0x2, 0x4, 0x6, 0x8, 0xa, 0xc, 0xe, 0x1, 0x3, 0x5, 0x7, 0x9, 0xb, 0xd, 0xf].getD (i % 16) 0

/-- `LoHiByteUnpackStrided_AVX`, utilities_simd.cpp:137-174. -/
def unpackAvx (src : Buf) (wordCount stride lineCount : Nat) (dst : Buf) : Option Buf :=
  let half := (wordCount * 2 * lineCount) / 2
  loop lineCount (fun y dst =>
    (loop (wordCount / 16) (fun i dst => do
      let d ← readVec src (y * stride + 32 * i) 32
      let shuffled := permute4x64 (shuffleEpi8 d shuffleConst) 0xd8
      let dst ← writeVec dst (y * wordCount + 16 * i) 16 shuffled
      writeVec dst (y * wordCount + 16 * i + half) 16 (fun j => shuffled (16 + j))) dst).bind fun dst =>
    loop (wordCount % 16) (fun i dst =>
      unpackWord src (y * stride + 32 * (wordCount / 16) + 2 * i) half (y * wordCount + 16 * (wordCount / 16) + i) dst) dst) dst

/-- `LoHiBytePackStrided_AVX`, utilities_simd.cpp:176-208. The upper half of a register made from 16 bytes
(`_mm256_castsi128_si256`) is undefined: parameter `u`. -/
def packAvx (u : Nat → UInt8) (src : Buf) (sizeSrc width height stride : Nat) (dst : Buf) : Option Buf :=
  let half := sizeSrc / 2
  loop height (fun y dst =>
    (loop (width / 16) (fun x dst => do
      let a ← readVec src (y * width + 16 * x) 16
      let b ← readVec src (y * width + 16 * x + half) 16
      let a := permute4x64 (fun i => if i < 16 then a i else u i) 0x50
      let b := permute4x64 (fun i => if i < 16 then b i else u i) 0x50
      writeVec dst (y * stride + 32 * x) 32 (unpackloEpi8 a b)) dst).bind fun dst =>
    loop (width % 16) (fun x dst =>
      packWord src (y * width + 16 * (width / 16) + x) half (y * stride + 32 * (width / 16) + 2 * x) dst) dst) dst

/-! ## NEON -/

/-- The NEON version of unpacking, utilities_simd.cpp:242-272 (`vld2_u8` de-interleaves 16 bytes). -/
def unpackNeon (src : Buf) (wordCount stride lineCount : Nat) (dst : Buf) : Option Buf :=
  let half := (wordCount * 2 * lineCount) / 2
  loop lineCount (fun y dst =>
    (loop (wordCount / 8) (fun i dst => do
      let d ← readVec src (y * stride + 16 * i) 16
      let dst ← writeVec dst (y * wordCount + 8 * i) 8 (fun j => d (2 * j))
      writeVec dst (y * wordCount + 8 * i + half) 8 (fun j => d (2 * j + 1))) dst).bind fun dst =>
    loop (wordCount % 8) (fun i dst =>
      unpackWord src (y * stride + 16 * (wordCount / 8) + 2 * i) half (y * wordCount + 8 * (wordCount / 8) + i) dst) dst) dst

/-- The NEON version of packing, utilities_simd.cpp:274-306 (`vst2_u8` interleaves). -/
def packNeon (src : Buf) (sizeSrc width height stride : Nat) (dst : Buf) : Option Buf :=
  let half := sizeSrc / 2
  loop height (fun y dst =>
    (loop (width / 8) (fun x dst => do
      let a ← readVec src (y * width + 8 * x) 8
      let b ← readVec src (y * width + 8 * x + half) 8
      writeVec dst (y * stride + 16 * x) 16 (fun j => if j % 2 = 0 then a (j / 2) else b (j / 2))) dst).bind fun dst =>
    loop (width % 8) (fun x dst =>
      packWord src (y * width + 8 * (width / 8) + x) half (y * stride + 16 * (width / 8) + 2 * x) dst) dst) dst

end Verif.LoHi
