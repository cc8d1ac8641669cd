import Verif.Model.Mem
import Verif.Model.Disk

/-!
# The MD5 implementation (`CMd5Sum`)

Words are `UInt32`. Byte counts are natural numbers with the truncations of the code. A read or write outside of a buffer is `none`.
-/

namespace Verif.Md5

open Verif.Czi

/-- The four registers. -/
structure Regs where
  a : UInt32
  b : UInt32
  c : UInt32
  d : UInt32
  deriving DecidableEq

/-- The names of the registers in the code. -/
inductive Reg where
  | a | b | c | d
  deriving DecidableEq

def Regs.get (r : Regs) : Reg → UInt32
  | .a => r.a | .b => r.b | .c => r.c | .d => r.d

def Regs.set (r : Regs) (i : Reg) (v : UInt32) : Regs :=
  match i with
  | .a => { r with a := v } | .b => { r with b := v } | .c => { r with c := v } | .d => { r with d := v }

/-- Which of the macros F, G, H, I is used. -/
inductive Fn where
  | F | G | H | I
  deriving DecidableEq

/-- The macros F, G, H, I, MD5Sum.cpp:116-119. -/
def Fn.eval (f : Fn) (x y z : UInt32) : UInt32 :=
  match f with
  | .F => z ^^^ (x &&& (y ^^^ z))
  | .G => y ^^^ (z &&& (x ^^^ y))
  | .H => x ^^^ y ^^^ z
  | .I => y ^^^ (x ||| ~~~z)

/-- `ROTATE_LEFT`, MD5Sum.cpp:120. -/
def rotateLeft (x s : UInt32) : UInt32 := (x <<< s) ||| (x >>> (32 - s))

/-- One use of the macro `STEP(f, a, b, c, d, x, t, s)`: function, the four registers, index of the word, constant, shift. -/
structure Step where
  f : Fn
  ra : Reg
  rb : Reg
  rc : Reg
  rd : Reg
  n : Nat
  t : UInt32
  s : UInt32
  deriving DecidableEq

/-- `STEP`, MD5Sum.cpp:121-125. -/
def Step.run (word : Nat → UInt32) (r : Regs) (st : Step) : Regs :=
  let r := r.set st.ra (r.get st.ra + (st.f.eval (r.get st.rb) (r.get st.rc) (r.get st.rd) + word st.n + st.t))
  let r := r.set st.ra (rotateLeft (r.get st.ra) st.s)
  r.set st.ra (r.get st.ra + r.get st.rb)

/-- The steps in the code, MD5Sum.cpp:145-211. -/
def steps : List Step :=
  [⟨.F, .a, .b, .c, .d, 0, 0xd76aa478, 7⟩,
   ⟨.F, .d, .a, .b, .c, 1, 0xe8c7b756, 12⟩,
   ⟨.F, .c, .d, .a, .b, 2, 0x242070db, 17⟩,
   ⟨.F, .b, .c, .d, .a, 3, 0xc1bdceee, 22⟩,
   ⟨.F, .a, .b, .c, .d, 4, 0xf57c0faf, 7⟩,
   ⟨.F, .d, .a, .b, .c, 5, 0x4787c62a, 12⟩,
   ⟨.F, .c, .d, .a, .b, 6, 0xa8304613, 17⟩,
   ⟨.F, .b, .c, .d, .a, 7, 0xfd469501, 22⟩,
   ⟨.F, .a, .b, .c, .d, 8, 0x698098d8, 7⟩,
   ⟨.F, .d, .a, .b, .c, 9, 0x8b44f7af, 12⟩,
   ⟨.F, .c, .d, .a, .b, 10, 0xffff5bb1, 17⟩,
   ⟨.F, .b, .c, .d, .a, 11, 0x895cd7be, 22⟩,
   ⟨.F, .a, .b, .c, .d, 12, 0x6b901122, 7⟩,
   ⟨.F, .d, .a, .b, .c, 13, 0xfd987193, 12⟩,
   ⟨.F, .c, .d, .a, .b, 14, 0xa679438e, 17⟩,
   ⟨.F, .b, .c, .d, .a, 15, 0x49b40821, 22⟩,
   ⟨.G, .a, .b, .c, .d, 1, 0xf61e2562, 5⟩,
   ⟨.G, .d, .a, .b, .c, 6, 0xc040b340, 9⟩,
   ⟨.G, .c, .d, .a, .b, 11, 0x265e5a51, 14⟩,
   ⟨.G, .b, .c, .d, .a, 0, 0xe9b6c7aa, 20⟩,
   ⟨.G, .a, .b, .c, .d, 5, 0xd62f105d, 5⟩,
   ⟨.G, .d, .a, .b, .c, 10, 0x02441453, 9⟩,
   ⟨.G, .c, .d, .a, .b, 15, 0xd8a1e681, 14⟩,
   ⟨.G, .b, .c, .d, .a, 4, 0xe7d3fbc8, 20⟩,
   ⟨.G, .a, .b, .c, .d, 9, 0x21e1cde6, 5⟩,
   ⟨.G, .d, .a, .b, .c, 14, 0xc33707d6, 9⟩,
   ⟨.G, .c, .d, .a, .b, 3, 0xf4d50d87, 14⟩,
   ⟨.G, .b, .c, .d, .a, 8, 0x455a14ed, 20⟩,
   ⟨.G, .a, .b, .c, .d, 13, 0xa9e3e905, 5⟩,
   ⟨.G, .d, .a, .b, .c, 2, 0xfcefa3f8, 9⟩,
   ⟨.G, .c, .d, .a, .b, 7, 0x676f02d9, 14⟩,
   ⟨.G, .b, .c, .d, .a, 12, 0x8d2a4c8a, 20⟩,
   ⟨.H, .a, .b, .c, .d, 5, 0xfffa3942, 4⟩,
   ⟨.H, .d, .a, .b, .c, 8, 0x8771f681, 11⟩,
   ⟨.H, .c, .d, .a, .b, 11, 0x6d9d6122, 16⟩,
   ⟨.H, .b, .c, .d, .a, 14, 0xfde5380c, 23⟩,
   ⟨.H, .a, .b, .c, .d, 1, 0xa4beea44, 4⟩,
   ⟨.H, .d, .a, .b, .c, 4, 0x4bdecfa9, 11⟩,
   ⟨.H, .c, .d, .a, .b, 7, 0xf6bb4b60, 16⟩,
   ⟨.H, .b, .c, .d, .a, 10, 0xbebfbc70, 23⟩,
   ⟨.H, .a, .b, .c, .d, 13, 0x289b7ec6, 4⟩,
   ⟨.H, .d, .a, .b, .c, 0, 0xeaa127fa, 11⟩,
   ⟨.H, .c, .d, .a, .b, 3, 0xd4ef3085, 16⟩,
   ⟨.H, .b, .c, .d, .a, 6, 0x04881d05, 23⟩,
   ⟨.H, .a, .b, .c, .d, 9, 0xd9d4d039, 4⟩,
   ⟨.H, .d, .a, .b, .c, 12, 0xe6db99e5, 11⟩,
   ⟨.H, .c, .d, .a, .b, 15, 0x1fa27cf8, 16⟩,
   ⟨.H, .b, .c, .d, .a, 2, 0xc4ac5665, 23⟩,
   ⟨.I, .a, .b, .c, .d, 0, 0xf4292244, 6⟩,
   ⟨.I, .d, .a, .b, .c, 7, 0x432aff97, 10⟩,
   ⟨.I, .c, .d, .a, .b, 14, 0xab9423a7, 15⟩,
   ⟨.I, .b, .c, .d, .a, 5, 0xfc93a039, 21⟩,
   ⟨.I, .a, .b, .c, .d, 12, 0x655b59c3, 6⟩,
   ⟨.I, .d, .a, .b, .c, 3, 0x8f0ccc92, 10⟩,
   ⟨.I, .c, .d, .a, .b, 10, 0xffeff47d, 15⟩,
   ⟨.I, .b, .c, .d, .a, 1, 0x85845dd1, 21⟩,
   ⟨.I, .a, .b, .c, .d, 8, 0x6fa87e4f, 6⟩,
   ⟨.I, .d, .a, .b, .c, 15, 0xfe2ce6e0, 10⟩,
   ⟨.I, .c, .d, .a, .b, 6, 0xa3014314, 15⟩,
   ⟨.I, .b, .c, .d, .a, 13, 0x4e0811a1, 21⟩,
   ⟨.I, .a, .b, .c, .d, 4, 0xf7537e82, 6⟩,
   ⟨.I, .d, .a, .b, .c, 11, 0xbd3af235, 10⟩,
   ⟨.I, .c, .d, .a, .b, 2, 0x2ad7d2bb, 15⟩,
   ⟨.I, .b, .c, .d, .a, 9, 0xeb86d391, 21⟩]

/-- `SET`, MD5Sum.cpp:127-131: the word `n` of the block at `ptr`. (The words are stored in `ctx->block` in the first round and taken from
there afterwards; here they are computed each time.) -/
def word (blk : List UInt8) (n : Nat) : UInt32 :=
  ((blk.getD (n * 4 + 0) 0).toUInt32 <<< 0) ||| ((blk.getD (n * 4 + 1) 0).toUInt32 <<< 8) |||
  ((blk.getD (n * 4 + 2) 0).toUInt32 <<< 16) ||| ((blk.getD (n * 4 + 3) 0).toUInt32 <<< 24)

/-- One iteration of the loop of `md5_transform`, MD5Sum.cpp:138-218. -/
def transformBlock (r : Regs) (blk : List UInt8) : Regs :=
  let r' := steps.foldl (Step.run (word blk)) r
  ⟨r'.a + r.a, r'.b + r.b, r'.c + r.c, r'.d + r.d⟩

/-- `CMd5Sum::md5_transform`, MD5Sum.cpp:111-236: the registers and the data after the pointer returned. The loop is a `do … while (size -= 64)`
with a 64-bit counter, so it is left only if `size` is exactly 64 at the end of an iteration. -/
def transform (r : Regs) (data : List UInt8) (size : Nat) : Option (Regs × List UInt8) :=
  if h : 64 ≤ data.length then
    let r' := transformBlock r (data.take 64)
    let size' := (size + (2 ^ 64 - 64)) % 2 ^ 64
    if size' = 0 then some (r', data.drop 64) else transform r' (data.drop 64) size'
  else none
termination_by data.length
decreasing_by simp; omega

/-- `md5_context`, MD5Sum.h: `input` has 64 bytes. -/
structure Ctx where
  regs : Regs
  count0 : Nat
  count1 : Nat
  input : List UInt8

/-- `CMd5Sum::CMd5Sum`, MD5Sum.cpp:12-20; the contents of `input` are not initialised (here: given). -/
def Ctx.init (garbage : List UInt8) : Ctx := ⟨⟨0x67452301, 0xefcdab89, 0x98badcfe, 0x10325476⟩, 0, 0, garbage⟩

/-- `memcpy(&input[pos], src, …)` of the bytes `src` into a buffer of 64 bytes. -/
def overlay (l : List UInt8) (pos : Nat) (src : List UInt8) : Option (List UInt8) :=
  if pos + src.length ≤ 64 then some (l.take pos ++ src ++ l.drop (pos + src.length)) else none

/-- The last part of `update`, MD5Sum.cpp:51-57. The mask `~static_cast<uint32_t>(0x3f)` is a 32-bit value, so the size passed is
that of the buffer modulo 2^32. -/
def updateTail (c : Ctx) (data : List UInt8) : Option Ctx :=
  if data.length ≥ 64 then do
    let (r, rest) ← transform c.regs data (data.length % 2 ^ 32 / 64 * 64)
    let inp ← (if data.length % 64 ≤ rest.length then overlay c.input 0 (rest.take (data.length % 64)) else none : Option (List UInt8))
    return { c with regs := r, input := inp }
  else do
    let inp ← overlay c.input 0 data
    return { c with input := inp }

/-- `CMd5Sum::update`, MD5Sum.cpp:22-58. -/
def update (c : Ctx) (data : List UInt8) : Option Ctx :=
  let low := c.count0
  let count0 := (low + data.length) % 2 ^ 29
  let count1 := (if count0 < low then c.count1 + 1 else c.count1) % 2 ^ 32
  let count1 := (count1 + data.length / 2 ^ 29) % 2 ^ 32
  let c := { c with count0 := count0, count1 := count1 }
  let used := low % 64
  if used ≠ 0 then
    let free := 64 - used
    if data.length < free then do
      let inp ← overlay c.input used data
      return { c with input := inp }
    else do
      let inp ← overlay c.input used (data.take free)
      let (r, _) ← transform c.regs inp 64
      updateTail { c with regs := r, input := inp } (data.drop free)
  else updateTail c data

/-- The little-endian bytes of a word, MD5Sum.cpp:76-103. -/
def wordBytes (w : UInt32) : List UInt8 := [w.toUInt8, (w >>> 8).toUInt8, (w >>> 16).toUInt8, (w >>> 24).toUInt8]

/-- `CMd5Sum::complete` and `getHash`, MD5Sum.cpp:60-109. -/
def complete (c : Ctx) : Option (List UInt8) := do
  let used := c.count0 % 64
  let inp ← overlay c.input used [0x80]
  let used := used + 1
  let free := 64 - used
  let (regs, inp, used, free) ← (if free < 8 then do
      let inp ← overlay inp used (zeros free)
      let (r, _) ← transform c.regs inp 64
      some (r, inp, 0, 64)
    else some (c.regs, inp, used, free) : Option (Regs × List UInt8 × Nat × Nat))
  let inp ← overlay inp used (zeros (free - 8))
  let inp ← overlay inp 56 (wordBytes (UInt32.ofNat (c.count0 * 8)))
  let inp ← overlay inp 60 (wordBytes (UInt32.ofNat c.count1))
  let (r, _) ← transform regs inp 64
  return wordBytes r.a ++ wordBytes r.b ++ wordBytes r.c ++ wordBytes r.d

/-- Hashing a sequence of pieces: `update` for each, then `complete`. -/
def hashPieces (garbage : List UInt8) (pieces : List (List UInt8)) : Option (List UInt8) :=
  (pieces.foldlM update (Ctx.init garbage)).bind complete

/-- `CBitmapOperations::CalcMd5Sum` (little-endian host), BitmapOperations.cpp:17-59, for a bitmap of `height` rows of `width` pixels of
`bpp` bytes, starting at `off` of a buffer, with the given stride. Row reads outside of the buffer are `none`. -/
def hashBitmap (garbage : List UInt8) (buf : Buf) (off stride width bpp height : Nat) : Option (List UInt8) := do
  let rows ← (List.range height).mapM (fun y =>
    if off + y * stride + width * bpp ≤ buf.size then
      some ((List.range (width * bpp)).map (fun i => buf.get (off + y * stride + i)))
    else none)
  hashPieces garbage rows

end Verif.Md5
