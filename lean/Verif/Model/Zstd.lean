import Verif.Model.LoHi
import Verif.Model.Blit
import Verif.Model.Enum

/-!
# Zstd compression and decoding of bitmaps (zstdCompress.cpp, decoder_zstd.cpp, CreateBitmap.cpp)

The zstd library is a parameter. Newly allocated memory has arbitrary contents: parameter `fresh`.
Results are `none` for undefined behaviour, `some (.error ..)` for an exception and `some (.ok ..)` otherwise. Failing allocation
is not modelled. 32/64-bit wrap-around of size computations is not modelled except where noted.
-/

namespace Verif.Zstd
open Verif Verif.Blit

/-- The zstd library as used: `ZSTD_compress`, `ZSTD_getFrameContentSize` (`none` = error or unknown), `ZSTD_decompress`
(`none` = error). -/
structure Codec where
  compress : List UInt8 → List UInt8
  contentSize : List UInt8 → Option Nat
  decompress : List UInt8 → Option (List UInt8)

/-- The exceptions. -/
inductive Err where
  | invalidArgument | runtimeError | logicError
  deriving DecidableEq, Repr

/-- Result of an operation: undefined behaviour, exception, or value. -/
abbrev Res (α : Type) := Option (Except Err α)

/-- `CalcDefaultPitch`, bitmapData.h:124-129. -/
def defaultPitch (bpp w : Nat) : Nat := (bpp * w + 3) / 4 * 4

/-- `CStdBitmapData::Create`, bitmapData.h:97-108 and 148-157: the contents of the new memory are arbitrary. -/
def newBitmap (fresh : Nat → UInt8) (w h stride : Nat) : Bitmap := ⟨w, h, stride, ⟨h * stride, fresh⟩⟩

/-- `CompressZstd`, zstdCompress.cpp:49-72 and 74-88 (compression levels are not modelled): `none` = `false` is
returned because the destination is too small. -/
def compressZstd (c : Codec) (src : List UInt8) (sizeDestination : Nat) : Res (Option (List UInt8)) :=
  if src.length = 0 ∨ sizeDestination = 0 then some (.error .invalidArgument)
  else if (c.compress src).length ≤ sizeDestination then some (.ok (some (c.compress src))) else some (.ok none)

/-- `CheckSourceBitmapArgumentsAndThrow`, zstdCompress.cpp:90-115. -/
def checkSource (w h stride : Nat) (bpp : Nat) : Option Err :=
  if w = 0 then some .invalidArgument else if h = 0 then some .invalidArgument
  else if stride < w * bpp then some .invalidArgument else none

/-- Whether `CBitmapOperations::Copy` supports copying this pixel type to itself, BitmapOperations.cpp:63-173. -/
def copySupported : PixelType → Bool
  | .Gray8 | .Gray16 | .Gray32Float | .Bgr24 | .Bgr48 => true
  | _ => false

/-- The source with minimal stride: used directly or copied to a temporary buffer,
zstdCompress.cpp:178-203 and 274-297. -/
def tightSource (pt : PixelType) (bpp : Nat) (fresh : Nat → UInt8) (w h stride : Nat) (src : Buf) : Res (List UInt8) :=
  if stride = w * bpp then
    if w * bpp * h ≤ src.size then some (.ok ((List.range (w * bpp * h)).map src.get)) else none
  else if copySupported pt then
    (copySamePixelType bpp src 0 stride ⟨w * bpp * h, fresh⟩ 0 (w * bpp) w h false).map fun b => .ok b.toList
  else some (.error .logicError)

/-- `ZstdCompress::CompressZStd0`, zstdCompress.cpp:164-204. -/
def compress0 (c : Codec) (fresh : Nat → UInt8) (w h stride : Nat) (pt : PixelType) (src : Buf) (sizeDestination : Nat) :
    Res (Option (List UInt8)) :=
  match bytesPerPel pt with
  | none => some (.error .invalidArgument)
  | some bpp =>
    match checkSource w h stride bpp with
    | some e => some (.error e)
    | none =>
      if sizeDestination < 1 then some (.error .invalidArgument) else
      match tightSource pt bpp fresh w h stride src with
      | none => none
      | some (.error e) => some (.error e)
      | some (.ok l) => compressZstd c l sizeDestination

/-- `ZstdCompress::CompressZStd1`, zstdCompress.cpp:236-364; `packing` is the value of the parameter
`ZSTD_PREPROCESS_DOLOHIBYTEPACKING` (false if absent). -/
def compress1 (c : Codec) (fresh : Nat → UInt8) (w h stride : Nat) (pt : PixelType) (packing : Bool) (src : Buf)
    (sizeDestination : Nat) : Res (Option (List UInt8)) :=
  match bytesPerPel pt with
  | none => some (.error .invalidArgument)
  | some bpp =>
    match checkSource w h stride bpp with
    | some e => some (.error e)
    | none =>
      if sizeDestination < 4 then some (.error .invalidArgument) else
      let doPacking := packing && (pt == .Bgr48 || pt == .Gray16)
      let body : Res (List UInt8) :=
        if doPacking then
          if !LoHi.checkUnpack (w * bpp / 2) stride then some (.error .invalidArgument)
          else (LoHi.unpackC src (w * bpp / 2) stride h ⟨w * bpp * h, fresh⟩).map fun b => .ok b.toList
        else tightSource pt bpp fresh w h stride src
      match body with
      | none => none
      | some (.error e) => some (.error e)
      | some (.ok l) =>
        match compressZstd c l (sizeDestination - 3) with
        | none => none
        | some (.error e) => some (.error e)
        | some (.ok none) => some (.ok none)
        | some (.ok (some z)) => some (.ok (some (0x03 :: 0x01 :: (if doPacking then 0x01 else 0x00) :: z)))

/-- `ParseZStd1Header`, decoder_zstd.cpp:355-397: `none` = read outside of the data (undefined behaviour), otherwise (header
size or 0, flag). -/
def parseHeader (d : List UInt8) : Option (Nat × Bool) :=
  match d[0]? with
  | none => some (0, false)
  | some b0 =>
    if b0 = 1 then some (1, false)
    else if b0 = 3 ∧ d.length < 3 then some (0, false)
    else match d[1]? with
      | none => none
      | some b1 =>
        if b1 = 1 then
          match d[2]? with
          | none => none
          | some b2 => some (3, b2 &&& 1 == 1)
        else some (0, false)

/-- `DecompressAndThrowIfError`, decoder_zstd.cpp:97-116, with destination capacity `cap`. -/
def decompressOrThrow (c : Codec) (d : List UInt8) (cap expected : Nat) : Except Err (List UInt8) :=
  match c.decompress d with
  | none => .error .runtimeError
  | some l => if l.length > cap then .error .runtimeError else if l.length ≠ expected then .error .runtimeError else .ok l

/-- Put `l` at the start of the buffer (the effect of `ZSTD_decompress` on its destination). -/
def store (b : Buf) (l : List UInt8) : Buf := { b with get := fun i => if i < l.length then l.getD i 0 else b.get i }

/-- `DecodeRequireCorrectSize`, decoder_zstd.cpp:130-150. -/
def decodeExact (c : Codec) (fresh : Nat → UInt8) (d : List UInt8) (bpp w h : Nat) : Res Bitmap :=
  let stride := w * bpp
  let expected := h * stride
  match c.contentSize d with
  | none => some (.error .runtimeError)
  | some n =>
    if n ≠ expected then some (.error .runtimeError) else
    let bm := newBitmap fresh w h stride
    match decompressOrThrow c d expected n with
    | .error e => some (.error e)
    | .ok l => some (.ok { bm with buf := store bm.buf l })

/-- `LoHiBytePackUnpack::LoHiBytePackStrided`, utilities.cpp:586-590 (scalar variant). -/
def packStrided (src : Buf) (sizeSrc width height stride : Nat) (dst : Buf) : Res Buf :=
  if !LoHi.checkPack sizeSrc width height stride then some (.error .invalidArgument)
  else (LoHi.packC src sizeSrc width height stride dst).map .ok

/-- `DecodeAndHiLoBytePackRequireCorrectSize`, decoder_zstd.cpp:164-193. -/
def decodePackExact (c : Codec) (fresh : Nat → UInt8) (d : List UInt8) (bpp w h : Nat) : Res Bitmap :=
  let stride := w * bpp
  let expected := h * stride
  match c.contentSize d with
  | none => some (.error .runtimeError)
  | some n =>
    if n ≠ expected then some (.error .runtimeError) else
    match decompressOrThrow c d expected n with
    | .error e => some (.error e)
    | .ok l =>
      let bm := newBitmap fresh w h (defaultPitch bpp w)
      (packStrided (Buf.ofList l) l.length (w * bpp / 2) h bm.stride bm.buf).map fun r => r.map fun b => { bm with buf := b }

/-- `DecodeAndHandleSizeMismatch`, decoder_zstd.cpp:209-259. -/
def decodeMismatch (c : Codec) (fresh : Nat → UInt8) (d : List UInt8) (bpp w h : Nat) : Res Bitmap :=
  let stride := w * bpp
  let expected := h * stride
  match c.contentSize d with
  | none => some (.error .runtimeError)
  | some n =>
    let bm := newBitmap fresh w h stride
    if n ≤ expected then
      match decompressOrThrow c d expected n with
      | .error e => some (.error e)
      | .ok l => ((store bm.buf l).memset l.length 0 (expected - l.length)).map fun b => .ok { bm with buf := b }
    else
      match decompressOrThrow c d n n with
      | .error e => some (.error e)
      | .ok l => (bm.buf.memcpy 0 (Buf.ofList l) 0 expected).map fun b => .ok { bm with buf := b }

/-- `DecodeAndHiLoBytePackAndHandleSizeMismatch`, decoder_zstd.cpp:275-344. Note the word counts `stride / bytes_per_pel` and
`decompressed_size / bytes_per_pel`. -/
def decodePackMismatch (c : Codec) (fresh : Nat → UInt8) (d : List UInt8) (bpp w h : Nat) : Res Bitmap :=
  let stride := w * bpp
  let expected := h * stride
  match c.contentSize d with
  | none => some (.error .runtimeError)
  | some n =>
    match decompressOrThrow c d n n with
    | .error e => some (.error e)
    | .ok l =>
      if n = expected then
        let bm := newBitmap fresh w h (defaultPitch bpp w)
        (packStrided (Buf.ofList l) n (stride / bpp) h bm.stride bm.buf).map fun r => r.map fun b => { bm with buf := b }
      else if n < expected then
        let bm := newBitmap fresh w h stride
        match packStrided (Buf.ofList l) n (l.length / bpp) 1 n bm.buf with
        | none => none
        | some (.error e) => some (.error e)
        | some (.ok b) => (b.memset l.length 0 (expected - l.length)).map fun b => .ok { bm with buf := b }
      else
        match packStrided (Buf.ofList l) n (l.length / bpp) 1 n ⟨n, fresh⟩ with
        | none => none
        | some (.error e) => some (.error e)
        | some (.ok t) =>
          let bm := newBitmap fresh w h stride
          (bm.buf.memcpy 0 t 0 expected).map fun b => .ok { bm with buf := b }

/-- `CZstd0Decoder::Decode`, decoder_zstd.cpp:407-418. -/
def decode0 (c : Codec) (fresh : Nat → UInt8) (d : List UInt8) (pt : PixelType) (w h : Nat) (handleMismatch : Bool) : Res Bitmap :=
  match bytesPerPel pt with
  | none => some (.error .invalidArgument)
  | some bpp => if handleMismatch then decodeMismatch c fresh d bpp w h else decodeExact c fresh d bpp w h

/-- `CZstd1Decoder::Decode`, decoder_zstd.cpp:427-482. -/
def decode1 (c : Codec) (fresh : Nat → UInt8) (d : List UInt8) (pt : PixelType) (w h : Nat) (handleMismatch : Bool) : Res Bitmap :=
  match parseHeader d with
  | none => none
  | some (hs, packing) =>
    if hs = 0 then some (.error .runtimeError)
    else if d.length ≤ hs then some (.error .runtimeError)
    else if packing = true ∧ pt ≠ .Gray16 ∧ pt ≠ .Bgr48 then some (.error .runtimeError)
    else
      match bytesPerPel pt with
      | none => some (.error .invalidArgument)
      | some bpp =>
        let z := d.drop hs
        if handleMismatch then
          if packing then decodePackMismatch c fresh z bpp w h else decodeMismatch c fresh z bpp w h
        else
          if packing then decodePackExact c fresh z bpp w h else decodeExact c fresh z bpp w h

/-- `CreateBitmapFromSubBlock_Uncompressed`, CreateBitmap.cpp:102-173 (little-endian host). If the data are large enough the
bitmap uses them directly. -/
def uncompressed (fresh : Nat → UInt8) (d : List UInt8) (pt : PixelType) (w h : Nat) (handleMismatch : Bool) : Res Bitmap :=
  match bytesPerPel pt with
  | none => some (.error .invalidArgument)
  | some bpp =>
    let stride := w * bpp
    let expected := stride * h
    if expected ≤ d.length then some (.ok ⟨w, h, stride, ⟨expected, (Buf.ofList d).get⟩⟩)
    else if !handleMismatch then some (.error .logicError)
    else
      let bm := newBitmap fresh w h (defaultPitch bpp w)
      (loop h (fun y (s : Buf × Nat) =>
        if s.2 > 0 then
          let n := min s.2 stride
          (s.1.memcpy (y * bm.stride) (Buf.ofList d) (y * stride) n).bind fun b =>
          if s.2 - n = 0 then (b.memset (y * bm.stride + n) 0 (stride - n)).map fun b => (b, s.2 - n)
          else some (b, s.2 - n)
        else (s.1.memset (y * bm.stride) 0 stride).map fun b => (b, 0)) (bm.buf, d.length)).map
          fun s => .ok { bm with buf := s.1 }

/-! ## Decoder options (decoder_zstd.cpp:22-80) -/

/-- `std::isspace` in the "C" locale. -/
def isSpace (c : Char) : Bool := c == ' ' || ('\t' ≤ c && c ≤ '\r')

/-- `ContainsToken`, decoder_zstd.cpp:48-80 with `IsTokenMatch` 22-38, from the position reached: `prev` is the character
before the current one (`none` at the start). `strstr` and the re-start after each candidate are one scan over all positions. -/
def containsTokenFrom (token : List Char) (prev : Option Char) : List Char → Bool
  | [] => false
  | c :: rest =>
    (token.isPrefixOf (c :: rest) &&
      (match prev with | none => true | some b => b == ';' || isSpace b) &&
      (match (c :: rest)[token.length]? with | none => true | some a => a == ';' || isSpace a)) ||
    containsTokenFrom token (some c) rest

/-- `ContainsToken(input, token)` for non-null strings. -/
def containsToken (input token : List Char) : Bool := token != [] && containsTokenFrom token none input

end Verif.Zstd
