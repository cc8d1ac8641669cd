import Verif.Model.Jxr

/-!
# Creating bitmaps with the machine's integers (bitmapData.h, CreateBitmap.cpp, decoder_zstd.cpp, decoder.cpp)

The same functions as in Model/Zstd.lean and Model/Jxr.lean, where sizes are natural numbers, with the integer types of the code: widths, heights and strides are
`uint32_t`, sizes `size_t` (64 bit), the default stride is computed with `int`. Width and height of a sub-block are taken from the file (`SubBlockInfo::physicalSize`,
CZIReader.cpp:376-386, CziParse.cpp:338-344: signed numbers converted to `uint32_t`).

Simplifications: allocation succeeds; the memory of a bitmap has exactly the size the bitmap states (up to 31 bytes more are in fact allocated, stdAllocator.cpp:26); a
decompression that fails writes nothing outside of memory.
-/

namespace Verif.Sized
open Verif Verif.Czi Verif.Blit Verif.Bitonal Verif.Flt Verif.Fill Verif.Zstd Verif.Jxr

/-- The conversion of a `uint32_t` to `int`. -/
def toInt (n : Nat) : Int := if n % 2 ^ 32 < 2 ^ 31 then (n % 2 ^ 32 : Nat) else (n % 2 ^ 32 : Nat) - 2 ^ 32

/-- Whether the result of an operation on `int` can be represented; otherwise its behaviour is undefined. -/
def fits (i : Int) : Bool := -2 ^ 31 ≤ i && i < 2 ^ 31

/-- `CalcDefaultPitch`, bitmapData.h:124-129: everything is computed with `int`, the result is converted to `uint32_t`. `none` = overflow (undefined). -/
def calcPitch (bpp w : Nat) : Option Nat :=
  let s := (bpp : Int) * toInt w
  if fits s && fits (s + 3) then some (((s + 3).tdiv 4 * 4) % 2 ^ 32).toNat else none

/-- `CBitmapData::Create`, bitmapData.h:148-157 with the constructor, lines 97-108 (no extra rows and columns): the parameter `pitch` is a `uint32_t`. -/
def create (fresh : Nat → UInt8) (bpp w h pitch : Nat) : Option Bitmap :=
  if pitch % 2 ^ 32 = 0 then (calcPitch bpp w).map (newBitmap fresh w h)
  else some (newBitmap fresh w h (pitch % 2 ^ 32))

/-- `ZSTD_decompress` into the memory of a bitmap, with the checks of `DecompressAndThrowIfError`, decoder_zstd.cpp:97-116 (and 222-229). The library is told that the
memory has `cap` bytes. -/
def decompressInto (c : Codec) (d : List UInt8) (b : Buf) (cap expected : Nat) : Res (Buf × Nat) :=
  match c.decompress d with
  | none => some (.error .runtimeError)
  | some l =>
    if l.length > cap then some (.error .runtimeError)
    else if l.length > b.size then none
    else if l.length ≠ expected then some (.error .runtimeError)
    else some (.ok (store b l, l.length))

/-- `height * stride`, computed with `size_t`. -/
def sizeOf (h stride : Nat) : Nat := h * stride % 2 ^ 64

/-- `DecodeRequireCorrectSize`, decoder_zstd.cpp:130-150. -/
def decodeExact (c : Codec) (fresh : Nat → UInt8) (d : List UInt8) (bpp w h : Nat) : Res Bitmap :=
  let stride := w * bpp
  let expected := sizeOf h stride
  match c.contentSize d with
  | none => some (.error .runtimeError)
  | some n =>
    if n ≠ expected then some (.error .runtimeError) else
    match create fresh bpp w h stride with
    | none => none
    | some bm =>
      match decompressInto c d bm.buf expected n with
      | none => none
      | some (.error e) => some (.error e)
      | some (.ok (b, _)) => some (.ok { bm with buf := b })

/-- `DecodeAndHandleSizeMismatch`, decoder_zstd.cpp:209-259. -/
def decodeMismatch (c : Codec) (fresh : Nat → UInt8) (d : List UInt8) (bpp w h : Nat) : Res Bitmap :=
  let stride := w * bpp
  let expected := sizeOf h stride
  match c.contentSize d with
  | none => some (.error .runtimeError)
  | some n =>
    match create fresh bpp w h stride with
    | none => none
    | some bm =>
      if n ≤ expected then
        match decompressInto c d bm.buf expected n with
        | none => none
        | some (.error e) => some (.error e)
        | some (.ok (b, m)) => (b.memset m 0 (expected - m)).map fun b => .ok { bm with buf := b }
      else
        match decompressOrThrow c d n n with
        | .error e => some (.error e)
        | .ok l => (bm.buf.memcpy 0 (Buf.ofList l) 0 expected).map fun b => .ok { bm with buf := b }

/-- `CheckLoHiBytePackArgumentsAndThrow`, utilities.cpp:516-541, for `uint32_t` width, height and stride; the first product is computed with `size_t`. -/
def checkPack (sizeSrc width height stride : Nat) : Bool :=
  !(sizeSrc < width * height * 2 % 2 ^ 64) && !(stride < (width * 2) % 2 ^ 32)

/-- `LoHiBytePackStrided`, utilities.cpp:586-590: width, height and stride are converted to `uint32_t`. -/
def packStrided (src : Buf) (sizeSrc width height stride : Nat) (dst : Buf) : Res Buf :=
  let width := width % 2 ^ 32
  let stride := stride % 2 ^ 32
  if !checkPack sizeSrc width height stride then some (.error .invalidArgument)
  else (LoHi.packC src sizeSrc width height stride dst).map .ok

/-- `DecodeAndHiLoBytePackRequireCorrectSize`, decoder_zstd.cpp:164-193; `width * bytes_per_pel` is computed with `uint32_t`. -/
def decodePackExact (c : Codec) (fresh : Nat → UInt8) (d : List UInt8) (bpp w h : Nat) : Res Bitmap :=
  let stride := w * bpp
  let expected := sizeOf h stride
  match c.contentSize d with
  | none => some (.error .runtimeError)
  | some n =>
    if n ≠ expected then some (.error .runtimeError) else
    match decompressOrThrow c d expected n with
    | .error e => some (.error e)
    | .ok l =>
      match create fresh bpp w h 0 with
      | none => none
      | some bm =>
        (packStrided (Buf.ofList l) l.length (w * bpp % 2 ^ 32 / 2) h bm.stride bm.buf).map fun r => r.map fun b => { bm with buf := b }

/-- `DecodeAndHiLoBytePackAndHandleSizeMismatch`, decoder_zstd.cpp:275-344. -/
def decodePackMismatch (c : Codec) (fresh : Nat → UInt8) (d : List UInt8) (bpp w h : Nat) : Res Bitmap :=
  let stride := w * bpp
  let expected := sizeOf h stride
  match c.contentSize d with
  | none => some (.error .runtimeError)
  | some n =>
    match decompressOrThrow c d n n with
    | .error e => some (.error e)
    | .ok l =>
      if n = expected then
        match create fresh bpp w h 0 with
        | none => none
        | some bm => (packStrided (Buf.ofList l) n (stride / bpp) h bm.stride bm.buf).map fun r => r.map fun b => { bm with buf := b }
      else if n < expected then
        match create fresh bpp w h stride with
        | none => none
        | some bm =>
          match packStrided (Buf.ofList l) n (l.length / bpp) 1 n bm.buf with
          | none => none
          | some (.error e) => some (.error e)
          | some (.ok b) => (b.memset l.length 0 (expected - l.length)).map fun b => .ok { bm with buf := b }
      else
        match packStrided (Buf.ofList l) n (l.length / bpp) 1 n ⟨n, fresh⟩ with
        | none => none
        | some (.error e) => some (.error e)
        | some (.ok t) =>
          match create fresh bpp w h stride with
          | none => none
          | some bm => (bm.buf.memcpy 0 t 0 expected).map fun b => .ok { bm with buf := b }

/-- `CZstd0Decoder::Decode`, decoder_zstd.cpp:407-418. -/
def decode0 (c : Codec) (fresh : Nat → UInt8) (d : List UInt8) (pt : PixelType) (w h : Nat) (handleMismatch : Bool) : Res Bitmap :=
  match bytesPerPel pt with
  | none => some (.error .invalidArgument)
  | some bpp => if handleMismatch then decodeMismatch c fresh d bpp w h else decodeExact c fresh d bpp w h

/-- `CZstd1Decoder::Decode`, decoder_zstd.cpp:427-482. -/
def decode1 (c : Codec) (fresh : Nat → UInt8) (d : List UInt8) (pt : PixelType) (w h : Nat) (handleMismatch : Bool) : Res Bitmap :=
  match parseHeader d with
  | none => none
  | some (hs, packing) =>
    if hs = 0 then some (.error .runtimeError)
    else if d.length ≤ hs then some (.error .runtimeError)
    else if packing = true ∧ pt ≠ .Gray16 ∧ pt ≠ .Bgr48 then some (.error .runtimeError)
    else
      match bytesPerPel pt with
      | none => some (.error .invalidArgument)
      | some bpp =>
        let z := d.drop hs
        if handleMismatch then
          if packing then decodePackMismatch c fresh z bpp w h else decodeMismatch c fresh z bpp w h
        else
          if packing then decodePackExact c fresh z bpp w h else decodeExact c fresh z bpp w h

/-- The loop that copies and fills up the lines, CreateBitmap.cpp:142-162. -/
def copyLines (d : List UInt8) (stride : Nat) (bm : Bitmap) : Option (Buf × Nat) :=
  loop bm.h (fun y (s : Buf × Nat) =>
    if s.2 > 0 then
      let n := min s.2 stride
      (s.1.memcpy (y * bm.stride) (Buf.ofList d) (y * stride) n).bind fun b =>
      if s.2 - n = 0 then (b.memset (y * bm.stride + n) 0 (stride - n)).map fun b => (b, s.2 - n)
      else some (b, s.2 - n)
    else (s.1.memset (y * bm.stride) 0 stride).map fun b => (b, 0)) (bm.buf, d.length)

/-- `CreateBitmapFromSubBlock_Uncompressed`, CreateBitmap.cpp:102-173 (little-endian host); the stride is computed with `uint32_t`. -/
def uncompressed (fresh : Nat → UInt8) (d : List UInt8) (pt : PixelType) (w h : Nat) (handleMismatch : Bool) : Res Bitmap :=
  match bytesPerPel pt with
  | none => some (.error .invalidArgument)
  | some bpp =>
    let stride := w * bpp % 2 ^ 32
    let expected := stride * h
    if expected ≤ d.length then some (.ok ⟨w, h, stride, ⟨expected, (Buf.ofList d).get⟩⟩)
    else if !handleMismatch then some (.error .logicError)
    else
      match create fresh bpp w h 0 with
      | none => none
      | some bm => (copyLines d stride bm).map fun s => .ok { bm with buf := s.1 }

/-- `CJxrLibDecoder::Decode`, decoder.cpp:41-116. -/
def decodeJxr (lib : Lib) (fresh : Nat → UInt8) (d : List UInt8) (e : Expected) : Result Typed :=
  match lib.header d with
  | none => .throws
  | some (f, w, h) =>
    if e.meets f w h = false then .throws
    else
      match create fresh (formatBytes f) w h 0 with
      | none => .undefined
      | some bm =>
        match lib.pixels d with
        | none => destroy (1 - 1) .throws
        | some px =>
          match writePixels (formatBytes f) px bm with
          | none => .undefined
          | some b =>
            let bm := { bm with buf := b }
            if f = .bgr48 then
              match swapChannels bm with
              | none => .undefined
              | some b => .ok ⟨typeOf f, { bm with buf := b }⟩
            else .ok ⟨typeOf f, bm⟩

/-- `CreateBitmapFromSubBlock_JpgXr`, CreateBitmap.cpp:16-68. -/
def createJxr (lib : Lib) (enc : Fl → Nat → UInt8) (fresh fresh2 : Nat → UInt8) (d : List UInt8) (pt : PixelType) (w h : Nat)
    (handleMismatch : Bool) : Result Typed :=
  if handleMismatch = false then decodeJxr lib fresh d ⟨some pt, some w, some h⟩
  else
    match decodeJxr lib fresh d ⟨none, none, none⟩ with
    | .throws => .throws
    | .aborts => .aborts
    | .undefined => .undefined
    | .ok t =>
      if t.bm.w = w ∧ t.bm.h = h ∧ t.pt = pt then .ok t
      else
        match bytesPerPel pt with
        | none => .throws
        | some bpp =>
          match create fresh2 bpp w h 0 with
          | none => .undefined
          | some bm =>
            match fill enc pt bm ⟨.num 0, .num 0, .num 0⟩ with
            | .throws => .throws
            | .undefined => .undefined
            | .ok adjusted =>
              match copyAt (fun q => enc (.num q)) t.pt pt t.bm adjusted none 0 0 with
              | .undefined => .undefined
              | .throws => destroy 1 (destroy 1 .throws)
              | .ok b => destroy (1 - 1) (.ok ⟨pt, b⟩)

/-- `CreateBitmapFromSubBlock`, CreateBitmap.cpp:70-101 and 175-190. -/
def createBitmap (lib : Lib) (zstd : Codec) (enc : Fl → Nat → UInt8) (fresh fresh2 : Nat → UInt8) (mode : CompressionMode) (d : List UInt8)
    (pt : PixelType) (w h : Nat) (options : Option Options) : Result Typed :=
  let o := options.getD ⟨true, true, true⟩
  let typed := fun (r : Result Bitmap) => match r with
    | .ok b => Result.ok ⟨pt, b⟩ | .throws => .throws | .aborts => .aborts | .undefined => .undefined
  match mode with
  | .JpgXr => createJxr lib enc fresh fresh2 d pt w h o.jxr
  | .Zstd0 => typed (ofRes (decode0 zstd fresh d pt w h o.zstd))
  | .Zstd1 => typed (ofRes (decode1 zstd fresh d pt w h o.zstd))
  | .UnCompressed => typed (ofRes (uncompressed fresh d pt w h o.uncompressed))
  | _ => .throws

end Verif.Sized
