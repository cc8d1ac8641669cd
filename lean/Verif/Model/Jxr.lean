import Verif.Model.Fill
import Verif.Model.Zstd

/-!
# JPEG-XR bitmaps and the creation of bitmaps from sub-blocks (CreateBitmap.cpp, decoder.cpp, jxrlibcompress.cpp)

The library jxrlib is a parameter. The bitmaps' lock counts are modelled: a bitmap that is destroyed while it is locked terminates the
process. Newly allocated memory has arbitrary contents. Failing allocation is not modelled. Sizes are natural numbers.
-/

namespace Verif.Jxr
open Verif.Czi Verif.Blit Verif.Bitonal Verif.Flt Verif.Fill Verif.Zstd

/-- `JxrDecode::PixelFormat`, JxrDecode.h. -/
inductive Format where
  | bgr24 | gray8 | bgr48 | gray16 | gray32Float
  deriving DecidableEq

/-- The library jxrlib as used by `JxrDecode`. -/
structure Lib where
  /-- `JxrDecode::Decode`, JxrDecode.cpp:96-181, up to the request for the destination: format and size of the image; `none` = exception. -/
  header : List UInt8 → Option (Format × Nat × Nat)
  /-- `PKImageDecode::Copy`, JxrDecode.cpp:183-193: the bytes of the pixels; `none` = exception. -/
  pixels : List UInt8 → Option (Nat → Nat → Nat → UInt8)
  /-- The call sequence of `JxrDecode::Encode`, JxrDecode.cpp:234-338, for format, width, height, quality and pixels; `none` = exception. -/
  encode : Format → Nat → Nat → ℚ → (Nat → Nat → Nat → UInt8) → Option (List UInt8)

/-- The result of a call: a value, an exception, termination of the process, or undefined behaviour. -/
inductive Result (α : Type) where
  | ok (a : α)
  | throws
  | aborts
  | undefined

/-- A result of a model without termination. -/
def ofOutcome {α : Type} : Outcome α → Result α
  | .ok a => .ok a
  | .throws => .throws
  | .undefined => .undefined

/-- A result of the models of Zstd.lean. -/
def ofRes {α : Type} : Res α → Result α
  | none => .undefined
  | some (.error _) => .throws
  | some (.ok a) => .ok a

/-- `~CBitmapData`, bitmapData.h:74-91, with `TerminateProgram`, libCZI_Site.cpp:50-56: what happens to the result `r` when a bitmap with
this lock count is destroyed. -/
def destroy {α : Type} (lockCount : Nat) (r : Result α) : Result α := if lockCount = 0 then r else .aborts

/-- A bitmap with its pixel type. -/
structure Typed where
  pt : PixelType
  bm : Bitmap

/-- `PixelTypeFromJxrPixelFormat`, decoder.cpp:17-34. -/
def typeOf : Format → PixelType
  | .bgr24 => .Bgr24 | .gray8 => .Gray8 | .bgr48 => .Bgr48 | .gray16 => .Gray16 | .gray32Float => .Gray32Float

/-- `JxrDecode::GetBytesPerPel`, JxrDecode.cpp:402-419, and `CziUtils::GetBytesPerPel`. -/
def formatBytes : Format → Nat
  | .bgr24 => 3 | .gray8 => 1 | .bgr48 => 6 | .gray16 => 2 | .gray32Float => 4

/-- The decoder writes the pixels row by row. -/
def writePixels (bpp : Nat) (px : Nat → Nat → Nat → UInt8) (bm : Bitmap) : Option Buf :=
  loop bm.h (fun y b => loop bm.w (fun x b => loop bpp (fun j b => b.write (y * bm.stride + x * bpp + j) (px x y j)) b) b) bm.buf

/-- `std::swap(ptrLine[0], ptrLine[2])` for the 16-bit values at offset `o`. -/
def swapPixel (o : Nat) (b : Buf) : Option Buf := do
  let a0 ← b.read o
  let a1 ← b.read (o + 1)
  let c0 ← b.read (o + 4)
  let c1 ← b.read (o + 5)
  let b ← b.write o c0
  let b ← b.write (o + 1) c1
  let b ← b.write (o + 4) a0
  b.write (o + 5) a1

/-- `CBitmapOperations::RGB48ToBGR48`, BitmapOperations.cpp:358-369. -/
def swapChannels (bm : Bitmap) : Option Buf :=
  loop bm.h (fun y b => loop bm.w (fun x b => swapPixel (y * bm.stride + x * 6) b) b) bm.buf

/-- What the caller expects (null pointers: nothing). -/
structure Expected where
  pt : Option PixelType
  w : Option Nat
  h : Option Nat

/-- The checks of the callback, decoder.cpp:54-79. -/
def Expected.meets (e : Expected) (f : Format) (w h : Nat) : Bool :=
  (match e.pt with | none => true | some p => decide (typeOf f = p)) &&
  (match e.w with | none => true | some v => decide (w = v)) &&
  (match e.h with | none => true | some v => decide (h = v))

/-- `CJxrLibDecoder::Decode`, decoder.cpp:41-116. -/
def decode (lib : Lib) (fresh : Nat → UInt8) (d : List UInt8) (e : Expected) : Result Typed :=
  match lib.header d with
  | none => .throws
  | some (f, w, h) =>
    if e.meets f w h = false then .throws
    else
      let bm := newBitmap fresh w h (defaultPitch (formatBytes f) w)
      -- bitmap->Lock(): the lock count is 1
      match lib.pixels d with
      | none => destroy (1 - 1) .throws
      | some px =>
        match writePixels (formatBytes f) px bm with
        | none => .undefined
        | some b =>
          let bm := { bm with buf := b }
          if f = .bgr48 then
            match swapChannels bm with
            | none => .undefined
            | some b => .ok ⟨typeOf f, { bm with buf := b }⟩
          else .ok ⟨typeOf f, bm⟩

/-- `CreateBitmapFromSubBlock_JpgXr`, CreateBitmap.cpp:16-68, for a sub-block of the declared pixel type, width and height. -/
def createJxr (lib : Lib) (enc : Fl → Nat → UInt8) (fresh fresh2 : Nat → UInt8) (d : List UInt8) (pt : PixelType) (w h : Nat)
    (handleMismatch : Bool) : Result Typed :=
  if handleMismatch = false then decode lib fresh d ⟨some pt, some w, some h⟩
  else
    match decode lib fresh d ⟨none, none, none⟩ with
    | .throws => .throws
    | .aborts => .aborts
    | .undefined => .undefined
    | .ok t =>
      if t.bm.w = w ∧ t.bm.h = h ∧ t.pt = pt then .ok t
      else
        match bytesPerPel pt with
        | none => .throws
        | some bpp =>
          match fill enc pt (newBitmap fresh2 w h (defaultPitch bpp w)) ⟨.num 0, .num 0, .num 0⟩ with
          | .throws => .throws
          | .undefined => .undefined
          | .ok adjusted =>
            -- both bitmaps are locked here
            match copyAt (fun q => enc (.num q)) t.pt pt t.bm adjusted none 0 0 with
            | .undefined => .undefined
            | .throws => destroy 1 (destroy 1 .throws)
            | .ok b => destroy (1 - 1) (.ok ⟨pt, b⟩)

/-- `CreateBitmapOptions`, libCZI.h (null: all on). -/
structure Options where
  jxr : Bool
  zstd : Bool
  uncompressed : Bool

/-- `CreateBitmapFromSubBlock`, CreateBitmap.cpp:70-101 and 175-190. -/
def createBitmap (lib : Lib) (zstd : Codec) (enc : Fl → Nat → UInt8) (fresh fresh2 : Nat → UInt8) (mode : CompressionMode) (d : List UInt8)
    (pt : PixelType) (w h : Nat) (options : Option Options) : Result Typed :=
  let o := options.getD ⟨true, true, true⟩
  let typed := fun (r : Result Bitmap) => match r with
    | .ok b => Result.ok ⟨pt, b⟩ | .throws => .throws | .aborts => .aborts | .undefined => .undefined
  match mode with
  | .JpgXr => createJxr lib enc fresh fresh2 d pt w h o.jxr
  | .Zstd0 => typed (ofRes (decode0 zstd fresh d pt w h o.zstd))
  | .Zstd1 => typed (ofRes (decode1 zstd fresh d pt w h o.zstd))
  | .UnCompressed => typed (ofRes (uncompressed fresh d pt w h o.uncompressed))
  | _ => .throws

/-- The format for a pixel type, jxrlibcompress.cpp:42-62. -/
def formatOf : PixelType → Option Format
  | .Bgr24 => some .bgr24 | .Bgr48 => some .bgr48 | .Gray8 => some .gray8 | .Gray16 => some .gray16 | .Gray32Float => some .gray32Float
  | _ => none

/-- The quality, jxrlibcompress.cpp:64-74: the parameter JXRLIB_QUALITY is given in thousandths. -/
def quality : Option Nat → ℚ
  | none => 1
  | some q => max 0 (min 1 (f32 (f32 q / 1000)))

/-- `JxrDecode::Encode`, JxrDecode.cpp:196-338: the checks (`width * bytes_per_pel` is computed with 32 bits) and the access to the
source. -/
def encodeJxr (lib : Lib) (f : Format) (w h stride : Nat) (src : Buf) (q : ℚ) : Result (List UInt8) :=
  if q < 0 ∨ 1 < q then .throws
  else if w = 0 then .throws
  else if h = 0 then .throws
  else if stride < w * formatBytes f % 2 ^ 32 then .throws
  else if src.size < (h - 1) * stride + w * formatBytes f then .undefined
  else match lib.encode f w h q (fun x y j => src.get (y * stride + x * formatBytes f + j)) with
    | none => .throws
    | some d => .ok d

/-- `JxrLibCompress::Compress`, jxrlibcompress.cpp:34-118. -/
def compress (lib : Lib) (fresh : Nat → UInt8) (pt : PixelType) (w h stride : Nat) (src : Buf) (parameter : Option Nat) :
    Result (List UInt8) :=
  match formatOf pt with
  | none => .throws
  | some f =>
    if f = .bgr48 then
      let bm := newBitmap fresh w h (defaultPitch 6 w)
      match copySamePixelType 6 src 0 stride bm.buf 0 bm.stride w h false with
      | none => .undefined
      | some b =>
        match swapChannels { bm with buf := b } with
        | none => .undefined
        | some b => encodeJxr lib f w h bm.stride b (quality parameter)
    else encodeJxr lib f w h stride src (quality parameter)

end Verif.Jxr
