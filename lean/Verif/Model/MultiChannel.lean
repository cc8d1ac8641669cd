import Verif.Model.Convert

/-!
# Multi-channel composition (`MultiChannelCompositor.cpp`)

Pixels of the destination are bytes blue, green, red (and alpha): colours are functions of the byte index 0, 1, 2. `float` values
are rational numbers rounded after every operation (`Verif.Model.Float`).
-/

namespace Verif.Multi
open Blit Flt

/-- `Compositors::ChannelInfo`, libCZI_Compositor.h:700-745: weight (`none`: NaN or infinite), tinting, black and white point, look-up table (`none`: null
pointer, otherwise the memory block it points to). -/
structure Channel where
  weight : Option ℚ
  enableTinting : Bool
  tint : Nat → UInt8
  blackPoint : ℚ
  whitePoint : ℚ
  lutCount : Int
  lut : Option Buf

/-- A source bitmap with its pixel type. -/
structure Source where
  pt : PixelType
  bm : Bitmap

/-- `bgr8`, MultiChannelCompositor.cpp:44. -/
def bgr (b g r : UInt8) : Nat → UInt8 := fun i => if i = 0 then b else if i = 1 then g else r

/-- `static_cast<uint8_t>` of a floating-point number: undefined if the truncated value is not in the range of the type. -/
def castByte (q : ℚ) : Option UInt8 := if -1 < q ∧ q < 256 then some (UInt8.ofNat (truncInt q).toNat) else none

/-- `toByte`, MultiChannelCompositor.cpp:34-37. -/
def toByte (f : ℚ) : Option UInt8 := castByte (f32 (f + 1 / 2))

/-- `toInt`, MultiChannelCompositor.cpp:39-42: undefined if the truncated value is not an `int`. -/
def toInt (f : ℚ) : Option Int :=
  if -2147483649 < f32 (f + 1 / 2) ∧ f32 (f + 1 / 2) < 2147483648 then some (truncInt (f32 (f + 1 / 2))) else none

/-- `bgr8{ toByte(f * tintingColor.b), toByte(f * tintingColor.g), toByte(f * tintingColor.r) }`. -/
def tinted (tint : Nat → UInt8) (f : ℚ) : Option (Nat → UInt8) :=
  (toByte (f32 (f * (tint 0).toNat))).bind fun b =>
  (toByte (f32 (f * (tint 1).toNat))).bind fun g =>
  (toByte (f32 (f * (tint 2).toNat))).map fun r => bgr b g r

/-- How the colour of a source pixel is obtained: the bytes per pixel and the function call operator (`none`: undefined
behaviour). -/
structure Getter where
  bpp : Nat
  get : (Nat → UInt8) → Option (Nat → UInt8)

/-- `CGetGray8`, ..., `CGetBgr48`, MultiChannelCompositor.cpp:71-111, selected at 238-275 (`none`: the exception). -/
def plainGetter : PixelType → Option Getter
  | .Gray8 => some ⟨1, fun s => some (bgr (s 0) (s 0) (s 0))⟩
  | .Gray16 => some ⟨2, fun s => some (bgr (s 1) (s 1) (s 1))⟩
  | .Bgr24 => some ⟨3, fun s => some (bgr (s 0) (s 1) (s 2))⟩
  | .Bgra32 => some ⟨4, fun s => some (bgr (s 0) (s 1) (s 2))⟩
  | .Bgr48 => some ⟨6, fun s => some (bgr (s 1) (s 3) (s 5))⟩
  | _ => none

/-- `CGetTintedGray8`, ..., `CGetTintedBgr48`, MultiChannelCompositor.cpp:113-175, selected at 200-237. -/
def tintedGetter (tint : Nat → UInt8) : PixelType → Option Getter
  | .Gray8 => some ⟨1, fun s => tinted tint (f32 ((s 0).toNat / 255))⟩
  | .Gray16 => some ⟨2, fun s => tinted tint (f32 (le16 s 0 / 65535))⟩
  | .Bgr24 => some ⟨3, fun s => tinted tint (f32 (((s 0).toNat + (s 1).toNat + (s 2).toNat : Nat) / 765))⟩
  | .Bgra32 => some ⟨4, fun s => tinted tint (f32 (((s 0).toNat + (s 1).toNat + (s 2).toNat : Nat) / 765))⟩
  | .Bgr48 => some ⟨6, fun s => tinted tint (f32 ((le16 s 0 + le16 s 2 + le16 s 4 : Nat) / 196605))⟩
  | _ => none

/-- The members `blackPt` and `whitePt` of `CGetBlackWhitePtBase`. -/
structure Levels where
  black : Nat
  white : Nat

/-- Constructor of `CGetBlackWhitePtBase`, MultiChannelCompositor.cpp:479-483; the conversion to the integer type is undefined for
values outside its range. -/
def mkLevels (maxValue : Nat) (blackPt whitePt : ℚ) : Option Levels :=
  if 0 ≤ ⌈f32 (blackPt * maxValue)⌉ ∧ ⌈f32 (blackPt * maxValue)⌉ ≤ maxValue ∧
     0 ≤ ⌊f32 (whitePt * maxValue)⌋ ∧ ⌊f32 (whitePt * maxValue)⌋ ≤ maxValue then
    some ⟨⌈f32 (blackPt * maxValue)⌉.toNat, ⌊f32 (whitePt * maxValue)⌋.toNat⟩
  else none

/-- `GetPixelValue`, MultiChannelCompositor.cpp:447-461, 495-507 and 563-575; the sum with `.5` is of type `double` and exact. -/
def Levels.byte (l : Levels) (v : Nat) : Option UInt8 :=
  if v ≤ l.black then some 0
  else if v ≥ l.white then some 255
  else castByte (f32 (f32 (((v : ℚ) - l.black) / ((l.white : ℚ) - l.black)) * 255) + 1 / 2)

/-- `GetPixelValueFloat`, MultiChannelCompositor.cpp:463-477, 509-532 and 577-600. -/
def Levels.intensity (l : Levels) (v : Nat) : ℚ :=
  if v ≤ l.black then 0
  else if v ≥ l.white then 1
  else f32 (((v : ℚ) - l.black) / ((l.white : ℚ) - l.black))

/-- `CGetBlackWhitePtGray8`, ..., `CGetBlackWhitePtBgr48`, MultiChannelCompositor.cpp:486-658, selected at 714-748. -/
def levelsGetter (l8 l16 : Option Levels) : PixelType → Option (Option Getter)
  | .Gray8 => some (l8.map fun l => ⟨1, fun s => (l.byte (s 0).toNat).map fun v => bgr v v v⟩)
  | .Gray16 => some (l16.map fun l => ⟨2, fun s => (l.byte (le16 s 0)).map fun v => bgr v v v⟩)
  | .Bgr24 => some (l8.map fun l => ⟨3, fun s =>
      (l.byte (s 0).toNat).bind fun b => (l.byte (s 1).toNat).bind fun g => (l.byte (s 2).toNat).map fun r => bgr b g r⟩)
  | .Bgr48 => some (l16.map fun l => ⟨6, fun s =>
      (l.byte (le16 s 0)).bind fun b => (l.byte (le16 s 2)).bind fun g => (l.byte (le16 s 4)).map fun r => bgr b g r⟩)
  | _ => none

/-- `CGetBlackWhitePtTintingGray8`, ..., `CGetBlackWhitePtTintingBgr48`, MultiChannelCompositor.cpp:541-673, selected at
682-713. -/
def tintedLevelsGetter (tint : Nat → UInt8) (l8 l16 : Option Levels) : PixelType → Option (Option Getter)
  | .Gray8 => some (l8.map fun l => ⟨1, fun s => tinted tint (l.intensity (s 0).toNat)⟩)
  | .Gray16 => some (l16.map fun l => ⟨2, fun s => tinted tint (l.intensity (le16 s 0))⟩)
  | .Bgr24 => some (l8.map fun l => ⟨3, fun s =>
      tinted tint (l.intensity (((s 0).toNat + (s 1).toNat + (s 2).toNat + 1) / 3 % 256))⟩)
  | .Bgr48 => some (l16.map fun l => ⟨6, fun s =>
      tinted tint (l.intensity ((le16 s 0 + le16 s 2 + le16 s 4 + 1) / 3 % 65536))⟩)
  | _ => none

/-- `*(pLut + i)`. -/
def lutAt (lut : Option Buf) (i : Nat) : Option UInt8 := lut.bind fun b => b.read i

/-- `CGetGray8Lut`, `CGetBgr24Lut`, `CGetGray16Lut`, `CGetBgr48Lut`, MultiChannelCompositor.cpp:811-853, selected at 911-942. -/
def lutGetter (lut : Option Buf) : PixelType → Option Getter
  | .Gray8 => some ⟨1, fun s => (lutAt lut (s 0).toNat).map fun l => bgr l l l⟩
  | .Gray16 => some ⟨2, fun s => (lutAt lut (le16 s 0)).map fun l => bgr l l l⟩
  | .Bgr24 => some ⟨3, fun s =>
      (lutAt lut (s 0).toNat).bind fun b => (lutAt lut (s 1).toNat).bind fun g => (lutAt lut (s 2).toNat).map fun r => bgr b g r⟩
  | .Bgr48 => some ⟨6, fun s =>
      (lutAt lut (le16 s 0)).bind fun b => (lutAt lut (le16 s 2)).bind fun g => (lutAt lut (le16 s 4)).map fun r => bgr b g r⟩
  | _ => none

/-- `CGetGray8LutTinted`, ..., `CGetBgr48LutTinted`, MultiChannelCompositor.cpp:855-902, selected at 943-974. -/
def tintedLutGetter (tint : Nat → UInt8) (lut : Option Buf) : PixelType → Option Getter
  | .Gray8 => some ⟨1, fun s => (lutAt lut (s 0).toNat).bind fun l => tinted tint (f32 (l.toNat / 255))⟩
  | .Gray16 => some ⟨2, fun s => (lutAt lut (le16 s 0)).bind fun l => tinted tint (f32 (l.toNat / 255))⟩
  | .Bgr24 => some ⟨3, fun s =>
      (lutAt lut (s 0).toNat).bind fun b => (lutAt lut (s 1).toNat).bind fun g => (lutAt lut (s 2).toNat).bind fun r =>
        tinted tint (f32 ((b.toNat + g.toNat + r.toNat : Nat) / 765))⟩
  | .Bgr48 => some ⟨6, fun s =>
      (lutAt lut (le16 s 0)).bind fun b => (lutAt lut (le16 s 2)).bind fun g => (lutAt lut (le16 s 4)).bind fun r =>
        tinted tint (f32 ((b.toNat + g.toNat + r.toNat : Nat) / 765))⟩
  | _ => none

/-- `IsUsingLut`, MultiChannelCompositor.cpp:19-22. -/
def Channel.usesLut (c : Channel) : Bool := decide (c.lutCount ≠ 0)

/-- `IsBlackWhitePointUsed`, MultiChannelCompositor.cpp:24-32. -/
def Channel.usesLevels (c : Channel) : Bool := !(decide (c.blackPoint ≤ 0) && decide (c.whitePoint ≥ 1))

/-- The getter used for a channel (outer `none`: exception; inner `none`: undefined behaviour when it is constructed),
MultiChannelCompositor.cpp:1210-1232 with `DoLut`, `DoTintingBlackWhitePt` and `DoTinting`. -/
def Channel.getter (c : Channel) (pt : PixelType) : Option (Option Getter) :=
  if c.usesLut then
    (if c.enableTinting then tintedLutGetter c.tint c.lut pt else lutGetter c.lut pt).map some
  else if c.usesLevels then
    let l8 := mkLevels 255 c.blackPoint c.whitePoint
    let l16 := mkLevels 65535 c.blackPoint c.whitePoint
    if c.enableTinting then tintedLevelsGetter c.tint l8 l16 pt else levelsGetter l8 l16 pt
  else (if c.enableTinting then tintedGetter c.tint pt else plainGetter pt).map some

/-- What is done with the colour of a channel: the size of a destination pixel, whether it is added to what is there, the alpha
value to store (if any), the weight (if weights are used). MultiChannelCompositor.cpp:278-394. -/
structure Store where
  bpp : Nat
  add : Bool
  alpha : Option UInt8
  weight : Option ℚ

/-- `min(p + val, 255)` or `min(p + toInt(val * weight), 255)` (`p = 0` for the first channel). -/
def Store.byte (st : Store) (p val : UInt8) : Option UInt8 :=
  (match st.weight with
    | none => some (val.toNat : Int)
    | some w => toInt (f32 (val.toNat * w))).map fun v =>
  UInt8.ofNat (min ((if st.add then (p.toNat : Int) else 0) + v) 255 % 256).toNat

/-- `store(pDst, bgr)`: the new bytes of the destination pixel at offset `d`. -/
def Store.apply (st : Store) (c : Nat → UInt8) (d : Nat) (dst : Buf) : Option Buf :=
  if d + st.bpp ≤ dst.size then
    (st.byte (dst.get d) (c 0)).bind fun b =>
    (st.byte (dst.get (d + 1)) (c 1)).bind fun g =>
    (st.byte (dst.get (d + 2)) (c 2)).map fun r =>
    { dst with get := fun i => if i = d then b else if i = d + 1 then g else if i = d + 2 then r
                               else if i = d + 3 ∧ st.bpp = 4 then st.alpha.getD (dst.get i) else dst.get i }
  else none

/-- `CopyTinting`, MultiChannelCompositor.cpp:177-191. -/
def copyTinting (st : Store) (g : Getter) (src dst : Bitmap) : Option Bitmap :=
  (loop src.h (fun y b =>
    loop src.w (fun x b' =>
      if y * src.stride + x * g.bpp + g.bpp ≤ src.buf.size then
        (g.get fun i => src.buf.get (y * src.stride + x * g.bpp + i)).bind fun c =>
          st.apply c (y * dst.stride + x * st.bpp) b'
      else none) b) dst.buf).map fun b => { dst with buf := b }

/-- The result of a composition: done, an exception (with the destination as it is then), or undefined behaviour. -/
inductive Result where
  | ok (dst : Bitmap)
  | throws (dst : Bitmap)
  | undefined

/-- `GetLutSize`, MultiChannelCompositor.cpp:796-809. -/
def lutSize : PixelType → Option Int
  | .Gray8 => some 256
  | .Bgr24 => some 256
  | .Gray16 => some 65536
  | .Bgr48 => some 65536
  | _ => none

/-- The test of a look-up table in `CheckArguments`, MultiChannelCompositor.cpp:1070-1089; `true` = accepted. -/
def lutAccepted (c : Channel) (pt : PixelType) : Bool :=
  if c.lutCount > 0 then c.lut.isSome && decide (some c.lutCount = lutSize pt) else true

/-- The arguments of a composition: number of channels, array of source bitmaps and array of channel infos (`none`: null pointer;
a source bitmap that is `none` is a null pointer, too). -/
structure Args where
  count : Int
  sources : Option (List (Option Source))
  infos : Option (List Channel)

/-- What `CheckArguments` comes to. -/
inductive Check where
  | accepted (channels : List (Source × Channel))
  | rejected
  | undefined

/-- The first loop of `CheckArguments`, MultiChannelCompositor.cpp:1053-1059: a null pointer in the array is used. -/
def checkSizes (w h : Nat) : List (Option Source) → Option Bool
  | [] => some true
  | none :: _ => none
  | some s :: ss => if s.bm.w ≠ w ∨ s.bm.h ≠ h then some false else checkSizes w h ss

/-- `CheckArguments`, MultiChannelCompositor.cpp:1025-1091. Arrays with fewer than `count` elements are read past their end. -/
def checkArguments (destPt expected : PixelType) (dst : Bitmap) (a : Args) : Check :=
  if a.count ≤ 0 then .rejected
  else if destPt ≠ expected then .rejected
  else match a.sources, a.infos with
    | none, _ => .rejected
    | some _, none => .rejected
    | some ss, some cs =>
      if ss.length < a.count.toNat then .undefined
      else match checkSizes dst.w dst.h (ss.take a.count.toNat) with
        | none => .undefined
        | some false => .rejected
        | some true =>
          if cs.length < a.count.toNat then .undefined
          else
            let l := ((ss.take a.count.toNat).filterMap id).zip (cs.take a.count.toNat)
            if l.all (fun p => lutAccepted p.2 p.1.pt) then .accepted l else .rejected

/-- `std::numeric_limits<float>::epsilon()`. -/
def epsilon : ℚ := 1 / 2 ^ 23

/-- The first loop of `CalcWeightSum`, MultiChannelCompositor.cpp:1104-1135 (`none`: NaN). -/
def weightSum : List Channel → ℚ → Option ℚ
  | [], sum => some sum
  | c :: cs, sum =>
    match c.weight with
    | none => none
    | some w => if w < 0 then none else weightSum cs (f32 (sum + w))

/-- `CalcWeightSum`, MultiChannelCompositor.cpp:1102-1156: the mean weight if weights are to be used. A sum that overflows
to infinity is not modelled, nor are more than `2^24` channels. -/
def meanWeight (cs : List Channel) : Option ℚ :=
  match weightSum cs 0 with
  | none => none
  | some sum =>
    if |sum| ≤ epsilon then none
    else
      let mean := f32 (sum / cs.length)
      if cs.any (fun c => decide (epsilon < |f32 (mean - c.weight.getD 0)|)) then some mean else none

/-- The storing functions, `FunctionsBgr24` and `FunctionsBgra32`, MultiChannelCompositor.cpp:1158-1193; `alpha` is given for a
Bgra32 destination. -/
def mkStore (alpha : Option UInt8) (first : Bool) (weight : Option ℚ) : Store :=
  ⟨if alpha.isSome then 4 else 3, !first, if first then alpha else none, weight⟩

/-- The loops over the channels in `ComposeMultiChannel`, MultiChannelCompositor.cpp:1206-1264. -/
def composeChannels (alpha : Option UInt8) (mean : Option ℚ) : Bool → List (Source × Channel) → Bitmap → Result
  | _, [], dst => .ok dst
  | first, (s, c) :: l, dst =>
    match c.getter s.pt with
    | none => .throws dst
    | some none => .undefined
    | some (some g) =>
      match copyTinting (mkStore alpha first (mean.map fun m => f32 (c.weight.getD 0 / m))) g s.bm dst with
      | none => .undefined
      | some dst => composeChannels alpha mean false l dst

/-- `ComposeMultiChannel`, MultiChannelCompositor.cpp:1195-1266, for `ComposeMultiChannel_Bgr24` (`alpha = none`) and
`ComposeMultiChannel_Bgra32` (1269-1287). -/
def composeMultiChannel (alpha : Option UInt8) (destPt : PixelType) (dst : Bitmap) (a : Args) : Result :=
  match checkArguments destPt (if alpha.isSome then .Bgra32 else .Bgr24) dst a with
  | .rejected => .throws dst
  | .undefined => .undefined
  | .accepted l => composeChannels alpha (meanWeight (l.map (·.2))) true l dst

end Verif.Multi
