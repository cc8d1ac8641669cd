import Verif.Model.DocInfo
import Verif.Model.NumText
import Verif.Model.Prepared
import Verif.Model.Chunk

/-!
# Display settings (`CziDisplaySettings.cpp`; `CziMetadataBuilder.cpp:888-1105`)

Numbers of type `float` and `double` are rational numbers when they are written; what is read is a `Num`, i.e. it may also be infinite or not a number.
-/

namespace Verif.Xml
open Text

/-! ## The objects -/

/-- `IDisplaySettings::GradationCurveMode`, libCZI_Metadata.h. -/
inductive CurveMode where
  | linear | gamma | spline
  deriving DecidableEq

/-- `ChannelDisplaySettingsPOD`, libCZI_Metadata.h:615-645; `tinted`: the tinting mode is `Color`. -/
structure ChannelPod (α : Type) where
  isEnabled : Bool
  weight : α
  tinted : Bool
  tintingColor : Rgb8
  blackPoint : α
  whitePoint : α
  mode : CurveMode
  gamma : α
  points : List (α × α)
  deriving DecidableEq

/-- What `IChannelDisplaySetting` gives access to: `none` = the function returns `false`. -/
structure ChannelView (α : Type) where
  isEnabled : Bool
  weight : α
  tint : Option Rgb8
  black : α
  white : α
  mode : CurveMode
  gamma : Option α
  points : Option (List (α × α))
  deriving DecidableEq

/-- `CChannelDisplaySettingsOnPod`, CziDisplaySettings.cpp:166-237. -/
def ChannelPod.view {α : Type} (p : ChannelPod α) : ChannelView α :=
  ⟨p.isEnabled, p.weight, if p.tinted then some p.tintingColor else none, p.blackPoint, p.whitePoint, p.mode,
    if p.mode = .gamma then some p.gamma else none, if p.mode = .spline then some p.points else none⟩

/-- `IChannelDisplaySetting::Clone`, CziDisplaySettings.cpp:118-160: `old` is the structure that is overwritten; `zero`, `one` are the numbers 0 and 1. -/
def cloneChannel {α : Type} (zero one : α) (v : ChannelView α) (old : ChannelPod α) : ChannelPod α :=
  { isEnabled := v.isEnabled, weight := v.weight, mode := v.mode, blackPoint := v.black, whitePoint := v.white
    gamma := if v.mode = .gamma then v.gamma.getD one else old.gamma
    points := if v.mode = .spline then v.points.getD [(zero, zero), (one, one)] else old.points
    tinted := v.tint.isSome
    tintingColor := v.tint.getD old.tintingColor }

/-- `CDisplaySettingsOnPod`: the map of channels, in the order of `EnumChannels` (CziDisplaySettings.cpp:403-451). -/
abbrev Settings (α : Type) := List (Int × ChannelView α)

/-- `GetChannelDisplaySettings`, CziDisplaySettings.cpp:442-451. -/
def Settings.get {α : Type} (s : Settings α) (ch : Int) : Option (ChannelView α) := (s.find? (fun e => e.1 = ch)).map (·.2)

/-! ## Writing -/

/-- The text of the control points, CziMetadataBuilder.cpp:984-996: 19 digits after the point. -/
def pointsText : List (ℚ × ℚ) → Str
  | [] => []
  | [p] => showE 20 p.1 ++ ',' :: showE 20 p.2
  | p :: ps => showE 20 p.1 ++ ',' :: (showE 20 p.2 ++ ' ' :: pointsText ps)

/-- The tinting in `WriteChannelDisplaySettings`, CziMetadataBuilder.cpp:946-963. -/
def writeTint (tint : Option Rgb8) (pixelType : Str) : List (Node → Node × Except Unit Unit) :=
  match tint with
  | some c => [fun d => writeAt d "Color".toList (setValue (rgbToString c)), fun d => writeAt d "ColorMode".toList (setValue "Color".toList)]
  | none => [fun d => writeAt d "ColorMode".toList (setValue "None".toList)] ++
      (if pixelType = [] then [] else [fun d => writeAt d "PixelType".toList (setValue pixelType)])

/-- The gradation curve in `WriteChannelDisplaySettings`, CziMetadataBuilder.cpp:970-1001. -/
def writeCurve (v : ChannelView ℚ) : List (Node → Node × Except Unit Unit) :=
  match v.mode with
  | .linear => []
  | .gamma => (v.gamma.map (fun g => fun d => writeAt d "Gamma".toList (setFloat g))).toList
  | .spline => match v.points with
    | none => []
    | some ps => [fun d => writeAt d "Points".toList (setValue (pointsText ps)), fun d => writeAt d "Mode".toList (setValue "spline".toList)]

/-- `WriteChannelDisplaySettings`, CziMetadataBuilder.cpp:942-1002; the argument is the node of the channel. -/
def writeChannelSettings (v : ChannelView ℚ) (pixelType : Str) : Node → Node × Except Unit Unit :=
  writeAll ([fun d => writeAt d "IsSelected".toList (setBool v.isEnabled)] ++ writeTint v.tint pixelType ++
    [fun d => writeAt d "Low".toList (setFloat v.black), fun d => writeAt d "High".toList (setFloat v.white)] ++ writeCurve v)

/-- `CoerceAdditionalInfoForChannelDisplaySettings`, libCZI_Metadata.h: attributes and pixel type to be written. -/
structure Additional where
  id : Option Str
  name : Option Str
  pixelType : Option PixelType

/-- `while (node->RemoveChild("Channel"))`, CziMetadataBuilder.cpp:1049-1052. There are no more iterations than children (and one). -/
def removeAllNamed (name : Str) : Nat → Node → Node
  | 0, n => n
  | k + 1, n => match removeChild name n with
    | (n', true) => removeAllNamed name k n'
    | (n', false) => n'

/-- `TryRetrieveIdAndNameAttributeFromChannels`, CziMetadataBuilder.cpp:1004-1027, and its use, 1064-1078: empty attributes are the same as missing ones. -/
def retrieveAdditional (doc : Node) (ch : Nat) : Except Unit Additional :=
  match getChildNode doc [] ("Metadata/Information/Image/Dimensions/Channels/Channel[".toList ++ decimal ch ++ "]".toList) with
  | .error e => .error e
  | .ok none => .ok ⟨none, none, none⟩
  | .ok (some p) => match doc.at p with
    | none => .ok ⟨none, none, none⟩
    | some n => .ok ⟨(tryGetAttribute n "Id".toList).filter (· ≠ []), (tryGetAttribute n "Name".toList).filter (· ≠ []), none⟩

/-- The node of a channel with its attributes, CziMetadataBuilder.cpp:1057 and 1092-1100. -/
def channelNode (a : Additional) : Node :=
  let n : Node := .element "Channel".toList [] []
  let n := match a.id with
    | none => n
    | some s => setAttribute "Id".toList s n
  match a.name with
  | none => n
  | some s => setAttribute "Name".toList s n

/-- The new node of channel `ch`, CziMetadataBuilder.cpp:1056-1103: `coerce` is the function of the caller (a pure function of its arguments). The node is filled before it is appended to
the document; in the code it is the other way round. -/
def newChannel (doc : Node) (s : Settings ℚ) (coerce : Int → Additional → Additional) (ch : Nat) : Node × Except Unit Unit :=
  match s.get ch with
  | none => (.element "Channel".toList [] [], .ok ())
  | some v => match retrieveAdditional doc ch with
    | .error e => (.element "Channel".toList [] [], .error e)
    | .ok a => writeChannelSettings v (((coerce ch a).pixelType.bind pixelTypeText).getD []) (channelNode (coerce ch a))

/-- The loop in `WriteDisplaySettings`, CziMetadataBuilder.cpp:1054-1104: `p` is the node `Channels`, the channels from `ch` on are written, `k` of them. -/
def writeChannels (s : Settings ℚ) (coerce : Int → Additional → Additional) (p : List Nat) : Nat → Nat → Node → Node × Except Unit Unit
  | _, 0, doc => (doc, .ok ())
  | ch, k + 1, doc =>
    let new := newChannel doc s coerce ch
    let doc' := doc.update (fun n => n.setChildren (n.children ++ [new.1])) p
    match new.2 with
    | .error e => (doc', .error e)
    | .ok () => writeChannels s coerce p (ch + 1) k doc'

/-- `WriteDisplaySettings` with the number of channels and a function for additional information, CziMetadataBuilder.cpp:1045-1105. -/
def writeDisplay (s : Settings ℚ) (count : Int) (coerce : Int → Additional → Additional) (doc : Node) : Node × Except Unit Unit :=
  match getOrCreateChildNode doc [] "Metadata/DisplaySetting/Channels".toList with
  | (d, .error e) => (d, .error e)
  | (d, .ok p) => writeChannels s coerce p 0 count.toNat (d.update (fun n => removeAllNamed "Channel".toList (n.children.length + 1) n) p)

/-- The function for additional information if pixel types are given, CziMetadataBuilder.cpp:1029-1043. -/
def coercePixelTypes (types : Option (List (Int × PixelType))) (ch : Int) (a : Additional) : Additional :=
  match types.bind (fun m => (m.find? (fun e => e.1 = ch)).map (·.2)) with
  | none => a
  | some t => { a with pixelType := some t }

/-- `WriteDisplaySettings` without the number of channels, CziMetadataBuilder.cpp:924-940. -/
def writeDisplayAll (s : Settings ℚ) (types : Option (List (Int × PixelType))) (doc : Node) : Node × Except Unit Unit :=
  writeDisplay s (1 + s.foldl (fun m e => if m < e.1 then e.1 else m) 0) (coercePixelTypes types) doc

/-! ## Reading -/

/-- `std::isspace` for a wide character: undefined for what is no `unsigned char`. `none` = undefined. -/
def narrowSpace (c : Char) : Option Bool := if c.toNat < 256 then some (isSpace c) else none

/-- Skips white space, CziDisplaySettings.cpp:55-65 (the end of the string is no white space). -/
def skipSpace : Str → Czi.Outcome Str
  | [] => .ok []
  | c :: s => match narrowSpace c with
    | none => .undefined
    | some true => skipSpace s
    | some false => .ok (c :: s)

/-- Skips white space and a comma, CziDisplaySettings.cpp:32-48. -/
def skipComma (s : Str) : Czi.Outcome Str :=
  match skipSpace s with
  | .undefined => .undefined
  | .throws => .throws
  | .ok [] => .throws
  | .ok (c :: r) => if c = ',' then .ok r else .throws

/-- One control point with the white space behind it, CziDisplaySettings.cpp:27-65 (`std::stod` throws `invalid_argument` if there is no number). -/
def parsePoint (s : Str) : Czi.Outcome ((Num × Num) × Str) :=
  match wcstod s with
  | none => .throws
  | some (x, r) => match skipComma r with
    | .undefined => .undefined
    | .throws => .throws
    | .ok r => match wcstod r with
      | none => .throws
      | some (y, r) => match skipSpace r with
        | .undefined => .undefined
        | .throws => .throws
        | .ok r => .ok ((x, y), r)

/-- `ParseSplinePoints`, CziDisplaySettings.cpp:18-69; every point has at least one character, so `k` = length of the string is enough. -/
def parsePoints : Nat → Str → Czi.Outcome (List (Num × Num))
  | _, [] => .ok []
  | 0, _ => .ok []
  | k + 1, s => match parsePoint s with
    | .undefined => .undefined
    | .throws => .throws
    | .ok (p, r) => match parsePoints k r with
      | .undefined => .undefined
      | .throws => .throws
      | .ok ps => .ok (p :: ps)

/-- `text().as_bool()`, pugixml.cpp:4686-4693 and 7019-7025 (`false` for a missing text). -/
def asBool (s : Str) : Bool := s.head? = some '1' || s.head? = some 't' || s.head? = some 'T' || s.head? = some 'y' || s.head? = some 'Y'

/-- The tinting colour in `CreateFromXml`, CziDisplaySettings.cpp:276-385: white if there is none or its text is no colour. -/
def readColor (ch : Node) : Czi.Outcome Rgb8 :=
  match fieldOf ch "Color".toList with
  | none => .ok ⟨255, 255, 255⟩
  | some t => match rgbFromString t with
    | .undefined => .undefined
    | .rejected => .ok ⟨255, 255, 255⟩
    | .color c => .ok c

/-- The control points in `CreateFromXml`, CziDisplaySettings.cpp:276-385: none if the curve is no spline or the text of the points is no list of points. -/
def readSpline (ch : Node) : Czi.Outcome (List (Num × Num)) :=
  match fieldOf ch "Mode".toList with
  | none => .ok []
  | some m => if icasecmp (trim m) "spline".toList then
      match fieldOf ch "Points".toList with
      | none => .ok []
      | some t => match parsePoints t.length t with
        | .throws => .ok []
        | r => r
    else .ok []

/-- The body of the loop in `CreateFromXml`, CziDisplaySettings.cpp:276-385. -/
def readChannelSettings (ch : Node) : Czi.Outcome (ChannelPod Num) :=
  match readColor ch, readSpline ch with
  | .ok c, .ok ps => .ok {
      isEnabled := ((fieldOf ch "IsSelected".toList).map asBool).getD true
      weight := ((fieldOf ch "Weight".toList).map asFloat).getD (.fin 1)
      tinted := !((fieldOf ch "ColorMode".toList).any (fun t => icasecmp (trim t) "none".toList))
      tintingColor := c
      blackPoint := ((fieldOf ch "Low".toList).map asFloat).getD (.fin 0)
      whitePoint := ((fieldOf ch "High".toList).map asFloat).getD (.fin 1)
      mode := if ps ≠ [] then .spline else if (fieldOf ch "Gamma".toList).isSome then .gamma else .linear
      gamma := ((fieldOf ch "Gamma".toList).map asFloat).getD .nan
      points := ps }
  | _, _ => .undefined

/-- The loop in `CreateFromXml`: the settings with the position of the node as channel index. -/
def readChannels : Int → List Node → Czi.Outcome (Settings Num)
  | _, [] => .ok []
  | i, n :: ns => match readChannelSettings n, readChannels (i + 1) ns with
    | .ok p, .ok r => .ok ((i, p.view) :: r)
    | _, _ => .undefined

/-- `CreateFromXml`, CziDisplaySettings.cpp:266-401; `ok none` = no object. -/
def createFromXml (n : Node) : Czi.Outcome (Option (Settings Num)) :=
  match childNamed n "Channels".toList with
  | none => .ok none
  | some chs => match readChannels 0 (chs.children.filter (isNamed "Channel".toList)) with
    | .ok s => .ok (some s)
    | _ => .undefined

/-- `GetDisplaySettings`, CziMetadataDocumentInfo.cpp:459-469. -/
def getDisplay (doc : Node) : Czi.Outcome (Option (Settings Num)) :=
  match findPath doc ["Metadata".toList, "DisplaySetting".toList] with
  | none => .ok none
  | some n => createFromXml n

end Verif.Xml
