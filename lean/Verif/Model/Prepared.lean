import Verif.Model.DocInfo
import Verif.Model.SubBlock

/-!
# The metadata prepared by the writer (`ICziWriter::GetPreparedMetadata`) and the channel information read from metadata

The document is represented by its element `ImageDocument`, as in `Model/DocInfo.lean`. The function that gives identifier and name of
a channel is an arbitrary function of the channel index.
-/

namespace Verif.Xml
open Text

/-! ## Pixel types per channel -/

/-- `PixelTypeForChannelIndexStatistic`, CziSubBlockDirectory.h:109-130. -/
structure PixelTypes where
  noChannel : Option Int
  perChannel : List (Int × Int)

/-- Nothing added yet. -/
def PixelTypes.init : PixelTypes := ⟨none, []⟩

/-- `PixelTypeForChannelIndexStatisticCreate::AddSbBlk`, CziSubBlockDirectory.cpp:588-604. -/
def PixelTypes.add (p : PixelTypes) (e : Entry) : PixelTypes :=
  match e.coordinate .C with
  | none => match p.noChannel with
    | none => { p with noChannel := some e.pixelType }
    | some _ => p
  | some c => { p with perChannel := Verif.mapInsert p.perChannel c e.pixelType }

/-- The sub-block directory of the writer with the pixel types, CziSubBlockDirectory.h:132-160. -/
structure PreparedState where
  dir : WriterDir
  types : PixelTypes

/-- The constructor, CziSubBlockDirectory.cpp:446-450. -/
def PreparedState.init (allowDuplicates : Bool) : PreparedState := ⟨WriterDir.init allowDuplicates, PixelTypes.init⟩

/-- `CWriterCziSubBlockDirectory::TryAddSubBlock`, CziSubBlockDirectory.cpp:452-463. -/
def PreparedState.tryAdd (s : PreparedState) (e : Entry) : PreparedState :=
  if (s.dir.tryAdd e).2 then ⟨(s.dir.tryAdd e).1, s.types.add e⟩ else s

/-! ## Writing -/

/-- `TryConvertToXmlMetadataPixelTypeString`, CziMetadataBuilder.cpp:565-601. -/
def pixelTypeText : PixelType → Option Str
  | .Gray8 => some "Gray8".toList
  | .Gray16 => some "Gray16".toList
  | .Gray32Float => some "Gray32Float".toList
  | .Bgr24 => some "Bgr24".toList
  | .Bgr48 => some "Bgr48".toList
  | .Bgr96Float => some "Bgr96Float".toList
  | .Bgra32 => some "Bgra32".toList
  | .Gray64ComplexFloat => some "Gray64ComplexFloat".toList
  | .Bgr192ComplexFloat => some "Bgr192ComplexFloat".toList
  | _ => none

/-- The path of a channel in `FillDimensionChannel`, CziMetadataBuilder.cpp:518-527. -/
def channelPath (g : Str × Option Str) : Str :=
  "Metadata/Information/Image/Dimensions/Channels/Channel[Id=".toList ++ g.1 ++
    (match g.2 with
      | none => []
      | some n => ",Name=".toList ++ n) ++ "]".toList

/-- `AppendChildNode("PixelType")` and `SetValue` for a channel node, CziMetadataBuilder.cpp:531-541; the argument is the entry of the
map, if there is one. -/
def appendPixelType (t : Option Int) (n : Node) : Node :=
  match t.bind (fun k => pixelTypeText (pixelTypeFromInt k)) with
  | none => n
  | some s => n.setChildren (n.children ++ [.element "PixelType".toList [] [.text false s]])

/-- The body of the loop in `FillDimensionChannel`, CziMetadataBuilder.cpp:516-548. -/
def writeChannel (types : PixelTypes) (gen : Int → Str × Option Str) (ch : Int) (doc : Node) : Node × Except Unit Unit :=
  writeAt doc (channelPath (gen ch)) (fun n => .ok (appendPixelType (mapFind types.perChannel ch) n))

/-- `FillImagePixelType`, CziMetadataBuilder.cpp:555-563. -/
def writeImagePixelType (t : PixelType) (doc : Node) : Node × Except Unit Unit :=
  match pixelTypeText t with
  | none => (doc, .ok ())
  | some s => writeAt doc "Metadata/Information/Image/PixelType".toList (setValue s)

/-- The pixel type of the image in `FillDimensionChannel`, CziMetadataBuilder.cpp:515 and 543-546: that of the first channel with a valid one. -/
def firstPixelType (types : PixelTypes) : List Int → PixelType
  | [] => .Invalid
  | ch :: chs => match mapFind types.perChannel ch with
    | none => firstPixelType types chs
    | some k => if pixelTypeFromInt k = .Invalid then firstPixelType types chs else pixelTypeFromInt k

/-- The values of the loop variable `ch`, CziMetadataBuilder.cpp:516. -/
def channelRange (start size : Int) : List Int := (List.range size.toNat).map (fun i : Nat => start + (i : Int))

/-- `FillDimensionChannel`, CziMetadataBuilder.cpp:486-505 and 507-553. -/
def fillChannels (b : Bounds) (types : PixelTypes) (gen : Int → Str × Option Str) (doc : Node) : Node × Except Unit Unit :=
  match b .C with
  | some (start, size) =>
    writeAll ((channelRange start size).map (writeChannel types gen) ++ [writeImagePixelType (firstPixelType types (channelRange start size))]) doc
  | none => match types.noChannel with
    | none => (doc, .ok ())
    | some k => writeImagePixelType (pixelTypeFromInt k) doc

/-- `DefaultGenerateChannelIdAndName`, CziWriter.cpp:1060-1065. -/
def defaultIdAndName (ch : Int) : Str × Option Str := ("Channel:".toList ++ printInt ch, none)

/-- `CCziWriter::GetPreparedMetadata`, CziWriter.cpp:1007-1019, with `IsMIndexValid`, libCZI.h:524-527. -/
def preparedMetadata (s : PreparedState) (gen : Int → Str × Option Str) : Node × Except Unit Unit :=
  writeAll [writeStatistics s.dir.upd.stats.bbox.w s.dir.upd.stats.bbox.h s.dir.upd.stats.dimBounds
      (if s.dir.upd.stats.minM ≤ s.dir.upd.stats.maxM then some (s.dir.upd.stats.minM, s.dir.upd.stats.maxM) else none),
    fillChannels s.dir.upd.stats.dimBounds s.types gen] (.element "ImageDocument".toList [] [])

/-! ## Reading -/

/-- `StringToPixelType`, CziMetadataDocumentInfo2.cpp:1627-1645. -/
def stringToPixelType (s : Str) : Option PixelType :=
  ([("Gray8", .Gray8), ("Gray16", .Gray16), ("Gray32Float", .Gray32Float), ("Bgr24", .Bgr24), ("Bgr48", .Bgr48), ("Bgr96Float", .Bgr96Float),
    ("Bgra32", .Bgra32), ("Gray64ComplexFloat", .Gray64ComplexFloat), ("Bgr192ComplexFloat", .Bgr192ComplexFloat), ("Gray32", .Gray32),
    ("Gray64Float", .Gray64Float)] : List (String × PixelType)).findSome? (fun e => if s = e.1.toList then some e.2 else none)

/-- What `IDimensionChannelInfo` tells of identifier, name and pixel type of a channel. -/
structure ChannelInfo where
  id : Option Str
  name : Option Str
  pixelType : Option PixelType
  deriving DecidableEq

/-- `CDimensionChannelInfo`, CziMetadataDocumentInfo2.cpp:119-143 and 468-477; the other information is not modelled. -/
def channelInfo (n : Node) : ChannelInfo :=
  ⟨attrOf n.attrs "Id".toList, attrOf n.attrs "Name".toList, (fieldOf n "PixelType".toList).bind stringToPixelType⟩

/-- `GetDimensionChannelsInfo`: `CDimensionsChannelsInfo::TryParse` and `ParseInformation`, CziMetadataDocumentInfo2.cpp:945-963; `none` = null pointer. -/
def getChannels (doc : Node) : Option (List ChannelInfo) :=
  (findPath doc ["Metadata".toList, "Information".toList, "Image".toList, "Dimensions".toList, "Channels".toList]).map
    (fun n => (n.children.filter (isNamed "Channel".toList)).map channelInfo)

end Verif.Xml
