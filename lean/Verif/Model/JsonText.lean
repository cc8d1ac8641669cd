import Verif.Model.AxisInfo
import Verif.Model.Prepared
import Verif.Model.SubBlock

/-!
# The JSON texts that the C interface returns (`parameterhelpers.cpp`, `libCZIApi.cpp`)

Texts are lists of characters; the conversions between wide characters and UTF-8 are not modelled. Texts from XML contain no zero characters, so nothing is lost by
`c_str()`. How the JSON library prints characters in quotes and numbers that are no integers is a parameter (`Printer`).
-/

namespace Verif.JsonText

open Verif.Xml Verif.Text Verif.Czi

/-- A `rapidjson::Value`, as far as it is used here. -/
inductive JVal where
  | str (s : Str)
  | int (n : Int)
  | num (x : Num)
  | arr (l : List JVal)
  | obj (m : List (Str × JVal))

/-! ## The writer -/

/-- How the JSON library prints strings and finite numbers of type `double`. -/
structure Printer where
  quote : Str → Str
  real : ℚ → Str

mutual
/-- `document.Accept(writer)`: the text written and whether the writer went on to the end. It stops at a number that is not finite (`Writer::WriteDouble`); the comma or
colon before it has been written then (`Prefix`). -/
def write (p : Printer) : JVal → Str × Bool
  | .str s => (p.quote s, true)
  | .int n => (printInt n, true)
  | .num (.fin x) => (p.real x, true)
  | .num (.inf _) => ([], false)
  | .num .nan => ([], false)
  | .arr l => ('[' :: ((writeItems p l).1 ++ if (writeItems p l).2 then [']'] else []), (writeItems p l).2)
  | .obj m => ('{' :: ((writeMembers p m).1 ++ if (writeMembers p m).2 then ['}'] else []), (writeMembers p m).2)

/-- The elements of an array. -/
def writeItems (p : Printer) : List JVal → Str × Bool
  | [] => ([], true)
  | [v] => write p v
  | v :: vs => if (write p v).2 then ((write p v).1 ++ ',' :: (writeItems p vs).1, (writeItems p vs).2) else ((write p v).1, false)

/-- The members of an object. -/
def writeMembers (p : Printer) : List (Str × JVal) → Str × Bool
  | [] => ([], true)
  | [(k, v)] => (p.quote k ++ ':' :: (write p v).1, (write p v).2)
  | (k, v) :: ms => if (write p v).2 then (p.quote k ++ ':' :: ((write p v).1 ++ ',' :: (writeMembers p ms).1), (writeMembers p ms).2)
    else (p.quote k ++ ':' :: (write p v).1, false)
end

/-- `ConvertToJsonString`, parameterhelpers.cpp:79-86, and the end of `ConvertLibCZIPyramidStatisticsToJsonString`, 312-317: the result of `Accept` is not looked at. -/
def jsonString (p : Printer) (v : JVal) : Str := (write p v).1

/-- `AddMember` under the condition that there is a value. -/
def opt {α : Type} (key : String) (f : α → JVal) : Option α → List (Str × JVal)
  | none => []
  | some a => [(key.toList, f a)]

/-! ## Pyramid statistics -/

/-- One element of the array, parameterhelpers.cpp:230-245. -/
def layerJson (l : LayerInfo × Nat) : JVal :=
  .obj [("layerInfo".toList, .obj [("minificationFactor".toList, .int l.1.1), ("pyramidLayerNo".toList, .int l.1.2)]), ("count".toList, .int l.2)]

/-- `ConvertLibCZIPyramidStatisticsToJson`, parameterhelpers.cpp:209-259. -/
def pyramidJson (s : PyrStats) : JVal :=
  .obj [("scenePyramidStatistics".toList, .obj (s.map fun e => (printInt e.1, .arr (e.2.map layerJson))))]

/-! ## General information -/

/-- `FormatGeneralDocumentInfoAsJson`, parameterhelpers.cpp:649-690. -/
def generalJson (g : GeneralInfo) : JVal :=
  .obj (opt "name" .str g.name ++ (opt "title" .str g.title ++ (opt "user_name" .str g.userName ++ (opt "description" .str g.description ++
    (opt "comment" .str g.comment ++ (opt "keywords" .str g.keywords ++ (opt "creation_date_time" .str g.creationDate ++ opt "rating" .int g.rating)))))))

/-! ## Z and T -/

/-- parameterhelpers.cpp:714-737 and 846-869: an interval, or else a list. -/
def positionsJson (listKey : String) (p : Positions) : List (Str × JVal) :=
  match tryInterval p with
  | some (a, b) => [("interval_definition".toList, .arr [.num a, .num b])]
  | none => opt listKey (fun l => .arr (l.map .num)) (tryList p)

/-- parameterhelpers.cpp:743-755. -/
def handednessJson : Handedness → JVal
  | .LeftHanded => .str "left_handed".toList
  | .RightHanded => .str "right_handed".toList
  | .Undefined => .str "undefined".toList

/-- parameterhelpers.cpp:768-780. -/
def directionJson : AxisDirection → JVal
  | .FromSpecimenToObjective => .str "from_specimen_to_objective".toList
  | .FromObjectiveToSpecimen => .str "from_objective_to_specimen".toList
  | .Undefined => .str "undefined".toList

/-- parameterhelpers.cpp:793-803. -/
def driveModeJson : DriveMode → JVal
  | .Continuous => .str "continuous".toList
  | .Step => .str "step".toList

/-- `FormatZDimensionInfoAsJson`, parameterhelpers.cpp:702-822. -/
def zJson (z : ZInfo) : JVal :=
  .obj (opt "reference_position" .num z.start ++ (positionsJson "position_list" z.positions ++ (opt "xyz_handedness" handednessJson z.handedness ++
    (opt "z_axis_direction" directionJson z.direction ++ (opt "z_drive_mode" driveModeJson z.driveMode ++ opt "z_drive_speed" .num z.driveSpeed)))))

/-- `FormatTDimensionInfoAsJson`, parameterhelpers.cpp:830-872; `ToXmlString` throws if the date is not valid. -/
def tJson (t : TInfo) : Outcome JVal :=
  match t.start with
  | none => .ok (.obj (positionsJson "offset_list" t.positions))
  | some d => match toXmlString d with
    | none => .throws
    | some s => .ok (.obj (("start_time".toList, .str s) :: positionsJson "offset_list" t.positions))

/-! ## Channels -/

/-- `CDimensionChannelInfo`, CziMetadataDocumentInfo2.h:96-187, without the settings of detectors, light sources and so on, which do not go into the JSON text. -/
structure Channel where
  id : Option Str
  name : Option Str
  type : Option ChannelType
  unit : Option Str
  pixelType : Option PixelType
  bitCount : Option Int
  acquisitionMode : Option AcquisitionMode
  illuminationType : Option IlluminationType
  contrastMethod : Option ContrastMethod
  illumination : Option Spectrum
  detection : Option Spectrum
  excitation : Option Num
  emission : Option Num
  effectiveNA : Option Num
  dyeId : Option Str
  dyeDatabaseId : Option Str
  pinholeSize : Option Num
  pinholeSizeAiry : Option Num
  pinholeGeometry : Option PinholeGeometry
  fluor : Option Str
  ndFilter : Option Num
  pockelCell : Option Int
  color : Option Rgb8
  exposureTime : Option (RangeOrSingle Nat)
  depthOfFocus : Option Num
  sectionThickness : Option Num
  reflector : Option Str
  condenserContrast : Option Str
  naCondenser : Option Num

/-- The colour, CziMetadataDocumentInfo2.cpp:606-614. -/
def colorOf (n : Node) : Outcome (Option Rgb8) :=
  match fieldOf n "Color".toList with
  | none => .ok none
  | some t => match rgbFromString t with
    | .rejected => .ok none
    | .undefined => .undefined
    | .color c => .ok (some c)

/-- `CDimensionChannelInfo::ParseInformation`, CziMetadataDocumentInfo2.cpp:447-708, and the attributes, 119-143. -/
def parseChannel (n : Node) : Outcome Channel :=
  (colorOf n).bind fun color => .ok
    { id := attrOf n.attrs "Id".toList
      name := attrOf n.attrs "Name".toList
      type := enumField ChannelType.table "ChannelType".toList n
      unit := fieldOf n "ChannelUnit".toList
      pixelType := (fieldOf n "PixelType".toList).bind stringToPixelType
      bitCount := (fieldOf n "ComponentBitCount".toList).map asInt
      acquisitionMode := enumField AcquisitionMode.table "AcquisitionMode".toList n
      illuminationType := enumField IlluminationType.table "IlluminationType".toList n
      contrastMethod := enumField ContrastMethod.table "ContrastMethod".toList n
      illumination := illuminationWavelength n
      detection := detectionWavelength n
      excitation := (fieldOf n "ExcitationWavelength".toList).map asDoubleLimited
      emission := (fieldOf n "EmissionWavelength".toList).map asDoubleLimited
      effectiveNA := (fieldOf n "EffectiveNA".toList).map asDoubleLimited
      dyeId := fieldOf n "DyeId".toList
      dyeDatabaseId := fieldOf n "DyeDatabaseId".toList
      pinholeSize := (fieldOf n "PinholeSize".toList).map asDoubleLimited
      pinholeSizeAiry := (fieldOf n "PinholeSizeAiry".toList).map asDoubleLimited
      pinholeGeometry := enumField PinholeGeometry.table "PinholeGeometry".toList n
      fluor := fieldOf n "Fluor".toList
      ndFilter := (fieldOf n "NDFilter".toList).map asDoubleLimited
      pockelCell := (fieldOf n "PockelCellSetting".toList).map asInt
      color := color
      exposureTime := exposureTime n
      depthOfFocus := (fieldOf n "DepthOfFocus".toList).map asDoubleLimited
      sectionThickness := (fieldOf n "SectionThickness".toList).map asDoubleLimited
      reflector := fieldOf n "Reflector".toList
      condenserContrast := fieldOf n "CondenserContrast".toList
      naCondenser := (fieldOf n "NACondenser".toList).map asDoubleLimited }

/-- parameterhelpers.cpp:924-971. -/
def channelTypeJson : ChannelType → JVal
  | .Heightmap => .str "Heightmap".toList
  | .PalHR => .str "PalHR".toList
  | .PalWidefield => .str "PalWidefield".toList
  | .SimHR => .str "SimHR".toList
  | .SimWidefield => .str "SimWidefield".toList
  | .SimDWF => .str "SimDWF".toList
  | .AiryScanSum => .str "AiryScanSum".toList
  | .AiryScanRawSr => .str "AiryScanRawSr".toList
  | .AiryScanRaw => .str "AiryScanRaw".toList
  | .AiryScanSr => .str "AiryScanSr".toList
  | .AiryScanVp => .str "AiryScanVp".toList
  | .AiryScanMb => .str "AiryScanMb".toList
  | .AiryScanRingSheppardSum => .str "AiryScanRingSheppardSum".toList
  | .OnlineUnmixing => .str "OnlineUnmixing".toList
  | .Unspecified => .str "Unspecified".toList

/-- parameterhelpers.cpp:993-1036; nothing for an invalid pixel type. -/
def pixelTypeJson : PixelType → Option JVal
  | .Gray8 => some (.str "Gray8".toList)
  | .Gray16 => some (.str "Gray16".toList)
  | .Gray32Float => some (.str "Gray32Float".toList)
  | .Bgr24 => some (.str "Bgr24".toList)
  | .Bgr48 => some (.str "Bgr48".toList)
  | .Bgr96Float => some (.str "Bgr96Float".toList)
  | .Bgra32 => some (.str "Bgra32".toList)
  | .Gray64ComplexFloat => some (.str "Gray64ComplexFloat".toList)
  | .Bgr192ComplexFloat => some (.str "Bgr192ComplexFloat".toList)
  | .Gray32 => some (.str "Gray32".toList)
  | .Gray64Float => some (.str "Gray64Float".toList)
  | .Invalid => none

/-- parameterhelpers.cpp:1059-1136. -/
def acquisitionModeJson : AcquisitionMode → JVal
  | .WideField => .str "WideField".toList
  | .LaserScanningConfocalMicroscopy => .str "LaserScanningConfocalMicroscopy".toList
  | .SpinningDiskConfocal => .str "SpinningDiskConfocal".toList
  | .SlitScanConfocal => .str "SlitScanConfocal".toList
  | .MultiPhotonMicroscopy => .str "MultiPhotonMicroscopy".toList
  | .StructuredIllumination => .str "StructuredIllumination".toList
  | .SingleMoleculeImaging => .str "SingleMoleculeImaging".toList
  | .TotalInternalReflection => .str "TotalInternalReflection".toList
  | .FluorescenceLifetime => .str "FluorescenceLifetime".toList
  | .SpectralImaging => .str "SpectralImaging".toList
  | .FluorescenceCorrelationSpectroscopy => .str "FluorescenceCorrelationSpectroscopy".toList
  | .NearFieldScanningOpticalMicroscopy => .str "NearFieldScanningOpticalMicroscopy".toList
  | .SecondHarmonicGenerationImaging => .str "SecondHarmonicGenerationImaging".toList
  | .PALM => .str "PALM".toList
  | .STORM => .str "STORM".toList
  | .STED => .str "STED".toList
  | .TIRF => .str "TIRF".toList
  | .FSM => .str "FSM".toList
  | .LCM => .str "LCM".toList
  | .SPIM => .str "SPIM".toList
  | .SEM => .str "SEM".toList
  | .FIB => .str "FIB".toList
  | .FIB_SEM => .str "FIB_SEM".toList
  | .ApertureCorrelation => .str "ApertureCorrelation".toList
  | .Other => .str "Other".toList

/-- parameterhelpers.cpp:1150-1168. -/
def illuminationTypeJson : IlluminationType → JVal
  | .Transmitted => .str "Transmitted".toList
  | .Epifluorescence => .str "Epifluorescence".toList
  | .Oblique => .str "Oblique".toList
  | .NonLinear => .str "NonLinear".toList
  | .Other => .str "Other".toList

/-- parameterhelpers.cpp:1182-1215. -/
def contrastMethodJson : ContrastMethod → JVal
  | .Brightfield => .str "Brightfield".toList
  | .Phase => .str "Phase".toList
  | .DIC => .str "DIC".toList
  | .HoffmanModulation => .str "HoffmanModulation".toList
  | .ObliqueIllumination => .str "ObliqueIllumination".toList
  | .PolarizedLight => .str "PolarizedLight".toList
  | .Darkfield => .str "Darkfield".toList
  | .Fluorescence => .str "Fluorescence".toList
  | .MultiPhotonFluorescence => .str "MultiPhotonFluorescence".toList
  | .Other => .str "Other".toList

/-- parameterhelpers.cpp:1302-1314. -/
def pinholeGeometryJson : PinholeGeometry → JVal
  | .Circular => .str "Circular".toList
  | .Rectangular => .str "Rectangular".toList
  | .Other => .str "Other".toList

/-- `std::hex` with `setw(2)` and `setfill('0')`: two digits, small letters. -/
def hexByte (b : UInt8) : Str := [Nat.digitChar (b.toNat / 16), Nat.digitChar (b.toNat % 16)]

/-- `ConvertColorToHexString`, parameterhelpers.cpp:89-96. -/
def colorText (c : Rgb8) : Str := '#' :: (hexByte c.r ++ (hexByte c.g ++ hexByte c.b))

/-- A number or range with `operator<<`, parameterhelpers.cpp:1358-1366 and 1438-1445. -/
def rangeText {α : Type} (sh : α → Str) (r : RangeOrSingle α) : Str := if r.single then sh r.start else sh r.start ++ '-' :: sh r.stop

/-- `operator<<` for `double` with the default precision. -/
def showNum : Num → Str
  | .fin x => showG 6 x
  | .inf neg => if neg then "-inf".toList else "inf".toList
  | .nan => "nan".toList

/-- The loop over the ranges, parameterhelpers.cpp:1428-1448. -/
def rangesText : List (RangeOrSingle Num) → Str
  | [] => []
  | [r] => rangeText showNum r
  | r :: rs => rangeText showNum r ++ ',' :: rangesText rs

/-- A number of type `double`: infinite if too large. (`Model/ChannelText.lean` has no bound for exponents.) -/
def limitNum : Num → Num
  | .fin x => if doubleLimit ≤ |x| then .inf (decide (x < 0)) else .fin x
  | n => n

/-- `FormatSpectrumCharacteristicsAsJson`, parameterhelpers.cpp:1417-1454. -/
def spectrumJson : Spectrum → JVal
  | .peak x => .obj [("type".toList, .str "SinglePeak".toList), ("single_peak".toList, .num (limitNum x))]
  | .ranges l => .obj [("type".toList, .str "Ranges".toList), ("ranges".toList, .str (rangesText l))]

/-- `FormatIDimensionChannelInfoAsJson`, parameterhelpers.cpp:901-1415. For "condensor_contrast" the reflector is asked for (line 1399), as in the code. -/
def channelMembers (c : Channel) : List (Str × JVal) :=
  [opt "attribute_id" .str c.id, opt "attribute_name" .str c.name, opt "channel_type" channelTypeJson c.type, opt "channel_unit" .str c.unit,
   opt "pixel_type" id (c.pixelType.bind pixelTypeJson), opt "component_bit_count" .int c.bitCount, opt "acquisition_mode" acquisitionModeJson c.acquisitionMode,
   opt "illumination_type" illuminationTypeJson c.illuminationType, opt "contrast_method" contrastMethodJson c.contrastMethod,
   opt "illumination_wavelength" spectrumJson c.illumination, opt "detection_wavelength" spectrumJson c.detection, opt "excitation_wavelength" .num c.excitation,
   opt "emission_wavelength" .num c.emission, opt "effective_na" .num c.effectiveNA, opt "dye_id" .str c.dyeId, opt "dye_database_id" .str c.dyeDatabaseId,
   opt "pinhole_size" .num c.pinholeSize, opt "pinhole_size_airy" .num c.pinholeSizeAiry, opt "pinhole_geometry" pinholeGeometryJson c.pinholeGeometry,
   opt "fluor" .str c.fluor, opt "nd_filter" .num c.ndFilter, opt "pocket_cell_setting" .int c.pockelCell, opt "color" (fun x => .str (colorText x)) c.color,
   opt "exposure_time" (fun r => .str (rangeText decimal r)) c.exposureTime, opt "depth_of_focus" .num c.depthOfFocus, opt "section_thickness" .num c.sectionThickness,
   opt "reflector" .str c.reflector, opt "condensor_contrast" .str c.reflector, opt "na_condensor" .num c.naCondenser].flatten

/-- `FormatCDimensionInfoAsJson`, parameterhelpers.cpp:879-899: the index is the name of the member. -/
def channelsJson (cs : List Channel) : JVal := .obj (cs.mapIdx fun i c => (decimal i, .obj (channelMembers c)))

/-- All results, or the first that is no value. -/
def allOk {α : Type} : List (Outcome α) → Outcome (List α)
  | [] => .ok []
  | o :: os => o.bind fun a => (allOk os).bind fun as => .ok (a :: as)

/-- `GetDimensionChannelsInfo`, `CDimensionsChannelsInfo::TryParse` and `ParseInformation`, CziMetadataDocumentInfo2.cpp:943-963; `none`: a null pointer. -/
def channelsOf (doc : Node) : Option (Outcome (List Channel)) :=
  (findPath doc ["Metadata".toList, "Information".toList, "Image".toList, "Dimensions".toList, "Channels".toList]).map fun n =>
    allOk ((n.children.filter (isNamed "Channel".toList)).map parseChannel)

/-! ## The functions of the C interface

The handle is valid and no pointer is null. -/

/-- What a function that stores a text returns: an error code, or success with the text (`none`: nothing or a null pointer was stored). -/
inductive TextResult where
  | invalidArgument
  | unspecifiedError
  | ok (text : Option Str)

/-- `AllocString`, parameterhelpers.cpp:110-121: a null pointer for an empty text. -/
def allocString (s : Str) : Option Str := if s = [] then none else some s

/-- The text of a value; exceptions become `UnspecifiedError`. -/
def textResult (p : Printer) : Outcome JVal → Outcome TextResult
  | .ok v => .ok (.ok (allocString (jsonString p v)))
  | .throws => .ok .unspecifiedError
  | .undefined => .undefined

/-- `libCZI_ReaderGetPyramidStatistics`, libCZIApi.cpp:330-353. -/
def getPyramidStatistics (p : Printer) (s : PyrStats) : Outcome TextResult := textResult p (.ok (pyramidJson s))

/-- `libCZI_CziDocumentInfoGetGeneralDocumentInfo`, libCZIApi.cpp:1228-1251. -/
def getGeneralText (p : Printer) (doc : Node) : Outcome TextResult := textResult p (.ok (generalJson (getGeneral doc)))

/-- `libCZI_CziDocumentInfoGetDimensionInfo`, libCZIApi.cpp:1312-1376; `kDimensionZ` = 1, `kDimensionC` = 2, `kDimensionT` = 3. For other dimensions nothing is stored. -/
def getDimensionText (p : Printer) (doc : Node) (dim : Nat) : Outcome TextResult :=
  if dim = 1 then match getZInfo doc with
    | none => .ok .invalidArgument
    | some o => textResult p (o.bind fun z => .ok (zJson z))
  else if dim = 3 then match getTInfo doc with
    | none => .ok .invalidArgument
    | some o => textResult p (o.bind tJson)
  else if dim = 2 then match channelsOf doc with
    | none => .ok .invalidArgument
    | some o => textResult p (o.bind fun cs => .ok (channelsJson cs))
  else .ok (.ok none)

/-- `libCZI_CziDocumentInfoGetAvailableDimension`, libCZIApi.cpp:1253-1285: whether it returned success, and the array afterwards. `dims` are the numbers of the dimensions
that `GetDimensions` returns, `count` the number of elements the caller says the array has. -/
def getAvailable (dims : List Nat) (count : Nat) (array : List Nat) : Bool × List Nat :=
  if count < dims.length + 1 then (false, array)
  else (true, ((dims.zipIdx).foldl (fun a d => a.set d.2 d.1) array).set dims.length 0)

end Verif.JsonText
