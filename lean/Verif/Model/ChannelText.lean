import Verif.Model.NumText
import Verif.Model.DocInfo
import Verif.Model.Chunk
import Verif.Model.Lut

/-!
# The information about a channel in the metadata: ranges, spectra, arrays of numbers, enumerations

Texts from XML contain no zero characters, so `str[s + 1] == L'\0'` in the code means that the text ends there. The range of exponents of `double` is not modelled
(`Model/NumText.lean`), so `std::stod` throws only if there is no number.
-/

namespace Verif.Xml

open Verif.Text Verif.Czi

/-! ## Ranges -/

/-- `RangeOrSingleValue`, libCZI_Metadata2.h:103-115. -/
structure RangeOrSingle (α : Type) where
  single : Bool
  start : α
  stop : α
  deriving DecidableEq

/-- `std::stod` for wide strings: the number and the rest of the text; `none` = exception. -/
def stod (s : Str) : Option (Num × Str) := wcstod s

/-- `std::stoull(…, 10)` for wide strings: a number with minus sign is negated modulo 2^64; `none` = exception. -/
def stoull (s : Str) : Option (Nat × Str) :=
  match scanInt s with
  | none => none
  | some (neg, ds, rest) => if 2 ^ 64 ≤ natOf ds then none else some (if neg then (2 ^ 64 - natOf ds) % 2 ^ 64 else natOf ds, rest)

/-- `std::stoi` for wide strings; `none` = exception. -/
def stoi (s : Str) : Option (Int × Str) :=
  match scanInt s with
  | none => none
  | some (neg, ds, rest) =>
    let x : Int := if neg then -(natOf ds : Int) else natOf ds
    if x < -2147483648 ∨ 2147483647 < x then none else some (x, rest)

/-- `TryParseRangeOrSingleValue`, CziMetadataDocumentInfo2.cpp:778-850 (`double`) and 852-924 (`uint64_t`). The two versions differ in the conversion and in the numbers
for a missing start, a missing end, and the end of a single value. -/
def parseRange {α : Type} (scan : Str → Option (α × Str)) (lo hi unset : α) (s : Str) : Option (RangeOrSingle α) :=
  if s.head? = some '-' then
    match scan (s.drop 1) with
    | none => none
    | some (e, rest) => if rest = [] then some ⟨false, lo, e⟩ else none
  else match scan s with
    | none => none
    | some (a, []) => some ⟨true, a, unset⟩
    | some (a, c :: rest) =>
      if c ≠ '-' then none
      else if rest = [] then some ⟨false, a, hi⟩
      else match scan rest with
        | none => none
        | some (b, r) => if r = [] then some ⟨false, a, b⟩ else none

/-- `std::numeric_limits<double>::min()`: the smallest positive normal number. -/
def doubleMin : ℚ := 1 / 2 ^ 1022
/-- `std::numeric_limits<double>::max()`. -/
def doubleMax : ℚ := (2 ^ 53 - 1) * 2 ^ 971

/-- The version for `double`. -/
def parseRangeDouble (s : Str) : Option (RangeOrSingle Num) := parseRange stod (.fin doubleMin) (.fin doubleMax) .nan s

/-- The version for `uint64_t`. -/
def parseRangeUInt64 (s : Str) : Option (RangeOrSingle Nat) := parseRange stoull 0 (2 ^ 64 - 1) 0 s

/-- `Utilities::RemoveSpaces`, utilities.h:48-51. -/
def removeSpaces (s : Str) : Str := s.filter (fun c => !isSpace c)

/-- `TryGetExposureTime`, with `ParseInformation`, CziMetadataDocumentInfo2.cpp:618-630. -/
def exposureTime (channel : Node) : Option (RangeOrSingle Nat) :=
  match fieldOf channel "ExposureTime".toList with
  | none => none
  | some t => if removeSpaces t = [] then none else parseRangeUInt64 (removeSpaces t)

/-! ## Spectra -/

/-- `SpectrumCharacteristics`, libCZI_Metadata2.h:117-140. -/
inductive Spectrum where
  | peak (x : Num)
  | ranges (l : List (RangeOrSingle Num))
  deriving DecidableEq

/-- The conversion of all parts; the first one that is not a range or number ends it, CziMetadataDocumentInfo2.cpp:752-765. -/
def parseParts : List Str → Option (List (RangeOrSingle Num))
  | [] => some []
  | p :: ps => match parseRangeDouble (removeSpaces p) with
    | none => none
    | some r => (parseParts ps).map (r :: ·)

/-- `TryParseSpectrumCharacteristic`, CziMetadataDocumentInfo2.cpp:710-776. -/
def spectrum (n : Node) : Option Spectrum :=
  match fieldOf n "SinglePeak".toList with
  | some t => some (.peak (asDouble t))
  | none => match fieldOf n "Ranges".toList with
    | none => none
    | some t => if splitAt ',' [] t = [] then none else (parseParts (splitAt ',' [] t)).map .ranges

/-- `TryGetIlluminationWavelength`, with `ParseInformation`, CziMetadataDocumentInfo2.cpp:518-526. -/
def illuminationWavelength (channel : Node) : Option Spectrum := (childNamed channel "IlluminationWavelength".toList).bind spectrum

/-- `TryGetDetectionWavelength`, with `ParseInformation`, CziMetadataDocumentInfo2.cpp:528-536. -/
def detectionWavelength (channel : Node) : Option Spectrum := (childNamed channel "DetectionWavelength".toList).bind spectrum

/-! ## Arrays of numbers -/

/-- `isspace` applied to a wide character: defined for values up to 255 only. -/
def narrowIsSpace (c : Char) : Outcome Bool := if 255 < c.toNat then .undefined else .ok (isSpace c)

/-- The inner loop, CziMetadataDocumentInfo2.cpp:1823 and 1860: skips white space. -/
def skipSpaces : Str → Outcome Str
  | [] => .ok []
  | c :: s => (narrowIsSpace c).bind fun b => if b then skipSpaces s else .ok (c :: s)

/-- The loop of `ParseDoubleXmlArray` and `ParseInt32XmlArray`, CziMetadataDocumentInfo2.cpp:1802-1836 and 1838-1873. Every round takes at least one character, so
the length of the text bounds the number of rounds (first argument). -/
def arrayLoop {α : Type} (scan : Str → Option (α × Str)) : Nat → Str → Outcome (List α)
  | 0, _ => .ok []
  | _ + 1, [] => .ok []
  | k + 1, c :: s => match scan (c :: s) with
    | none => .ok []
    | some (a, []) => .ok [a]
    | some (a, d :: rest) => (narrowIsSpace d).bind fun b =>
      if b = false then .ok []
      else (skipSpaces rest).bind fun r => (arrayLoop scan k r).bind fun l => .ok (a :: l)

/-- `CXmlEnums::ParseDoubleXmlArray`, CziMetadataDocumentInfo2.cpp:1802-1836. -/
def parseDoubleArray (s : Str) : Outcome (List Num) := arrayLoop stod (s.length + 1) s

/-- `CXmlEnums::ParseInt32XmlArray`, CziMetadataDocumentInfo2.cpp:1838-1873. -/
def parseInt32Array (s : Str) : Outcome (List Int) := arrayLoop stoi (s.length + 1) s

/-- A node's array of integers: `TryGetFiberMapping`, CziMetadataDocumentInfo2.cpp:1504-1508. -/
def fiberMapping (n : Node) : Option (Outcome (List Int)) := (fieldOf n "FiberMapping".toList).map parseInt32Array

/-- The first two numbers of an array, CziMetadataDocumentInfo2.cpp:1482-1502: `TryGetIlluminationLinePixels`, `TryGetIlluminationLine`. -/
def firstTwo (name : Str) (n : Node) : Outcome (Option (Num × Num)) :=
  match fieldOf n name with
  | none => .ok none
  | some t => (parseDoubleArray t).bind fun l => match l with
    | a :: b :: _ => .ok (some (a, b))
    | _ => .ok none

/-! ## Enumerations -/

/-- `ParseEnumHelper::TryParseEnum`, utilities.h:202-229. -/
def tryParseEnum {α : Type} : List (String × α) → Str → Option α
  | [], _ => none
  | e :: es, s => if s = e.1.toList then some e.2 else tryParseEnum es s

/-- `SetEnumIfPresentAndValid`, CziMetadataDocumentInfo2.cpp:69-82, and the enumerations of `CDimensionChannelInfo::ParseInformation`. -/
def enumField {α : Type} (table : List (String × α)) (name : Str) (n : Node) : Option α := (fieldOf n name).bind (tryParseEnum table)

/-- `DimensionChannelAcquisitionMode`, libCZI_Metadata2.h:41-68. -/
inductive AcquisitionMode where
  | WideField | LaserScanningConfocalMicroscopy | SpinningDiskConfocal | SlitScanConfocal | MultiPhotonMicroscopy | StructuredIllumination | SingleMoleculeImaging | TotalInternalReflection | FluorescenceLifetime | SpectralImaging | FluorescenceCorrelationSpectroscopy | NearFieldScanningOpticalMicroscopy | SecondHarmonicGenerationImaging | PALM | STORM | STED | TIRF | FSM | LCM | SPIM | SEM | FIB | FIB_SEM | ApertureCorrelation | Other
  deriving DecidableEq

/-- The table in `StringToDimensionChannelAcquisitionMode`, CziMetadataDocumentInfo2.cpp:1524-1556. -/
def AcquisitionMode.table : List (String × AcquisitionMode) :=
  [("WideField", .WideField),
   ("LaserScanningConfocalMicroscopy", .LaserScanningConfocalMicroscopy),
   ("SpinningDiskConfocal", .SpinningDiskConfocal),
   ("SlitScanConfocal", .SlitScanConfocal),
   ("MultiPhotonMicroscopy", .MultiPhotonMicroscopy),
   ("StructuredIllumination", .StructuredIllumination),
   ("SingleMoleculeImaging", .SingleMoleculeImaging),
   ("TotalInternalReflection", .TotalInternalReflection),
   ("FluorescenceLifetime", .FluorescenceLifetime),
   ("SpectralImaging", .SpectralImaging),
   ("FluorescenceCorrelationSpectroscopy", .FluorescenceCorrelationSpectroscopy),
   ("NearFieldScanningOpticalMicroscopy", .NearFieldScanningOpticalMicroscopy),
   ("SecondHarmonicGenerationImaging", .SecondHarmonicGenerationImaging),
   ("PALM", .PALM),
   ("STORM", .STORM),
   ("STED", .STED),
   ("TIRF", .TIRF),
   ("FSM", .FSM),
   ("LCM", .LCM),
   ("SPIM", .SPIM),
   ("SEM", .SEM),
   ("FIB", .FIB),
   ("FIB-SEM", .FIB_SEM),
   ("ApertureCorrelation", .ApertureCorrelation),
   ("Other", .Other)]

/-- `DimensionChannelIlluminationType`, libCZI_Metadata2.h:71-78. -/
inductive IlluminationType where
  | Transmitted | Epifluorescence | Oblique | NonLinear | Other
  deriving DecidableEq

/-- The table in `StringToDimensionChannelIlluminationType`, CziMetadataDocumentInfo2.cpp:1558-1570. -/
def IlluminationType.table : List (String × IlluminationType) :=
  [("Transmitted", .Transmitted),
   ("Epifluorescence", .Epifluorescence),
   ("Oblique", .Oblique),
   ("NonLinear", .NonLinear),
   ("Other", .Other)]

/-- `DimensionChannelContrastMethod`, libCZI_Metadata2.h:81-93. -/
inductive ContrastMethod where
  | Brightfield | Phase | DIC | HoffmanModulation | ObliqueIllumination | PolarizedLight | Darkfield | Fluorescence | MultiPhotonFluorescence | Other
  deriving DecidableEq

/-- The table in `StringToDimensionChannelContrastMethod`, CziMetadataDocumentInfo2.cpp:1572-1589. -/
def ContrastMethod.table : List (String × ContrastMethod) :=
  [("Brightfield", .Brightfield),
   ("Phase", .Phase),
   ("DIC", .DIC),
   ("HoffmanModulation", .HoffmanModulation),
   ("ObliqueIllumination", .ObliqueIllumination),
   ("PolarizedLight", .PolarizedLight),
   ("Darkfield", .Darkfield),
   ("Fluorescence", .Fluorescence),
   ("MultiPhotonFluorescence", .MultiPhotonFluorescence),
   ("Other", .Other)]

/-- `DimensionChannelPinholeGeometry`, libCZI_Metadata2.h:96-101. -/
inductive PinholeGeometry where
  | Circular | Rectangular | Other
  deriving DecidableEq

/-- The table in `StringToDimensionChannelPinholeGeometry`, CziMetadataDocumentInfo2.cpp:1591-1601. -/
def PinholeGeometry.table : List (String × PinholeGeometry) :=
  [("Circular", .Circular),
   ("Rectangular", .Rectangular),
   ("Other", .Other)]

/-- `DimensionChannelChannelType`, libCZI_Metadata2.h:20-37. -/
inductive ChannelType where
  | Heightmap | PalHR | PalWidefield | SimHR | SimWidefield | SimDWF | AiryScanSum | AiryScanRawSr | AiryScanRaw | AiryScanSr | AiryScanVp | AiryScanMb | AiryScanRingSheppardSum | OnlineUnmixing | Unspecified
  deriving DecidableEq

/-- The table in `StringToDimensionChannelChannelType`, CziMetadataDocumentInfo2.cpp:1603-1625. -/
def ChannelType.table : List (String × ChannelType) :=
  [("Heightmap", .Heightmap),
   ("PalHR", .PalHR),
   ("PalWidefield", .PalWidefield),
   ("SimHR", .SimHR),
   ("SimWidefield", .SimWidefield),
   ("SimDWF", .SimDWF),
   ("AiryScanSum", .AiryScanSum),
   ("AiryScanRawSr", .AiryScanRawSr),
   ("AiryScanRaw", .AiryScanRaw),
   ("AiryScanSr", .AiryScanSr),
   ("AiryScanVp", .AiryScanVp),
   ("AiryScanMb", .AiryScanMb),
   ("AiryScanRingSheppardSum", .AiryScanRingSheppardSum),
   ("OnlineUnmixing", .OnlineUnmixing),
   ("Unspecified", .Unspecified)]

/-- `ChannelDetectorSettingsBinning`, libCZI_Metadata2.h:369-376. -/
inductive Binning where
  | bin1x1 | bin2x2 | bin4x4 | bin8x8 | Other
  deriving DecidableEq

/-- The table in `StringToBinning`, CziMetadataDocumentInfo2.cpp:1647-1659. -/
def Binning.table : List (String × Binning) :=
  [("1x1", .bin1x1),
   ("2x2", .bin2x2),
   ("4x4", .bin4x4),
   ("8x8", .bin8x8),
   ("Other", .Other)]

/-- `ChannelDetectorSettingsShutter`, libCZI_Metadata2.h:379-384. -/
inductive Shutter where
  | Rolling | Global | Other
  deriving DecidableEq

/-- The table in `StringToShutter`, CziMetadataDocumentInfo2.cpp:1661-1671. -/
def Shutter.table : List (String × Shutter) :=
  [("Rolling", .Rolling),
   ("Global", .Global),
   ("Other", .Other)]

/-- `ChannelDetectorCameraProcessingMode`, libCZI_Metadata2.h:387-393. -/
inductive CameraProcessingMode where
  | none | Widefield | Sectioned | RawDataMode
  deriving DecidableEq

/-- The table in `StringToCameraProcessingMode`, CziMetadataDocumentInfo2.cpp:1673-1684. -/
def CameraProcessingMode.table : List (String × CameraProcessingMode) :=
  [("None", .none),
   ("Widefield", .Widefield),
   ("Sectioned", .Sectioned),
   ("RawDataMode", .RawDataMode)]

/-- `DimensionChannelLaserScanScanningMode`, libCZI_Metadata2.h:590-598. -/
inductive ScanningMode where
  | Frame | FastFrame | LineSequential | Line | Spot | Other
  deriving DecidableEq

/-- The table in `StringToDimensionChannelLaserScanScanningMode`, CziMetadataDocumentInfo2.cpp:1686-1699. -/
def ScanningMode.table : List (String × ScanningMode) :=
  [("Frame", .Frame),
   ("FastFrame", .FastFrame),
   ("LineSequential", .LineSequential),
   ("Line", .Line),
   ("Spot", .Spot),
   ("Other", .Other)]

/-- `DimensionChannelLaserScanScanDirection`, libCZI_Metadata2.h:601-605. -/
inductive ScanDirection where
  | Bidirectional | Unidirectional
  deriving DecidableEq

/-- The table in `StringToDimensionChannelLaserScanScanDirection`, CziMetadataDocumentInfo2.cpp:1701-1710. -/
def ScanDirection.table : List (String × ScanDirection) :=
  [("Bidirectional", .Bidirectional),
   ("Unidirectional", .Unidirectional)]

/-- `DimensionChannelLaserScanAveragingMethod`, libCZI_Metadata2.h:608-613. -/
inductive AveragingMethod where
  | Mean | Sum | Other
  deriving DecidableEq

/-- The table in `StringToDimensionChannelLaserScanAveragingMethod`, CziMetadataDocumentInfo2.cpp:1712-1722. -/
def AveragingMethod.table : List (String × AveragingMethod) :=
  [("Mean", .Mean),
   ("Sum", .Sum),
   ("Other", .Other)]

/-- `DimensionChannelLaserScanAveragingMode`, libCZI_Metadata2.h:616-621. -/
inductive AveragingMode where
  | Frame | Line | Other
  deriving DecidableEq

/-- The table in `StringToDimensionChannelLaserScanAveragingMode`, CziMetadataDocumentInfo2.cpp:1724-1734. -/
def AveragingMode.table : List (String × AveragingMode) :=
  [("Frame", .Frame),
   ("Line", .Line),
   ("Other", .Other)]

/-- `DimensionChannelLaserScanLaserAttenuatorState`, libCZI_Metadata2.h:624-628. -/
inductive AttenuatorState where
  | On | Off
  deriving DecidableEq

/-- The table in `StringToDimensionChannelLaserScanLaserAttenuatorState`, CziMetadataDocumentInfo2.cpp:1736-1745. -/
def AttenuatorState.table : List (String × AttenuatorState) :=
  [("On", .On),
   ("Off", .Off)]

/-- `DimensionChannelSPIMIlluminationSettingsBeamType`, libCZI_Metadata2.h:745-750. -/
inductive BeamType where
  | Gauss | Bessel | Other
  deriving DecidableEq

/-- The table in `StringToDimensionChannelSPIMIlluminationSettingsBeamType`, CziMetadataDocumentInfo2.cpp:1747-1757. -/
def BeamType.table : List (String × BeamType) :=
  [("Gauss", .Gauss),
   ("Bessel", .Bessel),
   ("Other", .Other)]

/-- `IInstrumentObjectiveSettings::Medium`, libCZI_Metadata2.h:795-802. -/
inductive Medium where
  | Air | Oil | Water | Glycerol | Other
  deriving DecidableEq

/-- The table in `StringToIInstrumentObjectiveSettingsMedium`, CziMetadataDocumentInfo2.cpp:1759-1771. -/
def Medium.table : List (String × Medium) :=
  [("Air", .Air),
   ("Oil", .Oil),
   ("Water", .Water),
   ("Glycerol", .Glycerol),
   ("Other", .Other)]

/-- `IDimensionChannelAiryscanSettings::Mode`, libCZI_Metadata2.h:1026-1032. -/
inductive AiryscanMode where
  | SuperResolution | VirtualPinhole | MultiBeam | Off
  deriving DecidableEq

/-- The table in `StringToIDimensionChannelAiryscanSettingsMode`, CziMetadataDocumentInfo2.cpp:1773-1784. -/
def AiryscanMode.table : List (String × AiryscanMode) :=
  [("SuperResolution", .SuperResolution),
   ("VirtualPinhole", .VirtualPinhole),
   ("MultiBeam", .MultiBeam),
   ("Off", .Off)]

/-- `IDimensionChannelRatio::Type`, libCZI_Metadata2.h:1101-1110. -/
inductive RatioType where
  | NoOnlineCalculation | OnlineRatio | OnlineSubtraction | OnlineSubtractionRatio | OnlineHillFunction | OnlineReferenceRatio | OnlineLinearUnmixing
  deriving DecidableEq

/-- The table in `StringToIDimensionChannelRatioType`, CziMetadataDocumentInfo2.cpp:1786-1800. -/
def RatioType.table : List (String × RatioType) :=
  [("NoOnlineCalculation", .NoOnlineCalculation),
   ("OnlineRatio", .OnlineRatio),
   ("OnlineSubtraction", .OnlineSubtraction),
   ("OnlineSubtractionRatio", .OnlineSubtractionRatio),
   ("OnlineHillFunction", .OnlineHillFunction),
   ("OnlineReferenceRatio", .OnlineReferenceRatio),
   ("OnlineLinearUnmixing", .OnlineLinearUnmixing)]

end Verif.Xml
