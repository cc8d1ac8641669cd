import Verif.Model.ChannelText
import Verif.Spec.NumText

/-!
# Specification of the texts in the channel information
-/

namespace Verif.Spec

/-- White space characters. -/
def IsWhite (c : Char) : Prop := c ∈ [' ', '\t', '\n', '\x0b', '\x0c', '\r']

/-- A number or a range; a range may lack the start or the end. -/
inductive RangeValue (α : Type) where
  | single (x : α)
  | range (start stop : Option α)

/-- A text that denotes a number or a range: `a`, `a-b`, `a-`, `-b`. `N` says which texts denote which numbers. A text that begins with a minus sign is a range without
start. -/
inductive RangeText {α : Type} (N : List Char → α → Prop) : List Char → RangeValue α → Prop
  | single {t x} : N t x → t.head? ≠ some '-' → RangeText N t (.single x)
  | both {a b x y} : N a x → a.head? ≠ some '-' → N b y → RangeText N (a ++ '-' :: b) (.range (some x) (some y))
  | start {a x} : N a x → a.head? ≠ some '-' → RangeText N (a ++ ['-']) (.range (some x) none)
  | stop {b y} : N b y → RangeText N ('-' :: b) (.range none (some y))

/-- A decimal number of 64 bit, without sign or with a plus sign. -/
def UInt64Text (t : List Char) (x : Nat) : Prop := ∃ sg ds, t = sg ++ ds ∧ (sg = [] ∨ sg = ['+']) ∧ Digits ds ∧ x = digitsValue ds ∧ x < 2 ^ 64

/-- A decimal number of 32 bit, with an optional sign. -/
def Int32Text (t : List Char) (x : Int) : Prop :=
  ∃ sg ds, t = sg ++ ds ∧ Digits ds ∧ (sg = [] ∧ x = digitsValue ds ∨ sg = ['+'] ∧ x = digitsValue ds ∨ sg = ['-'] ∧ x = -(digitsValue ds : Int)) ∧
    -2147483648 ≤ x ∧ x ≤ 2147483647

/-- A decimal number, read as `double`. -/
def DoubleText (t : List Char) (x : Xml.Num) : Prop := ∃ d, NumberText t d ∧ x = .fin (Flt.f64 d)

/-- The text without its white space. -/
def withoutWhite (s : List Char) : List Char := s.filter (fun c => c ∉ [' ', '\t', '\n', '\x0b', '\x0c', '\r'])

/-- The text consists of these words, separated by white space. There may be white space before the first and after the last one. -/
inductive InWords : List (List Char) → List Char → Prop
  | nil {w} : (∀ c ∈ w, IsWhite c) → InWords [] w
  | cons {w u us r} : (∀ c ∈ w, IsWhite c) → u ≠ [] → (∀ c ∈ u, ¬ IsWhite c) → (∀ c cs, r = c :: cs → IsWhite c) → InWords us r → InWords (u :: us) (w ++ (u ++ r))

/-- Letters that occur in hexadecimal numbers (`x`), in infinities and in NaN, but not in decimal numbers. -/
def Decimal (s : List Char) : Prop := ∀ c ∈ s, c ∉ ['x', 'X', 'i', 'I', 'n', 'N']

/-- What the library returns for a number or range of 64 bit integers: a missing start is 0, a missing end the greatest number. -/
def shownUInt64 : RangeValue Nat → Xml.RangeOrSingle Nat
  | .single x => ⟨true, x, 0⟩
  | .range a b => ⟨false, a.getD 0, b.getD (2 ^ 64 - 1)⟩

/-- What the library returns for a number or range of `double`: a missing start is the smallest positive (normal) number, a missing end the greatest number, the end of a
single number NaN. -/
def shownDouble : RangeValue Xml.Num → Xml.RangeOrSingle Xml.Num
  | .single x => ⟨true, x, .nan⟩
  | .range a b => ⟨false, a.getD (.fin (1 / 2 ^ 1022)), b.getD (.fin ((2 ^ 53 - 1) * 2 ^ 971))⟩

/-- A list of numbers and ranges, separated by commas; white space does not count, except that an item of white space only is no item. Empty items are left out. -/
def SpectrumText (s : List Char) (l : List (RangeValue Xml.Num)) : Prop :=
  ∃ parts : List (List Char), parts ≠ [] ∧ s = joinComma parts ∧ (∀ p ∈ parts, ',' ∉ p) ∧
    List.Forall₂ (fun p r => RangeText DoubleText (withoutWhite p) r) (parts.filter (fun p => p ≠ [])) l

/-- The texts for `DimensionChannelAcquisitionMode`: the names of the enumerators. -/
def acquisitionModeText : Xml.AcquisitionMode → String
  | .WideField => "WideField"
  | .LaserScanningConfocalMicroscopy => "LaserScanningConfocalMicroscopy"
  | .SpinningDiskConfocal => "SpinningDiskConfocal"
  | .SlitScanConfocal => "SlitScanConfocal"
  | .MultiPhotonMicroscopy => "MultiPhotonMicroscopy"
  | .StructuredIllumination => "StructuredIllumination"
  | .SingleMoleculeImaging => "SingleMoleculeImaging"
  | .TotalInternalReflection => "TotalInternalReflection"
  | .FluorescenceLifetime => "FluorescenceLifetime"
  | .SpectralImaging => "SpectralImaging"
  | .FluorescenceCorrelationSpectroscopy => "FluorescenceCorrelationSpectroscopy"
  | .NearFieldScanningOpticalMicroscopy => "NearFieldScanningOpticalMicroscopy"
  | .SecondHarmonicGenerationImaging => "SecondHarmonicGenerationImaging"
  | .PALM => "PALM"
  | .STORM => "STORM"
  | .STED => "STED"
  | .TIRF => "TIRF"
  | .FSM => "FSM"
  | .LCM => "LCM"
  | .SPIM => "SPIM"
  | .SEM => "SEM"
  | .FIB => "FIB"
  | .FIB_SEM => "FIB-SEM"
  | .ApertureCorrelation => "ApertureCorrelation"
  | .Other => "Other"

/-- The texts for `DimensionChannelIlluminationType`: the names of the enumerators. -/
def illuminationTypeText : Xml.IlluminationType → String
  | .Transmitted => "Transmitted"
  | .Epifluorescence => "Epifluorescence"
  | .Oblique => "Oblique"
  | .NonLinear => "NonLinear"
  | .Other => "Other"

/-- The texts for `DimensionChannelContrastMethod`: the names of the enumerators. -/
def contrastMethodText : Xml.ContrastMethod → String
  | .Brightfield => "Brightfield"
  | .Phase => "Phase"
  | .DIC => "DIC"
  | .HoffmanModulation => "HoffmanModulation"
  | .ObliqueIllumination => "ObliqueIllumination"
  | .PolarizedLight => "PolarizedLight"
  | .Darkfield => "Darkfield"
  | .Fluorescence => "Fluorescence"
  | .MultiPhotonFluorescence => "MultiPhotonFluorescence"
  | .Other => "Other"

/-- The texts for `DimensionChannelPinholeGeometry`: the names of the enumerators. -/
def pinholeGeometryText : Xml.PinholeGeometry → String
  | .Circular => "Circular"
  | .Rectangular => "Rectangular"
  | .Other => "Other"

/-- The texts for `DimensionChannelChannelType`: the names of the enumerators. -/
def channelTypeText : Xml.ChannelType → String
  | .Heightmap => "Heightmap"
  | .PalHR => "PalHR"
  | .PalWidefield => "PalWidefield"
  | .SimHR => "SimHR"
  | .SimWidefield => "SimWidefield"
  | .SimDWF => "SimDWF"
  | .AiryScanSum => "AiryScanSum"
  | .AiryScanRawSr => "AiryScanRawSr"
  | .AiryScanRaw => "AiryScanRaw"
  | .AiryScanSr => "AiryScanSr"
  | .AiryScanVp => "AiryScanVp"
  | .AiryScanMb => "AiryScanMb"
  | .AiryScanRingSheppardSum => "AiryScanRingSheppardSum"
  | .OnlineUnmixing => "OnlineUnmixing"
  | .Unspecified => "Unspecified"

/-- The texts for `ChannelDetectorSettingsBinning`: the names of the enumerators. -/
def binningText : Xml.Binning → String
  | .bin1x1 => "1x1"
  | .bin2x2 => "2x2"
  | .bin4x4 => "4x4"
  | .bin8x8 => "8x8"
  | .Other => "Other"

/-- The texts for `ChannelDetectorSettingsShutter`: the names of the enumerators. -/
def shutterText : Xml.Shutter → String
  | .Rolling => "Rolling"
  | .Global => "Global"
  | .Other => "Other"

/-- The texts for `ChannelDetectorCameraProcessingMode`: the names of the enumerators. -/
def cameraProcessingModeText : Xml.CameraProcessingMode → String
  | .none => "None"
  | .Widefield => "Widefield"
  | .Sectioned => "Sectioned"
  | .RawDataMode => "RawDataMode"

/-- The texts for `DimensionChannelLaserScanScanningMode`: the names of the enumerators. -/
def scanningModeText : Xml.ScanningMode → String
  | .Frame => "Frame"
  | .FastFrame => "FastFrame"
  | .LineSequential => "LineSequential"
  | .Line => "Line"
  | .Spot => "Spot"
  | .Other => "Other"

/-- The texts for `DimensionChannelLaserScanScanDirection`: the names of the enumerators. -/
def scanDirectionText : Xml.ScanDirection → String
  | .Bidirectional => "Bidirectional"
  | .Unidirectional => "Unidirectional"

/-- The texts for `DimensionChannelLaserScanAveragingMethod`: the names of the enumerators. -/
def averagingMethodText : Xml.AveragingMethod → String
  | .Mean => "Mean"
  | .Sum => "Sum"
  | .Other => "Other"

/-- The texts for `DimensionChannelLaserScanAveragingMode`: the names of the enumerators. -/
def averagingModeText : Xml.AveragingMode → String
  | .Frame => "Frame"
  | .Line => "Line"
  | .Other => "Other"

/-- The texts for `DimensionChannelLaserScanLaserAttenuatorState`: the names of the enumerators. -/
def attenuatorStateText : Xml.AttenuatorState → String
  | .On => "On"
  | .Off => "Off"

/-- The texts for `DimensionChannelSPIMIlluminationSettingsBeamType`: the names of the enumerators. -/
def beamTypeText : Xml.BeamType → String
  | .Gauss => "Gauss"
  | .Bessel => "Bessel"
  | .Other => "Other"

/-- The texts for `IInstrumentObjectiveSettings::Medium`: the names of the enumerators. -/
def mediumText : Xml.Medium → String
  | .Air => "Air"
  | .Oil => "Oil"
  | .Water => "Water"
  | .Glycerol => "Glycerol"
  | .Other => "Other"

/-- The texts for `IDimensionChannelAiryscanSettings::Mode`: the names of the enumerators. -/
def airyscanModeText : Xml.AiryscanMode → String
  | .SuperResolution => "SuperResolution"
  | .VirtualPinhole => "VirtualPinhole"
  | .MultiBeam => "MultiBeam"
  | .Off => "Off"

/-- The texts for `IDimensionChannelRatio::Type`: the names of the enumerators. -/
def ratioTypeText : Xml.RatioType → String
  | .NoOnlineCalculation => "NoOnlineCalculation"
  | .OnlineRatio => "OnlineRatio"
  | .OnlineSubtraction => "OnlineSubtraction"
  | .OnlineSubtractionRatio => "OnlineSubtractionRatio"
  | .OnlineHillFunction => "OnlineHillFunction"
  | .OnlineReferenceRatio => "OnlineReferenceRatio"
  | .OnlineLinearUnmixing => "OnlineLinearUnmixing"

end Verif.Spec
