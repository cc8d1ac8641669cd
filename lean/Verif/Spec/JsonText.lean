import Verif.Model.JsonText
import Verif.Spec.ChannelText
import Verif.Spec.DateTime

/-!
# Specification of the JSON texts that the C interface returns
-/

namespace Verif.Spec
open Verif.JsonText Verif.Xml

/-- The text is a JSON text (without white space) of the value. There is none for numbers that are not finite. -/
inductive IsJsonText (p : Printer) : JVal → List Char → Prop
  | str (s) : IsJsonText p (.str s) (p.quote s)
  | int (n) : IsJsonText p (.int n) (Text.printInt n)
  | num (x) : IsJsonText p (.num (.fin x)) (p.real x)
  | arr (l us) : List.Forall₂ (IsJsonText p) l us → IsJsonText p (.arr l) ('[' :: (joinComma us ++ [']']))
  | obj (m us) : List.Forall₂ (IsJsonText p) (m.map (·.2)) us →
      IsJsonText p (.obj m) ('{' :: (joinComma (List.zipWith (fun (e : List Char × JVal) u => p.quote e.1 ++ ':' :: u) m us) ++ ['}']))

/-- Strings are printed in quotation marks, numbers do not begin with a brace. -/
def Prints (p : Printer) : Prop := (∀ s, (p.quote s).head? = some '"') ∧ ∀ x, (p.real x).head? ≠ some '{'

mutual
/-- All numbers in the value are finite. -/
def FiniteNumbers : JVal → Prop
  | .num (.inf _) => False
  | .num .nan => False
  | .arr l => FiniteList l
  | .obj m => FiniteMembers m
  | _ => True
/-- All elements are so. -/
def FiniteList : List JVal → Prop
  | [] => True
  | v :: vs => FiniteNumbers v ∧ FiniteList vs
/-- All members are so. -/
def FiniteMembers : List (List Char × JVal) → Prop
  | [] => True
  | e :: es => FiniteNumbers e.2 ∧ FiniteMembers es
end

/-- The value of a member. -/
def memberOf (m : List (List Char × JVal)) (key : List Char) : Option JVal := (m.find? fun e => e.1 = key).map (·.2)

/-- The names of the members are different. -/
def DistinctNames (m : List (List Char × JVal)) : Prop := (m.map (·.1)).Nodup

/-- A member of a value that is an object. -/
def within (v : JVal) (key : List Char) : Option JVal :=
  match v with
  | .obj m => memberOf m key
  | _ => none

/-- A value that is an integer. -/
def asInteger : JVal → Option Int
  | .int n => some n
  | _ => none

/-- What an element of the pyramid statistics says: minification factor, number of the layer, number of sub-blocks. -/
def layerSaid (v : JVal) : Option ((Int × Int) × Int) :=
  (within v "layerInfo".toList).bind fun i => ((within i "minificationFactor".toList).bind asInteger).bind fun f =>
    ((within i "pyramidLayerNo".toList).bind asInteger).bind fun n => ((within v "count".toList).bind asInteger).bind fun c => some ((f, n), c)

/-- What the pyramid statistics say about a scene. -/
def sceneSaid (v : JVal) (scene : Int) : Option (List ((Int × Int) × Int)) :=
  (within v "scenePyramidStatistics".toList).bind fun s => (within s (Text.printInt scene)).bind fun a => match a with
    | .arr l => l.mapM layerSaid
    | _ => none

/-- The texts of the general information: name in the JSON text and name of the element below Metadata/Information/Document. -/
def generalNames : List (String × String) :=
  [("name", "Name"), ("title", "Title"), ("user_name", "UserName"), ("description", "Description"), ("comment", "Comment"), ("keywords", "Keywords"),
   ("creation_date_time", "CreationDate")]

/-- The names for enumerators of the Z axis. -/
def handednessName : Handedness → String
  | .Undefined => "undefined"
  | .LeftHanded => "left_handed"
  | .RightHanded => "right_handed"

def directionName : AxisDirection → String
  | .Undefined => "undefined"
  | .FromSpecimenToObjective => "from_specimen_to_objective"
  | .FromObjectiveToSpecimen => "from_objective_to_specimen"

def driveModeName : DriveMode → String
  | .Continuous => "continuous"
  | .Step => "step"

/-- The members say which positions there are: start and increment, or a list, or nothing. -/
def PositionsIn (m : List (List Char × JVal)) (listKey : String) : Positions → Prop
  | .none => memberOf m "interval_definition".toList = none ∧ memberOf m listKey.toList = none
  | .interval a b => memberOf m "interval_definition".toList = some (.arr [.num a, .num b]) ∧ memberOf m listKey.toList = none
  | .list l => memberOf m "interval_definition".toList = none ∧ memberOf m listKey.toList = some (.arr (l.map .num))

/-- The members say what is known about the Z axis. -/
structure ZIn (m : List (List Char × JVal)) (z : ZInfo) : Prop where
  start : memberOf m "reference_position".toList = z.start.map .num
  positions : PositionsIn m "position_list" z.positions
  handedness : memberOf m "xyz_handedness".toList = z.handedness.map fun h => .str (handednessName h).toList
  direction : memberOf m "z_axis_direction".toList = z.direction.map fun d => .str (directionName d).toList
  driveMode : memberOf m "z_drive_mode".toList = z.driveMode.map fun d => .str (driveModeName d).toList
  driveSpeed : memberOf m "z_drive_speed".toList = z.driveSpeed.map .num

/-- The members say what is known about the T axis; the date is in the format of XML Schema. -/
structure TIn (m : List (List Char × JVal)) (t : TInfo) : Prop where
  start : memberOf m "start_time".toList = (t.start.bind toXmlString).map .str
  valid : ∀ d, t.start = some d → ∃ s, toXmlString d = some s
  positions : PositionsIn m "offset_list" t.positions

/-- All numbers are finite. -/
def FiniteNum (x : Num) : Prop := ∃ q, x = .fin q

/-- All numbers of the positions are finite. -/
def FinitePositions : Positions → Prop
  | .none => True
  | .interval a b => FiniteNum a ∧ FiniteNum b
  | .list l => ∀ x ∈ l, FiniteNum x

/-! ## Channels -/

/-- Where the text for a member comes from: an attribute or a child element of the element "Channel". -/
inductive Source where
  | attribute (name : String)
  | element (name : String)

/-- What is made of the text: the text itself, a number, an integer, or one of these names (name in the metadata, name in the JSON text; other texts are ignored). -/
inductive ShownAs where
  | text
  | real
  | integer
  | oneOf (names : List (String × String))

/-- The text in the metadata. -/
def Source.read (channel : Node) : Source → Option (List Char)
  | .attribute n => attrOf channel.attrs n.toList
  | .element n => fieldOf channel n.toList

/-- The value in the JSON text. -/
def ShownAs.value : ShownAs → List Char → Option JVal
  | .text, t => some (.str t)
  | .real, t => some (.num (asDoubleLimited t))
  | .integer, t => some (.int (asInt t))
  | .oneOf names, t => (names.find? fun e => t = e.1.toList).map fun e => .str e.2.toList

/-- The same names in the metadata and in the JSON text. -/
def same (l : List String) : ShownAs := .oneOf (l.map fun s => (s, s))

/-- The members for a channel, except wavelengths with ranges, colour, exposure time and the contrast of the condenser. -/
def channelTable : List (String × Source × ShownAs) :=
  [("attribute_id", .attribute "Id", .text),
   ("attribute_name", .attribute "Name", .text),
   ("channel_type", .element "ChannelType", same ["Heightmap", "PalHR", "PalWidefield", "SimHR", "SimWidefield", "SimDWF", "AiryScanSum", "AiryScanRawSr", "AiryScanRaw",
      "AiryScanSr", "AiryScanVp", "AiryScanMb", "AiryScanRingSheppardSum", "OnlineUnmixing", "Unspecified"]),
   ("channel_unit", .element "ChannelUnit", .text),
   ("pixel_type", .element "PixelType", same ["Gray8", "Gray16", "Gray32Float", "Bgr24", "Bgr48", "Bgr96Float", "Bgra32", "Gray64ComplexFloat", "Bgr192ComplexFloat",
      "Gray32", "Gray64Float"]),
   ("component_bit_count", .element "ComponentBitCount", .integer),
   ("acquisition_mode", .element "AcquisitionMode", .oneOf ((["WideField", "LaserScanningConfocalMicroscopy", "SpinningDiskConfocal", "SlitScanConfocal",
      "MultiPhotonMicroscopy", "StructuredIllumination", "SingleMoleculeImaging", "TotalInternalReflection", "FluorescenceLifetime", "SpectralImaging",
      "FluorescenceCorrelationSpectroscopy", "NearFieldScanningOpticalMicroscopy", "SecondHarmonicGenerationImaging", "PALM", "STORM", "STED", "TIRF", "FSM", "LCM",
      "SPIM", "SEM", "FIB"].map fun s => (s, s)) ++ [("FIB-SEM", "FIB_SEM"), ("ApertureCorrelation", "ApertureCorrelation"), ("Other", "Other")])),
   ("illumination_type", .element "IlluminationType", same ["Transmitted", "Epifluorescence", "Oblique", "NonLinear", "Other"]),
   ("contrast_method", .element "ContrastMethod", same ["Brightfield", "Phase", "DIC", "HoffmanModulation", "ObliqueIllumination", "PolarizedLight", "Darkfield",
      "Fluorescence", "MultiPhotonFluorescence", "Other"]),
   ("excitation_wavelength", .element "ExcitationWavelength", .real),
   ("emission_wavelength", .element "EmissionWavelength", .real),
   ("effective_na", .element "EffectiveNA", .real),
   ("dye_id", .element "DyeId", .text),
   ("dye_database_id", .element "DyeDatabaseId", .text),
   ("pinhole_size", .element "PinholeSize", .real),
   ("pinhole_size_airy", .element "PinholeSizeAiry", .real),
   ("pinhole_geometry", .element "PinholeGeometry", same ["Circular", "Rectangular", "Other"]),
   ("fluor", .element "Fluor", .text),
   ("nd_filter", .element "NDFilter", .real),
   ("pocket_cell_setting", .element "PockelCellSetting", .integer),
   ("depth_of_focus", .element "DepthOfFocus", .real),
   ("section_thickness", .element "SectionThickness", .real),
   ("reflector", .element "Reflector", .text),
   ("na_condensor", .element "NACondenser", .real)]

/-- The names of the other members. -/
def otherNames : List String := ["illumination_wavelength", "detection_wavelength", "color", "exposure_time", "condensor_contrast"]

/-- The value says the wavelengths: a peak, or a text. -/
def WavelengthIn : Option JVal → Option Spectrum → Prop
  | v, none => v = none
  | v, some (.peak x) => ∃ m, v = some (.obj m) ∧ DistinctNames m ∧ memberOf m "type".toList = some (.str "SinglePeak".toList) ∧
      memberOf m "single_peak".toList = some (.num (limitNum x))
  | v, some (.ranges l) => ∃ m, v = some (.obj m) ∧ DistinctNames m ∧ memberOf m "type".toList = some (.str "Ranges".toList) ∧
      memberOf m "ranges".toList = some (.str (rangesText l))

/-- A number or range of wavelengths of at most six significant digits each. -/
def SixDigitRange (r : RangeOrSingle Num) : Prop :=
  (∃ d, 0 ≤ d ∧ HasDigits 6 d ∧ r.start = .fin (Flt.f64 d)) ∧ (if r.single then r.stop = .nan else ∃ d, HasDigits 6 d ∧ r.stop = .fin (Flt.f64 d))

/-- A colour as `#` with two hexadecimal digits each for red, green and blue. -/
def ColorText (s : List Char) (c : Text.Rgb8) : Prop :=
  ∃ r g b, s = '#' :: (r ++ (g ++ b)) ∧ (∀ x ∈ r ++ (g ++ b), isHexDigit x = true) ∧ r.length = 2 ∧ g.length = 2 ∧ b.length = 2 ∧
    hexOf r = c.r.toNat ∧ hexOf g = c.g.toNat ∧ hexOf b = c.b.toNat

/-- The members of the object for a channel say what the metadata say, as far as the code is right. -/
structure ChannelIn (m : List (List Char × JVal)) (channel : Node) : Prop where
  table : ∀ e ∈ channelTable, memberOf m e.1.toList = (e.2.1.read channel).bind e.2.2.value
  illumination : WavelengthIn (memberOf m "illumination_wavelength".toList) (illuminationWavelength channel)
  detection : WavelengthIn (memberOf m "detection_wavelength".toList) (detectionWavelength channel)
  color : (∀ t c, fieldOf channel "Color".toList = some t → Text.rgbFromString t = .color c → ∃ s, memberOf m "color".toList = some (.str s) ∧ ColorText s c) ∧
    ((∀ t, fieldOf channel "Color".toList = some t → Text.rgbFromString t = .rejected) → memberOf m "color".toList = none)
  exposure : (∀ r, exposureTime channel = some r → ∃ s v, memberOf m "exposure_time".toList = some (.str s) ∧ RangeText UInt64Text s v ∧ shownUInt64 v = r) ∧
    (exposureTime channel = none → memberOf m "exposure_time".toList = none)
  names : DistinctNames m ∧ ∀ e ∈ m, e.1 ∈ (channelTable.map (·.1) ++ otherNames).map String.toList

/-- The names of the elements with numbers that go into the JSON text. -/
def channelReals : List String :=
  ["ExcitationWavelength", "EmissionWavelength", "EffectiveNA", "PinholeSize", "PinholeSizeAiry", "NDFilter", "DepthOfFocus", "SectionThickness", "NACondenser"]

/-- All numbers of the channel that go into the JSON text are finite. -/
def FiniteChannel (channel : Node) : Prop :=
  (∀ name ∈ channelReals, ∀ t, fieldOf channel name.toList = some t → FiniteNum (asDoubleLimited t)) ∧
    (∀ x, illuminationWavelength channel = some (.peak x) ∨ detectionWavelength channel = some (.peak x) → FiniteNum (limitNum x))

/-- The elements "Channel" of the document, in their order. -/
def channelNodes (doc : Node) : Option (List Node) :=
  (findPath doc ["Metadata".toList, "Information".toList, "Image".toList, "Dimensions".toList, "Channels".toList]).map fun n =>
    n.children.filter (isNamed "Channel".toList)

end Verif.Spec
