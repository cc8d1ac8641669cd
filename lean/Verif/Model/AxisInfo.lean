import Verif.Model.ChannelText
import Verif.Model.DateTime

/-!
# The information about the Z and T axes in the metadata (`CziMetadataDocumentInfo.cpp`, `CziDimensionInfo.cpp`)

Numbers are those of `Model/NumText.lean`, whose exponents have no bounds; `std::stod` throws `out_of_range` if the rounded number is not below 2^1024 (numbers so small that
they are not normal, for which some implementations throw too, are not modelled). A `double` that is too large is infinite for `as_double`.
-/

namespace Verif.Xml

open Verif.Text Verif.Czi

/-- `IDimensionZInfo::XyzHandedness`, libCZI_Metadata.h. -/
inductive Handedness where
  | Undefined | LeftHanded | RightHanded
  deriving DecidableEq

/-- `IDimensionZInfo::ZaxisDirection`, libCZI_Metadata.h. -/
inductive AxisDirection where
  | Undefined | FromSpecimenToObjective | FromObjectiveToSpecimen
  deriving DecidableEq

/-- `IDimensionZInfo::ZDriveMode`, libCZI_Metadata.h. -/
inductive DriveMode where
  | Continuous | Step
  deriving DecidableEq

/-- The member `type` with the data of the interval or of the list, CziDimensionInfo.h:38-48 and 84-93. -/
inductive Positions where
  | none
  | interval (start increment : Num)
  | list (l : List Num)
  deriving DecidableEq

/-- `CCziDimensionZInfo`, CziDimensionInfo.h:35-78, CziDimensionInfo.cpp:44-201; a member with its flag `…Valid` is an `Option`. -/
structure ZInfo where
  start : Option Num
  handedness : Option Handedness
  direction : Option AxisDirection
  driveMode : Option DriveMode
  driveSpeed : Option Num
  positions : Positions
  deriving DecidableEq

/-- `CCziDimensionTInfo`, CziDimensionInfo.h:80-104, CziDimensionInfo.cpp:205-281. -/
structure TInfo where
  start : Option DateTime
  positions : Positions
  deriving DecidableEq

/-- The first number that is too large for `double`. -/
def doubleLimit : ℚ := 2 ^ 1024

/-- Whether the conversion ended with `out_of_range`. -/
def tooLarge : Num → Bool
  | .fin x => decide (doubleLimit ≤ |x|)
  | _ => false

/-- `text().as_double()`: a number that is too large is infinite. -/
def asDoubleLimited (s : Str) : Num :=
  match asDouble s with
  | .fin x => if doubleLimit ≤ |x| then .inf (decide (x < 0)) else .fin x
  | n => n

/-- One number, CziMetadataDocumentInfo.cpp:277-300 (drive speed), 332-350 and 415-433 (lists): `std::stod`, whose exception `invalid_argument` is caught and whose
exception `out_of_range` is not; then the next character must be white space (`isspace` of a wide character: undefined for characters above 255). -/
def oneNumber (s : Str) : Outcome (Option Num) :=
  match stod s with
  | none => .ok none
  | some (x, rest) =>
    if tooLarge x then .throws
    else match rest with
      | [] => .ok (some x)
      | c :: _ => (narrowIsSpace c).bind fun b => .ok (if b then some x else none)

/-- The numbers of a list: the callbacks for the parts, CziMetadataDocumentInfo.cpp:328-360 and 411-443; the first part that is not a number ends the list. -/
def numbers : List Str → Outcome (List Num)
  | [] => .ok []
  | s :: ss => (oneNumber s).bind fun r => match r with
    | none => .ok []
    | some x => (numbers ss).bind fun l => .ok (x :: l)

/-- The positions, CziMetadataDocumentInfo.cpp:304-365 and 391-448. -/
def readPositions (axis : Node) : Outcome Positions :=
  match findPath axis ["Positions".toList, "Interval".toList] with
  | some n => .ok (.interval (((fieldOf n "Start".toList).map asDoubleLimited).getD (.fin 0)) (((fieldOf n "Increment".toList).map asDoubleLimited).getD (.fin 0)))
  | none => match findPath axis ["Positions".toList, "List".toList, "Offsets".toList] with
    | none => .ok .none
    | some n => (numbers (splitAt ' ' [] (textIn n.children))).bind fun l => .ok (.list l)

/-- CziMetadataDocumentInfo.cpp:227-239. -/
def handednessOf (s : Str) : Option Handedness :=
  if s = "LeftHanded".toList then some .LeftHanded else if s = "RightHanded".toList then some .RightHanded
  else if s = "Undefined".toList then some .Undefined else none

/-- CziMetadataDocumentInfo.cpp:245-257. -/
def directionOf (s : Str) : Option AxisDirection :=
  if s = "FromSpecimenToObjective".toList then some .FromSpecimenToObjective else if s = "FromObjectiveToSpecimen".toList then some .FromObjectiveToSpecimen
  else if s = "Undefined".toList then some .Undefined else none

/-- CziMetadataDocumentInfo.cpp:264-271. -/
def driveModeOf (s : Str) : Option DriveMode :=
  if s = "Continuous".toList then some .Continuous else if s = "Step".toList then some .Step else none

/-- The drive mode, CziMetadataDocumentInfo.cpp:260-272. The text is that of the node for the direction of the axis (`zaxisDirNode`, line 263), as in the code; it is empty if
there is no such node. -/
def driveMode (axis : Node) : Option DriveMode :=
  match fieldOf axis "ZDriveMode".toList with
  | none => none
  | some _ => driveModeOf (trim ((fieldOf axis "ZAxisDirection".toList).getD []))

/-- The drive speed, CziMetadataDocumentInfo.cpp:274-302. -/
def driveSpeed (axis : Node) : Outcome (Option Num) :=
  match fieldOf axis "ZDriveSpeed".toList with
  | none => .ok none
  | some t => if trim t = [] then .ok none else oneNumber (trim t)

/-- `GetDimensionZInfo`, CziMetadataDocumentInfo.cpp:207-368 (`none`: a null pointer); `doc` is the node "ImageDocument". -/
def getZInfo (doc : Node) : Option (Outcome ZInfo) :=
  (findPath doc ["Metadata".toList, "Information".toList, "Image".toList, "Dimensions".toList, "Z".toList]).map fun axis =>
    (driveSpeed axis).bind fun speed => (readPositions axis).bind fun p => .ok
      ⟨(fieldOf axis "StartPosition".toList).map asDoubleLimited,
       (fieldOf axis "XYZHandedness".toList).bind fun t => handednessOf (trim t),
       (fieldOf axis "ZAxisDirection".toList).bind fun t => directionOf (trim t),
       driveMode axis, speed, p⟩

/-- The start time, CziMetadataDocumentInfo.cpp:379-388; `XmlDateTime::TryParse` may throw. -/
def startTime (axis : Node) : Outcome (Option DateTime) :=
  match fieldOf axis "StartTime".toList with
  | none => .ok none
  | some t => match tryParse t with
    | .date d => .ok (some d)
    | .fails => .ok none
    | .throws => .throws

/-- `GetDimensionTInfo`, CziMetadataDocumentInfo.cpp:370-452 (`none`: a null pointer). -/
def getTInfo (doc : Node) : Option (Outcome TInfo) :=
  (findPath doc ["Metadata".toList, "Information".toList, "Image".toList, "Dimensions".toList, "T".toList]).map fun axis =>
    (startTime axis).bind fun t => (readPositions axis).bind fun p => .ok ⟨t, p⟩

/-- `TryGetPositionList`, `TryGetOffsetsList`, CziDimensionInfo.cpp:129-143 and 268-281. -/
def tryList : Positions → Option (List Num)
  | .list l => some l
  | _ => Option.none

/-- `TryGetIntervalDefinition`, CziDimensionInfo.cpp:108-127 and 248-266. -/
def tryInterval : Positions → Option (Num × Num)
  | .interval a b => some (a, b)
  | _ => Option.none

end Verif.Xml
