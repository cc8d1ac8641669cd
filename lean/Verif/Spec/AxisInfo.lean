import Verif.Model.AxisInfo
import Verif.Spec.ChannelText
import Verif.Spec.DateTime

/-!
# Specification of the information about the Z and T axes
-/

namespace Verif.Spec

/-- A decimal number in the range of `double`, read as `double`. -/
def AxisNumber (t : List Char) (x : Xml.Num) : Prop := ∃ d : ℚ, NumberText t d ∧ |Flt.f64 d| < 2 ^ 1024 ∧ x = .fin (Flt.f64 d)

/-- A decimal number that is too large for `double`. -/
def HugeNumber (t : List Char) : Prop := ∃ d : ℚ, NumberText t d ∧ 2 ^ 1024 ≤ |Flt.f64 d|

/-- The text made of parts separated by spaces. -/
def joinSpace : List (List Char) → List Char
  | [] => []
  | [p] => p
  | p :: ps => p ++ ' ' :: joinSpace ps

/-- The text consists of these words, separated by one or more spaces; there may be spaces at both ends. No word contains white space. -/
def SpacedWords (words : List (List Char)) (s : List Char) : Prop :=
  ∃ parts : List (List Char), parts ≠ [] ∧ s = joinSpace parts ∧ (∀ p ∈ parts, ∀ c ∈ p, ¬ IsWhite c) ∧ words = parts.filter (fun p => p ≠ [])

/-- The texts for the handedness of the coordinate system. -/
def handednessText : Xml.Handedness → String
  | .Undefined => "Undefined"
  | .LeftHanded => "LeftHanded"
  | .RightHanded => "RightHanded"

/-- The texts for the direction of the z-axis. -/
def directionText : Xml.AxisDirection → String
  | .Undefined => "Undefined"
  | .FromSpecimenToObjective => "FromSpecimenToObjective"
  | .FromObjectiveToSpecimen => "FromObjectiveToSpecimen"

/-- The texts for the mode of the z-drive. -/
def driveModeText : Xml.DriveMode → String
  | .Continuous => "Continuous"
  | .Step => "Step"

/-- What the child `name` of a node says: nothing if there is no such child, otherwise the value that its text stands for. -/
def FieldSays {α : Type} (n : Xml.Node) (name : String) (R : List Char → α → Prop) (v : Option α) : Prop :=
  (Xml.fieldOf n name.toList = none ∧ v = none) ∨ ∃ t x, Xml.fieldOf n name.toList = some t ∧ R t x ∧ v = some x

/-- What the node of an axis says about the positions: nothing, a start and an increment (a missing one is 0), or a list of numbers. An interval takes precedence. -/
inductive PositionsSay (axis : Xml.Node) : Xml.Positions → Prop
  | none : Xml.findPath axis ["Positions".toList, "Interval".toList] = none → Xml.findPath axis ["Positions".toList, "List".toList, "Offsets".toList] = none →
      PositionsSay axis .none
  | interval (n : Xml.Node) (a b : Option Xml.Num) : Xml.findPath axis ["Positions".toList, "Interval".toList] = some n → FieldSays n "Start" AxisNumber a →
      FieldSays n "Increment" AxisNumber b → PositionsSay axis (.interval (a.getD (.fin 0)) (b.getD (.fin 0)))
  | list (n : Xml.Node) (words : List (List Char)) (xs : List Xml.Num) : Xml.findPath axis ["Positions".toList, "Interval".toList] = none →
      Xml.findPath axis ["Positions".toList, "List".toList, "Offsets".toList] = some n → SpacedWords words (Xml.textIn n.children) → List.Forall₂ AxisNumber words xs →
      PositionsSay axis (.list xs)

/-- What the node of the z-axis says. Blanks and tabs around the texts do not count. -/
structure SaysZ (axis : Xml.Node) (i : Xml.ZInfo) : Prop where
  start : FieldSays axis "StartPosition" AxisNumber i.start
  handedness : FieldSays axis "XYZHandedness" (fun t h => Padded (handednessText h).toList t) i.handedness
  direction : FieldSays axis "ZAxisDirection" (fun t h => Padded (directionText h).toList t) i.direction
  driveMode : FieldSays axis "ZDriveMode" (fun t h => Padded (driveModeText h).toList t) i.driveMode
  driveSpeed : FieldSays axis "ZDriveSpeed" (fun t x => ∃ u, Padded u t ∧ AxisNumber u x) i.driveSpeed
  positions : PositionsSay axis i.positions

/-- The text is a date of XML Schema that exists, with a year of at most four digits, and `d` is this date; blanks and tabs around it do not count. (About the zone see C63.) -/
def DateSays (t : List Char) (d : Xml.DateTime) : Prop :=
  ∃ dt : DateText, dt.Ok ∧ (∃ b a, t = b ++ dt.text ++ a ∧ Blanks b ∧ Blanks a) ∧ SameDate d dt ∧ ValidDate d

end Verif.Spec
