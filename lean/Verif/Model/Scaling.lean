import Verif.Model.Display

/-!
# Scaling information (`CziMetadataBuilder.cpp:888-922`, `CziMetadataDocumentInfo.cpp:90-166`)
-/

namespace Verif.Xml

/-- The axes, in the order of the loops. -/
inductive Axis where
  | X | Y | Z
  deriving DecidableEq, Repr

/-- The character for an axis. -/
def Axis.char : Axis → Char
  | .X => 'X'
  | .Y => 'Y'
  | .Z => 'Z'

/-- `for (char d : { 'X', 'Y', 'Z' })`. -/
def Axis.all : List Axis := [.X, .Y, .Z]

/-- `ScalingInfoEx`, libCZI_Metadata.h:222-307: `scaleX`, …; `defaultUnitFormatX`, …. -/
structure Scaling where
  scale : Axis → Num
  unit : Axis → Str

/-- `ScalingInfo()`, libCZI_Metadata.h:225. -/
def Scaling.empty : Scaling := ⟨fun _ => .nan, fun _ => []⟩

/-- `IsScaleValid` and `GetScale`, libCZI_Metadata.h:230-276: the value if it is valid (neither infinite nor not a number). -/
def Scaling.valid (s : Scaling) (a : Axis) : Option ℚ :=
  match s.scale a with
  | .fin x => some x
  | _ => none

/-- The path that is built, CziMetadataBuilder.cpp:895, 910 and 917. -/
def scalingPath (a : Axis) (field : Str) : Str := "Metadata/Scaling/Items/Distance[Id=".toList ++ a.char :: ("]/".toList ++ field)

/-- Writes the value of an axis if it is valid, CziMetadataBuilder.cpp:892-897 and 907-912. -/
def writeScale (s : Scaling) (a : Axis) (doc : Node) : Node × Except Unit Unit :=
  match s.valid a with
  | none => (doc, .ok ())
  | some x => writeAt doc (scalingPath a "Value".toList) (setDouble x)

/-- Writes the unit of an axis if it is not empty, CziMetadataBuilder.cpp:914-919. -/
def writeUnit (s : Scaling) (a : Axis) (doc : Node) : Node × Except Unit Unit :=
  if s.unit a = [] then (doc, .ok ()) else writeAt doc (scalingPath a "DefaultUnitFormat".toList) (setValue (s.unit a))

/-- `WriteScalingInfo`, CziMetadataBuilder.cpp:888-899. -/
def writeScaling (s : Scaling) : Node → Node × Except Unit Unit := writeAll (Axis.all.map (writeScale s))

/-- `WriteScalingInfoEx`, CziMetadataBuilder.cpp:901-922. -/
def writeScalingEx (s : Scaling) : Node → Node × Except Unit Unit := writeAll (Axis.all.flatMap fun a => [writeScale s a, writeUnit s a])

/-- `select_node` of pugixml for a path of steps that lead to children: the first node in the order of the document. Each step is a condition for the child. -/
def selectFirst : List (Node → Bool) → Node → Option Node
  | [], n => some n
  | p :: ps, n => (n.children.filter p).findSome? (selectFirst ps)

/-- The expression `Items/Distance[@Id='…']/field`, CziMetadataDocumentInfo.cpp:114 and 123. An element does not have two attributes with the same name. -/
def scalingSteps (a : Axis) (field : Str) : List (Node → Bool) :=
  [isNamed "Items".toList, isNamedWith "Distance".toList [("Id".toList, [a.char])], isNamed field]

/-- `GetScalingInfoEx`, CziMetadataDocumentInfo.cpp:90-132. -/
def getScalingEx (doc : Node) : Scaling :=
  match findPath doc ["Metadata".toList, "Scaling".toList] with
  | none => .empty
  | some np => ⟨fun a => ((selectFirst (scalingSteps a "Value".toList) np).map fun n => asDouble (textIn n.children)).getD .nan,
      fun a => ((selectFirst (scalingSteps a "DefaultUnitFormat".toList) np).map fun n => textIn n.children).getD []⟩

/-- `GetScalingInfo`, CziMetadataDocumentInfo.cpp:134-166. -/
def getScaling (doc : Node) : Axis → Num :=
  match findPath doc ["Metadata".toList, "Scaling".toList] with
  | none => fun _ => .nan
  | some np => fun a => ((selectFirst (scalingSteps a "Value".toList) np).map fun n => asDouble (textIn n.children)).getD .nan

end Verif.Xml
