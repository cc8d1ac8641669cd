import Verif.Model.Xml
import Verif.Model.DateTime
import Verif.Model.Enum

/-!
# Document information: what `MetadataUtils` and `CMetadataPrepareHelper` write (`CziMetadataBuilder.cpp`) and what
`ICziMultiDimensionDocumentInfo` reads (`CziMetadataDocumentInfo.cpp`, `CziMetadataDocumentInfo2.cpp`)

The document is represented by its element `ImageDocument`, to which all paths are relative (`GetRootNode`,
CziMetadataBuilder.cpp:463-466; `GetNode`, CziMetadataDocumentInfo.cpp:523-526).
-/

namespace Verif.Xml
open Text

/-! ## Writing -/

/-- `root->GetOrCreateChildNode(path)` followed by an operation on the node: the document afterwards, and whether an exception was
thrown (`.error`). -/
def writeAt (doc : Node) (path : Str) (f : Node → Except Unit Node) : Node × Except Unit Unit :=
  match getOrCreateChildNode doc [] path with
  | (d, .error e) => (d, .error e)
  | (d, .ok p) => match onNode f d p with
    | .error e => (d, .error e)
    | .ok d' => (d', .ok ())

/-- A sequence of operations; the first exception ends it. -/
def writeAll : List (Node → Node × Except Unit Unit) → Node → Node × Except Unit Unit
  | [], doc => (doc, .ok ())
  | w :: ws, doc => match w doc with
    | (d, .error e) => (d, .error e)
    | (d, .ok ()) => writeAll ws d

/-- `GeneralDocumentInfo`, libCZI_Metadata.h: `none` = the field is not valid. -/
structure GeneralInfo where
  name : Option Str
  title : Option Str
  userName : Option Str
  description : Option Str
  comment : Option Str
  keywords : Option Str
  creationDate : Option Str
  rating : Option Int
  deriving DecidableEq, Repr

/-- The function `setField` in `WriteGeneralDocumentInfo`, CziMetadataBuilder.cpp:864-872. -/
def setField (v : Option Str) (nodeName : Str) (doc : Node) : Node × Except Unit Unit :=
  match v with
  | none => (doc, .ok ())
  | some s => writeAt doc ("Metadata/Information/Document/".toList ++ nodeName) (setValue s)

/-- The rating in `WriteGeneralDocumentInfo`, CziMetadataBuilder.cpp:882-885. -/
def setRating (v : Option Int) (doc : Node) : Node × Except Unit Unit :=
  match v with
  | none => (doc, .ok ())
  | some r => writeAt doc "Metadata/Information/Document/Rating".toList (setInt r)

/-- `WriteGeneralDocumentInfo`, CziMetadataBuilder.cpp:862-886. -/
def writeGeneral (info : GeneralInfo) (doc : Node) : Node × Except Unit Unit :=
  writeAll [setField info.name "Name".toList, setField info.title "Title".toList, setField info.userName "UserName".toList,
    setField info.description "Description".toList, setField info.comment "Comment".toList, setField info.keywords "Keywords".toList,
    setField info.creationDate "CreationDate".toList, setRating info.rating] doc

/-- `WriteDimensionSize`, CziMetadataBuilder.cpp:738-744. -/
def writeDimensionSize (d : Dim) (size : Int) (doc : Node) : Node × Except Unit Unit :=
  writeAt doc ("Metadata/Information/Image/Size".toList ++ [dimensionToChar d]) (setInt size)

/-- The m-index in `WriteFillWithSubBlockStatistics`, CziMetadataBuilder.cpp:758-761. -/
def writeMSize : Option (Int × Int) → List (Node → Node × Except Unit Unit)
  | none => []
  | some (lo, hi) => [fun d => writeAt d "Metadata/Information/Image/SizeM".toList (setInt (hi - lo + 1))]

/-- `WriteFillWithSubBlockStatistics`, CziMetadataBuilder.cpp:746-762, with `WriteImageSizeInformation`, 725-730, and
`WriteMIndexSizeInformation`, 732-736: `w`, `h` is the size of the bounding box, `m` the smallest and the largest m-index (if valid).
The subtraction of the m-indices is that of unbounded integers. -/
def writeStatistics (w h : Int) (b : Bounds) (m : Option (Int × Int)) (doc : Node) : Node × Except Unit Unit :=
  writeAll ([fun d => writeAt d "Metadata/Information/Image/SizeX".toList (setInt w),
      fun d => writeAt d "Metadata/Information/Image/SizeY".toList (setInt h)] ++
    Dim.all.filterMap (fun d => (b d).map (fun i => writeDimensionSize d i.2)) ++
    writeMSize m) doc

/-- The parts common to `WriteDimInfoT_Interval` and `WriteDimInfoT_List`, CziMetadataBuilder.cpp:764-812: the date, and texts for
further nodes below `Positions` (numbers are represented by their texts). -/
def writeDimInfoT (start : Option DateTime) (positions : List (Str × Str)) (doc : Node) : Node × Except Unit Unit :=
  writeAll ((match start with
      | none => []
      | some t => [fun d => match toXmlString t with
        | none => (d, .error ())
        | some s => writeAt d "Metadata/Information/Dimensions/T/StartTime".toList (setValue s)]) ++
    positions.map (fun p => fun d => writeAt d ("Metadata/Information/Dimensions/T/Positions/".toList ++ p.1) (setValue p.2))) doc

/-- `WriteDimInfoT_Interval`, CziMetadataBuilder.cpp:764-781. -/
def writeDimInfoTInterval (start : Option DateTime) (offset increment : Option Str) : Node → Node × Except Unit Unit :=
  writeDimInfoT start ((offset.map (("Interval/Start".toList), ·)).toList ++ (increment.map (("Interval/Increment".toList), ·)).toList)

/-- `WriteDimInfoT_List`, CziMetadataBuilder.cpp:783-812. -/
def writeDimInfoTList (start : Option DateTime) (offsets : Option Str) : Node → Node × Except Unit Unit :=
  writeDimInfoT start (offsets.map (("List/Offsets".toList), ·)).toList

/-- `WriteDimInfoZ_Interval`, CziMetadataBuilder.cpp:814-830. -/
def writeDimInfoZInterval (startPos offset increment : Option Str) (doc : Node) : Node × Except Unit Unit :=
  writeAll ((startPos.map (fun s => fun d => writeAt d "Metadata/Information/Dimensions/Z/StartPosition".toList (setValue s))).toList ++
    (offset.map (fun s => fun d => writeAt d "Metadata/Information/Dimensions/Z/Positions/Interval/Start".toList (setValue s))).toList ++
    (increment.map (fun s => fun d => writeAt d "Metadata/Information/Dimensions/Z/Positions/Interval/Increment".toList (setValue s))).toList) doc

/-- `WriteDimInfoZ_List`, CziMetadataBuilder.cpp:832-860. (The start position goes to the time dimension.) -/
def writeDimInfoZList (startPos offsets : Option Str) (doc : Node) : Node × Except Unit Unit :=
  writeAll ((startPos.map (fun s => fun d => writeAt d "Metadata/Information/Dimensions/T/StartTime".toList (setValue s))).toList ++
    (offsets.map (fun s => fun d => writeAt d "Metadata/Information/Dimensions/Z/Positions/List/Offsets".toList (setValue s))).toList) doc

/-! ## Reading -/

/-- `xml_node::child(name)`, pugixml.cpp:5712-5724, for `name` not empty (only elements have names). -/
def childNamed (n : Node) (name : Str) : Option Node := n.children.find? (isNamed name)

/-- `GetNodeRelativeFromNode`, CziMetadataDocumentInfo.cpp:528-538, for the parts of the path. -/
def findPath : Node → List Str → Option Node
  | n, [] => some n
  | n, s :: ss => match childNamed n s with
    | none => none
    | some c => findPath c ss

/-- `text().as_string()`, pugixml.cpp:6925-6937: the first text, PCDATA or CDATA. -/
def textIn : List Node → Str
  | [] => []
  | .text _ v :: _ => v
  | .element _ _ _ :: cs => textIn cs

/-- `ct_space` of pugixml, pugixml.cpp:1893. -/
def isPugiSpace (c : Char) : Bool := c = ' ' || c = '\t' || c = '\n' || c = '\r'

/-- The value of a hexadecimal digit. -/
def hexDigit (c : Char) : Option Nat :=
  if 48 ≤ c.toNat ∧ c.toNat ≤ 57 then some (c.toNat - 48)
  else if 97 ≤ c.toNat ∧ c.toNat ≤ 102 then some (c.toNat - 87)
  else if 65 ≤ c.toNat ∧ c.toNat ≤ 70 then some (c.toNat - 55)
  else none

/-- The digits in `string_to_integer`, pugixml.cpp:4590-4641: the value modulo 2^32 and whether it is too large. -/
def pugiDigits (s : Str) : Nat × Bool :=
  if s.head? = some '0' ∧ (s[1]? = some 'x' ∨ s[1]? = some 'X') then
    let ds := ((s.drop 2).dropWhile (· = '0')).takeWhile (fun c => (hexDigit c).isSome)
    (ds.foldl (fun n c => (16 * n + (hexDigit c).getD 0) % 2 ^ 32) 0, decide (ds.length > 8))
  else
    let ds := (s.dropWhile (· = '0')).takeWhile Char.isDigit
    let v := natOf ds % 2 ^ 32
    (v, decide (ds.length ≥ 10) && !(decide (ds.length = 10) && (decide ((ds.headD '0').toNat < 52) || (decide (ds.headD '0' = '4') && decide (2 ^ 31 ≤ v)))))

/-- `text().as_int()`: `string_to_integer<unsigned int>`, pugixml.cpp:4576-4661. -/
def asInt (s : Str) : Int :=
  let r := s.dropWhile isPugiSpace
  let d := pugiDigits (if r.head? = some '-' ∨ r.head? = some '+' then r.drop 1 else r)
  if r.head? = some '-' then (if d.2 ∨ 2 ^ 31 < d.1 then -2147483648 else -(d.1 : Int))
  else (if d.2 ∨ 2 ^ 31 - 1 < d.1 then 2147483647 else (d.1 : Int))

/-- A field of the general document info, e.g. CziMetadataDocumentInfo.cpp:30-35. -/
def fieldOf (np : Node) (name : Str) : Option Str := (childNamed np name).map (fun n => textIn n.children)

/-- `GetGeneralDocumentInfo`, CziMetadataDocumentInfo.cpp:24-88. -/
def getGeneral (doc : Node) : GeneralInfo :=
  match findPath doc ["Metadata".toList, "Information".toList, "Document".toList] with
  | none => ⟨none, none, none, none, none, none, none, none⟩
  | some np => ⟨fieldOf np "Name".toList, fieldOf np "Title".toList, fieldOf np "UserName".toList, fieldOf np "Description".toList,
      fieldOf np "Comment".toList, fieldOf np "Keywords".toList, fieldOf np "CreationDate".toList, (fieldOf np "Rating".toList).map asInt⟩

/-- `ParseDimensionInfo`, CziMetadataDocumentInfo.cpp:471-521, with `GetDimensionInfo`, 179-205: start and size, each with the flag
"explicitly stated". -/
def getDimension (doc : Node) (d : Dim) : Option ((Int × Bool) × (Int × Bool)) :=
  match findPath doc ["Metadata".toList, "Information".toList, "Image".toList] with
  | none => none
  | some np =>
    match fieldOf np ("Start".toList ++ [dimensionToChar d]), fieldOf np ("Size".toList ++ [dimensionToChar d]) with
    | none, none => none
    | s, n => some ((match s with | none => (0, false) | some t => (asInt t, true)), (match n with | none => (1, false) | some t => (asInt t, true)))

/-- `GetDimensionTInfo`, CziMetadataDocumentInfo.cpp:370-452: the date and the texts of the positions (which are converted to
numbers); `none` = null pointer. -/
def getDimensionT (doc : Node) : Option (Option Parsed × Option (Option Str × Option Str) × Option Str) :=
  match findPath doc ["Metadata".toList, "Information".toList, "Image".toList, "Dimensions".toList, "T".toList] with
  | none => none
  | some t => some ((fieldOf t "StartTime".toList).map tryParse,
      (findPath t ["Positions".toList, "Interval".toList]).map (fun i => (fieldOf i "Start".toList, fieldOf i "Increment".toList)),
      (findPath t ["Positions".toList, "List".toList, "Offsets".toList]).map (fun n => textIn n.children))

/-- `GetDimensionZInfo`, CziMetadataDocumentInfo.cpp:207-368: texts of start position and of the positions; the other entries are not modelled. -/
def getDimensionZ (doc : Node) : Option (Option Str × Option (Option Str × Option Str) × Option Str) :=
  match findPath doc ["Metadata".toList, "Information".toList, "Image".toList, "Dimensions".toList, "Z".toList] with
  | none => none
  | some t => some (fieldOf t "StartPosition".toList,
      (findPath t ["Positions".toList, "Interval".toList]).map (fun i => (fieldOf i "Start".toList, fieldOf i "Increment".toList)),
      (findPath t ["Positions".toList, "List".toList, "Offsets".toList]).map (fun n => textIn n.children))

/-! ## Saving and loading -/

/-- The conversion of line ends by the parser (`parse_eol`), pugixml.cpp:2739-2744. -/
def eol : Str → Str
  | [] => []
  | '\r' :: '\n' :: s => '\n' :: eol s
  | c :: s => (if c = '\r' then '\n' else c) :: eol s

mutual
/-- A document after `GetXml` and loading the text again: PCDATA that consists of white space disappears, line ends are converted.
Names, attributes and other characters are escaped and un-escaped by pugixml; CDATA is left as it is. That the parser does this to what the writer writes is
proved in Props/XmlText.lean (C92) about the model of pugixml, Model/XmlText.lean. -/
def reload : Node → Node
  | .element n as cs => .element n as (reloadAll cs)
  | .text c v => .text c v

/-- The children. -/
def reloadAll : List Node → List Node
  | [] => []
  | .text false v :: cs => if v.all isPugiSpace then reloadAll cs else .text false (eol v) :: reloadAll cs
  | c :: cs => reload c :: reloadAll cs
end

/-! ## Custom key-value pairs -/

/-- A custom value: `CustomValueVariant`; numbers of floating-point type are represented by the text written for them. -/
inductive CustomValue where
  | string (s : Str)
  | boolean (b : Bool)
  | int32 (v : Int)
  | double (text : Str)
  | float (text : Str)
  deriving DecidableEq, Repr

/-- `[_a-zA-Z]`. -/
def isStart (c : Char) : Bool := c = '_' || isLetter c
/-- `\w`. -/
def isWord (c : Char) : Bool := c = '_' || isLetter c || c.isDigit

/-- `regex_match` with the expression at CziMetadataBuilder.cpp:1110, one line per alternative. -/
def validKey (k : Str) : Bool :=
  (match k with | [a] => isStart a | [a, b] => isStart a && isWord b | _ => false) ||
  (match k with | a :: b :: c :: r => isStart a && !(a = 'x' || a = 'X') && isWord b && isWord c && r.all isWord | _ => false) ||
  (match k with | a :: b :: c :: r => isStart a && (isWord b && !(b = 'm' || b = 'M')) && isWord c && r.all isWord | _ => false) ||
  (match k with | a :: b :: c :: r => isStart a && isWord b && (isWord c && !(c = 'l' || c = 'L')) && r.all isWord | _ => false)

/-- The text and the type written for a value, CziMetadataBuilder.cpp:1122-1165. -/
def CustomValue.text : CustomValue → Str
  | .string s => s
  | .boolean b => if b then "true".toList else "false".toList
  | .int32 v => printInt v
  | .double t => t
  | .float t => t
/-- The attribute `Type`. -/
def CustomValue.type : CustomValue → Str
  | .string _ => "String".toList
  | .boolean _ => "Boolean".toList
  | .int32 _ => "Int32".toList
  | .double _ => "Double".toList
  | .float _ => "Float".toList

/-- `SetOrAddCustomKeyValuePair`, CziMetadataBuilder.cpp:1107-1170. -/
def setCustom (key : Str) (v : CustomValue) (doc : Node) : Node × Except Unit Unit :=
  if !validKey key then (doc, .error ())
  else writeAt doc ("Metadata/Information/CustomAttributes/KeyValue/".toList ++ key)
    (fun n => match setValue v.text n with
      | .error e => .error e
      | .ok n' => .ok (setAttribute "Type".toList v.type n'))

end Verif.Xml
