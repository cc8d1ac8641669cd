import Verif.Model.DocInfo
import Verif.Spec.Xml
import Verif.Spec.Text

/-!
# Specification: document information
-/

namespace Verif.Spec
open Verif.Xml (Node Str GeneralInfo CustomValue)

/-- The path through the first child elements with these names. -/
def namesPath (parts : List Str) : List Selector := parts.map Selector.first

/-- The node the names lead to (if there is one) contains nothing but text that is not CDATA. -/
def TextOnly (doc : Node) (parts : List Str) : Prop :=
  ∀ p n, PathDenotes doc (namesPath parts) p → doc.at p = some n → ∀ c ∈ n.children, ∃ v, c = .text false v

/-- There is no such node. -/
def NoSuchNode (doc : Node) (parts : List Str) : Prop := ∀ p, ¬ PathDenotes doc (namesPath parts) p

/-- There is such a node, and it contains an element. -/
def ContainsElement (doc : Node) (parts : List Str) : Prop :=
  ∃ p n c, PathDenotes doc (namesPath parts) p ∧ doc.at p = some n ∧ c ∈ n.children ∧ c.isElement = true

/-- The place of a field of the general document information. -/
def documentField (name : String) : List Str := ["Metadata".toList, "Information".toList, "Document".toList, name.toList]

/-- The fields that are to be written, by the names of their nodes, with their texts. -/
def givenFields (i : GeneralInfo) : List (String × Option Str) :=
  [("Name", i.name), ("Title", i.title), ("UserName", i.userName), ("Description", i.description), ("Comment", i.comment),
    ("Keywords", i.keywords), ("CreationDate", i.creationDate), ("Rating", i.rating.map Text.printInt)]

/-- The information `a` where it is given, otherwise `b`. -/
def overlay (a b : GeneralInfo) : GeneralInfo :=
  ⟨a.name <|> b.name, a.title <|> b.title, a.userName <|> b.userName, a.description <|> b.description, a.comment <|> b.comment,
    a.keywords <|> b.keywords, a.creationDate <|> b.creationDate, a.rating <|> b.rating⟩

/-- There is such a node, and its value is the text. -/
def ValueIs (doc : Node) (parts : List Str) (v : Str) : Prop :=
  ∃ p n, PathDenotes doc (namesPath parts) p ∧ doc.at p = some n ∧ Verif.Xml.tryGetValue n = some v

/-- The place of a size of the image. -/
def imageField (name : String) : List Str := ["Metadata".toList, "Information".toList, "Image".toList, name.toList]

/-- The name of a dimension in the metadata. -/
def dimName : Dim → String
  | .Z => "Z" | .C => "C" | .T => "T" | .R => "R" | .S => "S" | .I => "I" | .H => "H" | .V => "V" | .B => "B"

/-- The text consists of the characters that XML regards as white space. -/
def Blank (s : Str) : Prop := ∀ c ∈ s, c ∈ [' ', '\t', '\n', '\r']

/-- A decimal number as in an XML text: white space, a sign or none, digits. -/
def XmlInt (s : Str) (x : Int) : Prop :=
  ∃ w sign ds, s = w ++ (sign ++ ds) ∧ Blank w ∧ sign ∈ ([[], ['+'], ['-']] : List Str) ∧ Digits ds ∧
    x = if sign = ['-'] then -(digitsValue ds : Int) else digitsValue ds

/-- A hexadecimal digit and its value. -/
def HexDigit (c : Char) (v : Nat) : Prop :=
  (48 ≤ c.toNat ∧ c.toNat ≤ 57 ∧ v = c.toNat - 48) ∨ (97 ≤ c.toNat ∧ c.toNat ≤ 102 ∧ v = c.toNat - 87) ∨ (65 ≤ c.toNat ∧ c.toNat ≤ 70 ∧ v = c.toNat - 55)

/-- The value of a sequence of hexadecimal digits. -/
inductive HexValue : Str → Nat → Prop
  | nil : HexValue [] 0
  | cons (c : Char) (v : Nat) (cs : Str) (n : Nat) : HexDigit c v → HexValue cs n → HexValue (c :: cs) (v * 16 ^ cs.length + n)

/-- The natural number at the beginning of a text: `0x` or `0X` and hexadecimal digits, otherwise decimal digits, as many as there are;
0 without any digits. -/
def NumberAt (s : Str) (v : Nat) : Prop :=
  (∃ x ds rest, s = '0' :: x :: (ds ++ rest) ∧ (x = 'x' ∨ x = 'X') ∧ HexValue ds v ∧ ∀ c cs, rest = c :: cs → ∀ w, ¬ HexDigit c w) ∨
  ((∀ x r, s = '0' :: x :: r → x ≠ 'x' ∧ x ≠ 'X') ∧
    ∃ ds rest, s = ds ++ rest ∧ (∀ c ∈ ds, IsDigit c) ∧ (∀ c cs, rest = c :: cs → ¬ IsDigit c) ∧ v = digitsValue ds)

/-- The number at the beginning of a text: white space, a sign or none, and a natural number. -/
def IntegerAt (t : Str) (x : Int) : Prop :=
  ∃ w sign s v, t = w ++ (sign ++ s) ∧ Blank w ∧ sign ∈ ([[], ['+'], ['-']] : List Str) ∧
    (sign = [] → ∀ c cs, s = c :: cs → c ∉ [' ', '\t', '\n', '\r', '+', '-']) ∧ NumberAt s v ∧ x = if sign = ['-'] then -(v : Int) else v

/-- A name that can be used as a key: a letter or an underscore, followed by letters, digits and underscores. -/
def Identifier (k : Str) : Prop :=
  ∃ a r, k = a :: r ∧ (a = '_' ∨ IsLetter a) ∧ ∀ c ∈ r, c = '_' ∨ IsLetter c ∨ IsDigit c
where
  /-- A letter from A to Z or a to z. -/
  IsLetter (c : Char) : Prop := (65 ≤ c.toNat ∧ c.toNat ≤ 90) ∨ (97 ≤ c.toNat ∧ c.toNat ≤ 122)

/-- The name begins with the letters x, m, l (capital or not), which XML reserves. -/
def Reserved (k : Str) : Prop :=
  ∃ a b c r, k = a :: b :: c :: r ∧ (a = 'x' ∨ a = 'X') ∧ (b = 'm' ∨ b = 'M') ∧ (c = 'l' ∨ c = 'L')

/-- The place of a custom value. -/
def customField (key : Str) : List Str :=
  ["Metadata".toList, "Information".toList, "CustomAttributes".toList, "KeyValue".toList, key]

/-- Value and type of the node for a key: what a caller finds who asks for the node and then for its value and its attribute. -/
def CustomIs (doc : Node) (key : Str) (r : Option (Str × Str)) : Prop :=
  match r with
  | none => NoSuchNode doc (customField key)
  | some (text, type) => ∃ p n, PathDenotes doc (namesPath (customField key)) p ∧ doc.at p = some n ∧
      Verif.Xml.tryGetValue n = some text ∧ attrValue n.attrs "Type".toList = some type

/-- The text and the type that stand for a custom value. -/
def shownAs : CustomValue → Str × Str
  | .string s => (s, "String".toList)
  | .boolean true => ("true".toList, "Boolean".toList)
  | .boolean false => ("false".toList, "Boolean".toList)
  | .int32 v => (Text.printInt v, "Int32".toList)
  | .double t => (t, "Double".toList)
  | .float t => (t, "Float".toList)

/-- The document after a history of calls of `SetOrAddCustomKeyValuePair`, those that throw included. -/
def afterSets (ops : List (Str × CustomValue)) (doc : Node) : Node := ops.foldl (fun d e => (Verif.Xml.setCustom e.1 e.2 d).1) doc

/-- The last value set for a key. -/
def lastSet (key : Str) : List (Str × CustomValue) → Option CustomValue
  | [] => none
  | (k, v) :: ops => match lastSet key ops with
    | some w => some w
    | none => if k = key then some v else none

end Verif.Spec
