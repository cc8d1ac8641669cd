import Verif.Model.Coord
import Verif.Spec.Czi

/-!
# Specification: text formats

Independent of the parsers: which texts denote which values.
-/

namespace Verif.Spec

/-- The two letters that denote a dimension. -/
def letters : Dim → List Char
  | .Z => ['Z', 'z'] | .C => ['C', 'c'] | .T => ['T', 't'] | .R => ['R', 'r'] | .S => ['S', 's']
  | .I => ['I', 'i'] | .H => ['H', 'h'] | .V => ['V', 'v'] | .B => ['B', 'b']

/-- A character that is a decimal digit. -/
def IsDigit (c : Char) : Prop := c ∈ ['0', '1', '2', '3', '4', '5', '6', '7', '8', '9']

/-- The number denoted by decimal digits: the last digit counts once, the ones before it ten times. -/
def digitsValue : List Char → Nat
  | [] => 0
  | c :: cs => (c.toNat - '0'.toNat) * 10 ^ cs.length + digitsValue cs

/-- A non-empty sequence of digits. -/
def Digits (ds : List Char) : Prop := ds ≠ [] ∧ ∀ c ∈ ds, IsDigit c

/-- Separators of coordinates. -/
def Separators (s : List Char) : Prop := ∀ c ∈ s, c ∈ ['\t', ' ', ',', ';']

/-- Blanks. -/
def Blanks (s : List Char) : Prop := ∀ c ∈ s, c ∈ ['\t', ' ']

/-- One item of a coordinate text: separators, dimension letter, blanks, sign, blanks, digits, separators. -/
structure CoordItem where
  before : List Char
  letter : Char
  blanks1 : List Char
  sign : Option Char
  blanks2 : List Char
  digits : List Char
  after : List Char
  dim : Dim
  value : Int

/-- The text of the item. -/
def CoordItem.text (i : CoordItem) : List Char :=
  i.before ++ i.letter :: (i.blanks1 ++ i.sign.toList ++ i.blanks2 ++ i.digits ++ i.after)

/-- The item is well formed and denotes `value` for the dimension `dim`. -/
structure CoordItem.Ok (i : CoordItem) : Prop where
  before : Separators i.before
  letter : i.letter ∈ letters i.dim
  blanks1 : Blanks i.blanks1
  sign : i.sign = none ∨ i.sign = some '+' ∨ i.sign = some '-'
  blanks2 : Blanks i.blanks2
  digits : Digits i.digits
  after : Separators i.after
  value : i.value = if i.sign = some '-' then -(digitsValue i.digits : Int) else digitsValue i.digits
  range : IsInt32 i.value

/-- A negative number written with leading zeros before ten or more significant digits. -/
def CoordItem.LongNegative (i : CoordItem) : Prop :=
  i.sign = some '-' ∧ ∃ ds, i.digits = '0' :: ds ∧ 1000000000 ≤ digitsValue ds

/-- The coordinate given by items with different dimensions. -/
def Denotes (items : List CoordItem) (c : Coord) : Prop :=
  ∀ d v, c d = some v ↔ ∃ i ∈ items, i.dim = d ∧ i.value = v

/-- White space. -/
def White (s : List Char) : Prop := ∀ c ∈ s, c ∈ [' ', '\t', '\n', '\x0b', '\x0c', '\r']

/-- A number in an index set: digits with an optional sign (white space may follow the sign), or `inf`, `+inf`, `-inf`, which stand for the
largest and the smallest index. -/
inductive IndexNumber : List Char → Int → Prop where
  | plain (ds) : Digits ds → IndexNumber ds (digitsValue ds)
  | plus (w ds) : White w → Digits ds → IndexNumber ('+' :: (w ++ ds)) (digitsValue ds)
  | minus (w ds) : White w → Digits ds → IndexNumber ('-' :: (w ++ ds)) (-(digitsValue ds : Int))
  | inf : IndexNumber ['i', 'n', 'f'] 2147483647
  | plusInf (w) : White w → IndexNumber ('+' :: (w ++ ['i', 'n', 'f'])) 2147483647
  | minusInf (w) : White w → IndexNumber ('-' :: (w ++ ['i', 'n', 'f'])) (-2147483648)

/-- A lone sign (with white space after it). -/
inductive BareSign : List Char → Prop where
  | mk (c w) : c = '+' ∨ c = '-' → White w → BareSign (c :: w)

/-- An item of an index set: a number, or two numbers separated by `-`; `N` is the notion of number. -/
inductive IndexItem (N : List Char → Int → Prop) : List Char → Int → Int → Prop where
  | single (t w v) : N t v → IsInt32 v → White w → IndexItem N (t ++ w) v v
  | interval (t w u a b) : N t a → White w → N u b → IsInt32 a → IsInt32 b → IndexItem N (t ++ w ++ '-' :: u) a b

/-- A number in a bounds text: digits with an optional sign. -/
inductive BoundsNumber : List Char → Int → Prop where
  | plain (ds) : Digits ds → BoundsNumber ds (digitsValue ds)
  | plus (ds) : Digits ds → BoundsNumber ('+' :: ds) (digitsValue ds)
  | minus (ds) : Digits ds → BoundsNumber ('-' :: ds) (-(digitsValue ds : Int))

/-- A vertical bar in front of a number, which makes it 0 (not part of the documented syntax). -/
inductive BarNumber : List Char → Int → Prop where
  | bar (ds) : Digits ds → BarNumber ('|' :: ds) 0

/-- All starts and sizes are `int`s and no size is 0. -/
def BoundsOk (b : Bounds) : Prop := ∀ d s n, b d = some (s, n) → IsInt32 s ∧ IsInt32 n ∧ n ≠ 0

end Verif.Spec

namespace Verif.Spec

/-- The text made of parts separated by commas. -/
def joinComma : List (List Char) → List Char
  | [] => []
  | [p] => p
  | p :: ps => p ++ ',' :: joinComma ps

/-- `p` is `t` with blanks around it; `t` itself neither starts nor ends with a blank. -/
def Padded (t p : List Char) : Prop :=
  ∃ before after, p = before ++ t ++ after ∧ Blanks before ∧ Blanks after ∧
    (∀ c, t.head? = some c → c ∉ ['\t', ' ']) ∧ (∀ c, t.getLast? = some c → c ∉ ['\t', ' '])

/-- The two lists have the same length and corresponding elements are related. -/
inductive Each {α β : Type} (R : α → β → Prop) : List α → List β → Prop where
  | nil : Each R [] []
  | cons {a b as bs} : R a b → Each R as bs → Each R (a :: as) (b :: bs)

/-- The text denotes the list of intervals: it consists of parts separated by commas; the non-empty parts are, in order, items with blanks
around them that denote the intervals, none of which is reversed. -/
def IndexText (N : List Char → Int → Prop) (s : List Char) (l : List (Int × Int)) : Prop :=
  ∃ parts : List (List Char), parts ≠ [] ∧ s = joinComma parts ∧ (∀ p ∈ parts, ',' ∉ p) ∧
    Each (fun p (iv : Int × Int) => ∃ t, Padded t p ∧ IndexItem N t iv.1 iv.2 ∧ iv.1 ≤ iv.2) (parts.filter (fun p => p ≠ [])) l

/-- Numbers as the parser takes them: also a lone sign, which counts as 0. -/
def LooseNumber (t : List Char) (v : Int) : Prop := IndexNumber t v ∨ (BareSign t ∧ v = 0)

end Verif.Spec

namespace Verif.Spec

/-- The value of a hexadecimal digit (upper or lower case). -/
def hexDigit (c : Char) : Option Nat :=
  (["0123456789ABCDEF".toList, "0123456789abcdef".toList].findSome? (fun l => if c ∈ l then some (l.idxOf c) else none))

/-- Two hexadecimal digits denote the byte. -/
def HexByte (h l : Char) (v : UInt8) : Prop := ∃ a b, hexDigit h = some a ∧ hexDigit l = some b ∧ v.toNat = 16 * a + b

/-- A key or value with `;` and `=` escaped by a backslash. -/
def escape : List Char → List Char
  | [] => []
  | c :: s => if c = ';' ∨ c = '=' then '\\' :: c :: escape s else c :: escape s

/-- The text of a list of key-value pairs: `key=value` separated by `;`. -/
def composePairs : List (List Char × List Char) → List Char
  | [] => []
  | [p] => escape p.1 ++ '=' :: escape p.2
  | p :: ps => escape p.1 ++ '=' :: escape p.2 ++ ';' :: composePairs ps

/-- The text does not end with a backslash. -/
def NoTrailingBackslash (s : List Char) : Prop := s.getLast? ≠ some '\\'

end Verif.Spec
