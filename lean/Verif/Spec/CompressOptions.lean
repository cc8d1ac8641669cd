import Verif.Spec.XmlValue
import Verif.Model.Enum

/-!
# Specification: compression options as text

`<compression method>: key=value; key=value; …`, white space everywhere between the tokens.
-/

namespace Verif.Spec
open Verif.Xml (Str)

/-- Letters (of the alphabet from a to z) and digits. -/
def LettersDigits (s : Str) : Prop :=
  ∀ c ∈ s, c ∈ "abcdefghijklmnopqrstuvwxyzABCDEFGHIJKLMNOPQRSTUVWXYZ0123456789".toList

/-- The characters of a value: letters, digits, full stop, plus, minus. -/
def ValueText (s : Str) : Prop :=
  ∀ c ∈ s, c ∈ "abcdefghijklmnopqrstuvwxyzABCDEFGHIJKLMNOPQRSTUVWXYZ0123456789.+-".toList

/-- The text of an item with this key and this value. -/
def OptionItem (t key value : Str) : Prop :=
  LettersDigits key ∧ ValueText value ∧
    ∃ w1 w2 w3 w4, White w1 ∧ White w2 ∧ White w3 ∧ White w4 ∧ t = w1 ++ key ++ w2 ++ ['='] ++ w3 ++ value ++ w4

/-- The text of a list of items (keys and values), separated by `;`; a `;` may also follow the last one. -/
inductive OptionList : Str → List (Str × Str) → Prop where
  | nil (w) : White w → OptionList w []
  | last (t k v) : OptionItem t k v → OptionList t [(k, v)]
  | cons (t k v r l) : OptionItem t k v → OptionList r l → OptionList (t ++ [';'] ++ r) ((k, v) :: l)

/-- The text with a method and a list of keys and values. -/
def OptionText (s method : Str) (items : List (Str × Str)) : Prop :=
  method ≠ [] ∧ LettersDigits method ∧ ∃ w1 w2 r, White w1 ∧ White w2 ∧ OptionList r items ∧ s = w1 ++ method ++ w2 ++ [':'] ++ r

/-- The names of the compression methods, in small letters. -/
def methodName : CompressionMode → Option Str
  | .UnCompressed => some "uncompressed".toList
  | .Jpg => some "jpg".toList
  | .JpgXr => some "jpgxr".toList
  | .Zstd0 => some "zstd0".toList
  | .Zstd1 => some "zstd1".toList
  | .Invalid => none

/-- The item gives a compression level. -/
def IsLevel (i : Str × Str) : Prop := CaseWord i.1 "explicitlevel".toList

/-- The item asks for the separation of low and high bytes. -/
def IsUnpack (i : Str × Str) : Prop := CaseWord i.1 "preprocess".toList ∧ CaseWord i.2 "hilobyteunpack".toList

/-- The value is a number of 32 bits with sign. -/
def LevelValue (i : Str × Str) (x : Int) : Prop := IntText i.2 x ∧ IsInt32 x

/-- The last item with `P` is `i`. -/
def LastWith {α : Type} (P : α → Prop) (l : List α) (i : α) : Prop := ∃ a b, l = a ++ i :: b ∧ P i ∧ ∀ j ∈ b, ¬ P j

/-- What a list of keys and values comes to: every level must be a number, the last one is used; other keys have no effect. -/
structure OptionsMean (items : List (Str × Str)) (level : Option Int) (unpack : Bool) : Prop where
  numbers : ∀ i ∈ items, IsLevel i → ∃ x, LevelValue i x
  noLevel : level = none → ∀ i ∈ items, ¬ IsLevel i
  lastLevel : ∀ x, level = some x → ∃ i, LastWith IsLevel items i ∧ LevelValue i x
  unpack : unpack = true ↔ ∃ i ∈ items, IsUnpack i

end Verif.Spec
