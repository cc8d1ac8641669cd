import Verif.Model.JsonOptions

/-!
# What a JSON text says
-/

namespace Verif.Spec
open Verif.JsonOpt

/-- The object has a member with that name, and the first of them has the value `v`. -/
def HasValue (m : List (List Char × Json)) (key : String) (v : Json) : Prop :=
  ∃ pre post, m = pre ++ (key.toList, v) :: post ∧ ∀ e ∈ pre, e.1 ≠ key.toList

/-- The text is an object with these members. -/
def SaysObject (parse : Parser) (text : Option (List Char)) (m : List (List Char × Json)) : Prop := ∃ t, text = some t ∧ parse t = some (.obj m)

/-- An integer with 32 bits. -/
def Is32 (n : Int) : Prop := -2147483648 ≤ n ∧ n ≤ 2147483647

/-- The value `j` is of the type of the property, and its value is `v`. -/
def PropIs : PropType → Json → PropValue → Prop
  | .string, .str s, .string t => t = cstr s
  | .boolean, .bool b, .boolean c => b = c
  | .int32, .int n, .int32 k => n = k ∧ Is32 n
  | _, _, _ => False

/-- The first member whose name (up to a zero character) is that of the property has the value `v`. -/
def FirstProp (m : List (List Char × Json)) (p : PropInfo) (v : PropValue) : Prop :=
  ∃ pre name j post, m = pre ++ (name, j) :: post ∧ cstr name = p.name.toList ∧ (∀ e ∈ pre, cstr e.1 ≠ p.name.toList) ∧ PropIs p.type j v

/-- A name or string without a zero character. -/
def NoZero (s : List Char) : Prop := ∀ c ∈ s, c.toNat ≠ 0

end Verif.Spec
