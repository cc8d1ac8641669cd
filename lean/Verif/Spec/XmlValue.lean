import Verif.Spec.Xml
import Verif.Spec.Text

/-!
# Specification: values of metadata nodes
-/

namespace Verif.Spec
open Verif.Xml (Node Str)

/-- A decimal number: white space, a sign or none, digits. -/
def IntText (s : Str) (x : Int) : Prop :=
  ∃ w sign ds, s = w ++ (sign ++ ds) ∧ White w ∧ sign ∈ ([[], ['+'], ['-']] : List Str) ∧ Digits ds ∧
    x = if sign = ['-'] then -(digitsValue ds : Int) else digitsValue ds

/-- The word `w` (in small letters), written in capital or small letters. -/
def CaseWord (t w : Str) : Prop := Each (fun c l => c = l ∨ (97 ≤ l.toNat ∧ l.toNat ≤ 122 ∧ c.toNat + 32 = l.toNat)) t w

/-- The words for a truth value. -/
def boolWords : Bool → List Str
  | true => ["yes".toList, "true".toList, "1".toList]
  | false => ["no".toList, "false".toList, "0".toList]

/-- All nodes of `a` other than the one at `h` and those below it are in `b`, at their position and unchanged. -/
def KeepsOutside (h : List Nat) (a b : Node) : Prop :=
  ∀ q, ¬ h <+: q → match a.at q with
    | none => b.at q = none
    | some m => ∃ m', b.at q = some m' ∧ SameNode m m'

end Verif.Spec
