import Verif.Model.Float
import Verif.Spec.Text

/-!
# Specification of numbers with a fraction as text
-/

namespace Verif.Spec

/-- A decimal number with at most `p` significant digits. -/
def HasDigits (p : ℕ) (d : ℚ) : Prop := ∃ m k : ℤ, |m| < 10 ^ p ∧ d = m * 10 ^ k

/-- `d` is a decimal number with at most `p` significant digits, and none is nearer to `x`. -/
def RoundedToDigits (p : ℕ) (x d : ℚ) : Prop := HasDigits p d ∧ ∀ d', HasDigits p d' → |d - x| ≤ |d' - x|

/-- The sign: none, plus, minus. -/
inductive SignText : List Char → ℚ → Prop
  | none : SignText [] 1
  | plus : SignText ['+'] 1
  | minus : SignText ['-'] (-1)

/-- The part of a number text after the digits: nothing, or the letter `e` with an exponent. -/
inductive ExponentText : List Char → ℤ → Prop
  | none : ExponentText [] 0
  | some {c : Char} {s ds : List Char} {g : ℤ} : c = 'e' ∨ c = 'E' → (s = [] ∧ g = 1 ∨ s = ['+'] ∧ g = 1 ∨ s = ['-'] ∧ g = -1) → Digits ds → ExponentText (c :: (s ++ ds)) (g * digitsValue ds)

/-- The text is a decimal number in the usual notation, and denotes `d`: sign, digits, optionally a point and more digits (before or after the point there may be none, not both),
exponent. -/
def NumberText (t : List Char) (d : ℚ) : Prop :=
  ∃ (sg ip pf fp ex : List Char) (g : ℚ) (e : ℤ), t = sg ++ (ip ++ (pf ++ ex)) ∧ SignText sg g ∧ (∀ c ∈ ip ++ fp, IsDigit c) ∧ ip ++ fp ≠ [] ∧
    (pf = [] ∧ fp = [] ∨ pf = '.' :: fp) ∧ ExponentText ex e ∧ d = g * (digitsValue (ip ++ fp) * 10 ^ (e - fp.length))

/-- What may follow a number without being taken for a part of it. -/
def EndsNumber (r : List Char) : Prop := ∀ c cs, r = c :: cs → ¬IsDigit c ∧ c ∉ ['.', 'e', 'E', 'x', 'X']

/-- The hexadecimal digits and their values. -/
def hexDigitTable : List (Char × ℕ) :=
  [('0', 0), ('1', 1), ('2', 2), ('3', 3), ('4', 4), ('5', 5), ('6', 6), ('7', 7), ('8', 8), ('9', 9), ('a', 10), ('b', 11), ('c', 12), ('d', 13), ('e', 14), ('f', 15),
   ('A', 10), ('B', 11), ('C', 12), ('D', 13), ('E', 14), ('F', 15)]

/-- Hexadecimal digits and the number they denote: the last digit is that of the units. -/
inductive HexNumber : List Char → ℕ → Prop
  | nil : HexNumber [] 0
  | snoc {ds : List Char} {n : ℕ} {c : Char} {v : ℕ} : HexNumber ds n → (c, v) ∈ hexDigitTable → HexNumber (ds ++ [c]) (16 * n + v)

/-- The part of a hexadecimal number text after the digits: nothing, or the letter `p` with a power of two, in decimal notation. -/
inductive BinaryExponentText : List Char → ℤ → Prop
  | none : BinaryExponentText [] 0
  | some {c : Char} {s ds : List Char} {g : ℤ} : c = 'p' ∨ c = 'P' → (s = [] ∧ g = 1 ∨ s = ['+'] ∧ g = 1 ∨ s = ['-'] ∧ g = -1) → Digits ds →
      BinaryExponentText (c :: (s ++ ds)) (g * digitsValue ds)

/-- The text is a hexadecimal number in the notation of C, and denotes `d`: sign, `0x`, hexadecimal digits, optionally a point and more digits, power of two. -/
def HexNumberText (t : List Char) (d : ℚ) : Prop :=
  ∃ (sg ip pf fp ex : List Char) (g : ℚ) (x : Char) (n : ℕ) (e : ℤ), t = sg ++ ('0' :: x :: (ip ++ (pf ++ ex))) ∧ SignText sg g ∧ (x = 'x' ∨ x = 'X') ∧ HexNumber (ip ++ fp) n ∧
    ip ++ fp ≠ [] ∧ (pf = [] ∧ fp = [] ∨ pf = '.' :: fp) ∧ BinaryExponentText ex e ∧ d = g * (n / 16 ^ fp.length * 2 ^ e)

/-- A value of type `double`. -/
def IsDouble (x : ℚ) : Prop := ∃ m k : ℤ, |m| < 2 ^ 53 ∧ x = m * 2 ^ k

/-- A value of type `float`. -/
def IsFloat (x : ℚ) : Prop := ∃ m k : ℤ, |m| < 2 ^ 24 ∧ x = m * 2 ^ k

end Verif.Spec
