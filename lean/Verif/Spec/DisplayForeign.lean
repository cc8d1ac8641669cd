import Verif.Spec.Text
import Verif.Model.Text

/-!
# Specification of display settings that were not written by the library
-/

namespace Verif.Spec

/-- The text denotes the colour: blanks, `#`, two hexadecimal digits each for alpha, red, green and blue, any further hexadecimal digits, blanks. -/
def ArgbText (s : List Char) (c : Text.Rgb8) : Prop :=
  ∃ a1 a2 r1 r2 g1 g2 b1 b2 more, Padded ('#' :: a1 :: a2 :: r1 :: r2 :: g1 :: g2 :: b1 :: b2 :: more) s ∧
    (∀ x ∈ [a1, a2, r1, r2, g1, g2, b1, b2] ++ more, Text.isHex x = true) ∧ HexByte r1 r2 c.r ∧ HexByte g1 g2 c.g ∧ HexByte b1 b2 c.b

/-- The text means yes: its first character is `1`, or a letter as in `true` or `yes`. -/
def YesText (s : List Char) : Prop := ∃ c r, s = c :: r ∧ c ∈ ['1', 't', 'T', 'y', 'Y']

end Verif.Spec
