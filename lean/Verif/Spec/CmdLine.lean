import Verif.Spec.ChannelText
import Verif.Spec.XmlValue
import Verif.Spec.CApi
import Verif.Spec.NumText

/-!
# Specification: the texts given to the options of CZICmd
-/

namespace Verif.Spec

/-- Two numbers with an `x` or an asterisk between them, and white space around that; the texts of the numbers are `a` and `b`. -/
def TimesText (s a b : List Char) : Prop :=
  ∃ w1 c w2, s = a ++ (w1 ++ c :: (w2 ++ b)) ∧ White w1 ∧ c ∈ ['*', 'x', 'X'] ∧ White w2 ∧ Digits a ∧ Digits b

/-- A percentage after a comma, a semicolon or a dash, with white space around all parts. -/
def PercentText (s p : List Char) : Prop :=
  ∃ w1 c w2 w3 w4, s = w1 ++ c :: (w2 ++ (p ++ (w3 ++ '%' :: w4))) ∧ White w1 ∧ c ∈ [',', ';', '-'] ∧ White w2 ∧ White w3 ∧ White w4 ∧ Digits p

/-- The text of a number that is not zero and has at most 32 bits. -/
def Positive32 (t : List Char) (v : Nat) : Prop := digitsValue t = v ∧ 0 < v ∧ v ≤ 4294967295

/-- A number of 32 bits with an optional sign, after white space and before blanks. -/
def PaddedInt32 (s : List Char) (v : Int) : Prop := ∃ w t a, s = w ++ (t ++ a) ∧ White w ∧ Blanks a ∧ Int32Text t v

/-- A region: `abs` or `rel`, and in parentheses, separated by commas, the position and the extent. -/
def RegionText (s : List Char) (absolute : Bool) (x y w h : Int) : Prop :=
  ∃ tx ty tw th, s = (if absolute then "abs(".toList else "rel(".toList) ++ (tx ++ ',' :: (ty ++ ',' :: (tw ++ ',' :: (th ++ [')'])))) ∧
    Int32Text tx x ∧ Int32Text ty y ∧ Int32Text tw w ∧ Int32Text th h ∧ 0 < w ∧ 0 < h

/-- The word `bgra32` in capital or small letters with `t` in parentheses behind it. -/
def WithAlpha (s t : List Char) : Prop := ∃ word, s = word ++ (t ++ [')']) ∧ CaseWord word "bgra32(".toList

/-- A decimal number up to 255, or a hexadecimal one after `0x`. -/
def AlphaText (t : List Char) (v : Nat) : Prop :=
  v ≤ 255 ∧ (Digits t ∧ digitsValue t = v ∨ ∃ hs, t = '0' :: 'x' :: hs ∧ hs ≠ [] ∧ hexNumber hs = some v)

/-- `0X` with a capital letter, and hexadecimal digits (or bars) behind it. -/
def CapitalHex (t : List Char) : Prop := ∃ hs, t = '0' :: 'X' :: hs ∧ hs ≠ [] ∧ ∀ c ∈ hs, c = '|' ∨ (hexDigit c).isSome

/-- The text is a list of the parts, separated by commas or semicolons. -/
inductive ListText : List Char → List (List Char) → Prop where
  | last {p} : ',' ∉ p → ';' ∉ p → ListText p [p]
  | next {p c s ps} : ',' ∉ p → ';' ∉ p → c = ',' ∨ c = ';' → ListText s ps → ListText (p ++ c :: s) (p :: ps)

/-- The words for levels of messages, in small letters, and the bits they stand for. -/
def verbosityWords : List (List Char × Nat) :=
  [("all".toList, 0xffffffff), ("errors".toList, 3), ("errors1".toList, 1), ("errors2".toList, 2), ("warnings".toList, 12), ("warnings1".toList, 4),
   ("warnings2".toList, 8), ("infos".toList, 48), ("infos1".toList, 16), ("infos2".toList, 32)]

/-- The words for kinds of information, in small letters, and the bits they stand for. -/
def infoWords : List (List Char × Nat) :=
  [("statistics".toList, 1), ("rawxml".toList, 2), ("displaysettings".toList, 4), ("displaysettingsjson".toList, 8), ("allsubblocks".toList, 16),
   ("attachments".toList, 32), ("allattachments".toList, 64), ("pyramidstatistics".toList, 128), ("generalinfo".toList, 256), ("scalinginfo".toList, 512),
   ("all".toList, 1023)]

/-- The item is blank, or a word in capital or small letters with blanks around it. -/
def ItemBits (words : List (List Char × Nat)) (item : List Char) (bits : Nat) : Prop :=
  ∃ t, Padded t item ∧ (t = [] ∧ bits = 0 ∨ ∃ word, (word, bits) ∈ words ∧ CaseWord t word)

/-- Exactly the bits of the numbers together. -/
def BitsOf (v : Nat) (bits : List Nat) : Prop := ∀ k, v.testBit k = true ↔ ∃ b ∈ bits, b.testBit k = true

/-- A decimal number without exponent: digits, optionally with a point (before or after it there may be no digits, not both), and a plus sign or none. -/
def PlainNumber (t : List Char) (d : ℚ) : Prop :=
  ∃ sg ip pf fp : List Char, t = sg ++ (ip ++ pf) ∧ (sg = [] ∨ sg = ['+']) ∧ (∀ c ∈ ip ++ fp, IsDigit c) ∧ ip ++ fp ≠ [] ∧ (pf = [] ∧ fp = [] ∨ pf = '.' :: fp) ∧
    d = digitsValue (ip ++ fp) / 10 ^ fp.length

/-- A unit of size: the letter k, m, g or t, an `i` for powers of 1024 instead of 1000, and a `b` that has no meaning. -/
def UnitText (u : List Char) (factor : Nat) : Prop :=
  ∃ c i b n, u = c :: (i ++ b) ∧ (c ∈ ['k', 'K'] ∧ n = 1 ∨ c ∈ ['m', 'M'] ∧ n = 2 ∨ c ∈ ['g', 'G'] ∧ n = 3 ∨ c ∈ ['t', 'T'] ∧ n = 4) ∧
    (i = [] ∨ i = ['i'] ∨ i = ['I']) ∧ (b = [] ∨ b = ['b'] ∨ b = ['B']) ∧ factor = (if i = [] then 1000 else 1024) ^ n

/-- A size: a number with a unit, and white space around both. -/
def CacheText (s : List Char) (d : ℚ) (factor : Nat) : Prop :=
  ∃ w1 t w2 u w3, s = w1 ++ (t ++ (w2 ++ (u ++ w3))) ∧ White w1 ∧ White w2 ∧ White w3 ∧ PlainNumber t d ∧ UnitText u factor

/-- A comma, a semicolon or a bar with white space around it, or just white space. -/
def GapText (g : List Char) : Prop := (∃ w1 c w2, g = w1 ++ c :: w2 ∧ White w1 ∧ White w2 ∧ c ∈ [';', ',', '|']) ∨ (White g ∧ g ≠ [])

end Verif.Spec
