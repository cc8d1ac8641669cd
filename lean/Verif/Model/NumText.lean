import Verif.Model.Float
import Verif.Model.Xml

/-!
# Numbers with a fraction as text

Writing: `operator<<(wostream&, double)` and `operator<<(ostream&, double)` of the C++ standard library in the "C" locale, with `std::setprecision`. Reading: `wcstod` and
`std::stod`. Values are rational numbers as in `Model/Float.lean`: the range of exponents and the sign of zero are not modelled, so `ERANGE` (and with it the exception
`out_of_range` of `std::stod`) does not occur.
-/

namespace Verif.Xml

open Verif.Flt Verif.Text

/-- The first `p` significant digits (as a number with `p` digits) and the decimal exponent of the first one, correctly rounded (what `printf` with `%e` prints). -/
def sigDigits (p : Nat) (x : ℚ) : Nat × Int :=
  if x = 0 then (0, 0)
  else
    let e := Int.log 10 |x|
    let m := (roundEven (|x| / 10 ^ (e - ((p : Int) - 1)))).toNat
    if m = 10 ^ p then (10 ^ (p - 1), e + 1) else (m, e)

/-- The digits with leading zeros so that there are at least `p`. -/
def padDigits (p m : Nat) : Str := List.replicate (p - (decimal m).length) '0' ++ decimal m

/-- Without zeros at the end. -/
def stripZeros (s : Str) : Str := (s.reverse.dropWhile (fun c => c == '0')).reverse

/-- The fraction: no point without digits after it. -/
def fractionText (f : Str) : Str := if f = [] then [] else '.' :: f

/-- The exponent, with at least two digits. -/
def exponentText (e : Int) : Str := 'e' :: (if e < 0 then '-' else '+') :: padDigits 2 e.natAbs

def signText (x : ℚ) : Str := if x < 0 then ['-'] else []

/-- `<< std::scientific << std::setprecision(p - 1)`, CziMetadataBuilder.cpp:986. -/
def showE (p : Nat) (x : ℚ) : Str :=
  let me := sigDigits p x
  let ds := padDigits p me.1
  signText x ++ (ds.take 1 ++ (fractionText (ds.drop 1) ++ exponentText me.2))

/-- `<< std::setprecision(p)` (what `printf` with `%g` prints), CziMetadataBuilder.cpp:201 and 210. -/
def showG (p : Nat) (x : ℚ) : Str :=
  let me := sigDigits p x
  let ds := padDigits p me.1
  signText x ++
    (if -4 ≤ me.2 ∧ me.2 < p then
      if 0 ≤ me.2 then ds.take (me.2.toNat + 1) ++ fractionText (stripZeros (ds.drop (me.2.toNat + 1)))
      else '0' :: fractionText (stripZeros (List.replicate (-me.2 - 1).toNat '0' ++ ds))
    else ds.take 1 ++ (fractionText (stripZeros (ds.drop 1)) ++ exponentText me.2))

/-- What `wcstod` returns. -/
inductive Num where
  | fin (x : ℚ)
  | inf (neg : Bool)
  | nan
  deriving DecidableEq

def isHexDigit (c : Char) : Bool := c.isDigit || (97 ≤ c.toNat && c.toNat ≤ 102) || (65 ≤ c.toNat && c.toNat ≤ 70)

/-- The value of hexadecimal digits. -/
def hexOf (ds : Str) : Nat := ds.foldl (fun n c => 16 * n + (if c.isDigit then c.toNat - 48 else c.toNat % 32 + 9)) 0

/-- The optional exponent: a letter, a sign, digits; nothing is taken if there are no digits. -/
def scanExponent (letter : Char → Bool) (r : Str) : Int × Str :=
  match r with
  | [] => (0, [])
  | c :: r' =>
    if letter c then
      let t := if r'.head? = some '-' ∨ r'.head? = some '+' then r'.drop 1 else r'
      if t.takeWhile Char.isDigit = [] then (0, r)
      else (if r'.head? = some '-' then -(natOf (t.takeWhile Char.isDigit) : Int) else natOf (t.takeWhile Char.isDigit), t.dropWhile Char.isDigit)
    else (0, r)

/-- Digits, optionally with a point: the digits before and after it, the rest; `none`: no digits. -/
def scanPoint (digit : Char → Bool) (s : Str) : Option (Str × Str × Str) :=
  let ip := s.takeWhile digit
  let r := s.dropWhile digit
  let fp := if r.head? = some '.' then (r.drop 1).takeWhile digit else []
  let r := if r.head? = some '.' then (r.drop 1).dropWhile digit else r
  if ip = [] ∧ fp = [] then none else some (ip, fp, r)

/-- A decimal number. -/
def scanDecimal (s : Str) : Option (ℚ × Str) :=
  (scanPoint Char.isDigit s).map fun t =>
    let e := scanExponent (fun c => c = 'e' || c = 'E') t.2.2
    (natOf (t.1 ++ t.2.1) * 10 ^ (e.1 - t.2.1.length), e.2)

/-- A hexadecimal number, after `0x`. -/
def scanHex (s : Str) : Option (ℚ × Str) :=
  (scanPoint isHexDigit s).map fun t =>
    let e := scanExponent (fun c => c = 'p' || c = 'P') t.2.2
    (hexOf (t.1 ++ t.2.1) * 2 ^ (e.1 - 4 * t.2.1.length), e.2)

/-- `s` begins with `w` (in upper case), regardless of case. -/
def startsWith (w s : Str) : Bool := (s.take w.length).map upper == w

/-- The characters in the parentheses after `nan`. -/
def afterNan (s : Str) : Str :=
  if s.head? = some '(' then
    let t := (s.drop 1).dropWhile (fun c => c.isDigit || isLetter c || c = '_')
    if t.head? = some ')' then t.drop 1 else s
  else s

/-- `wcstod`, without white space and sign: the number before rounding and the rest; `none`: no conversion. -/
def scanNumber (s : Str) : Option (Num × Str) :=
  if startsWith "INFINITY".toList s then some (.inf false, s.drop 8)
  else if startsWith "INF".toList s then some (.inf false, s.drop 3)
  else if startsWith "NAN".toList s then some (.nan, afterNan (s.drop 3))
  else
    match if startsWith "0X".toList s then scanHex (s.drop 2) else none with
    | some (x, r) => some (.fin x, r)
    | none => (scanDecimal s).map fun t => (.fin t.1, t.2)

def Num.signed (neg : Bool) : Num → Num
  | .fin x => .fin (if neg then -x else x)
  | .inf b => .inf (b != neg)
  | .nan => .nan

def Num.map (f : ℚ → ℚ) : Num → Num
  | .fin x => .fin (f x)
  | n => n

/-- `wcstod`: white space, sign, number, rounded to `double`; and the rest of the string. `none`: no conversion (the result is 0 and the rest is the whole string). -/
def wcstod (s : Str) : Option (Num × Str) :=
  let r := s.dropWhile isSpace
  let t := if r.head? = some '-' ∨ r.head? = some '+' then r.drop 1 else r
  (scanNumber t).map fun q => ((q.1.signed (decide (r.head? = some '-'))).map f64, q.2)

/-- `xml_text::as_double`, pugixml.cpp:4668-4675. -/
def asDouble (s : Str) : Num := ((wcstod s).map (·.1)).getD (.fin 0)

/-- `xml_text::as_float`, pugixml.cpp:4677-4684: a `double` converted to `float`. -/
def asFloat (s : Str) : Num := (asDouble s).map f32

/-- `TryGetValueAsDouble`, CziMetadata.cpp:107-161. -/
def tryGetDouble (n : Node) : Read Num :=
  match tryGetValue n with
  | none => .fails
  | some s => match wcstod s with
    | none => finish (.fin 0) s
    | some (x, rest) => finish x rest

/-- `TryGetValueAsFloat`, CziMetadata.cpp:163-178. -/
def tryGetFloat (n : Node) : Read Num :=
  match tryGetDouble n with
  | .value x => .value (x.map f32)
  | .fails => .fails
  | .hangs => .hangs

/-- `SetValueDbl`, CziMetadataBuilder.cpp:197-204 (`digits10` of `double` is 15). -/
def setDouble (x : ℚ) (n : Node) : Except Unit Node := setValue (showG 15 x) n

/-- `SetValueFlt`, CziMetadataBuilder.cpp:206-213 (`digits10` of `float` is 6). -/
def setFloat (x : ℚ) (n : Node) : Except Unit Node := setValue (showG 6 x) n

end Verif.Xml
