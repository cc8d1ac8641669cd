import Verif.Model.Coord
import Verif.Model.Enum

/-!
# Text formats: coordinates, bounds, index sets, colours, key-value strings

Strings are lists of characters. A C string (`const char*`) is the list of its characters before the terminating zero; reading at the
end of the list gives `'\0'`. Simplification: the classification functions `isdigit`, `isspace`, `isxdigit` and their wide versions are
those of the "C" locale.
-/

namespace Verif.Text

/-- `isspace`/`iswspace` and `\s` of `std::regex` in the "C" locale. -/
def isSpace (c : Char) : Bool := c = ' ' || c = '\t' || c = '\n' || c = '\x0b' || c = '\x0c' || c = '\r'

/-- The value of a sequence of decimal digits, as computed by `strtoll`/`wcstol` before saturation. -/
def natOf (ds : List Char) : Nat := ds.foldl (fun n c => 10 * n + (c.toNat - 48)) 0

/-- Saturation of `strtoll` (and of `wcstol` where `long` has 64 bits). -/
def saturate (v : Int) : Int := if v > 9223372036854775807 then 9223372036854775807 else if v < -9223372036854775808 then -9223372036854775808 else v

/-- `strtoll(s, nullptr, 10)` / `wcstol`: optional sign, then as many digits as there are; 0 if there are none.
Leading white space is not modelled: no caller passes it. -/
def strtoll (s : List Char) : Int :=
  match s with
  | '-' :: r => saturate (-(natOf (r.takeWhile Char.isDigit) : Int))
  | '+' :: r => saturate (natOf (r.takeWhile Char.isDigit))
  | r => saturate (natOf (r.takeWhile Char.isDigit))

/-- `TryParseInt`, DimCoordinate.cpp:237-252. -/
def tryParseInt (s : List Char) : Option Int :=
  if strtoll s > intMax ∨ strtoll s < intMin then none else some (strtoll s)

/-- `operator<<(ostream&, int)` for a non-negative number: decimal digits without leading zeros. -/
def decimal (n : Nat) : List Char :=
  if n < 10 then [Char.ofNat (48 + n)] else decimal (n / 10) ++ [Char.ofNat (48 + n % 10)]

/-- `operator<<(ostream&, int)`. -/
def printInt (v : Int) : List Char := if v < 0 then '-' :: decimal v.natAbs else decimal v.natAbs

/-! ## Coordinates -/

/-- `Utils::DimCoordinateToString`, libCZI_Utilities.cpp:478-491. -/
def coordToString (c : Coord) : List Char :=
  Dim.all.flatMap (fun d => match c d with | none => [] | some v => dimensionToChar d :: printInt v)

/-- The cases of the first and the last skipping loop, DimCoordinate.cpp:115-121 and 205-211. -/
def isSep (c : Char) : Bool := c = '\t' || c = ' ' || c = ',' || c = ';'

/-- The cases of the skipping loops after the dimension and after the sign, DimCoordinate.cpp:139-145 and 162-168. -/
def isBlank (c : Char) : Bool := c = '\t' || c = ' '

/-- `MAX_CHARS_FOR_NUMBER`, DimCoordinate.cpp:104. -/
def maxChars : Nat := 11

/-- The loop over the digits, DimCoordinate.cpp:174-216, without the skipping at its end. `num` is the content of `number`, `zero` tells
whether a leading zero was stored (`noOfZeroLeadingDigits`), `nz` is `nonZeroLeadingDigitFound`. Result: `number`,
`hasDigit` and the rest of the string; `none` = `return false`. -/
def digitsLoop : List Char → List Char → Bool → Bool → Option (List Char × Bool × List Char)
  | [], num, zero, nz => some (num, zero || nz, [])
  | c :: s, num, zero, nz =>
    if c.isDigit then
      if c = '0' ∧ nz = false then
        if zero = false then digitsLoop s (num ++ [c]) true nz else digitsLoop s num zero nz
      else if maxChars ≤ num.length then none
      else digitsLoop s (num ++ [c]) zero true
    else some (num, zero || nz, c :: s)

/-- Skip the optional sign (and white space after it), DimCoordinate.cpp:151-170: what is stored in `number`, and the rest. -/
def signPart : List Char → List Char × List Char
  | '-' :: s => (['-'], s.dropWhile isBlank)
  | '+' :: s => ([], s.dropWhile isBlank)
  | s => ([], s)

/-- `Int_ParseCoordinate`, DimCoordinate.cpp:100-235: dimension, value and the rest of the string; `none` = `return false`. -/
def parseItem (s : List Char) : Option (Dim × Int × List Char) :=
  match s.dropWhile isSep with
  | [] => none
  | ch :: s1 =>
    match charToDimension ch with
    | none => none
    | some d =>
      match digitsLoop (signPart (s1.dropWhile isBlank)).2 (signPart (s1.dropWhile isBlank)).1 false false with
      | none => none
      | some (num, hasDigit, rest) =>
        if hasDigit = false then none
        else match tryParseInt num with
          | none => none
          | some v => some (d, v, rest.dropWhile isSep)

/-- `LibCZIStringParseException::ErrorType`, libCZI_exceptions.h. `fuel` is not an error of the code: the number of iterations allotted
to a loop of the model was too small (C27_parse_exact shows that it never is). -/
inductive ParseError where
  | InvalidSyntax | DuplicateDimension | FromGreaterThanTo | fuel
  deriving DecidableEq, Repr

/-- The loop of `ParseCoordinate`, DimCoordinate.cpp:20-38. -/
def parseItems : Nat → List Char → Coord → Except ParseError Coord
  | _, [], c => .ok c
  | 0, _, _ => .error .fuel
  | n + 1, s, c =>
    match parseItem s with
    | none => .error .InvalidSyntax
    | some (d, v, rest) =>
      if (c d).isSome then .error .DuplicateDimension
      else parseItems n rest (c.set d v)

/-- `CDimCoordinate::Parse`, DimCoordinate.cpp:255-259, 15-41. `Utils::StringToDimCoordinate`, libCZI_Utilities.cpp:493-512, returns
`true` and the coordinate, or `false` for an exception. -/
def parseCoordinate (s : List Char) : Except ParseError Coord := parseItems s.length s Coord.empty

/-! ## Bounds -/

/-- Body of the loop of `Utils::DimBoundsToString`, libCZI_Utilities.cpp:519-523. -/
def boundsPart (b : Bounds) (d : Dim) : List Char :=
  match b d with
  | none => []
  | some (s, n) => dimensionToChar d :: (printInt s ++ ':' :: printInt n)

/-- `Utils::DimBoundsToString`, libCZI_Utilities.cpp:514-527. -/
def boundsToString (b : Bounds) : List Char := Dim.all.flatMap (boundsPart b)

/-- `[a-zA-Z]`. -/
def isLetter (c : Char) : Bool := (65 ≤ c.toNat && c.toNat ≤ 90) || (97 ≤ c.toNat && c.toNat ≤ 122)

/-- `[\+|-]?[0-9]+` matched greedily at the start of the string: the matched text and the rest. -/
def matchNumber (s : List Char) : Option (List Char × List Char) :=
  match s with
  | [] => none
  | c :: r =>
    if c = '+' ∨ c = '|' ∨ c = '-' then
      if r.takeWhile Char.isDigit = [] then none else some (c :: r.takeWhile Char.isDigit, r.dropWhile Char.isDigit)
    else
      if s.takeWhile Char.isDigit = [] then none else some (s.takeWhile Char.isDigit, s.dropWhile Char.isDigit)

/-- A match of the regular expression of `ParseBounds`, DimCoordinate.cpp:46, at the start of the string:
the three groups and the rest. The expression has at most one match at a given position (the digits are followed by `:`,
which is not a digit), so greedy matching without backtracking is what `std::regex` finds. -/
def matchBounds (s : List Char) : Option (Char × List Char × List Char × List Char) :=
  match s with
  | [] => none
  | c :: s1 =>
    if isLetter c then
      match matchNumber s1 with
      | none => none
      | some (a, s2) =>
        match s2 with
        | ':' :: s3 =>
          match matchNumber s3 with
          | none => none
          | some (b, s4) => some (c, a, b, s4.dropWhile isSpace)
        | _ => none
    else none

/-- `regex_search` from the current position (increment of `std::regex_iterator`): the first match. -/
def searchBounds : List Char → Option (Char × List Char × List Char × List Char)
  | [] => none
  | c :: s =>
    match matchBounds (c :: s) with
    | some m => some m
    | none => searchBounds s

/-- The loop of `ParseBounds`, DimCoordinate.cpp:53-89; `noSuffix` is `lastMatchHasNoSuffix`. -/
def boundsLoop : Nat → List Char → Bounds → Bool → Except ParseError (Bounds × Bool)
  | 0, _, _, _ => .error .fuel
  | n + 1, s, b, noSuffix =>
    match searchBounds s with
    | none => .ok (b, noSuffix)
    | some (c, t1, t2, rest) =>
      match charToDimension c with
      | none => .error .InvalidSyntax
      | some d =>
        match tryParseInt t1 with
        | none => .error .InvalidSyntax
        | some st =>
          match tryParseInt t2 with
          | none => .error .InvalidSyntax
          | some sz =>
            if sz = 0 then .error .InvalidSyntax
            else if (b d).isSome then .error .DuplicateDimension
            else boundsLoop n rest (b.set d st sz) (noSuffix || rest.isEmpty)

/-- `CDimBounds::Parse`, DimCoordinate.cpp:43-98, 261-264. -/
def parseBounds (s : List Char) : Except ParseError Bounds :=
  match boundsLoop (s.length + 1) s (fun _ => none) false with
  | .error e => .error e
  | .ok (b, noSuffix) => if noSuffix = false then .error .InvalidSyntax else .ok b

/-! ## Index sets -/

/-- `Utilities::Split` (utilities.h:24-46) with a callback that always returns `true`: the parts between separators, without the
empty ones. -/
def splitAt (sep : Char) : List Char → List Char → List (List Char)
  | cur, [] => if cur = [] then [] else [cur]
  | cur, c :: s => if c = sep then (if cur = [] then splitAt sep [] s else cur :: splitAt sep [] s) else splitAt sep (cur ++ [c]) s

/-- The white space of `Utilities::Trim`, utilities.h:105-106. -/
def isTrim (c : Char) : Bool := c = ' ' || c = '\t'

/-- `trimImpl`, utilities.cpp:55-66. -/
def trim (s : List Char) : List Char := ((s.dropWhile isTrim).reverse.dropWhile isTrim).reverse

/-- `CIndexSet::ValueFromNumString`, IndexSet.cpp:153-184 (`none` = exception). Simplification: `long` has 64 bits (on Windows it has 32,
and the value `2147483647` is rejected if `errno` happens to be `ERANGE`). -/
def valueFromNumString (s : List Char) : Option Int :=
  if s = ['-', 'i', 'n', 'f'] then some intMin
  else if s = ['+', 'i', 'n', 'f'] ∨ s = ['i', 'n', 'f'] then some intMax
  else if strtoll s > intMax ∨ strtoll s < intMin then none
  else some (strtoll s)

/-- One number of `ParsePart`, IndexSet.cpp:61-91 and 108-138: the text collected (`num1`, `num2`) and the rest; `none` = syntax error.
Embedded zero characters in the string are not modelled (the code takes them for the end). -/
def scanNum : List Char → Option (List Char × List Char)
  | [] => none
  | c :: s =>
    if c = '-' ∨ c = '+' then
      match s.dropWhile isSpace with
      | 'i' :: 'n' :: 'f' :: r => some ([c, 'i', 'n', 'f'], r)
      | r => some (c :: r.takeWhile Char.isDigit, r.dropWhile Char.isDigit)
    else if c.isDigit then some (c :: s.takeWhile Char.isDigit, s.dropWhile Char.isDigit)
    else
      match c :: s with
      | 'i' :: 'n' :: 'f' :: r => some (['i', 'n', 'f'], r)
      | _ => none

/-- `CIndexSet::ParsePart`, IndexSet.cpp:54-151 (`none` = exception). -/
def parsePart (s : List Char) : Option (Int × Int) :=
  match scanNum s with
  | none => none
  | some (n1, r) =>
    match r.dropWhile isSpace with
    | [] => (valueFromNumString n1).map (fun v => (v, v))
    | c :: r2 =>
      if c ≠ '-' then none
      else match scanNum r2 with
        | none => none
        | some (n2, r3) =>
          if r3 ≠ [] then none
          else match valueFromNumString n1, valueFromNumString n2 with
            | some a, some b => some (a, b)
            | _, _ => none

/-- The loop of `CIndexSet::ParseString`, IndexSet.cpp:35-44. -/
def addParts : List (List Char) → Except ParseError (List (Int × Int))
  | [] => .ok []
  | p :: ps =>
    match parsePart (trim p) with
    | none => .error .InvalidSyntax
    | some (a, b) =>
      if a > b then .error .FromGreaterThanTo
      else match addParts ps with
        | .error e => .error e
        | .ok l => .ok ((a, b) :: l)

/-- `CIndexSet::CIndexSet`, IndexSet.cpp:12-15, 30-45: the list `intervals`. -/
def parseIndexSet (s : List Char) : Except ParseError (List (Int × Int)) := addParts (splitAt ',' [] s)

/-- `CIndexSet::IsContained`, IndexSet.cpp:17-28, IndexSet.h. -/
def isContained (l : List (Int × Int)) (i : Int) : Bool := l.any (fun p => p.1 ≤ i && i ≤ p.2)

/-! ## Colours -/

/-- `struct Rgb8Color`, libCZI_Metadata.h. -/
structure Rgb8 where
  r : UInt8
  g : UInt8
  b : UInt8
  deriving DecidableEq, Repr

/-- `Utilities::NibbleToHexChar`, utilities.cpp:49-53. -/
def nibbleToHex (n : UInt8) : Char :=
  ['0', '1', '2', '3', '4', '5', '6', '7', '8', '9', 'A', 'B', 'C', 'D', 'E', 'F'].getD (n &&& 15).toNat '0'

/-- `Utilities::HexCharToInt`, utilities.cpp:24-47. -/
def hexToInt (c : Char) : UInt8 :=
  if '0' ≤ c ∧ c ≤ '9' then (c.toNat - 48).toUInt8
  else if 'A' ≤ c ∧ c ≤ 'F' then (c.toNat - 55).toUInt8
  else if 'a' ≤ c ∧ c ≤ 'f' then (c.toNat - 87).toUInt8
  else 255

/-- `isxdigit` for characters of the basic range. For other wide characters the behaviour of `isxdigit` is undefined unless the value
fits an `unsigned char`; here they count as no hexadecimal digits. -/
def isHex (c : Char) : Bool := ('0' ≤ c && c ≤ '9') || ('A' ≤ c && c ≤ 'F') || ('a' ≤ c && c ≤ 'f')

/-- `Utilities::Rgb8ColorToString`, utilities.cpp:213-226. -/
def rgbToString (c : Rgb8) : List Char :=
  ['#', 'F', 'F', nibbleToHex (c.r >>> 4), nibbleToHex c.r, nibbleToHex (c.g >>> 4), nibbleToHex c.g, nibbleToHex (c.b >>> 4), nibbleToHex c.b]

/-- What `str[i]` yields for a `std::wstring`: the character, the terminating zero for `i = size()`, and undefined behaviour (`none`) after it. -/
def wcharAt (s : List Char) (i : Nat) : Option Char := if i < s.length then s[i]? else if i = s.length then some '\x00' else none

/-- Result of `TryGetRgb8ColorFromString`. -/
inductive RgbResult where
  | rejected | undefined | color (c : Rgb8)
  deriving DecidableEq, Repr

/-- The loop of `TryGetRgb8ColorFromString`, utilities.cpp:236-256: `n` iterations are left, `i` is the index. -/
def rgbLoop (s : List Char) : Nat → Nat → Rgb8 → RgbResult
  | 0, _, c => .color c
  | n + 1, i, c =>
    match wcharAt s i with
    | none => .undefined
    | some ch =>
      if isHex ch = false then .rejected
      else rgbLoop s n (i + 1)
        (match i with
         | 3 => { c with r := hexToInt ch }
         | 4 => { c with r := c.r <<< 4 ||| hexToInt ch }
         | 5 => { c with g := hexToInt ch }
         | 6 => { c with g := c.g <<< 4 ||| hexToInt ch }
         | 7 => { c with b := hexToInt ch }
         | 8 => { c with b := c.b <<< 4 ||| hexToInt ch }
         | _ => c)

/-- `Utilities::TryGetRgb8ColorFromString`, utilities.cpp:228-260. The alpha value is computed and dropped by the code; it is not modelled. -/
def rgbFromString (str : List Char) : RgbResult :=
  let s := trim str
  if 1 < s.length ∧ s[0]? = some '#' then rgbLoop s (max 9 s.length - 1) 1 ⟨0, 0, 0⟩ else .rejected

/-! ## Key-value strings -/

/-- State of the loop of `TokenizeAzureUriString`; `tokens` is the map, newest assignment last. -/
structure TokState where
  tokens : List (List Char × List Char)
  key : List Char
  value : List Char
  inValue : Bool
  foundEquals : Bool

/-- `std::map::operator[]` followed by an assignment. -/
def mapAssign (m : List (List Char × List Char)) (k v : List Char) : List (List Char × List Char) :=
  m.filter (fun p => p.1 ≠ k) ++ [(k, v)]

/-- `value += c` or `key += c`. -/
def TokState.push (t : TokState) (c : Char) : TokState :=
  if t.inValue then { t with value := t.value ++ [c] } else { t with key := t.key ++ [c] }

/-- The branches after the handling of escapes, utilities.cpp:433-465 (`none` = exception). -/
def tokChar (t : TokState) (c : Char) : Option TokState :=
  if c = '=' ∧ t.inValue = false then some { t with inValue := true, foundEquals := true }
  else if c = ';' ∧ t.inValue = true then
    if t.key = [] then none
    else some ⟨mapAssign t.tokens t.key t.value, [], [], false, false⟩
  else some (t.push c)

/-- The loop of `TokenizeAzureUriString`, utilities.cpp:385-466. -/
def tokLoop : List Char → TokState → Option TokState
  | [], t => some t
  | [c], t => tokChar t c
  | c :: d :: s, t =>
    if c = '\\' then
      if d = ';' ∨ d = '=' then tokLoop s (t.push d) else tokLoop (d :: s) (t.push c)
    else
      match tokChar t c with
      | none => none
      | some t' => tokLoop (d :: s) t'

/-- `Utilities::TokenizeAzureUriString`, utilities.cpp:378-492 (`none` = exception). -/
def tokenize (s : List Char) : Option (List (List Char × List Char)) :=
  match tokLoop s ⟨[], [], [], false, false⟩ with
  | none => none
  | some t =>
    if t.foundEquals = false then none
    else if t.key ≠ [] ∧ t.value = [] ∧ t.inValue = true then none
    else
      let m := if t.key ≠ [] then mapAssign t.tokens t.key t.value else t.tokens
      if m = [] then none else some m

end Verif.Text
