import Verif.Model.CmdLine
import Verif.Model.NumText

/-!
# Options of CZICmd with numbers that have a fraction: zoom, background colour, size of the cache

The range of the exponents of `float` and `double` is not modelled (`Model/NumText.lean`), so `std::stof` and `std::stod` throw only if there is no number.
-/

namespace Verif.CmdLine

open Verif.Text Verif.Xml Verif.Flt

/-- `strtof`: white space, sign, number, rounded to `float`; and the rest of the text. `none`: no conversion. -/
def strtof (s : Str) : Option (Num × Str) :=
  let r := s.dropWhile isSpace
  let t := if r.head? = some '-' ∨ r.head? = some '+' then r.drop 1 else r
  (scanNumber t).map fun q => ((q.1.signed (decide (r.head? = some '-'))).map f32, q.2)

/-- `CCmdLineOptions::TryParseZoom`, cmdlineoptions.cpp:1591-1607 (`std::stof`, which does not look at the rest of the text). The range check of the library CLI11 given with the option (line 693) is not modelled. -/
def tryParseZoom (s : Str) : Option Num := (strtof s).map (·.1)

/-- `skipWhiteSpaceAndOneOfThese`, utils.cpp:337-357; the flag tells whether a delimiter has been skipped. -/
def skipDelimiter (chars : List Char) : Bool → Str → Str
  | _, [] => []
  | skipped, c :: s =>
    if isSpace c then skipDelimiter chars skipped s
    else if skipped = false ∧ c ∈ chars then skipDelimiter chars true s
    else c :: s

/-- One pass of the loop of `TryParseParseBackgroundColor`, cmdlineoptions.cpp:1519-1522: the number (0 if there is none) and the text after the delimiter. -/
def nextComponent (s : Str) : Num × Str :=
  match strtof s with
  | none => (.fin 0, skipDelimiter [';', ',', '|'] false s)
  | some (x, r) => (x, skipDelimiter [';', ',', '|'] false r)

/-- `CCmdLineOptions::TryParseParseBackgroundColor`, cmdlineoptions.cpp:1511-1558: red, green and blue. -/
def tryParseBackground (s : Str) : Option (Num × Num × Num) :=
  let (f0, r0) := nextComponent s
  if r0 = [] then some (f0, f0, f0)
  else
    let (f1, r1) := nextComponent r0
    if r1 = [] then none
    else
      let (f2, r2) := nextComponent r1
      if r2 = [] then
        if f1 = .nan ∧ f2 = .nan then some (f0, f0, f0) else some (f0, f1, f2)
      else none

/-- `(k|m|g|t|ki|mi|gi|ti)(?:b?)\s*$` without regard to case, and the factor, cmdlineoptions.cpp:2368 and 2390-2428. -/
def matchUnit (s : Str) : Option Nat :=
  match s with
  | [] => none
  | c :: r =>
    let binary := (r.head?.map upper) = some 'I'
    let r := if binary then r.drop 1 else r
    let r := if (r.head?.map upper) = some 'B' then r.drop 1 else r
    if r.all isSpace then
      if upper c = 'K' then some (if binary then 1024 else 1000)
      else if upper c = 'M' then some (if binary then 1024 * 1024 else 1000 * 1000)
      else if upper c = 'G' then some (if binary then 1024 * 1024 * 1024 else 1000 * 1000 * 1000)
      else if upper c = 'T' then some (if binary then 1024 * 1024 * 1024 * 1024 else 1000 * 1000 * 1000 * 1000)
      else none
    else none

/-- `^\s*([+]?(?:[0-9]+(?:[.][0-9]*)?|[.][0-9]+))\s*…`, cmdlineoptions.cpp:2368: the text of the number and the factor. The text has one line only. -/
def matchCacheSize (s : Str) : Option (Str × Nat) :=
  let r := s.dropWhile isSpace
  let t := if r.head? = some '+' then r.drop 1 else r
  match scanPoint Char.isDigit t with
  | none => none
  | some (_, _, rest) => (matchUnit (rest.dropWhile isSpace)).map fun f => (r.take (r.length - rest.length), f)

/-- `CCmdLineOptions::TryParseSubBlockCacheSize`, cmdlineoptions.cpp:2354-2438. `throws` stands for a number `llround` cannot represent, whose result is not specified. -/
def tryParseCacheSize (s : Str) : Parsed Nat :=
  match matchCacheSize s with
  | none => .rejected
  | some (t, factor) =>
    match stod t with
    | some (.fin x, _) =>
      let v := lround (f64 (x * f64 factor))
      if v < 2 ^ 63 then .ok v.toNat else .throws
    | _ => .rejected

/-- `Utils::PixelTypeToInformalString`, libCZI_Utilities.cpp:431-450, for the four types a document can be generated with. -/
def generatorPixelTypes : List (PixelType × Str) :=
  [(.Gray8, "gray8".toList), (.Gray16, "gray16".toList), (.Bgr24, "bgr24".toList), (.Bgr48, "bgr48".toList)]

/-- `CCmdLineOptions::TryParseGeneratorPixeltype`, cmdlineoptions.cpp:2136-2162. -/
def tryParseGeneratorPixeltype (s : Str) : Option PixelType :=
  let arg := trim s
  (generatorPixelTypes.find? fun e => icasecmp arg e.2).map (·.1)

end Verif.CmdLine
