import Verif.Model.ChannelText
import Verif.Model.CApi

/-!
# The texts given to the options of CZICmd

The regular expressions are modelled as matchers of the whole text: after a run of digits or of white space no other digit or white space can follow in these expressions,
so the run is always taken as a whole. Characters are those of ASCII, as in the "C" locale.
-/

namespace Verif.CmdLine

open Verif.Text Verif.Xml Verif.Czi Verif.CApi

/-- What a parser of an option does: it returns a value, returns `false`, or leaves with an exception that its callers do not catch (except `main`, which ends the
program). -/
inductive Parsed (α : Type) where
  | ok (a : α)
  | rejected
  | throws
  deriving DecidableEq, Repr

/-- The next step after a value. -/
def Parsed.bind {α β : Type} (p : Parsed α) (f : α → Parsed β) : Parsed β :=
  match p with
  | .ok a => f a
  | .rejected => .rejected
  | .throws => .throws

/-! ## Sizes and arrangements of tiles -/

/-- `(\d+)\s*[*xX]\s*(\d+)` at the start of a text: the two runs of digits and the rest, cmdlineoptions.cpp:1802, 1839. -/
def matchPair (s : Str) : Option (Str × Str × Str) :=
  if s.takeWhile Char.isDigit = [] then none
  else match (s.dropWhile Char.isDigit).dropWhile isSpace with
    | [] => none
    | c :: r =>
      if c ∈ ['*', 'x', 'X'] then
        let r := r.dropWhile isSpace
        if r.takeWhile Char.isDigit = [] then none
        else some (s.takeWhile Char.isDigit, r.takeWhile Char.isDigit, r.dropWhile Char.isDigit)
      else none

/-- `std::stoull` of a run of digits and the test of the range, cmdlineoptions.cpp:1808-1814 (and 1816-1822, 1855-1861, 1862-1868, 1890-1896, 1897-1903, 1904-1910). -/
def number (s : Str) : Parsed Nat :=
  match stoull s with
  | none => .throws
  | some (v, _) => if v = 0 ∨ v > 4294967295 then .rejected else .ok v

/-- `CCmdLineOptions::TryParseCreateSize`, cmdlineoptions.cpp:1799-1834. -/
def tryParseCreateSize (s : Str) : Parsed (Nat × Nat) :=
  match matchPair s with
  | some (a, b, []) => (number a).bind fun w => (number b).bind fun h => .ok (w, h)
  | _ => .rejected

/-- `\s*(?:[,;-]\s*(\d+)\s*%){0,1}\s*`, cmdlineoptions.cpp:1839: the digits of the overlap, if it is given; `none`: the text does not match. -/
def matchOverlap (s : Str) : Option (Option Str) :=
  match s.dropWhile isSpace with
  | [] => some none
  | c :: r =>
    if c ∈ [',', ';', '-'] then
      let r := r.dropWhile isSpace
      if r.takeWhile Char.isDigit = [] then none
      else match (r.dropWhile Char.isDigit).dropWhile isSpace with
        | [] => none
        | d :: q => if d = '%' ∧ q.all isSpace then some (some (r.takeWhile Char.isDigit)) else none
    else none

/-- `CreateTileInfo`, cmdlineoptions.h:139-146. The overlap is given in percent (the code stores the percentage divided by 100 as `float`). -/
structure TileInfo where
  rows : Nat
  columns : Nat
  percent : Nat
  deriving DecidableEq, Repr

/-- `CCmdLineOptions::TryParseCreateTileInfo`, cmdlineoptions.cpp:1836-1920. -/
def tryParseCreateTileInfo (s : Str) : Parsed TileInfo :=
  match matchPair s with
  | none => .rejected
  | some (a, b, r) =>
    match matchOverlap r with
    | none => .rejected
    | some none => (number a).bind fun rows => (number b).bind fun cols => .ok ⟨rows, cols, 0⟩
    | some (some p) => (number a).bind fun rows => (number b).bind fun cols => (number p).bind fun o => .ok ⟨rows, cols, o⟩

/-! ## Numbers, pyramid layers and regions -/

/-- `CCmdLineOptions::TryParseInt32`, cmdlineoptions.cpp:2164-2190 (`trim`, utils.cpp:106-116, is the same function as `trimImpl` of libCZI). -/
def tryParseInt32 (s : Str) : Option Int :=
  match stoi (trim s) with
  | none => none
  | some (v, rest) => if rest = [] then some v else none

/-- The characters `s.find_first_of` looks for, cmdlineoptions.cpp:1562. -/
def isLayerDelimiter (c : Char) : Bool := c == ';' || c == ',' || c == '|'

/-- `CCmdLineOptions::TryParsePyramidInfo`, cmdlineoptions.cpp:1560-1588: minification factor and layer. -/
def tryParsePyramidInfo (s : Str) : Option (Int × Int) :=
  match s.dropWhile (fun c => !isLayerDelimiter c) with
  | [] => none
  | _ :: r => (tryParseInt32 (s.takeWhile (fun c => !isLayerDelimiter c))).bind fun f => (tryParseInt32 r).bind fun l => some (f, l)

/-- `[signs]?` at the start of a text. -/
def signOf (signs : List Char) : Str → Str
  | [] => []
  | c :: _ => if c ∈ signs then [c] else []

/-- `[signs]?[[:digit:]]+` at the start of a text: what was matched, and the rest, cmdlineoptions.cpp:2195. -/
def signedPart (signs : List Char) (s : Str) : Option (Str × Str) :=
  let sg := signOf signs s
  let r := s.drop sg.length
  if r.takeWhile Char.isDigit = [] then none else some (sg ++ r.takeWhile Char.isDigit, r.dropWhile Char.isDigit)

/-- One given character at the start of a text: the rest. -/
def eatChar (c : Char) : Str → Option Str
  | [] => none
  | d :: r => if d = c then some r else none

/-- The regular expression for a region, cmdlineoptions.cpp:2195: whether it begins with `abs`, and the texts of the four numbers. (The classes for the signs contain the
character `|`.) -/
def matchRect (s : Str) : Option (Bool × Str × Str × Str × Str) :=
  if s.take 4 = "abs(".toList ∨ s.take 4 = "rel(".toList then
    (signedPart ['+', '|', '-'] (s.drop 4)).bind fun (x, r) => (eatChar ',' r).bind fun r =>
    (signedPart ['+', '|', '-'] r).bind fun (y, r) => (eatChar ',' r).bind fun r =>
    (signedPart ['+'] r).bind fun (w, r) => (eatChar ',' r).bind fun r =>
    (signedPart ['+'] r).bind fun (h, r) => (eatChar ')' r).bind fun r =>
    if r = [] then some (decide (s.take 4 = "abs(".toList), x, y, w, h) else none
  else none

/-- A region as it is given with the option `--rect`. -/
structure RectArg where
  absolute : Bool
  x : Int
  y : Int
  w : Int
  h : Int
  deriving DecidableEq, Repr

/-- `CCmdLineOptions::TryParseRect`, cmdlineoptions.cpp:2193-2260. (If it fails after a match, the mode has been written nevertheless; the callers then do not use it.) -/
def tryParseRect (s : Str) : Option RectArg :=
  (matchRect s).bind fun (m, tx, ty, tw, th) =>
  (tryParseInt32 tx).bind fun x => (tryParseInt32 ty).bind fun y =>
  (tryParseInt32 tw).bind fun w => if w ≤ 0 then none else
  (tryParseInt32 th).bind fun h => if h ≤ 0 then none else
  some ⟨m, x, y, w, h⟩

/-! ## The format of compositions -/

/-- `ConvertHexStringToInteger` of CZICmd, utils.cpp:171-205: the same code as the function of the C interface (`CApi.hexString`, parameterhelpers.cpp:42-76). -/
def hexToInteger (s : Str) : Option UInt32 := hexString s

/-- `[\d|a-f|A-F]`, cmdlineoptions.cpp:1742: hexadecimal digits and the character `|`. -/
def isHexOrBar (c : Char) : Bool := isHex c || c == '|'

/-- `\d+|0x[\d|a-f|A-F]+` without regard to case, for a whole text, cmdlineoptions.cpp:1742. -/
def matchesAlpha (s : Str) : Bool :=
  (s ≠ [] && s.all Char.isDigit) ||
    (match s with
     | z :: x :: hs => z == '0' && (x == 'x' || x == 'X') && hs ≠ [] && hs.all isHexOrBar
     | _ => false)

/-- The regular expression `bgra32\((\d+|0x[\d|a-f|A-F]+)\)` without regard to case, cmdlineoptions.cpp:1742-1744: the text in parentheses. -/
def matchAlpha (s : Str) : Option Str :=
  if icasecmp (s.take 7) "bgra32(".toList ∧ s.drop 7 ≠ [] ∧ s.getLast? = some ')' then
    let inner := (s.drop 7).dropLast
    if matchesAlpha inner then some inner else none
  else none

/-- `CCmdLineOptions::TryParseChannelCompositionFormatWithAlphaValue`, cmdlineoptions.cpp:1740-1779: the alpha value. The second test for the letter looks at the first
character, as in the code (1752). -/
def tryParseAlpha (s : Str) : Parsed Nat :=
  match matchAlpha s with
  | none => .rejected
  | some t =>
    if t.length > 2 ∧ t[0]? = some '0' ∧ (t[1]? = some 'x' ∨ t[0]? = some 'X') then
      match hexToInteger (t.drop 2) with
      | none => .rejected
      | some v => if v.toNat > 255 then .rejected else .ok v.toNat
    else
      match stoi t with
      | none => .throws
      | some (i, _) => if i < 0 ∨ i > 255 then .rejected else .ok i.toNat

/-- `CCmdLineOptions::TryParseChannelCompositionFormat`, cmdlineoptions.cpp:1692-1738: pixel type and alpha value (`none`: not written). -/
def tryParseFormat (s : Str) : Parsed (PixelType × Option Nat) :=
  let arg := trim s
  if icasecmp arg "bgr24".toList then .ok (.Bgr24, none)
  else if icasecmp arg "bgra32".toList then .ok (.Bgra32, some 255)
  else (tryParseAlpha arg).bind fun a => .ok (.Bgra32, some a)

/-! ## Lists of levels -/

/-- The names of the levels of messages and their flags, cmdlineoptions.cpp:1360-1376. -/
def verbosityNames : List (Str × Nat) :=
  [("All".toList, 0xffffffff), ("Errors".toList, 1 <<< 0 ||| 1 <<< 1), ("Errors1".toList, 1 <<< 0), ("Errors2".toList, 1 <<< 1),
   ("Warnings".toList, 1 <<< 2 ||| 1 <<< 3), ("Warnings1".toList, 1 <<< 2), ("Warnings2".toList, 1 <<< 3),
   ("Infos".toList, 1 <<< 4 ||| 1 <<< 5), ("Infos1".toList, 1 <<< 4), ("Infos2".toList, 1 <<< 5)]

/-- `InfoLevel::All`, cmdlineoptions.h:55. -/
def allInfo : Nat := 1 ||| 2 ||| 4 ||| 8 ||| 16 ||| 32 ||| 64 ||| 128 ||| 256 ||| 512

/-- The names of the kinds of information and their flags, cmdlineoptions.cpp:1428-1446 and `InfoLevel`, cmdlineoptions.h:40-56. -/
def infoNames : List (Str × Nat) :=
  [("Statistics".toList, 1), ("RawXML".toList, 2), ("DisplaySettings".toList, 4), ("DisplaySettingsJson".toList, 8), ("AllSubBlocks".toList, 16),
   ("Attachments".toList, 32), ("AllAttachments".toList, 64), ("PyramidStatistics".toList, 128), ("GeneralInfo".toList, 256), ("ScalingInfo".toList, 512),
   ("All".toList, allInfo)]

/-- The characters `strcspn` looks for, cmdlineoptions.cpp:1383, 1453. -/
def isListDelimiter (c : Char) : Bool := c == ',' || c == ';'

/-- The search for a name, cmdlineoptions.cpp:1393-1401 and 1463-1471. -/
def findLevel (names : List (Str × Nat)) (t : Str) : Option Nat := (names.find? (fun e => icasecmp e.1 t)).map (·.2)

/-- The loop of `TryParseVerbosityLevel`, cmdlineoptions.cpp:1381-1416, and of `TryParseInfoLevel`, 1451-1486, from some position in the text on. It ends at an item without
any character. The fuel is only there to make the recursion structural; it does not run out. -/
def levelLoop (names : List (Str × Nat)) : Nat → Str → Nat → Option Nat
  | 0, _, acc => some acc
  | fuel + 1, s, acc =>
    let tk := s.takeWhile (fun c => !isListDelimiter c)
    if tk = [] then some acc
    else
      match (if trim tk = [] then some acc else (findLevel names (trim tk)).map (fun f => acc ||| f)) with
      | none => none
      | some acc =>
        match s.dropWhile (fun c => !isListDelimiter c) with
        | [] => some acc
        | _ :: r => levelLoop names fuel r acc

/-- `CCmdLineOptions::TryParseVerbosityLevel`, cmdlineoptions.cpp:1358-1424. -/
def tryParseVerbosity (s : Str) : Option Nat := levelLoop verbosityNames (s.length + 1) s 0

/-- `CCmdLineOptions::TryParseInfoLevel`, cmdlineoptions.cpp:1426-1493. -/
def tryParseInfoLevel (s : Str) : Option Nat := levelLoop infoNames (s.length + 1) s 0

/-- `CCmdLineOptions::IsLogLevelEnabled`, cmdlineoptions.cpp:1126-1138. -/
def isLogLevelEnabled (levels : Nat) (level : Int) : Bool :=
  let level := if level < 0 then 0 else if level > 31 then 31 else level
  (levels &&& 1 <<< level.toNat) != 0

end Verif.CmdLine
