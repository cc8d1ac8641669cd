import Verif.Model.Xml
import Verif.Model.Enum

/-!
# Compression options as text (libCZI_Utilities.cpp)

The regular expressions are matched by hand: the classes of characters that follow each other are disjoint, so that every text is
matched in at most one way up to the distribution of white space, and the groups that are used are those computed here. Not modelled: the
depth of recursion of `std::regex_match`.
-/

namespace Verif.CompressOptions
open Verif.Xml (Str icasecmp scanInt)
open Verif.Text (isSpace natOf)

/-- `[a-zA-Z0-9]`. -/
def isAlnum (c : Char) : Bool := ('a' ≤ c && c ≤ 'z') || ('A' ≤ c && c ≤ 'Z') || ('0' ≤ c && c ≤ '9')

/-- `[a-zA-Z0-9.+-]`. -/
def isValueChar (c : Char) : Bool := isAlnum c || c = '.' || c = '+' || c = '-'

/-- `Utils::CompressionModeToInformalString`, libCZI_Utilities.cpp:458-478. -/
def modeName : CompressionMode → Str
  | .UnCompressed => "uncompressed".toList
  | .Jpg => "jpg".toList
  | .JpgXr => "jpgxr".toList
  | .Zstd0 => "zstd0".toList
  | .Zstd1 => "zstd1".toList
  | .Invalid => "invalid".toList

/-- `_tryParseCompressionMode`, libCZI_Utilities.cpp:24-49: the first of the available modes with this name. -/
def tryParseMode (s : Str) : Option CompressionMode :=
  [CompressionMode.UnCompressed, .Jpg, .JpgXr, .Zstd0, .Zstd1].find? fun m => icasecmp (modeName m) s

/-- The regular expression `^\s*([a-zA-Z0-9]*)\s*=\s*([a-zA-Z0-9.+-]*)\s*$`, libCZI_Utilities.cpp:53: the two groups. -/
def matchItem (s : Str) : Option (Str × Str) :=
  let s := s.dropWhile isSpace
  let key := s.takeWhile isAlnum
  match (s.dropWhile isAlnum).dropWhile isSpace with
  | '=' :: r =>
    let r := r.dropWhile isSpace
    if (r.dropWhile isValueChar).dropWhile isSpace = [] then some (key, r.takeWhile isValueChar) else none
  | _ => none

/-- `getline` with the delimiter `;`, libCZI_Utilities.cpp:56 (with the empty part after the last delimiter, which `getline` does not
deliver, and which is not an item). -/
def parts : Str → Str → List Str
  | cur, [] => [cur]
  | cur, c :: s => if c = ';' then cur :: parts [] s else parts (cur ++ [c]) s

/-- The second group of the regular expression in libCZI_Utilities.cpp:700, and the white space after it:
`((?:\s*K\s*=\s*V\s*[;])*(?:\s*K\s*=\s*V)?)\s*$`. -/
def matchList (s : Str) : Bool :=
  let ps := parts [] s
  ps.dropLast.all (fun p => (matchItem p).isSome) && ps.getLast?.all (fun p => (matchItem p).isSome || p.all isSpace)

/-- The regular expression in libCZI_Utilities.cpp:700, the two groups (the second one with all white space around it). -/
def matchOptions (s : Str) : Option (Str × Str) :=
  let s := s.dropWhile isSpace
  let method := s.takeWhile isAlnum
  if method = [] then none else
  match (s.dropWhile isAlnum).dropWhile isSpace with
  | ':' :: r => if matchList r then some (method, r) else none
  | _ => none

/-- `CompressParametersOnMap` with the two keys that are used, libCZI_compress.h:15-28. -/
structure Params where
  /-- `ZSTD_RAWCOMPRESSIONLEVEL`. -/
  level : Option Int
  /-- `ZSTD_PREPROCESS_DOLOHIBYTEPACKING`. -/
  packing : Option Bool
  deriving DecidableEq, Repr

/-- `stoi` of the value of the level, libCZI_Utilities.cpp:69-92: the whole value must be a number of type `int`. -/
def readLevel (v : Str) : Option Int :=
  match scanInt v with
  | none => none
  | some (neg, ds, rest) =>
    let x : Int := if neg then -(natOf ds : Int) else natOf ds
    if x < -2147483648 ∨ 2147483647 < x then none else if rest ≠ [] then none else some x

/-- One part, libCZI_Utilities.cpp:58-100; `none`: `false` is returned. -/
def applyPart (p : Params) (part : Str) : Option Params :=
  match matchItem part with
  | none => some p
  | some (key, value) =>
    if icasecmp key "ExplicitLevel".toList then
      match readLevel value with
      | none => none
      | some i => some { p with level := some i }
    else if icasecmp key "PreProcess".toList then
      if icasecmp value "HiLoByteUnpack".toList then some { p with packing := some true } else some p
    else some p

/-- `_tryParseCompressionOptions`, libCZI_Utilities.cpp:51-104. -/
def tryParseOptions (s : Str) : Option Params := (parts [] s).foldlM applyPart ⟨none, none⟩

/-- `Utils::ParseCompressionOptions`, libCZI_Utilities.cpp:698-738; `none`: `logic_error` is thrown. -/
def parse (s : Str) : Option (CompressionMode × Params) :=
  match matchOptions s with
  | none => none
  | some (method, params) =>
    match tryParseMode method with
    | none => none
    | some m =>
      match tryParseOptions params with
      | none => none
      | some p => some (m, p)

/-- The compression level used by `CompressZstd`, zstdCompress.cpp:74-91 (with `Utilities::clamp`, utilities.h:111-127): `lo`, `hi` are
`ZSTD_minCLevel()`, `ZSTD_maxCLevel()`, `none` a null pointer for the parameters. -/
def usedLevel (lo hi : Int) (p : Option Params) : Int :=
  match p with
  | none => 0
  | some p => match p.level with
    | none => 0
    | some v => if v < lo then lo else if v > hi then hi else v

/-- Whether `CompressZStd1` separates the bytes, zstdCompress.cpp:243-255. -/
def usesPacking (pt : PixelType) (p : Option Params) : Bool :=
  match p with
  | none => false
  | some p => if pt = .Bgr48 ∨ pt = .Gray16 then p.packing.getD false else false

end Verif.CompressOptions
