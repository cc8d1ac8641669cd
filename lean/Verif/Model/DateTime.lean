import Verif.Model.Xml

/-!
# Dates: `XmlDateTime` (`libCZI_Metadata.h:25-103`, `CziMetadataBuilder.cpp:605-728`)
-/

namespace Verif.Xml
open Text

/-- `XmlDateTime`, libCZI_Metadata.h:25-42. -/
structure DateTime where
  sec : Int
  min : Int
  hour : Int
  mday : Int
  mon : Int
  year : Int
  isUTC : Bool
  offsetHours : Int
  offsetMinutes : Int
  deriving DecidableEq, Repr

/-- `std::numeric_limits<int>::min()`, written by `Clear`, libCZI_Metadata.h:45-51. -/
def noOffset : Int := -2147483648

/-- `HasTimeZoneOffset`, libCZI_Metadata.h:56-69. -/
def DateTime.hasOffset (d : DateTime) : Bool :=
  !d.isUTC && !(decide (d.offsetHours ≤ -24) || decide (d.offsetHours ≥ 24) || decide (d.offsetMinutes ≥ 60) || decide (d.offsetMinutes < 0))

/-- The limit for the day in `IsValid`, CziMetadataBuilder.cpp:642-643. (`%` is zero for the same numbers as in C++.) -/
def DateTime.lastDay (d : DateTime) : Int :=
  if d.mon = 2 then (if (d.year % 100 ≠ 0 ∧ d.year % 4 = 0) ∨ d.year % 400 = 0 then 29 else 28)
  else if d.mon = 9 ∨ d.mon = 4 ∨ d.mon = 6 ∨ d.mon = 11 then 30 else 31

/-- `IsValid`, CziMetadataBuilder.cpp:632-644. -/
def DateTime.isValid (d : DateTime) : Bool :=
  decide (d.sec ≥ 0) && decide (d.sec ≤ 60) && decide (d.min ≥ 0) && decide (d.min ≤ 59) && decide (d.hour ≥ 0) && decide (d.hour ≤ 23) &&
  decide (d.year > -10000) && decide (d.year < 10000) && decide (d.mon ≥ 1) && decide (d.mon ≤ 12) && decide (d.mday ≥ 1) && decide (d.mday ≤ d.lastDay)

/-- `setfill('0') << setw(w) << v`. -/
def padded (w : Nat) (v : Int) : Str := List.replicate (w - (printInt v).length) '0' ++ printInt v

/-- The zone in `ToXmlString`, CziMetadataBuilder.cpp:615-622. -/
def zoneText (d : DateTime) : Str :=
  if d.isUTC then ['Z']
  else if d.hasOffset then (if d.offsetHours ≥ 0 then ['+'] else []) ++ padded 2 d.offsetHours ++ ':' :: padded 2 d.offsetMinutes
  else []

/-- `ToXmlString`, CziMetadataBuilder.cpp:605-625: `none` = the exception `invalid_argument`. -/
def toXmlString (d : DateTime) : Option Str :=
  if !d.isValid then none
  else some (padded 4 d.year ++ '-' :: (padded 2 d.mon ++ '-' :: (padded 2 d.mday ++ 'T' :: (padded 2 d.hour ++ ':' :: (padded 2 d.min ++ ':' ::
    (padded 2 d.sec ++ zoneText d))))))

/-! ## The regular expression of `TryParse`, CziMetadataBuilder.cpp:655

Every part is followed by something that cannot continue it, so there is at most one way to match. -/

/-- One character. -/
def lit (c : Char) : Str → Option Str
  | [] => none
  | x :: s => if x = c then some s else none

/-- Two digits with a value between `lo` and `hi`: `(1[0-2]|0[1-9])` is `field 1 12`, `(3[01]|0[1-9]|[12][0-9])` is `field 1 31`,
`(2[0-3]|[01][0-9])` is `field 0 23`, `([0-5][0-9])` is `field 0 59`. -/
def field (lo hi : Nat) : Str → Option (Nat × Str)
  | a :: b :: s => if a.isDigit && b.isDigit && decide (lo ≤ natOf [a, b]) && decide (natOf [a, b] ≤ hi) then some (natOf [a, b], s) else none
  | _ => none

/-- `(?:[1-9][0-9]*)?[0-9]{4}`, for a string of digits. -/
def yearOk (y : Str) : Bool := decide (y.length = 4) || (decide (4 < y.length) && decide (y.head? ≠ some '0'))

/-- `(\.[0-9]+)?`: what follows it. -/
def fraction : Str → Option Str
  | '.' :: s => if s.takeWhile Char.isDigit = [] then none else some (s.dropWhile Char.isDigit)
  | s => some s

/-- A zone. -/
inductive Zone where
  | local_
  | utc
  | offset (neg : Bool) (hours minutes : Nat)
  deriving DecidableEq, Repr

/-- `(Z|[+-](?:2[0-3]|[01][0-9]):[0-5][0-9])?` up to the end of the text. -/
def zone : Str → Option Zone
  | [] => some .local_
  | c :: s =>
    if c = 'Z' then (if s = [] then some .utc else none)
    else if c = '+' ∨ c = '-' then
      match field 0 23 s with
      | none => none
      | some (h, s) => match lit ':' s with
        | none => none
        | some s => match field 0 59 s with
          | none => none
          | some (m, s) => if s = [] then some (.offset (decide (c = '-')) h m) else none
    else none

/-- The groups of the regular expression. -/
structure Pieces where
  neg : Bool
  year : Str
  mon : Nat
  mday : Nat
  hour : Nat
  min : Nat
  sec : Nat
  zone : Zone

/-- `regex_match`. -/
def matchDateTime (s : Str) : Option Pieces :=
  let neg := decide (s.head? = some '-')
  let s := if s.head? = some '-' then s.drop 1 else s
  let y := s.takeWhile Char.isDigit
  if !yearOk y then none
  else do
    let s ← lit '-' (s.dropWhile Char.isDigit)
    let (mon, s) ← field 1 12 s
    let s ← lit '-' s
    let (mday, s) ← field 1 31 s
    let s ← lit 'T' s
    let (hour, s) ← field 0 23 s
    let s ← lit ':' s
    let (min, s) ← field 0 59 s
    let s ← lit ':' s
    let (sec, s) ← field 0 59 s
    let s ← fraction s
    let z ← zone s
    return { neg := neg, year := y, mon := mon, mday := mday, hour := hour, min := min, sec := sec, zone := z }

/-- What `TryParse` comes to: the date, `false`, or the exception `out_of_range` of `std::stoi`. -/
inductive Parsed where
  | date (d : DateTime)
  | fails
  | throws
  deriving DecidableEq, Repr

/-- `std::stoi` of the year. -/
def yearOf (p : Pieces) : Int := if p.neg then -(natOf p.year : Int) else natOf p.year

/-- The fields as set by `TryParse`, CziMetadataBuilder.cpp:662-711. The hours of the offset are read together with the sign. -/
def dateOf (p : Pieces) : DateTime :=
  { sec := p.sec, min := p.min, hour := p.hour, mday := p.mday, mon := p.mon, year := yearOf p,
    isUTC := decide (p.zone = .utc),
    offsetHours := match p.zone with | .offset neg h _ => (if neg then -(h : Int) else h) | _ => noOffset,
    offsetMinutes := match p.zone with | .offset _ _ m => (m : Int) | _ => noOffset }

/-- `TryParse`, CziMetadataBuilder.cpp:652-728. -/
def tryParse (s : Str) : Parsed :=
  match matchDateTime (trim s) with
  | none => .fails
  | some p =>
    if yearOf p < -2147483648 ∨ 2147483647 < yearOf p then .throws
    else if (dateOf p).isValid then .date (dateOf p) else .fails

end Verif.Xml
