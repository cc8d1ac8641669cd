import Verif.Model.DateTime
import Verif.Spec.Text

/-!
# Specification: dates of XML Schema (`xs:dateTime`)
-/

namespace Verif.Spec
open Verif.Xml (Str DateTime)

/-- The number of days of a month of the Gregorian calendar. -/
def daysIn (year : Int) (month : Int) : Int :=
  match month with
  | 4 => 30 | 6 => 30 | 9 => 30 | 11 => 30
  | 2 => if (4 : Int) ∣ year ∧ (¬ (100 : Int) ∣ year ∨ (400 : Int) ∣ year) then 29 else 28
  | _ => 31

/-- A date that exists, with a year of at most four digits. (A leap second is possible.) -/
structure ValidDate (d : DateTime) : Prop where
  year : -9999 ≤ d.year ∧ d.year ≤ 9999
  month : 1 ≤ d.mon ∧ d.mon ≤ 12
  day : 1 ≤ d.mday ∧ d.mday ≤ daysIn d.year d.mon
  hour : 0 ≤ d.hour ∧ d.hour ≤ 23
  minute : 0 ≤ d.min ∧ d.min ≤ 59
  second : 0 ≤ d.sec ∧ d.sec ≤ 60

/-- The zone: the minutes by which the time is ahead of UTC; `none` = local time. The hours and the minutes of an offset have the
same sign. -/
def zoneMinutes (d : DateTime) : Option Int :=
  if d.isUTC then some 0
  else if -24 < d.offsetHours ∧ d.offsetHours < 24 ∧ 0 ≤ d.offsetMinutes ∧ d.offsetMinutes < 60 then
    some (if d.offsetHours < 0 then 60 * d.offsetHours - d.offsetMinutes else 60 * d.offsetHours + d.offsetMinutes)
  else none

/-- The zone at the end of a text: none, `Z`, `+hh:mm` or `-hh:mm`. -/
inductive ZoneText where
  | missing
  | z
  | offset (neg : Bool) (hours minutes : Str)

/-- The parts of the text of a date. -/
structure DateText where
  neg : Bool
  year : Str
  month : Str
  day : Str
  hour : Str
  minute : Str
  second : Str
  fraction : Option Str
  zone : ZoneText

/-- Two digits. -/
def TwoDigits (s : Str) : Prop := s.length = 2 ∧ Digits s

/-- The text of the zone. -/
def ZoneText.text : ZoneText → Str
  | .missing => []
  | .z => ['Z']
  | .offset neg h m => (if neg then '-' else '+') :: (h ++ ':' :: m)

/-- The zone is well-formed. -/
def ZoneText.Ok : ZoneText → Prop
  | .offset _ h m => TwoDigits h ∧ digitsValue h ≤ 23 ∧ TwoDigits m ∧ digitsValue m ≤ 59
  | _ => True

/-- The text of the fraction of the seconds. -/
def fractionText : Option Str → Str
  | none => []
  | some f => '.' :: f

/-- The text: `-?YYYY-MM-DDThh:mm:ss(.f)?zone`. -/
def DateText.text (t : DateText) : Str :=
  (if t.neg then ['-'] else []) ++ (t.year ++ '-' :: (t.month ++ '-' :: (t.day ++ 'T' :: (t.hour ++ ':' :: (t.minute ++ ':' ::
    (t.second ++ (fractionText t.fraction ++ t.zone.text)))))))

/-- The text is well-formed. -/
structure DateText.Ok (t : DateText) : Prop where
  year : Digits t.year ∧ (t.year.length = 4 ∨ (4 < t.year.length ∧ t.year.head? ≠ some '0'))
  month : TwoDigits t.month ∧ 1 ≤ digitsValue t.month ∧ digitsValue t.month ≤ 12
  day : TwoDigits t.day ∧ 1 ≤ digitsValue t.day ∧ digitsValue t.day ≤ 31
  hour : TwoDigits t.hour ∧ digitsValue t.hour ≤ 23
  minute : TwoDigits t.minute ∧ digitsValue t.minute ≤ 59
  second : TwoDigits t.second ∧ digitsValue t.second ≤ 59
  fraction : ∀ f, t.fraction = some f → Digits f
  zone : t.zone.Ok

/-- The year. -/
def DateText.yearValue (t : DateText) : Int := if t.neg then -(digitsValue t.year : Int) else digitsValue t.year

/-- The zone of the text: the minutes by which it is ahead of UTC. -/
def ZoneText.minutes : ZoneText → Option Int
  | .missing => none
  | .z => some 0
  | .offset neg h m => some (if neg then -(60 * (digitsValue h : Int) + digitsValue m) else 60 * (digitsValue h : Int) + digitsValue m)

/-- The date says what the text says, the zone aside. -/
structure SameDate (d : DateTime) (t : DateText) : Prop where
  year : d.year = t.yearValue
  month : d.mon = digitsValue t.month
  day : d.mday = digitsValue t.day
  hour : d.hour = digitsValue t.hour
  minute : d.min = digitsValue t.minute
  second : d.sec = digitsValue t.second

end Verif.Spec
