import Verif.Proof.DateTime

/-!
# C63: dates
-/

namespace Verif
open Xml Spec

/-- **C63 (what can be written).** `ToXmlString` throws if and only if the date does not exist (or its year has more than four digits). -/
theorem C63_valid (d : DateTime) : (d.isValid = true ↔ ValidDate d) ∧ (toXmlString d = none ↔ ¬ ValidDate d) := by
  refine ⟨isValid_iff d, ?_⟩
  rw [← isValid_iff, toXmlString]
  cases d.isValid <;> simp

/-- **C63 (what can be read).** `TryParse` succeeds if and only if the text is, apart from blanks and tabs around it, a date in the format
of XML Schema that exists and has a year of at most four digits; year, month, day, hour, minute and second are those of the text (the
fraction of the seconds is dropped). -/
theorem C63_parse (s : Str) (d : DateTime) (h : tryParse s = .date d) :
    ∃ t : DateText, t.Ok ∧ (∃ b a, s = b ++ t.text ++ a ∧ Blanks b ∧ Blanks a) ∧ SameDate d t ∧ ValidDate d := by
  rw [tryParse] at h
  cases hm : matchDateTime (Text.trim s) with
  | none => rw [hm] at h; cases h
  | some p =>
    rw [hm] at h
    dsimp only at h
    split at h
    · cases h
    · split at h
      · rename_i hv
        injection h with h
        subst h
        obtain ⟨t, ht, e, rfl⟩ := match_sound hm
        obtain ⟨b, a, e', hb, ha, _⟩ := Text.trim_padded s
        rw [e] at e'
        refine ⟨t, ht, ⟨b, a, e', hb, ha⟩, ⟨yearOf_pieces t, rfl, rfl, rfl, rfl, rfl⟩, (isValid_iff _).mp hv⟩
      · cases h

theorem C63_parse_complete (s : Str) (t : DateText) (ht : t.Ok) (hs : ∃ b a, s = b ++ t.text ++ a ∧ Blanks b ∧ Blanks a) :
    (-9999 ≤ t.yearValue ∧ t.yearValue ≤ 9999 ∧ (digitsValue t.day : Int) ≤ daysIn t.yearValue (digitsValue t.month) → ∃ d, tryParse s = .date d) ∧
    (-2147483648 ≤ t.yearValue ∧ t.yearValue ≤ 2147483647 ∧
      ¬ (-9999 ≤ t.yearValue ∧ t.yearValue ≤ 9999 ∧ (digitsValue t.day : Int) ≤ daysIn t.yearValue (digitsValue t.month)) → tryParse s = .fails) := by
  have hm := match_trim ht hs
  have hv : (dateOf (piecesOf t)).isValid = true ↔
      -9999 ≤ t.yearValue ∧ t.yearValue ≤ 9999 ∧ (digitsValue t.day : Int) ≤ daysIn t.yearValue (digitsValue t.month) := by
    rw [isValid_iff]
    have y : (dateOf (piecesOf t)).year = t.yearValue := yearOf_pieces t
    constructor
    · rintro ⟨h1, _, h3, _⟩
      rw [y] at h1 h3
      exact ⟨h1.1, h1.2, h3.2⟩
    · rintro ⟨h1, h2, h3⟩
      have m := ht.month.2
      have dd := ht.day.2
      have hh := ht.hour.2
      have mm := ht.minute.2
      have ss := ht.second.2
      refine ⟨by rw [y]; exact ⟨h1, h2⟩, ?_, ⟨?_, by rw [y]; exact h3⟩, ?_, ?_, ?_⟩
      · show 1 ≤ (digitsValue t.month : Int) ∧ (digitsValue t.month : Int) ≤ 12; omega
      · show 1 ≤ (digitsValue t.day : Int); omega
      · show 0 ≤ (digitsValue t.hour : Int) ∧ (digitsValue t.hour : Int) ≤ 23; omega
      · show 0 ≤ (digitsValue t.minute : Int) ∧ (digitsValue t.minute : Int) ≤ 59; omega
      · show 0 ≤ (digitsValue t.second : Int) ∧ (digitsValue t.second : Int) ≤ 60; omega
  rw [tryParse, hm]
  dsimp only
  rw [yearOf_pieces]
  constructor
  · intro h
    rw [if_neg (by omega), if_pos (hv.mpr h)]
    exact ⟨_, rfl⟩
  · rintro ⟨h1, h2, h3⟩
    rw [if_neg (by omega), if_neg (fun h => h3 (hv.mp h))]

/-- **C63 (violation: the year of a text).** A well-formed text whose year does not fit into an `int` makes `TryParse` throw, although it
is documented to return `false`; that is the only case. -/
theorem C63_throws (s : Str) :
    tryParse s = .throws ↔ ∃ t : DateText, t.Ok ∧ (∃ b a, s = b ++ t.text ++ a ∧ Blanks b ∧ Blanks a) ∧
      (t.yearValue < -2147483648 ∨ 2147483647 < t.yearValue) := by
  constructor
  · intro h
    rw [tryParse] at h
    cases hm : matchDateTime (Text.trim s) with
    | none => rw [hm] at h; cases h
    | some p =>
      rw [hm] at h
      dsimp only at h
      split at h
      · rename_i hy
        obtain ⟨t, ht, e, rfl⟩ := match_sound hm
        obtain ⟨b, a, e', hb, ha, _⟩ := Text.trim_padded s
        rw [e] at e'
        rw [yearOf_pieces] at hy
        exact ⟨t, ht, ⟨b, a, e', hb, ha⟩, hy⟩
      · split at h <;> cases h
  · rintro ⟨t, ht, hs, hy⟩
    rw [tryParse, match_trim ht hs]
    dsimp only
    rw [yearOf_pieces, if_pos hy]

/-- **C63 (the zone that is read, partial).** The zone read is that of the text, unless the text has an offset that begins with `-00:`.
What is missing: these offsets. -/
theorem C63_zone_partial (s : Str) (t : DateText) (d : DateTime) (ht : t.Ok) (hs : ∃ b a, s = b ++ t.text ++ a ∧ Blanks b ∧ Blanks a)
    (h : tryParse s = .date d) (hz : ∀ hh mm, t.zone = .offset true hh mm → digitsValue hh ≠ 0) : zoneMinutes d = t.zone.minutes := by
  rw [tryParse, match_trim ht hs] at h
  dsimp only at h
  split at h
  · cases h
  · split at h
    · injection h with h
      subst h
      have ok := ht.zone
      cases hzt : t.zone with
      | missing =>
        simp [zoneMinutes, dateOf, piecesOf, hzt, zoneOf, noOffset, ZoneText.minutes]
      | z => simp [zoneMinutes, dateOf, piecesOf, hzt, zoneOf, ZoneText.minutes]
      | offset neg hh mm =>
        rw [hzt] at ok
        obtain ⟨_, o1, _, o2⟩ := ok
        have e1 : (dateOf (piecesOf t)).isUTC = false := by simp [dateOf, piecesOf, hzt, zoneOf]
        have e2 : (dateOf (piecesOf t)).offsetHours = if neg then -(digitsValue hh : Int) else digitsValue hh := by simp [dateOf, piecesOf, hzt, zoneOf]
        have e3 : (dateOf (piecesOf t)).offsetMinutes = digitsValue mm := by simp [dateOf, piecesOf, hzt, zoneOf]
        rw [zoneMinutes, e1, e2, e3, ZoneText.minutes]
        simp only [Bool.false_eq_true, if_false]
        cases neg with
        | true =>
          have := hz hh mm hzt
          simp only [if_true]
          rw [if_pos (by omega), if_pos (by omega)]
          congr 1
          omega
        | false =>
          simp only [Bool.false_eq_true, if_false]
          rw [if_pos (by omega), if_neg (by omega)]
    · cases h

/-- **C63 (violation: the sign of small offsets).** The sign of an offset `-00:mm` is lost: the date read is ahead of UTC by `mm` minutes
instead of behind. -/
theorem C63_sign_lost (s : Str) (t : DateText) (d : DateTime) (ht : t.Ok) (hs : ∃ b a, s = b ++ t.text ++ a ∧ Blanks b ∧ Blanks a)
    (h : tryParse s = .date d) (hh mm : Str) (hz : t.zone = .offset true hh mm) (h0 : digitsValue hh = 0) (hm : digitsValue mm ≠ 0) :
    zoneMinutes d = some (digitsValue mm) ∧ t.zone.minutes = some (-(digitsValue mm : Int)) ∧ zoneMinutes d ≠ t.zone.minutes := by
  have a : zoneMinutes d = some (digitsValue mm) := by
    rw [tryParse, match_trim ht hs] at h
    dsimp only at h
    split at h
    · cases h
    · split at h
      · injection h with h
        subst h
        have ok := ht.zone
        rw [hz] at ok
        obtain ⟨_, o1, _, o2⟩ := ok
        have e1 : (dateOf (piecesOf t)).isUTC = false := by simp [dateOf, piecesOf, hz, zoneOf]
        have e2 : (dateOf (piecesOf t)).offsetHours = 0 := by simp [dateOf, piecesOf, hz, zoneOf, h0]
        have e3 : (dateOf (piecesOf t)).offsetMinutes = digitsValue mm := by simp [dateOf, piecesOf, hz, zoneOf]
        rw [zoneMinutes, e1, e2, e3]
        simp only [Bool.false_eq_true, if_false]
        rw [if_pos (by omega), if_neg (by omega)]
        simp
      · cases h
  have b : t.zone.minutes = some (-(digitsValue mm : Int)) := by
    rw [hz, ZoneText.minutes, h0]; simp
  refine ⟨a, b, ?_⟩
  rw [a, b]
  intro e
  injection e with e
  omega

/-- What a date means: the fields of date and time, and the zone. -/
def SameTime (d d' : DateTime) : Prop :=
  d.year = d'.year ∧ d.mon = d'.mon ∧ d.mday = d'.mday ∧ d.hour = d'.hour ∧ d.min = d'.min ∧ d.sec = d'.sec ∧ zoneMinutes d = zoneMinutes d'

/-- **C63 (round trip, partial).** A date that exists, without leap second, with a year that is not between −999 and −1 and an offset
whose hours are not between −9 and −1, is read back from the text written. What is missing: these dates. -/
theorem C63_roundtrip_partial (d : DateTime) (hv : ValidDate d) (hs : d.sec ≠ 60) (hy : 0 ≤ d.year ∨ d.year ≤ -1000)
    (ho : d.isUTC = false → d.hasOffset = true → 0 ≤ d.offsetHours ∨ d.offsetHours ≤ -10) :
    ∃ s d', toXmlString d = some s ∧ tryParse s = .date d' ∧ SameTime d d' := by
  obtain ⟨s1, s2⟩ := hv.second
  obtain ⟨p1, p2⟩ := padded_two (v := d.sec) (by omega) (by omega)
  have hsec : TwoDigits (padded 2 d.sec) ∧ digitsValue (padded 2 d.sec) ≤ 59 := ⟨p1, by omega⟩
  have hzone : ∃ z : ZoneText, z.Ok ∧ z.text = zoneText d ∧ z.minutes = zoneMinutes d ∧ (∀ hh mm, z = .offset true hh mm → digitsValue hh ≠ 0) := by
    by_cases hu : d.isUTC = true
    · exact ⟨.z, trivial, by rw [zoneText, if_pos hu]; rfl, by rw [zoneMinutes, if_pos hu]; rfl, by intro _ _ h; cases h⟩
    · have hu' : d.isUTC = false := by simpa using hu
      by_cases hof : d.hasOffset = true
      · have hr : -24 < d.offsetHours ∧ d.offsetHours < 24 ∧ 0 ≤ d.offsetMinutes ∧ d.offsetMinutes < 60 := by
          simp [DateTime.hasOffset, hu'] at hof
          omega
        obtain ⟨m1, m2⟩ := padded_two (v := d.offsetMinutes) (by omega) (by omega)
        have zt : zoneText d = (if d.offsetHours ≥ 0 then ['+'] else []) ++ padded 2 d.offsetHours ++ ':' :: padded 2 d.offsetMinutes := by
          rw [zoneText, if_neg hu, if_pos hof]
        have zm : zoneMinutes d = some (if d.offsetHours < 0 then 60 * d.offsetHours - d.offsetMinutes else 60 * d.offsetHours + d.offsetMinutes) := by
          rw [zoneMinutes, if_neg hu, if_pos hr]
        rcases ho hu' hof with hp | hn
        · obtain ⟨q1, q2⟩ := padded_two (v := d.offsetHours) (by omega) (by omega)
          refine ⟨.offset false (padded 2 d.offsetHours) (padded 2 d.offsetMinutes), ⟨q1, by omega, m1, by omega⟩, ?_, ?_, by intro _ _ h; cases h⟩
          · rw [zt, if_pos hp]; rfl
          · rw [zm, if_neg (by omega), ZoneText.minutes]
            simp only [Bool.false_eq_true, if_false]
            rw [q2, m2]
        · have l1 := decimal_length (n := d.offsetHours.natAbs) (w := 2) (by omega) (by omega)
          have l2 := decimal_length_ge (n := d.offsetHours.natAbs) (k := 1) (by omega)
          obtain ⟨e1, e2, _⟩ := Text.decimal_spec d.offsetHours.natAbs
          refine ⟨.offset true (Text.decimal d.offsetHours.natAbs) (padded 2 d.offsetMinutes), ⟨⟨by omega, e1⟩, by omega, m1, by omega⟩, ?_, ?_, ?_⟩
          · rw [zt, if_neg (by omega), padded_neg (v := d.offsetHours) (by omega) (by omega)]; rfl
          · rw [zm, if_pos (by omega), ZoneText.minutes]
            simp only [if_true]
            rw [e2, m2]
            congr 1
            omega
          · intro hh mm h
            injection h with _ h _
            rw [← h, e2]
            omega
      · refine ⟨.missing, trivial, by rw [zoneText, if_neg hu, if_neg hof]; rfl, ?_, by intro _ _ h; cases h⟩
        rw [zoneMinutes, if_neg hu, if_neg]
        · rfl
        · intro h
          apply hof
          simp [DateTime.hasOffset, hu']
          omega
  obtain ⟨z, hz1, hz2, hz3, hz4⟩ := hzone
  have hok := textOf_ok hv hy hsec hz1
  have hx := toXml_front hv hy (padded 2 d.sec) z
  have htext : (textOf d (padded 2 d.sec) z).text = frontText (textOf d (padded 2 d.sec) z) (padded 2 d.sec ++ zoneText d) := by
    rw [← hz2]; rfl
  rw [← htext] at hx
  generalize ht : textOf d (padded 2 d.sec) z = t at hok hx
  have hpad : ∃ b a, t.text = b ++ t.text ++ a ∧ Blanks b ∧ Blanks a := ⟨[], [], by simp, by simp [Blanks], by simp [Blanks]⟩
  have yv : t.yearValue = d.year := by rw [← ht]; exact (textOf_year hv hy _ z).2
  have ha := daysIn_le d.year d.mon
  obtain ⟨a1, a2⟩ := padded_two (v := d.mon) (by have := hv.month; omega) (by have := hv.month; omega)
  obtain ⟨b1, b2⟩ := padded_two (v := d.mday) (by have := hv.day; omega) (by have := hv.day; omega)
  obtain ⟨c1, c2⟩ := padded_two (v := d.hour) (by have := hv.hour; omega) (by have := hv.hour; omega)
  obtain ⟨f1, f2⟩ := padded_two (v := d.min) (by have := hv.minute; omega) (by have := hv.minute; omega)
  have mv : (digitsValue t.month : Int) = d.mon := by rw [← ht]; exact a2
  have dv : (digitsValue t.day : Int) = d.mday := by rw [← ht]; exact b2
  have hhv : (digitsValue t.hour : Int) = d.hour := by rw [← ht]; exact c2
  have mmv : (digitsValue t.minute : Int) = d.min := by rw [← ht]; exact f2
  have sv : (digitsValue t.second : Int) = d.sec := by rw [← ht]; exact p2
  have zv : t.zone = z := by rw [← ht]; rfl
  obtain ⟨d', hd'⟩ := (C63_parse_complete t.text t hok hpad).1 ⟨by rw [yv]; exact hv.year.1, by rw [yv]; exact hv.year.2, by rw [yv, mv, dv]; exact hv.day.2⟩
  refine ⟨t.text, d', hx, hd', ?_⟩
  have hz := C63_zone_partial t.text t d' hok hpad hd' (by rw [zv]; exact hz4)
  rw [tryParse, match_trim hok hpad] at hd'
  dsimp only at hd'
  split at hd'
  · cases hd'
  · split at hd'
    · injection hd' with hd'
      subst hd'
      exact ⟨by rw [← yv]; exact (yearOf_pieces t).symm, mv.symm, dv.symm, hhv.symm, mmv.symm, sv.symm, by rw [hz, zv, hz3]⟩
    · cases hd'

/-- **C63 (violation: leap seconds).** A valid date with second 60 is written as a text that is not read back. -/
theorem C63_leap_second (d : DateTime) (hv : ValidDate d) (hs : d.sec = 60) (hy : 0 ≤ d.year ∨ d.year ≤ -1000) :
    ∃ s, toXmlString d = some s ∧ tryParse s = .fails := by
  have hok := textOf_ok hv hy (sec := padded 2 0) (z := .missing) ⟨(padded_two (v := 0) (by omega) (by omega)).1, by
    have := (padded_two (v := 0) (by omega) (by omega)).2; omega⟩ trivial
  have hx := toXml_front hv hy (padded 2 0) .missing
  refine ⟨_, hx, ?_⟩
  rw [tryParse, trim_noBlank (noBlank_xml hx), match_front hok]
  obtain ⟨⟨l, _⟩, v⟩ := padded_two (v := d.sec) (by omega) (by omega)
  have : field 0 59 (padded 2 d.sec ++ zoneText d) = none := by
    cases hf : field 0 59 (padded 2 d.sec ++ zoneText d) with
    | none => rfl
    | some r =>
      obtain ⟨w, r⟩ := r
      obtain ⟨x, e, ⟨hx, _⟩, rfl, _, hb⟩ := field_iff.mp hf
      have : padded 2 d.sec = x := by
        exact (List.append_inj e (by omega)).1
      rw [this] at v
      omega
  rw [this]
  rfl

/-- **C63 (violation: western zones).** A valid date with an offset of −9 to −1 hours, say −5:00, is written with one digit and without
leading zero; the text is not read back. -/
theorem C63_western_zone (d : DateTime) (hv : ValidDate d) (hs : d.sec ≠ 60) (hy : 0 ≤ d.year ∨ d.year ≤ -1000) (hu : d.isUTC = false)
    (h1 : -9 ≤ d.offsetHours) (h2 : d.offsetHours ≤ -1) (h3 : 0 ≤ d.offsetMinutes) (h4 : d.offsetMinutes ≤ 59) :
    ∃ s, toXmlString d = some s ∧ tryParse s = .fails := by
  obtain ⟨s1, s2⟩ := hv.second
  obtain ⟨p1, p2⟩ := padded_two (v := d.sec) (by omega) (by omega)
  have hok := textOf_ok hv hy (sec := padded 2 d.sec) (z := .missing) ⟨p1, by omega⟩ trivial
  have hx := toXml_front hv hy (padded 2 d.sec) .missing
  refine ⟨_, hx, ?_⟩
  rw [tryParse, trim_noBlank (noBlank_xml hx), match_front hok, field_iff.mpr ⟨padded 2 d.sec, rfl, p1, rfl, Nat.zero_le _, by omega⟩]
  simp only [Option.bind_some]
  have hof : d.hasOffset = true := by simp [DateTime.hasOffset, hu]; omega
  obtain ⟨a, b, _⟩ := Text.decimal_spec d.offsetHours.natAbs
  have l := decimal_length (n := d.offsetHours.natAbs) (w := 1) (by omega) (by omega)
  obtain ⟨x, hxd⟩ : ∃ x, Text.decimal d.offsetHours.natAbs = [x] := by
    cases hd : Text.decimal d.offsetHours.natAbs with
    | nil => exact absurd hd a.1
    | cons x xs =>
      rw [hd, List.length_cons] at l
      cases xs with
      | nil => exact ⟨x, rfl⟩
      | cons _ _ => simp at l
  have zt : zoneText d = '-' :: x :: ':' :: padded 2 d.offsetMinutes := by
    rw [zoneText, if_neg (by simp [hu]), if_pos hof, if_neg (by omega), padded_neg (v := d.offsetHours) (by omega) (by rw [hxd]; simp), hxd]
    rfl
  rw [zt]
  have : fraction ('-' :: x :: ':' :: padded 2 d.offsetMinutes) = some ('-' :: x :: ':' :: padded 2 d.offsetMinutes) := rfl
  rw [this]
  have : zone ('-' :: x :: ':' :: padded 2 d.offsetMinutes) = none := by
    have : field 0 23 (x :: ':' :: padded 2 d.offsetMinutes) = none := by
      rw [field, if_neg]
      simp [show Char.isDigit ':' = false from rfl]
    rw [zone, if_neg (by decide), if_pos (by decide), this]
  simp only [Option.bind_some, this, Option.bind_none]

/-- **C63 (violation: years before −999).** A valid date with a year between −999 and −1 is written as a text that is not read back. -/
theorem C63_early_year (d : DateTime) (hv : ValidDate d) (h1 : -999 ≤ d.year) (h2 : d.year ≤ -1) :
    ∃ s, toXmlString d = some s ∧ tryParse s = .fails := by
  have hx : ∃ R, toXmlString d = some (padded 4 d.year ++ '-' :: R) := by
    rw [toXmlString, (isValid_iff d).mpr hv]
    exact ⟨padded 2 d.mon ++ '-' :: (padded 2 d.mday ++ 'T' :: (padded 2 d.hour ++ ':' :: (padded 2 d.min ++ ':' ::
      (padded 2 d.sec ++ zoneText d)))), rfl⟩
  obtain ⟨R, hx⟩ := hx
  refine ⟨_, hx, ?_⟩
  rw [tryParse, trim_noBlank (noBlank_xml hx)]
  obtain ⟨a, b, _⟩ := Text.decimal_spec d.year.natAbs
  have l := decimal_length (n := d.year.natAbs) (w := 3) (by omega) (by omega)
  have hm : matchDateTime (padded 4 d.year ++ '-' :: R) = none := by
    have key : ∀ s' : Str, (if (padded 4 d.year ++ '-' :: R).head? = some '-' then (padded 4 d.year ++ '-' :: R).drop 1 else padded 4 d.year ++ '-' :: R) = s' →
        (s'.takeWhile Char.isDigit).length < 4 → matchDateTime (padded 4 d.year ++ '-' :: R) = none := by
      intro s' e hl
      rw [matchDateTime]
      dsimp only
      rw [e, if_pos]
      rw [Bool.not_eq_true', ← Bool.not_eq_true, yearOk_iff]
      omega
    have e : padded 4 d.year = List.replicate (3 - (Text.decimal d.year.natAbs).length) '0' ++ '-' :: Text.decimal d.year.natAbs := by
      rw [padded, Text.printInt, if_pos (by omega), List.length_cons]
      congr 2
      omega
    have dig : ∀ c ∈ Text.decimal d.year.natAbs, c.isDigit = true := fun c hc => (Text.isDigit_iff c).mpr (a.2 c hc)
    cases hk : 3 - (Text.decimal d.year.natAbs).length with
    | zero =>
      rw [hk] at e
      refine key (Text.decimal d.year.natAbs ++ '-' :: R) (by rw [e]; simp) ?_
      rw [(Text.takeWhile_all dig ('-' :: R) (by intro c cs h; injection h with h _; subst h; rfl)).1]
      omega
    | succ k =>
      rw [hk] at e
      refine key (List.replicate (k + 1) '0' ++ ('-' :: Text.decimal d.year.natAbs ++ '-' :: R)) (by rw [e]; simp [List.replicate_succ]) ?_
      rw [(Text.takeWhile_all (a := List.replicate (k + 1) '0') (by intro c hc; rw [(List.mem_replicate.mp hc).2]; rfl) _
        (by intro c cs h; injection h with h _; subst h; rfl)).1]
      simp
      omega
  rw [hm]

/-! ## The hypotheses can be met -/

/-- The 29th of February 2020, 23:59:58, twelve and a half hours behind UTC. -/
def exampleDate : DateTime := ⟨58, 59, 23, 29, 2, 2020, false, -12, 30⟩

theorem exampleDate_valid : ValidDate exampleDate := (isValid_iff _).mp (by decide)

example := C63_roundtrip_partial exampleDate exampleDate_valid (by decide) (by decide) (by decide)
example := C63_western_zone { exampleDate with offsetHours := -5 } ((isValid_iff _).mp (by decide)) (by decide) (by decide) rfl (by decide) (by decide) (by decide) (by decide)
example := C63_leap_second { exampleDate with sec := 60 } ((isValid_iff _).mp (by decide)) rfl (by decide)
example := C63_early_year { exampleDate with year := -44 } ((isValid_iff _).mp (by decide)) (by decide) (by decide)
example : tryParse " 2020-02-29T23:59:58.25-12:30\t".toList = .date exampleDate := by decide
example : tryParse "2019-02-29T23:59:58".toList = .fails := by decide
example : tryParse "2147483648-02-28T23:59:58".toList = .throws := by decide
example : tryParse "2020-02-29T23:59:58-00:30".toList = .date { exampleDate with offsetHours := 0, offsetMinutes := 30 } := by decide

/-- The text `2020-02-29T23:59:58-00:30`. -/
def exampleText : DateText :=
  ⟨false, "2020".toList, "02".toList, "29".toList, "23".toList, "59".toList, "58".toList, none, .offset true "00".toList "30".toList⟩

theorem exampleText_ok : exampleText.Ok := by
  refine ⟨?_, ?_, ?_, ?_, ?_, ?_, ?_, ?_⟩ <;> simp [exampleText, Digits, IsDigit, TwoDigits, ZoneText.Ok, digitsValue]

example := C63_sign_lost exampleText.text exampleText { exampleDate with offsetHours := 0, offsetMinutes := 30 } exampleText_ok
  ⟨[], [], by simp, by simp [Blanks], by simp [Blanks]⟩ (by decide) _ _ rfl (by decide) (by decide)

end Verif
