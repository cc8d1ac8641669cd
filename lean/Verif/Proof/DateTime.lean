import Verif.Spec.DateTime
import Verif.Proof.Text
import Verif.Proof.IndexSet
import Mathlib.Tactic.IntervalCases

/-!
# Helper lemmas: dates
-/

namespace Verif.Xml
open Text Spec

theorem lastDay_eq (d : DateTime) (h1 : 1 ≤ d.mon) (h2 : d.mon ≤ 12) : d.lastDay = daysIn d.year d.mon := by
  rw [DateTime.lastDay]
  generalize d.mon = m at h1 h2
  generalize d.year = y
  by_cases hm : m = 2
  · subst hm
    rw [if_pos rfl]
    show (if _ then (29 : Int) else 28) = if _ then (29 : Int) else 28
    have : ((y % 100 ≠ 0 ∧ y % 4 = 0) ∨ y % 400 = 0) ↔ ((4 : Int) ∣ y ∧ (¬ (100 : Int) ∣ y ∨ (400 : Int) ∣ y)) := by omega
    by_cases h : (y % 100 ≠ 0 ∧ y % 4 = 0) ∨ y % 400 = 0
    · rw [if_pos h, if_pos (this.mp h)]
    · rw [if_neg h, if_neg (fun h' => h (this.mpr h'))]
  · rw [if_neg hm]
    have : m = 1 ∨ m = 3 ∨ m = 4 ∨ m = 5 ∨ m = 6 ∨ m = 7 ∨ m = 8 ∨ m = 9 ∨ m = 10 ∨ m = 11 ∨ m = 12 := by omega
    rcases this with rfl | rfl | rfl | rfl | rfl | rfl | rfl | rfl | rfl | rfl | rfl <;> rfl

theorem isValid_iff (d : DateTime) : d.isValid = true ↔ ValidDate d := by
  simp only [DateTime.isValid, Bool.and_eq_true, decide_eq_true_eq]
  constructor
  · rintro ⟨⟨⟨⟨⟨⟨⟨⟨⟨⟨⟨h1, h2⟩, h3⟩, h4⟩, h5⟩, h6⟩, h7⟩, h8⟩, h9⟩, h10⟩, h11⟩, h12⟩
    rw [lastDay_eq d (by omega) (by omega)] at h12
    exact ⟨by omega, by omega, ⟨by omega, h12⟩, by omega, by omega, by omega⟩
  · rintro ⟨h1, h2, h3, h4, h5, h6⟩
    rw [lastDay_eq d h2.1 h2.2]
    omega

/-! ## Matching -/

theorem lit_iff {c : Char} {s r : Str} : lit c s = some r ↔ s = c :: r := by
  cases s with
  | nil => simp [lit]
  | cons x s =>
    rw [lit]
    split
    · simp [*]
    · simp [*]

theorem field_iff {lo hi v : Nat} {s r : Str} :
    field lo hi s = some (v, r) ↔ ∃ d, s = d ++ r ∧ TwoDigits d ∧ digitsValue d = v ∧ lo ≤ v ∧ v ≤ hi := by
  constructor
  · intro h
    match s, h with
    | a :: b :: s, h =>
      rw [field] at h
      split at h
      · rename_i hc
        simp only [Bool.and_eq_true, decide_eq_true_eq] at hc
        injection h with h
        injection h with e1 e2
        subst e2
        rw [natOf_eq] at e1 hc
        refine ⟨[a, b], rfl, ⟨rfl, by simp, ?_⟩, e1, by omega, by omega⟩
        intro c hc'
        simp only [List.mem_cons, List.not_mem_nil, or_false] at hc'
        rcases hc' with rfl | rfl
        · exact (isDigit_iff _).mp hc.1.1.1
        · exact (isDigit_iff _).mp hc.1.1.2
      · cases h
  · rintro ⟨d, rfl, ⟨hl, hd⟩, rfl, h1, h2⟩
    match d, hl with
    | [a, b], _ =>
      show field lo hi (a :: b :: r) = _
      rw [field, if_pos]
      · rw [natOf_eq]
      · simp only [Bool.and_eq_true, decide_eq_true_eq, natOf_eq]
        exact ⟨⟨⟨(isDigit_iff a).mpr (hd.2 a (by simp)), (isDigit_iff b).mpr (hd.2 b (by simp))⟩, h1⟩, h2⟩

/-- The zone as the code represents it. -/
def zoneOf : ZoneText → Zone
  | .missing => .local_
  | .z => .utc
  | .offset neg h m => .offset neg (digitsValue h) (digitsValue m)

theorem zone_text {z : ZoneText} (h : z.Ok) : zone z.text = some (zoneOf z) := by
  cases z with
  | missing => rfl
  | z => rfl
  | offset neg hh mm =>
    obtain ⟨a, b, c, d⟩ := h
    have e1 : field 0 23 (hh ++ ':' :: mm) = some (digitsValue hh, ':' :: mm) := field_iff.mpr ⟨hh, rfl, a, rfl, by omega, b⟩
    have e2 : field 0 59 mm = some (digitsValue mm, []) := field_iff.mpr ⟨mm, by simp, c, rfl, by omega, d⟩
    rw [ZoneText.text, zone]
    cases neg with
    | true =>
      rw [if_pos rfl, if_neg (by decide), if_pos (by decide), e1]
      dsimp only
      rw [lit_iff.mpr rfl]
      dsimp only
      rw [e2]
      rfl
    | false =>
      rw [if_neg (by decide), if_pos (by decide), e1]
      dsimp only
      rw [lit_iff.mpr rfl]
      dsimp only
      rw [e2]
      rfl

theorem zone_sound {s : Str} {z : Zone} (h : zone s = some z) : ∃ t : ZoneText, t.Ok ∧ s = t.text ∧ z = zoneOf t := by
  cases s with
  | nil => injection h with h; subst h; exact ⟨.missing, trivial, rfl, rfl⟩
  | cons c s =>
    rw [zone] at h
    split at h
    · rename_i hc
      split at h
      · rename_i hs
        injection h with h
        subst h hc hs
        exact ⟨.z, trivial, rfl, rfl⟩
      · cases h
    · split at h
      · rename_i hc
        split at h
        · cases h
        · rename_i hh s1 e1
          split at h
          · cases h
          · rename_i s2 e2
            split at h
            · cases h
            · rename_i mm s3 e3
              split at h
              · rename_i e4
                injection h with h
                subst h e4
                obtain ⟨d1, rfl, t1, rfl, _, b1⟩ := field_iff.mp e1
                rw [lit_iff] at e2
                subst e2
                obtain ⟨d2, rfl, t2, rfl, _, b2⟩ := field_iff.mp e3
                refine ⟨.offset (decide (c = '-')) d1 d2, ⟨t1, b1, t2, b2⟩, ?_, rfl⟩
                rw [ZoneText.text, List.append_nil]
                rcases hc with rfl | rfl
                · rfl
                · rfl
              · cases h
      · cases h

theorem zone_head {z : ZoneText} (c : Char) (cs : Str) (h : z.text = c :: cs) : c = 'Z' ∨ c = '+' ∨ c = '-' := by
  cases z with
  | missing => cases h
  | z => injection h with h; exact .inl h.symm
  | offset neg hh mm =>
    injection h with h
    cases neg with
    | true => exact .inr (.inr h.symm)
    | false => exact .inr (.inl h.symm)

theorem fraction_text {f : Option Str} (hf : ∀ x, f = some x → Digits x) {r : Str} (hr : ∀ c cs, r = c :: cs → c = 'Z' ∨ c = '+' ∨ c = '-') :
    fraction (fractionText f ++ r) = some r := by
  have hd : ∀ c cs, r = c :: cs → c.isDigit = false := by
    intro c cs e
    rcases hr c cs e with rfl | rfl | rfl <;> rfl
  cases f with
  | none =>
    cases r with
    | nil => rfl
    | cons c r =>
      have : c ≠ '.' := by rcases hr c r rfl with rfl | rfl | rfl <;> decide
      show fraction (c :: r) = _
      unfold fraction
      split
      · rename_i h; injection h with h _; exact absurd h this
      · rfl
  | some x =>
    have hx := hf x rfl
    have := takeWhile_all (fun c hc => (isDigit_iff c).mpr (hx.2 c hc)) r hd
    show fraction ('.' :: (x ++ r)) = _
    rw [fraction, this.1, this.2, if_neg hx.1]

theorem fraction_sound {s r : Str} (h : fraction s = some r) :
    ∃ f : Option Str, (∀ x, f = some x → Digits x) ∧ s = fractionText f ++ r := by
  unfold fraction at h
  split at h
  · rename_i s
    split at h
    · cases h
    · rename_i hne
      injection h with h
      obtain ⟨t1, t2, _⟩ := span_eq Char.isDigit s
      rw [h] at t1
      refine ⟨some (s.takeWhile Char.isDigit), ?_, ?_⟩
      · intro x hx
        injection hx with hx
        subst hx
        exact ⟨hne, fun c hc => (isDigit_iff c).mp (t2 c hc)⟩
      · show '.' :: s = '.' :: s.takeWhile Char.isDigit ++ r
        rw [List.cons_append, ← t1]
  · injection h with h
    exact ⟨none, by simp, by simp [h, fractionText]⟩

/-- The groups that a text gives. -/
def piecesOf (t : DateText) : Pieces :=
  { neg := t.neg, year := t.year, mon := digitsValue t.month, mday := digitsValue t.day, hour := digitsValue t.hour, min := digitsValue t.minute,
    sec := digitsValue t.second, zone := zoneOf t.zone }

theorem yearOk_iff (y : Str) : yearOk y = true ↔ (y.length = 4 ∨ (4 < y.length ∧ y.head? ≠ some '0')) := by
  simp [yearOk]

/-- The text up to the minutes. -/
def frontText (t : DateText) (R : Str) : Str :=
  (if t.neg then ['-'] else []) ++ (t.year ++ '-' :: (t.month ++ '-' :: (t.day ++ 'T' :: (t.hour ++ ':' :: (t.minute ++ ':' :: R)))))

theorem match_front {t : DateText} (h : t.Ok) (R : Str) : matchDateTime (frontText t R) =
    (field 0 59 R).bind (fun x => (fraction x.2).bind (fun s => (zone s).bind (fun z => some { piecesOf t with sec := x.1, zone := z }))) := by
  have hy : ∀ c ∈ t.year, c.isDigit = true := fun c hc => (isDigit_iff c).mpr (h.year.1.2 c hc)
  generalize hR : '-' :: (t.month ++ '-' :: (t.day ++ 'T' :: (t.hour ++ ':' :: (t.minute ++ ':' :: R)))) = R'
  have e := takeWhile_all hy R' (by intro c cs e; rw [← hR] at e; injection e with e _; subst e; rfl)
  have et : frontText t R = (if t.neg then ['-'] else []) ++ (t.year ++ R') := by rw [frontText, hR]
  have hne : ∃ d ds, t.year = d :: ds ∧ d ≠ '-' := by
    cases hyr : t.year with
    | nil => exact absurd hyr h.year.1.1
    | cons d ds => exact ⟨d, ds, rfl, (digit_not (h.year.1.2 d (by rw [hyr]; simp))).2.2.2.1⟩
  have hneg : decide ((frontText t R).head? = some '-') = t.neg ∧ (if (frontText t R).head? = some '-' then (frontText t R).drop 1 else frontText t R) = t.year ++ R' := by
    rw [et]
    cases t.neg with
    | true => simp
    | false =>
      obtain ⟨d, ds, e1, e2⟩ := hne
      rw [e1]
      simp [e2]
  rw [matchDateTime]
  dsimp only
  rw [hneg.1, hneg.2, e.1, e.2, (yearOk_iff t.year).mpr h.year.2]
  simp only [Bool.not_true, Bool.false_eq_true, if_false]
  rw [lit_iff.mpr hR.symm]
  simp only [Option.bind_eq_bind, Option.bind_some]
  rw [field_iff.mpr ⟨t.month, rfl, h.month.1, rfl, h.month.2.1, h.month.2.2⟩]
  simp only [Option.bind_some]
  rw [lit_iff.mpr rfl]
  simp only [Option.bind_some]
  rw [field_iff.mpr ⟨t.day, rfl, h.day.1, rfl, h.day.2.1, h.day.2.2⟩]
  simp only [Option.bind_some]
  rw [lit_iff.mpr rfl]
  simp only [Option.bind_some]
  rw [field_iff.mpr ⟨t.hour, rfl, h.hour.1, rfl, Nat.zero_le _, h.hour.2⟩]
  simp only [Option.bind_some]
  rw [lit_iff.mpr rfl]
  simp only [Option.bind_some]
  rw [field_iff.mpr ⟨t.minute, rfl, h.minute.1, rfl, Nat.zero_le _, h.minute.2⟩]
  simp only [Option.bind_some]
  rw [lit_iff.mpr rfl]
  simp only [Option.bind_some]
  rfl

theorem match_text {t : DateText} (h : t.Ok) : matchDateTime t.text = some (piecesOf t) := by
  have e : t.text = frontText t (t.second ++ (fractionText t.fraction ++ t.zone.text)) := rfl
  rw [e, match_front h, field_iff.mpr ⟨t.second, rfl, h.second.1, rfl, Nat.zero_le _, h.second.2⟩]
  simp only [Option.bind_some]
  rw [fraction_text h.fraction zone_head]
  simp only [Option.bind_some]
  rw [zone_text h.zone]
  rfl

theorem match_sound {s : Str} {p : Pieces} (h : matchDateTime s = some p) : ∃ t : DateText, t.Ok ∧ s = t.text ∧ p = piecesOf t := by
  rw [matchDateTime] at h
  dsimp only at h
  generalize hs' : (if s.head? = some '-' then s.drop 1 else s) = s' at h
  have hs : s = (if decide (s.head? = some '-') = true then ['-'] else []) ++ s' := by
    rw [← hs']
    cases s with
    | nil => rfl
    | cons c s =>
      by_cases hc : c = '-'
      · simp [hc]
      · simp [hc]
  generalize decide (s.head? = some '-') = neg at h hs
  split at h
  · cases h
  · rename_i hyk
    have hyk : yearOk (s'.takeWhile Char.isDigit) = true := by simpa using hyk
    rw [yearOk_iff] at hyk
    obtain ⟨y1, y2, _⟩ := span_eq Char.isDigit s'
    generalize s'.takeWhile Char.isDigit = y at h y1 y2 hyk
    generalize s'.dropWhile Char.isDigit = r at h y1
    simp only [Option.bind_eq_bind, Option.bind_eq_some_iff] at h
    obtain ⟨s1, h1, ⟨v2, s2⟩, h2, s3, h3, ⟨v4, s4⟩, h4, s5, h5, ⟨v6, s6⟩, h6, s7, h7, ⟨v8, s8⟩, h8, s9, h9, ⟨v10, s10⟩, h10, s11, h11, z, h12, h13⟩ := h
    rw [lit_iff] at h1 h3 h5 h7 h9
    dsimp only at h1 h3 h5 h7 h9 h11
    obtain ⟨d2, rfl, t2, rfl, a2, b2⟩ := field_iff.mp h2
    obtain ⟨d4, rfl, t4, rfl, a4, b4⟩ := field_iff.mp h4
    obtain ⟨d6, rfl, t6, rfl, a6, b6⟩ := field_iff.mp h6
    obtain ⟨d8, rfl, t8, rfl, a8, b8⟩ := field_iff.mp h8
    obtain ⟨d10, rfl, t10, rfl, a10, b10⟩ := field_iff.mp h10
    obtain ⟨f, hf, rfl⟩ := fraction_sound h11
    obtain ⟨zt, hz, rfl, rfl⟩ := zone_sound h12
    injection h13 with h13
    refine ⟨⟨neg, y, d2, d4, d6, d8, d10, f, zt⟩, ⟨⟨⟨?_, fun c hc => (isDigit_iff c).mp (y2 c hc)⟩, hyk⟩, ⟨t2, a2, b2⟩, ⟨t4, a4, b4⟩, ⟨t6, b6⟩, ⟨t8, b8⟩, ⟨t10, b10⟩, hf, hz⟩, ?_, h13.symm⟩
    · rintro rfl
      simp at hyk
    · rw [hs, y1, h1, h3, h5, h7, h9, DateText.text]

theorem yearOf_pieces (t : DateText) : yearOf (piecesOf t) = t.yearValue := by
  rw [yearOf, DateText.yearValue, piecesOf, natOf_eq]

theorem last_ne_blank {t : DateText} (h : t.Ok) : ∀ c, t.text.getLast? = some c → c ∉ ['\t', ' '] := by
  have dig : ∀ s : Str, Digits s → ∀ p c, (p ++ s).getLast? = some c → c ∉ ['\t', ' '] := by
    intro s hs p c hc
    have hc : s.getLast? = some c := by
      cases hl : s.getLast? with
      | none => exact absurd (List.getLast?_eq_none_iff.mp hl) hs.1
      | some x => rw [List.getLast?_append, hl] at hc; exact hc
    have := digit_not (hs.2 c (List.mem_of_getLast? hc))
    rw [← isBlank_iff]
    simp [this.2.1]
  intro c hc
  have e : ∃ p, t.text = p ++ (t.second ++ (fractionText t.fraction ++ t.zone.text)) := by
    refine ⟨(if t.neg then ['-'] else []) ++ (t.year ++ '-' :: (t.month ++ '-' :: (t.day ++ 'T' :: (t.hour ++ ':' :: (t.minute ++ [':']))))), ?_⟩
    rw [DateText.text]
    simp
  obtain ⟨p, e⟩ := e
  rw [e] at hc
  cases hz : t.zone with
  | z =>
    rw [hz, ← List.append_assoc, ← List.append_assoc, ZoneText.text, List.getLast?_append] at hc
    simp at hc
    subst hc
    decide
  | offset neg hh mm =>
    have ok := h.zone
    rw [hz] at ok
    rw [hz] at hc
    have e2 : p ++ (t.second ++ (fractionText t.fraction ++ (ZoneText.offset neg hh mm).text)) =
        (p ++ (t.second ++ (fractionText t.fraction ++ ((if neg then '-' else '+') :: (hh ++ [':']))))) ++ mm := by
      rw [ZoneText.text]; simp
    rw [e2] at hc
    exact dig mm ok.2.2.1.2 _ c hc
  | missing =>
    rw [hz, ZoneText.text, List.append_nil] at hc
    cases hf : t.fraction with
    | none =>
      rw [hf, fractionText] at hc
      rw [List.append_nil] at hc
      exact dig _ h.second.1.2 _ c hc
    | some f =>
      rw [hf, fractionText] at hc
      have e2 : p ++ (t.second ++ '.' :: f) = (p ++ (t.second ++ ['.'])) ++ f := by simp
      rw [e2] at hc
      exact dig f (h.fraction f hf) _ c hc

theorem head_ne_blank {t : DateText} (h : t.Ok) : ∀ c, t.text.head? = some c → c ∉ ['\t', ' '] := by
  intro c hc
  rw [DateText.text] at hc
  cases hn : t.neg with
  | true =>
    rw [hn] at hc
    simp at hc
    subst hc
    decide
  | false =>
    rw [hn] at hc
    cases hy : t.year with
    | nil => exact absurd hy h.year.1.1
    | cons d ds =>
      rw [hy] at hc
      simp at hc
      subst hc
      have := digit_not (h.year.1.2 d (by rw [hy]; simp))
      rw [← isBlank_iff]
      simp [this.2.1]

theorem match_trim {s : Str} {t : DateText} (h : t.Ok) (hp : ∃ b a, s = b ++ t.text ++ a ∧ Blanks b ∧ Blanks a) :
    matchDateTime (trim s) = some (piecesOf t) := by
  obtain ⟨b, a, e, hb, ha⟩ := hp
  rw [trim_unique (t := t.text) ⟨b, a, e, hb, ha, head_ne_blank h, last_ne_blank h⟩]
  exact match_text h

/-! ## Printing -/

theorem decimal_length {n w : Nat} (hw : 1 ≤ w) (h : n < 10 ^ w) : (decimal n).length ≤ w := by
  obtain ⟨a, b, c⟩ := decimal_spec n
  cases hd : decimal n with
  | nil => simp
  | cons x xs =>
    by_cases h0 : x = '0'
    · have := c xs (by rw [hd, h0])
      subst this
      have e : decimal 0 = ['0'] := by rw [decimal]; rfl
      rw [e] at hd
      injection hd with _ hd
      rw [← hd]
      exact hw
    · have hx : IsDigit x := a.2 x (by rw [hd]; simp)
      have := digitsValue_ge x xs hx h0
      rw [← hd, b] at this
      have : 10 ^ xs.length < 10 ^ w := by omega
      have := (Nat.pow_lt_pow_iff_right (by omega : 1 < 10)).mp this
      simp
      omega

theorem padded_digits {n w : Nat} (hw : 1 ≤ w) (h : n < 10 ^ w) :
    (padded w (n : Int)).length = w ∧ Digits (padded w (n : Int)) ∧ digitsValue (padded w (n : Int)) = n := by
  have hl := decimal_length hw h
  obtain ⟨a, b, _⟩ := decimal_spec n
  have e : padded w (n : Int) = List.replicate (w - (decimal n).length) '0' ++ decimal n := by
    rw [padded, printInt, if_neg (by omega)]
    rfl
  rw [e]
  refine ⟨by simp; omega, ⟨by simp [a.1], ?_⟩, by rw [digitsValue_replicate, b]⟩
  intro c hc
  rw [List.mem_append] at hc
  rcases hc with hc | hc
  · have := (List.mem_replicate.mp hc).2
    subst this
    simp [IsDigit]
  · exact a.2 c hc

theorem padded_two {v : Int} (h1 : 0 ≤ v) (h2 : v < 100) : TwoDigits (padded 2 v) ∧ (digitsValue (padded 2 v) : Int) = v := by
  obtain ⟨n, rfl⟩ : ∃ n : Nat, v = n := ⟨v.toNat, by omega⟩
  obtain ⟨a, b, c⟩ := padded_digits (n := n) (w := 2) (by omega) (by omega)
  exact ⟨⟨a, b⟩, by rw [c]⟩

theorem padded_neg {w : Nat} {v : Int} (h : v < 0) (hl : w ≤ (decimal v.natAbs).length + 1) : padded w v = '-' :: decimal v.natAbs := by
  have e : printInt v = '-' :: decimal v.natAbs := by rw [printInt, if_pos h]
  rw [padded, e, List.length_cons, Nat.sub_eq_zero_of_le hl]
  rfl

theorem decimal_length_ge {n k : Nat} (h : 10 ^ k ≤ n) : k + 1 ≤ (decimal n).length := by
  obtain ⟨a, b, _⟩ := decimal_spec n
  have := digitsValue_lt (decimal n) a.2
  rw [b] at this
  have : 10 ^ k < 10 ^ (decimal n).length := by omega
  have := (Nat.pow_lt_pow_iff_right (by omega : 1 < 10)).mp this
  omega

/-- The parts of the text written for a date, seconds and zone aside. -/
def textOf (d : DateTime) (sec : Str) (z : ZoneText) : DateText :=
  { neg := decide (d.year < 0), year := if d.year < 0 then decimal d.year.natAbs else padded 4 d.year, month := padded 2 d.mon, day := padded 2 d.mday,
    hour := padded 2 d.hour, minute := padded 2 d.min, second := sec, fraction := none, zone := z }

theorem daysIn_le (y m : Int) : daysIn y m ≤ 31 := by
  unfold daysIn
  split <;> first | omega | (split <;> omega)

theorem textOf_ok {d : DateTime} (hv : ValidDate d) (hy : 0 ≤ d.year ∨ d.year ≤ -1000) {sec : Str} (hs : TwoDigits sec ∧ digitsValue sec ≤ 59) {z : ZoneText} (hz : z.Ok) :
    (textOf d sec z).Ok := by
  have := daysIn_le d.year d.mon
  obtain ⟨⟨y1, y2⟩, ⟨m1, m2⟩, ⟨d1, d2⟩, ⟨h1, h2⟩, ⟨i1, i2⟩, s1, s2⟩ := hv
  obtain ⟨a1, b1⟩ := padded_two (v := d.mon) (by omega) (by omega)
  obtain ⟨a2, b2⟩ := padded_two (v := d.mday) (by omega) (by omega)
  obtain ⟨a3, b3⟩ := padded_two (v := d.hour) (by omega) (by omega)
  obtain ⟨a4, b4⟩ := padded_two (v := d.min) (by omega) (by omega)
  refine ⟨?_, ⟨a1, by show 1 ≤ digitsValue (padded 2 d.mon); omega, by show digitsValue (padded 2 d.mon) ≤ 12; omega⟩,
    ⟨a2, by show 1 ≤ digitsValue (padded 2 d.mday); omega, by show digitsValue (padded 2 d.mday) ≤ 31; omega⟩,
    ⟨a3, by show digitsValue (padded 2 d.hour) ≤ 23; omega⟩, ⟨a4, by show digitsValue (padded 2 d.min) ≤ 59; omega⟩, hs, by simp [textOf], hz⟩
  show Digits (if d.year < 0 then decimal d.year.natAbs else padded 4 d.year) ∧ _
  by_cases hneg : d.year < 0
  · have l1 := decimal_length (n := d.year.natAbs) (w := 4) (by omega) (by omega)
    have l2 := decimal_length_ge (n := d.year.natAbs) (k := 3) (by omega)
    rw [show (textOf d sec z).year = decimal d.year.natAbs from if_pos hneg, if_pos hneg]
    exact ⟨(decimal_spec d.year.natAbs).1, .inl (by omega)⟩
  · obtain ⟨n, hn⟩ : ∃ n : Nat, d.year = n := ⟨d.year.toNat, by omega⟩
    obtain ⟨p1, p2, _⟩ := padded_digits (n := n) (w := 4) (by omega) (by omega)
    rw [show (textOf d sec z).year = padded 4 d.year from if_neg hneg, if_neg hneg, hn]
    exact ⟨p2, .inl p1⟩

theorem textOf_year {d : DateTime} (hv : ValidDate d) (hy : 0 ≤ d.year ∨ d.year ≤ -1000) (sec : Str) (z : ZoneText) :
    (if (textOf d sec z).neg then ['-'] else []) ++ (textOf d sec z).year = padded 4 d.year ∧ (textOf d sec z).yearValue = d.year := by
  obtain ⟨⟨y1, y2⟩, _⟩ := hv
  by_cases hneg : d.year < 0
  · have l2 := decimal_length_ge (n := d.year.natAbs) (k := 3) (by omega)
    rw [DateText.yearValue]
    rw [show (textOf d sec z).year = decimal d.year.natAbs from if_pos hneg, show (textOf d sec z).neg = true from decide_eq_true hneg,
      padded_neg hneg (by omega)]
    refine ⟨rfl, ?_⟩
    rw [if_pos rfl, (decimal_spec _).2.1]
    omega
  · obtain ⟨n, hn⟩ : ∃ n : Nat, d.year = n := ⟨d.year.toNat, by omega⟩
    obtain ⟨p1, p2, p3⟩ := padded_digits (n := n) (w := 4) (by omega) (by omega)
    rw [DateText.yearValue]
    rw [show (textOf d sec z).year = padded 4 d.year from if_neg hneg, show (textOf d sec z).neg = false from decide_eq_false hneg, hn]
    refine ⟨rfl, ?_⟩
    rw [if_neg (by simp), p3]

theorem toXml_front {d : DateTime} (hv : ValidDate d) (hy : 0 ≤ d.year ∨ d.year ≤ -1000) (sec : Str) (z : ZoneText) :
    toXmlString d = some (frontText (textOf d sec z) (padded 2 d.sec ++ zoneText d)) := by
  rw [toXmlString, (isValid_iff d).mpr hv]
  simp only [Bool.not_true, Bool.false_eq_true, if_false]
  rw [frontText, ← List.append_assoc, (textOf_year hv hy sec z).1]
  rfl

/-! ## No blanks -/

/-- The text has no blanks and tabs. -/
def NoBlank (s : Str) : Prop := ∀ c ∈ s, isTrim c = false

theorem trim_noBlank {s : Str} (h : NoBlank s) : trim s = s := by
  apply trim_unique
  refine ⟨[], [], by simp, by simp [Blanks], by simp [Blanks], ?_, ?_⟩
  · intro c hc hm
    have := h c (List.mem_of_head? hc)
    rw [(isTrim_iff c).mpr hm] at this
    cases this
  · intro c hc hm
    have := h c (List.mem_of_getLast? hc)
    rw [(isTrim_iff c).mpr hm] at this
    cases this

theorem noBlank_append {a b : Str} (ha : NoBlank a) (hb : NoBlank b) : NoBlank (a ++ b) := by
  intro c hc
  rw [List.mem_append] at hc
  rcases hc with hc | hc
  · exact ha c hc
  · exact hb c hc

theorem noBlank_cons {x : Char} {b : Str} (hx : isTrim x = false) (hb : NoBlank b) : NoBlank (x :: b) := by
  intro c hc
  rw [List.mem_cons] at hc
  rcases hc with rfl | hc
  · exact hx
  · exact hb c hc

theorem noBlank_digits {a : Str} (h : ∀ c ∈ a, IsDigit c) : NoBlank a := by
  intro c hc
  have := (digit_not (h c hc)).2.1
  simpa [isTrim, isBlank, or_comm, and_comm] using this

theorem noBlank_padded (w : Nat) (v : Int) : NoBlank (padded w v) := by
  rw [padded]
  refine noBlank_append ?_ ?_
  · intro c hc
    have := (List.mem_replicate.mp hc).2
    subst this
    rfl
  · rw [printInt]
    have := noBlank_digits (decimal_spec v.natAbs).1.2
    split
    · exact noBlank_cons rfl this
    · exact this

theorem noBlank_xml {d : DateTime} {s : Str} (h : toXmlString d = some s) : NoBlank s := by
  rw [toXmlString] at h
  split at h
  · cases h
  · injection h with h
    subst h
    refine noBlank_append (noBlank_padded _ _) (noBlank_cons rfl (noBlank_append (noBlank_padded _ _) (noBlank_cons rfl (noBlank_append (noBlank_padded _ _)
      (noBlank_cons rfl (noBlank_append (noBlank_padded _ _) (noBlank_cons rfl (noBlank_append (noBlank_padded _ _) (noBlank_cons rfl
      (noBlank_append (noBlank_padded _ _) ?_))))))))))
    rw [zoneText]
    split
    · exact noBlank_cons rfl (by simp [NoBlank])
    · split
      · refine noBlank_append (noBlank_append ?_ (noBlank_padded _ _)) (noBlank_cons rfl (noBlank_padded _ _))
        split
        · exact noBlank_cons rfl (by simp [NoBlank])
        · simp [NoBlank]
      · simp [NoBlank]

end Verif.Xml
