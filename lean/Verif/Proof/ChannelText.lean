import Verif.Spec.ChannelText
import Verif.Proof.NumConv
import Verif.Proof.XmlValue

/-! # Helper lemmas: texts in the channel information -/

namespace Verif.Xml

open Verif.Flt Verif.Spec Verif.Text Verif.Czi

/-! ## Numbers with a rest -/

theorem scanExponent_rest {r rest : Str} {e : ℤ} (h : scanExponent (fun c => c = 'e' || c = 'E') r = (e, rest)) : ∃ t, r = t ++ rest ∧ ExponentText t e := by
  cases r with
  | nil =>
    rw [scanExponent] at h
    obtain ⟨h1, h2⟩ := Prod.ext_iff.1 h
    dsimp only at h1 h2
    rw [← h1, ← h2]
    exact ⟨[], rfl, .none⟩
  | cons c r' =>
    rw [scanExponent] at h
    dsimp only at h
    by_cases hc : c = 'e' ∨ c = 'E'
    · rw [if_pos (by simpa using hc)] at h
      by_cases ht : (if r'.head? = some '-' ∨ r'.head? = some '+' then r'.drop 1 else r').takeWhile Char.isDigit = []
      · rw [if_pos ht] at h
        obtain ⟨h1, h2⟩ := Prod.ext_iff.1 h
        dsimp only at h1 h2
        rw [← h1, ← h2]
        exact ⟨[], rfl, .none⟩
      · rw [if_neg ht] at h
        obtain ⟨h1, h2⟩ := Prod.ext_iff.1 h
        dsimp only at h1 h2
        generalize htt : (if r'.head? = some '-' ∨ r'.head? = some '+' then r'.drop 1 else r') = t at *
        have hall := List.takeWhile_append_dropWhile (p := Char.isDigit) (l := t)
        rw [h2] at hall
        have hd : Digits (t.takeWhile Char.isDigit) := ⟨ht, takeWhile_digits t⟩
        rw [natOf_eq] at h1
        generalize t.takeWhile Char.isDigit = ds at hall hd h1 ht
        rcases r' with _ | ⟨d, r''⟩
        · simp at htt; rw [htt] at hall; exact absurd (List.append_eq_nil_iff.1 hall).1 ht
        · by_cases hd1 : d = '-'
          · subst hd1
            simp at htt
            simp at h1
            subst htt
            have := ExponentText.some (c := c) (s := ['-']) (g := -1) hc (Or.inr (Or.inr ⟨rfl, rfl⟩)) hd
            refine ⟨c :: (['-'] ++ ds), by rw [← hall]; rfl, ?_⟩
            rw [← h1]
            simpa using this
          · by_cases hd2 : d = '+'
            · subst hd2
              simp at htt
              simp at h1
              subst htt
              have := ExponentText.some (c := c) (s := ['+']) (g := 1) hc (Or.inr (Or.inl ⟨rfl, rfl⟩)) hd
              refine ⟨c :: (['+'] ++ ds), by rw [← hall]; rfl, ?_⟩
              rw [← h1]
              simpa using this
            · simp [hd1, hd2] at htt
              simp [hd1] at h1
              have := ExponentText.some (c := c) (s := []) (g := 1) hc (Or.inl ⟨rfl, rfl⟩) hd
              refine ⟨c :: ([] ++ ds), by rw [htt, ← hall]; rfl, ?_⟩
              rw [← h1]
              simpa using this
    · rw [if_neg (by simpa using hc)] at h
      obtain ⟨h1, h2⟩ := Prod.ext_iff.1 h
      dsimp only at h1 h2
      rw [← h1, ← h2]
      exact ⟨[], rfl, .none⟩

theorem scanDecimal_rest {s rest : Str} {x : ℚ} (h : scanDecimal s = some (x, rest)) {sg : Str} {g : ℚ} (hg : SignText sg g) :
    ∃ t, s = t ++ rest ∧ NumberText (sg ++ t) (g * x) := by
  unfold scanDecimal at h
  cases hp : scanPoint Char.isDigit s with
  | none => rw [hp] at h; cases h
  | some t =>
    obtain ⟨ip, fp, r⟩ := t
    rw [hp, Option.map_some] at h
    dsimp only at h
    obtain ⟨pf, k1, k2, k3, k4⟩ := scanPoint_conv hp
    simp only [Option.some.injEq, Prod.mk.injEq] at h
    obtain ⟨ex, e1, he⟩ := scanExponent_rest (r := r) (rest := rest) (e := (scanExponent (fun c => c = 'e' || c = 'E') r).1) (Prod.ext rfl h.2)
    refine ⟨ip ++ (pf ++ ex), by rw [k1, e1]; simp, sg, ip, pf, fp, ex, g, _, rfl, hg, k2, k3, k4, he, ?_⟩
    rw [← h.1, natOf_eq]

theorem upper_in {d : Char} (h : upper d = 'I' ∨ upper d = 'N') : d ∈ ['i', 'I', 'n', 'N'] := by
  unfold upper at h
  split at h
  · rename_i hr
    have key : ∀ n < 123, 97 ≤ n → (Char.ofNat (n - 32) = 'I' ∨ Char.ofNat (n - 32) = 'N') → n = 105 ∨ n = 110 := by decide
    rcases key d.toNat (by omega) hr.1 h with h | h
    · rw [← Char.ofNat_toNat d, h]; decide
    · rw [← Char.ofNat_toNat d, h]; decide
  · rcases h with rfl | rfl <;> decide

theorem startsWith_decimal {s w : Str} (hs : Decimal s) {c : Char} (hc : c ∈ w) (h : c = 'X' ∨ c = 'I' ∨ c = 'N') : startsWith w s = false := by
  cases hq : startsWith w s with
  | false => rfl
  | true =>
    obtain ⟨d, hd, he⟩ := startsWith_mem (c := c) hq hc
    have := hs d hd
    rcases h with rfl | h
    · rcases upper_x he with k | k <;> subst k <;> exact absurd this (by decide)
    · have k := upper_in (d := d) (by rw [he]; exact h)
      exact absurd (List.mem_cons_of_mem _ (List.mem_cons_of_mem _ k)) this

theorem scanNumber_decimal {t : Str} (ht : Decimal t) : scanNumber t = (scanDecimal t).map fun q => (.fin q.1, q.2) := by
  unfold scanNumber
  rw [startsWith_decimal (w := "INFINITY".toList) ht (c := 'I') (by decide) (.inr (.inl rfl)),
    startsWith_decimal (w := "INF".toList) ht (c := 'I') (by decide) (.inr (.inl rfl)),
    startsWith_decimal (w := "NAN".toList) ht (c := 'N') (by decide) (.inr (.inr rfl)),
    startsWith_decimal (w := "0X".toList) ht (c := 'X') (by decide) (.inl rfl)]
  simp only [Bool.false_eq_true, if_false]

theorem wcstod_rest {s rest : Str} {x : Num} (h : wcstod s = some (x, rest)) (hx : Decimal s) :
    ∃ w t, s = w ++ (t ++ rest) ∧ (∀ c ∈ w, IsWhite c) ∧ DoubleText t x := by
  unfold wcstod at h
  dsimp only at h
  generalize hr : s.dropWhile isSpace = r at h
  have hs : s = s.takeWhile isSpace ++ r := by rw [← hr, List.takeWhile_append_dropWhile]
  have hw : ∀ c ∈ s.takeWhile isSpace, isSpace c = true := List.all_eq_true.1 (List.all_takeWhile (l := s) (p := isSpace))
  generalize s.takeWhile isSpace = w at hs hw
  have hmem : ∀ c ∈ r, c ∈ s := fun c hc => by rw [hs]; exact List.mem_append_right _ hc
  have fin : ∀ (t sg : Str) (g : ℚ) (b : Bool), r = sg ++ t → SignText sg g → (∀ y : ℚ, (if b then -y else y) = g * y) →
      ((scanNumber t).map fun q => ((q.1.signed b).map f64, q.2)) = some (x, rest) →
      ∃ w t, s = w ++ (t ++ rest) ∧ (∀ c ∈ w, IsWhite c) ∧ DoubleText t x := by
    intro t sg g b e1 e2 e3 e4
    rw [scanNumber_decimal (fun c hc => hx c (hmem c (by rw [e1]; exact List.mem_append_right _ hc)))] at e4
    cases hq : scanDecimal t with
    | none => rw [hq] at e4; cases e4
    | some q =>
      obtain ⟨y, u⟩ := q
      rw [hq] at e4
      simp only [Option.map_some, Option.some.injEq, Prod.mk.injEq] at e4
      obtain ⟨e5, rfl⟩ := e4
      obtain ⟨t', k1, k2⟩ := scanDecimal_rest hq e2
      refine ⟨w, sg ++ t', by rw [hs, e1, k1]; simp, fun c hc => (isSpace_iff c).1 (hw c hc), g * y, k2, ?_⟩
      rw [← e5, Num.signed, Num.map, e3]
  rcases r with _ | ⟨c, r'⟩
  · exact fin [] [] 1 false rfl .none (by simp) (by simpa using h)
  · by_cases h1 : c = '-'
    · subst h1
      exact fin r' ['-'] (-1) true rfl .minus (by simp) (by simpa using h)
    · by_cases h2 : c = '+'
      · subst h2
        exact fin r' ['+'] 1 false rfl .plus (by simp) (by simpa using h)
      · exact fin (c :: r') [] 1 false rfl .none (by simp) (by simpa [h1, h2] using h)

/-! ## What a conversion does -/

/-- The conversion `scan` takes white space and a text of `N`, and leaves the rest. -/
structure Scans {α : Type} (scan : Str → Option (α × Str)) (N : Str → α → Prop) (P : Char → Prop) : Prop where
  text : ∀ {t x w r}, N t x → EndsNumber r → (∀ c ∈ w, IsWhite c) → scan (w ++ (t ++ r)) = some (x, r)
  conv : ∀ {s x rest}, scan s = some (x, rest) → (∀ c ∈ s, P c) → ∃ w t, s = w ++ (t ++ rest) ∧ (∀ c ∈ w, IsWhite c) ∧ N t x
  chars : ∀ {t x}, N t x → t ≠ [] ∧ ∀ c ∈ t, ¬ IsWhite c

theorem isWhite_iff (c : Char) : IsWhite c ↔ isSpace c = true := (isSpace_iff c).symm

theorem digit_notWhite {c : Char} (h : IsDigit c) : ¬ IsWhite c := by
  rw [isWhite_iff, (Text.digit_not h).2.2.2.2]; simp

theorem double_scans : Scans stod DoubleText (fun c => c ∉ ['x', 'X', 'i', 'I', 'n', 'N']) where
  text := by
    rintro t x w r ⟨d, h1, rfl⟩ hr hw
    exact wcstod_text h1 (fun c hc => (isWhite_iff c).1 (hw c hc)) hr
  conv := fun h hp => wcstod_rest h hp
  chars := by
    rintro t x ⟨d, ⟨sg, ip, pf, fp, ex, g, e, rfl, hs, hd, hne, hp, he, _⟩, _⟩
    have hdot : ¬ IsWhite '.' := by unfold IsWhite; decide
    constructor
    · intro h
      simp only [List.append_eq_nil_iff] at h
      obtain ⟨_, h2, h3, _⟩ := h
      rcases hp with ⟨h4, h5⟩ | h4
      · exact hne (by rw [h2, h5]; rfl)
      · rw [h3] at h4; cases h4
    · intro c hc
      simp only [List.mem_append] at hc
      rcases hc with hc | hc | hc | hc
      · have hp' : ¬ IsWhite '+' := by unfold IsWhite; decide
        have hm' : ¬ IsWhite '-' := by unfold IsWhite; decide
        cases hs with
        | none => cases hc
        | plus => simp at hc; rw [hc]; exact hp'
        | minus => simp at hc; rw [hc]; exact hm'
      · exact digit_notWhite (hd c (List.mem_append_left _ hc))
      · rcases hp with ⟨h4, _⟩ | h4
        · rw [h4] at hc; cases hc
        · rw [h4] at hc
          rcases List.mem_cons.1 hc with rfl | hc
          · exact hdot
          · exact digit_notWhite (hd c (List.mem_append_right _ hc))
      · cases he with
        | none => cases hc
        | some h1 h2 h3 =>
          rcases List.mem_cons.1 hc with rfl | hc
          · rcases h1 with rfl | rfl <;> (unfold IsWhite; decide)
          · rcases List.mem_append.1 hc with hc | hc
            · rcases h2 with ⟨rfl, _⟩ | ⟨rfl, _⟩ | ⟨rfl, _⟩
              · cases hc
              · simp at hc; subst hc; unfold IsWhite; decide
              · simp at hc; subst hc; unfold IsWhite; decide
            · exact digit_notWhite (h3.2 c hc)

/-- The texts `std::stoull` takes, and their numbers. -/
def Unsigned (t : Str) (x : Nat) : Prop :=
  ∃ sg ds, t = sg ++ ds ∧ sg ∈ ([[], ['+'], ['-']] : List Str) ∧ Digits ds ∧ digitsValue ds < 2 ^ 64 ∧
    x = if sg = ['-'] then (2 ^ 64 - digitsValue ds) % 2 ^ 64 else digitsValue ds

theorem sign_chars {sg ds : Str} (h : sg ∈ ([[], ['+'], ['-']] : List Str)) (hd : Digits ds) : sg ++ ds ≠ [] ∧ ∀ c ∈ sg ++ ds, ¬ IsWhite c := by
  constructor
  · intro e; exact hd.1 (List.append_eq_nil_iff.1 e).2
  · intro c hc
    rcases List.mem_append.1 hc with hc | hc
    · simp only [List.mem_cons, List.not_mem_nil, or_false] at h
      rcases h with rfl | rfl | rfl
      · cases hc
      · simp at hc; subst hc; unfold IsWhite; decide
      · simp at hc; subst hc; unfold IsWhite; decide
    · exact digit_notWhite (hd.2 c hc)

theorem ends_digit {r : Str} (h : EndsNumber r) : ∀ c cs, r = c :: cs → c.isDigit = false := by
  intro c cs e
  have := (h c cs e).1
  cases hq : c.isDigit with
  | false => rfl
  | true => exact absurd ((isDigit_iff c).1 hq) this

theorem uint64_scans : Scans stoull Unsigned (fun _ => True) where
  text := by
    rintro t x w r ⟨sg, ds, rfl, h1, h2, h3, rfl⟩ hr hw
    unfold stoull
    rw [show w ++ (sg ++ ds ++ r) = w ++ (sg ++ (ds ++ r)) by simp, scan_text hw h1 h2 (ends_digit hr)]
    dsimp only
    rw [natOf_eq, if_neg (by omega)]
    simp
  conv := by
    intro s x rest h _
    unfold stoull at h
    cases hs : scanInt s with
    | none => rw [hs] at h; cases h
    | some q =>
      obtain ⟨neg, ds, r⟩ := q
      rw [hs] at h
      dsimp only at h
      obtain ⟨w, sg, e1, e2, e3, e4, e5, _⟩ := scan_sound hs
      split at h
      · cases h
      · rename_i hlt
        simp only [Option.some.injEq, Prod.mk.injEq] at h
        obtain ⟨h1, rfl⟩ := h
        rw [natOf_eq] at hlt h1
        refine ⟨w, sg ++ ds, by rw [e1]; simp, e2, sg, ds, rfl, e3, e4, by omega, ?_⟩
        rw [← h1, e5]; simp
  chars := by
    rintro t x ⟨sg, ds, rfl, h1, h2, _⟩
    exact sign_chars h1 h2

theorem int32_scans : Scans stoi Int32Text (fun _ => True) where
  text := by
    rintro t x w r ⟨sg, ds, rfl, h2, h3, h4⟩ hr hw
    unfold stoi
    have h1 : sg ∈ ([[], ['+'], ['-']] : List Str) := by
      rcases h3 with ⟨rfl, _⟩ | ⟨rfl, _⟩ | ⟨rfl, _⟩ <;> simp
    rw [show w ++ (sg ++ ds ++ r) = w ++ (sg ++ (ds ++ r)) by simp, scan_text hw h1 h2 (ends_digit hr)]
    dsimp only
    rw [natOf_eq]
    have hx : (if decide (sg = ['-']) = true then -(digitsValue ds : Int) else (digitsValue ds : Int)) = x := by
      rcases h3 with ⟨rfl, h⟩ | ⟨rfl, h⟩ | ⟨rfl, h⟩ <;> simp [h]
    rw [hx, if_neg (by omega)]
  conv := by
    intro s x rest h _
    unfold stoi at h
    cases hs : scanInt s with
    | none => rw [hs] at h; cases h
    | some q =>
      obtain ⟨neg, ds, r⟩ := q
      rw [hs] at h
      dsimp only at h
      obtain ⟨w, sg, e1, e2, e3, e4, e5, _⟩ := scan_sound hs
      generalize hy : (if neg = true then -(natOf ds : Int) else (natOf ds : Int)) = y at h
      by_cases hlt : y < -2147483648 ∨ 2147483647 < y
      · rw [if_pos hlt] at h; cases h
      · rw [if_neg hlt] at h
        simp only [Option.some.injEq, Prod.mk.injEq] at h
        obtain ⟨rfl, rfl⟩ := h
        have h1 := hy
        rw [natOf_eq] at h1
        refine ⟨w, sg ++ ds, by rw [e1]; simp, e2, sg, ds, rfl, e4, ?_, by omega, by omega⟩
        rw [e5] at h1
        simp only [List.mem_cons, List.not_mem_nil, or_false] at e3
        rcases e3 with rfl | rfl | rfl
        · exact .inl ⟨rfl, by simpa using h1.symm⟩
        · exact .inr (.inl ⟨rfl, by simpa using h1.symm⟩)
        · exact .inr (.inr ⟨rfl, by simpa using h1.symm⟩)
  chars := by
    rintro t x ⟨sg, ds, rfl, h2, h3, _⟩
    refine sign_chars ?_ h2
    rcases h3 with ⟨rfl, _⟩ | ⟨rfl, _⟩ | ⟨rfl, _⟩ <;> simp

/-! ## Ranges -/

def shownWith {α : Type} (lo hi unset : α) : RangeValue α → RangeOrSingle α
  | .single x => ⟨true, x, unset⟩
  | .range a b => ⟨false, a.getD lo, b.getD hi⟩

theorem ends_nil : EndsNumber [] := fun _ _ e => by cases e

theorem ends_minus (r : Str) : EndsNumber ('-' :: r) := by
  intro c cs e
  injection e with e _
  subst e
  constructor
  · unfold IsDigit; decide
  · decide

theorem head_ne {a r : Str} {c : Char} (h0 : a ≠ []) (h : a.head? ≠ some c) : (a ++ r).head? ≠ some c := by
  cases a with
  | nil => exact absurd rfl h0
  | cons d a => exact h

theorem parseRange_iff {α : Type} {scan : Str → Option (α × Str)} {N : Str → α → Prop} {P : Char → Prop} (H : Scans scan N P) (lo hi unset : α) {s : Str}
    (hw : ∀ c ∈ s, ¬ IsWhite c) (hP : ∀ c ∈ s, P c) (r : RangeOrSingle α) :
    parseRange scan lo hi unset s = some r ↔ ∃ v, RangeText N s v ∧ r = shownWith lo hi unset v := by
  -- without white space
  have conv : ∀ {u x rest}, scan u = some (x, rest) → (∀ c ∈ u, c ∈ s) → ∃ t, u = t ++ rest ∧ N t x := by
    intro u x rest h hm
    obtain ⟨w, t, e1, e2, e3⟩ := H.conv h (fun c hc => hP c (hm c hc))
    cases w with
    | nil => exact ⟨t, e1, e3⟩
    | cons c w => exact absurd (e2 c (by simp)) (hw c (hm c (by rw [e1]; simp)))
  have text : ∀ {t x r}, N t x → EndsNumber r → scan (t ++ r) = some (x, r) := fun h hr => H.text (w := []) h hr (by simp)
  unfold parseRange
  constructor
  · intro h
    by_cases hm : s.head? = some '-'
    · rw [if_pos hm] at h
      obtain ⟨u, rfl⟩ : ∃ u, s = '-' :: u := by
        cases s with
        | nil => cases hm
        | cons c u => simp at hm; exact ⟨u, by rw [hm]⟩
      rw [List.drop_succ_cons, List.drop_zero] at h
      cases hs : scan u with
      | none => rw [hs] at h; cases h
      | some q =>
        obtain ⟨e, rest⟩ := q
        rw [hs] at h
        dsimp only at h
        split at h
        · rename_i hr
          subst hr
          obtain ⟨t, e1, e2⟩ := conv hs (fun c hc => List.mem_cons_of_mem _ hc)
          rw [List.append_nil] at e1
          subst e1
          injection h with h
          exact ⟨.range none (some e), .stop e2, h.symm⟩
        · cases h
    · rw [if_neg hm] at h
      cases hs : scan s with
      | none => rw [hs] at h; cases h
      | some q =>
        obtain ⟨a, rest⟩ := q
        rw [hs] at h
        obtain ⟨t, e1, e2⟩ := conv hs (fun c hc => hc)
        have ht := (H.chars e2).1
        have hh : t.head? ≠ some '-' := by
          rw [e1] at hm
          cases t with
          | nil => exact absurd rfl ht
          | cons d t => exact hm
        cases rest with
        | nil =>
          dsimp only at h
          injection h with h
          rw [List.append_nil] at e1
          subst e1
          exact ⟨.single a, .single e2 hh, h.symm⟩
        | cons c rest =>
          dsimp only at h
          by_cases hc : c = '-'
          · rw [if_neg (by simp [hc])] at h
            subst hc
            by_cases h0 : rest = []
            · rw [if_pos h0] at h
              subst h0
              injection h with h
              exact ⟨.range (some a) none, by rw [e1]; exact .start e2 hh, h.symm⟩
            · rw [if_neg h0] at h
              cases hs2 : scan rest with
              | none => rw [hs2] at h; cases h
              | some q =>
                obtain ⟨b, r'⟩ := q
                rw [hs2] at h
                dsimp only at h
                split at h
                · rename_i hr
                  subst hr
                  obtain ⟨t2, e3, e4⟩ := conv hs2 (fun c hc => by rw [e1]; simp [hc])
                  rw [List.append_nil] at e3
                  subst e3
                  injection h with h
                  exact ⟨.range (some a) (some b), by rw [e1]; exact .both e2 hh e4, h.symm⟩
                · cases h
          · rw [if_pos hc] at h; cases h
  · rintro ⟨v, hv, rfl⟩
    cases hv with
    | single h1 h2 =>
      have := text h1 ends_nil
      rw [List.append_nil] at this
      rw [if_neg h2, this]
      rfl
    | both h1 h2 h3 =>
      rw [if_neg (head_ne (H.chars h1).1 h2), text h1 (ends_minus _)]
      dsimp only
      have := text h3 ends_nil
      rw [List.append_nil] at this
      rw [if_neg (by simp), if_neg (H.chars h3).1, this]
      simp [shownWith]
    | start h1 h2 =>
      rw [if_neg (head_ne (H.chars h1).1 h2), text h1 (ends_minus _)]
      simp [shownWith]
    | stop h1 =>
      have := text h1 ends_nil
      rw [List.append_nil] at this
      rw [if_pos (by rfl), List.drop_succ_cons, List.drop_zero, this]
      simp [shownWith]

theorem uint64_unsigned {t : Str} {x : Nat} (h : UInt64Text t x) : Unsigned t x := by
  obtain ⟨sg, ds, rfl, h1, h2, rfl, h3⟩ := h
  refine ⟨sg, ds, rfl, by rcases h1 with rfl | rfl <;> simp, h2, h3, ?_⟩
  rcases h1 with rfl | rfl <;> simp

theorem unsigned_uint64 {t : Str} {x : Nat} (h : Unsigned t x) (hh : t.head? ≠ some '-') : UInt64Text t x := by
  obtain ⟨sg, ds, rfl, h1, h2, h3, rfl⟩ := h
  simp only [List.mem_cons, List.not_mem_nil, or_false] at h1
  rcases h1 with rfl | rfl | rfl
  · exact ⟨[], ds, rfl, .inl rfl, h2, by simp, by simpa using h3⟩
  · exact ⟨['+'], ds, rfl, .inr rfl, h2, by simp, by simpa using h3⟩
  · exact absurd rfl hh

/-- Two minus signs do not follow each other. -/
theorem rangeText_unsigned {s : Str} (h : ¬ ['-', '-'] <:+: s) (v : RangeValue Nat) : RangeText Unsigned s v ↔ RangeText UInt64Text s v := by
  have hb : ∀ a b : Str, s = a ++ '-' :: b → b.head? ≠ some '-' := by
    intro a b e hh
    cases b with
    | nil => cases hh
    | cons c b =>
      simp at hh
      subst hh
      exact h ⟨a, b, by rw [e]; simp⟩
  constructor
  · intro hv
    cases hv with
    | single h1 h2 => exact .single (unsigned_uint64 h1 h2) h2
    | both h1 h2 h3 => exact .both (unsigned_uint64 h1 h2) h2 (unsigned_uint64 h3 (hb _ _ rfl))
    | start h1 h2 => exact .start (unsigned_uint64 h1 h2) h2
    | stop h1 => exact .stop (unsigned_uint64 h1 (hb [] _ rfl))
  · intro hv
    cases hv with
    | single h1 h2 => exact .single (uint64_unsigned h1) h2
    | both h1 h2 h3 => exact .both (uint64_unsigned h1) h2 (uint64_unsigned h3)
    | start h1 h2 => exact .start (uint64_unsigned h1) h2
    | stop h1 => exact .stop (uint64_unsigned h1)

theorem removeSpaces_eq (s : Str) : removeSpaces s = withoutWhite s := by
  unfold removeSpaces withoutWhite
  refine List.filter_congr fun c _ => ?_
  cases hq : isSpace c with
  | true =>
    have := (isSpace_iff c).1 hq
    rw [decide_eq_false (fun k => k this)]
    rfl
  | false =>
    have : c ∉ [' ', '\t', '\n', '\x0b', '\x0c', '\r'] := fun k => by rw [(isSpace_iff c).2 k] at hq; cases hq
    rw [decide_eq_true this]; rfl

theorem withoutWhite_white (s : Str) : ∀ c ∈ withoutWhite s, ¬ IsWhite c := by
  intro c hc
  have := (List.mem_filter.1 hc).2
  simpa [IsWhite] using this

/-! ## Arrays -/

theorem narrow_ok {c : Char} (h : c.toNat ≤ 255) : narrowIsSpace c = .ok (isSpace c) := by
  unfold narrowIsSpace
  rw [if_neg (by omega)]

theorem skipSpaces_white {w r : Str} (hw : ∀ c ∈ w, IsWhite c) (hr : ∀ c cs, r = c :: cs → ¬ IsWhite c) (hb : ∀ c ∈ w ++ r, c.toNat ≤ 255) :
    skipSpaces (w ++ r) = .ok r := by
  induction w with
  | nil =>
    cases r with
    | nil => rfl
    | cons c r =>
      rw [List.nil_append, skipSpaces, narrow_ok (hb c (by simp))]
      have : isSpace c = false := by
        have := hr c r rfl
        rw [isWhite_iff] at this
        simpa using this
      rw [this]; rfl
  | cons c w ih =>
    rw [List.cons_append, skipSpaces, narrow_ok (hb c (by simp)), (isWhite_iff c).1 (hw c (by simp))]
    simp only [Outcome.bind, if_true]
    exact ih (fun d hd => hw d (List.mem_cons_of_mem _ hd)) (fun d hd => hb d (by rw [List.cons_append]; exact List.mem_cons_of_mem _ hd))

theorem white_ends {r : Str} (h : ∀ c cs, r = c :: cs → IsWhite c) : EndsNumber r := by
  intro c cs e
  have := h c cs e
  unfold IsWhite at this
  simp only [List.mem_cons, List.not_mem_nil, or_false] at this
  rcases this with rfl | rfl | rfl | rfl | rfl | rfl <;> exact ⟨by unfold IsDigit; decide, by decide⟩

/-- Two ways to cut a text into white space, a word, and something that begins with white space. -/
theorem word_unique {w t r w' t' r' : Str} (h : w ++ (t ++ r) = w' ++ (t' ++ r')) (hw : ∀ c ∈ w, IsWhite c) (hw' : ∀ c ∈ w', IsWhite c) (ht : t ≠ []) (ht' : t' ≠ [])
    (hn : ∀ c ∈ t, ¬ IsWhite c) (hn' : ∀ c ∈ t', ¬ IsWhite c) (hr : ∀ c cs, r = c :: cs → IsWhite c) (hr' : ∀ c cs, r' = c :: cs → IsWhite c) : t = t' := by
  have cut : ∀ {w t r : Str}, (∀ c ∈ w, IsWhite c) → t ≠ [] → (∀ c ∈ t, ¬ IsWhite c) → (w ++ (t ++ r)).dropWhile isSpace = t ++ r := by
    intro w t r hw ht hn
    refine (takeWhile_all (fun c hc => (isWhite_iff c).1 (hw c hc)) (t ++ r) ?_).2
    intro c cs e
    cases t with
    | nil => exact absurd rfl ht
    | cons d t =>
      rw [List.cons_append] at e
      injection e with e _
      have := hn d (by simp)
      rw [isWhite_iff, e] at this
      simpa using this
  have e1 := cut (r := r) hw ht hn
  have e2 := cut (r := r') hw' ht' hn'
  rw [h, e2] at e1
  have cut2 : ∀ {t r : Str}, (∀ c ∈ t, ¬ IsWhite c) → (∀ c cs, r = c :: cs → IsWhite c) → (t ++ r).takeWhile (fun c => !isSpace c) = t := by
    intro t r hn hr
    refine (takeWhile_all (fun c hc => ?_) r ?_).1
    · have := hn c hc
      rw [isWhite_iff] at this
      simpa using this
    · intro c cs e
      have := hr c cs e
      rw [isWhite_iff] at this
      simpa using this
  rw [← cut2 hn hr, ← cut2 hn' hr', e1]

theorem spaced_head {us : List Str} {s : Str} (h : InWords us s) : us = [] → ∀ c ∈ s, IsWhite c := by
  intro e
  cases h with
  | nil h => exact h
  | cons => cases e

/-- Leading white space does not belong to the words. -/
theorem spaced_strip {us : List Str} {s : Str} (h : InWords us s) : ∃ w r, s = w ++ r ∧ (∀ c ∈ w, IsWhite c) ∧ InWords us r ∧ ∀ c cs, r = c :: cs → ¬ IsWhite c := by
  cases h with
  | nil h => exact ⟨s, [], by simp, h, .nil (by simp), fun c cs e => by cases e⟩
  | @cons w u us r h1 h2 h3 h4 h5 =>
    refine ⟨w, u ++ r, rfl, h1, InWords.cons (w := []) (by simp) h2 h3 h4 h5, ?_⟩
    intro c cs e
    cases u with
    | nil => exact absurd rfl h2
    | cons d u =>
      rw [List.cons_append] at e
      injection e with e _
      rw [← e]
      exact h3 d (by simp)

theorem arrayLoop_words {α : Type} {scan : Str → Option (α × Str)} {N : Str → α → Prop} {P : Char → Prop} (H : Scans scan N P) {ws : List Str}
    (hbad : ∀ u us', ws = u :: us' → ¬ ∃ x, N u x) :
    ∀ (k : Nat) (us : List Str) (vs : List α) (s : Str), s.length < k → InWords (us ++ ws) s → List.Forall₂ N us vs → (∀ c ∈ s, c.toNat ≤ 255) → (∀ c ∈ s, P c) →
      arrayLoop scan k s = .ok vs := by
  intro k
  induction k with
  | zero => intro us vs s h; omega
  | succ k ih =>
    intro us vs s hk hsp hN hb hP
    cases s with
    | nil =>
      rw [arrayLoop]
      cases us with
      | nil => cases hN; rfl
      | cons u us =>
        exfalso
        rw [List.cons_append] at hsp
        generalize hnil : ([] : Str) = nil at hsp
        cases hsp with
        | cons _ m2 _ _ _ =>
          have := (List.append_eq_nil_iff.1 hnil.symm).2
          exact m2 (List.append_eq_nil_iff.1 this).1
    | cons c0 s0 =>
      rw [arrayLoop]
      generalize hs : c0 :: s0 = s at *
      cases us with
      | nil =>
        cases hN
        rw [List.nil_append] at hsp
        cases hq : scan s with
        | none => rfl
        | some q =>
          obtain ⟨x, rest⟩ := q
          obtain ⟨w, t, e1, e2, e3⟩ := H.conv hq hP
          obtain ⟨e4, e5⟩ := H.chars e3
          -- the number is not a word
          have hnot : (∀ c cs, rest = c :: cs → IsWhite c) → False := by
            intro hrest
            cases hsp with
            | nil h =>
              cases t with
              | nil => exact e4 rfl
              | cons d t => exact e5 d (by simp) (h d (by rw [e1]; simp))
            | cons h1 h2 h3 h4 h5 =>
              have := word_unique e1 h1 e2 h2 e4 h3 e5 h4 hrest
              exact hbad _ _ rfl ⟨x, this ▸ e3⟩
          cases rest with
          | nil => exact (hnot (fun c cs e => by cases e)).elim
          | cons d rest =>
            dsimp only
            rw [narrow_ok (hb d (by rw [e1]; simp))]
            cases hd : isSpace d with
            | true =>
              refine (hnot ?_).elim
              intro c cs e
              injection e with e _
              rw [← e, isWhite_iff]; exact hd
            | false => rfl
      | cons u us =>
        obtain ⟨v, vs', h1, h2, rfl⟩ : ∃ v vs', N u v ∧ List.Forall₂ N us vs' ∧ vs = v :: vs' := by
          cases hN with
          | cons a b => exact ⟨_, _, a, b, rfl⟩
        rw [List.cons_append] at hsp
        cases hsp with
        | @cons w _ _ r k1 k2 k3 k4 k5 =>
          rw [H.text h1 (white_ends k4) k1]
          cases r with
          | nil =>
            have : us = [] := by
              cases us with
              | nil => rfl
              | cons u2 us =>
                exfalso
                rw [List.cons_append] at k5
                generalize hnil : ([] : Str) = nil at k5
                cases k5 with
                | cons _ m2 _ _ _ =>
                  have := (List.append_eq_nil_iff.1 hnil.symm).2
                  exact m2 (List.append_eq_nil_iff.1 this).1
            subst this
            cases h2
            rfl
          | cons d rest =>
            have hd : IsWhite d := k4 d rest rfl
            dsimp only
            rw [narrow_ok (hb d (by simp)), (isWhite_iff d).1 hd]
            simp only [Outcome.bind, Bool.true_eq_false, if_false]
            obtain ⟨w', r', e1, e2, e3, e4⟩ := spaced_strip k5
            -- the white space after the number
            have hrest : ∃ w'', rest = w'' ++ r' ∧ ∀ c ∈ w'', IsWhite c := by
              cases w' with
              | nil =>
                rw [List.nil_append] at e1
                exact absurd hd (e4 d rest e1.symm)
              | cons c w'' =>
                rw [List.cons_append] at e1
                injection e1 with _ e1
                exact ⟨w'', e1, fun c hc => e2 c (List.mem_cons_of_mem _ hc)⟩
            obtain ⟨w'', rfl, hw''⟩ := hrest
            rw [skipSpaces_white hw'' e4 (fun c hc => hb c (by simp at hc ⊢; tauto))]
            simp only [Outcome.bind]
            rw [ih us vs' r' (by simp at hk; omega) e3 h2 (fun c hc => hb c (by simp [hc])) (fun c hc => hP c (by simp [hc]))]

theorem arrayLoop_wide {α : Type} {scan : Str → Option (α × Str)} {N : Str → α → Prop} {P : Char → Prop} (H : Scans scan N P) {t : Str} {x : α} (h : N t x)
    {w : Str} (hw : ∀ c ∈ w, IsWhite c) {c : Char} (hc : 255 < c.toNat) (r : Str) (k : Nat) : arrayLoop scan (k + 1) (t ++ (w ++ c :: r)) = .undefined := by
  have hcd : EndsNumber (w ++ c :: r) := by
    cases w with
    | nil =>
      intro d cs e
      injection e with e _
      subst e
      constructor
      · intro hd
        unfold IsDigit at hd
        simp only [List.mem_cons, List.not_mem_nil, or_false] at hd
        rcases hd with rfl | rfl | rfl | rfl | rfl | rfl | rfl | rfl | rfl | rfl <;> exact absurd hc (by decide)
      · intro hd
        simp only [List.mem_cons, List.not_mem_nil, or_false] at hd
        rcases hd with rfl | rfl | rfl | rfl | rfl <;> exact absurd hc (by decide)
    | cons d w =>
      refine white_ends ?_
      intro d' cs e
      rw [List.cons_append] at e
      injection e with e _
      exact e ▸ hw d (by simp)
  have h1 := H.text (w := []) h hcd (by simp)
  rw [List.nil_append] at h1
  obtain ⟨t0, ts, rfl⟩ : ∃ t0 ts, t = t0 :: ts := by
    cases t with
    | nil => exact absurd rfl (H.chars h).1
    | cons a b => exact ⟨a, b, rfl⟩
  rw [List.cons_append, arrayLoop, ← List.cons_append, h1]
  have hu : narrowIsSpace c = .undefined := by unfold narrowIsSpace; rw [if_pos hc]
  have hskip : ∀ w : Str, (∀ c ∈ w, IsWhite c) → skipSpaces (w ++ c :: r) = .undefined := by
    intro w
    induction w with
    | nil => intro _; rw [List.nil_append, skipSpaces, hu]; rfl
    | cons d w ih =>
      intro hw
      have hd := hw d (by simp)
      have hb : d.toNat ≤ 255 := by
        unfold IsWhite at hd
        simp only [List.mem_cons, List.not_mem_nil, or_false] at hd
        rcases hd with rfl | rfl | rfl | rfl | rfl | rfl <;> decide
      rw [List.cons_append, skipSpaces, narrow_ok hb, (isWhite_iff d).1 hd]
      simp only [Outcome.bind, if_true]
      exact ih (fun d hd => hw d (List.mem_cons_of_mem _ hd))
  cases w with
  | nil =>
    rw [List.nil_append]
    dsimp only
    rw [hu]
    rfl
  | cons d w =>
    have hd := hw d (by simp)
    have hb : d.toNat ≤ 255 := by
      unfold IsWhite at hd
      simp only [List.mem_cons, List.not_mem_nil, or_false] at hd
      rcases hd with rfl | rfl | rfl | rfl | rfl | rfl <;> decide
    rw [List.cons_append]
    dsimp only
    rw [narrow_ok hb, (isWhite_iff d).1 hd]
    simp only [Outcome.bind, Bool.true_eq_false, if_false]
    rw [hskip w (fun d hd => hw d (List.mem_cons_of_mem _ hd))]

/-! ## Spectra -/

theorem parseParts_iff {ps : List Str} (hP : ∀ p ∈ ps, Decimal p) (l : List (RangeOrSingle Num)) :
    parseParts ps = some l ↔ ∃ vs, List.Forall₂ (fun p r => RangeText DoubleText (withoutWhite p) r) ps vs ∧ l = vs.map shownDouble := by
  induction ps generalizing l with
  | nil =>
    rw [parseParts]
    constructor
    · intro h; injection h with h; exact ⟨[], .nil, by rw [← h]; rfl⟩
    · rintro ⟨vs, h, rfl⟩; cases h; rfl
  | cons p ps ih =>
    have hp : ∀ c ∈ withoutWhite p, c ∉ ['x', 'X', 'i', 'I', 'n', 'N'] := fun c hc => hP p (by simp) c (List.mem_of_mem_filter hc)
    have key := fun r => parseRange_iff double_scans (.fin doubleMin) (.fin doubleMax) .nan (withoutWhite_white p) hp r
    have hshow : ∀ v, shownWith (.fin doubleMin) (.fin doubleMax) .nan v = shownDouble v := by
      intro v; cases v <;> rfl
    have ih' := ih (fun q hq => hP q (List.mem_cons_of_mem _ hq))
    rw [parseParts, removeSpaces_eq]
    constructor
    · intro h
      cases hr : parseRangeDouble (withoutWhite p) with
      | none => rw [hr] at h; cases h
      | some r =>
        rw [hr] at h
        dsimp only at h
        cases hl : parseParts ps with
        | none => rw [hl] at h; cases h
        | some l' =>
          rw [hl] at h
          obtain ⟨v, h1, h2⟩ := (key r).1 hr
          obtain ⟨vs, h3, h4⟩ := (ih' l').1 hl
          refine ⟨v :: vs, .cons h1 h3, ?_⟩
          simp only [Option.map_some, Option.some.injEq] at h
          rw [← h, h4, h2, hshow]; rfl
    · rintro ⟨vs, h, rfl⟩
      cases h with
      | @cons _ v _ vs h1 h2 =>
        have h3 : parseRangeDouble (withoutWhite p) = some (shownDouble v) := (key _).2 ⟨v, h1, (hshow v).symm⟩
        rw [h3, (ih' _).2 ⟨vs, h2, rfl⟩]
        rfl

theorem join_exists (s : Str) : ∃ parts : List Str, parts ≠ [] ∧ s = joinComma parts ∧ ∀ p ∈ parts, ',' ∉ p := by
  induction s with
  | nil => exact ⟨[[]], by simp, rfl, by simp⟩
  | cons c s ih =>
    obtain ⟨parts, h1, h2, h3⟩ := ih
    by_cases hc : c = ','
    · refine ⟨[] :: parts, by simp, ?_, by simpa using h3⟩
      cases parts with
      | nil => exact absurd rfl h1
      | cons p ps => rw [joinComma, ← h2, hc]; rfl; simp
    · cases parts with
      | nil => exact absurd rfl h1
      | cons p ps =>
        refine ⟨(c :: p) :: ps, by simp, ?_, ?_⟩
        · rw [h2]
          cases ps with
          | nil => rfl
          | cons q qs => rfl
        · intro q hq
          rcases List.mem_cons.1 hq with rfl | hq
          · intro hm
            rcases List.mem_cons.1 hm with e | e
            · exact hc e.symm
            · exact h3 p (by simp) e
          · exact h3 q (List.mem_cons_of_mem _ hq)

theorem mem_join {parts : List Str} {p : Str} (hp : p ∈ parts) : ∀ c ∈ p, c ∈ joinComma parts := by
  induction parts with
  | nil => cases hp
  | cons q qs ih =>
    intro c hc
    cases qs with
    | nil =>
      simp at hp; subst hp; exact hc
    | cons q' qs =>
      rw [joinComma]
      · rcases List.mem_cons.1 hp with rfl | hp
        · exact List.mem_append_left _ hc
        · exact List.mem_append_right _ (List.mem_cons_of_mem _ (ih hp c hc))
      · simp

/-- The list of ranges. -/
theorem ranges_iff {s : Str} (hs : Decimal s) (l : List (RangeOrSingle Num)) :
    (if splitAt ',' [] s = [] then none else (parseParts (splitAt ',' [] s)).map Spectrum.ranges) = some (.ranges l) ↔
      ∃ vs, vs ≠ [] ∧ SpectrumText s vs ∧ l = vs.map shownDouble := by
  have dec : ∀ {parts : List Str}, s = joinComma parts → ∀ p ∈ parts.filter (fun p => p ≠ []), Decimal p :=
    fun e p hp c hc => hs c (by rw [e]; exact mem_join (List.mem_of_mem_filter hp) c hc)
  constructor
  · intro h
    obtain ⟨parts, h1, h2, h3⟩ := join_exists s
    have e := splitAt_join parts h1 h3
    rw [← h2] at e
    rw [e] at h
    split at h
    · cases h
    · rename_i hne
      cases hl : parseParts (parts.filter (fun p => p ≠ [])) with
      | none => rw [hl] at h; cases h
      | some l' =>
        rw [hl] at h
        simp only [Option.map_some, Option.some.injEq, Spectrum.ranges.injEq] at h
        obtain ⟨vs, k1, k2⟩ := (parseParts_iff (dec h2) l').1 hl
        refine ⟨vs, ?_, ⟨parts, h1, h2, h3, k1⟩, by rw [← h, k2]⟩
        rintro rfl
        generalize hg : parts.filter (fun p => p ≠ []) = g at k1 hne
        cases k1
        exact hne rfl
  · rintro ⟨vs, hv, ⟨parts, h1, h2, h3, k1⟩, rfl⟩
    have e := splitAt_join parts h1 h3
    rw [← h2] at e
    rw [e, if_neg, (parseParts_iff (dec h2) _).2 ⟨vs, k1, rfl⟩]
    · rfl
    · intro h0
      rw [h0] at k1
      cases k1
      exact hv rfl

/-! ## Enumerations -/

theorem tryParseEnum_iff {α : Type} {table : List (String × α)} {text : α → String} (h1 : ∀ e ∈ table, e.1 = text e.2)
    (h2 : ∀ v, tryParseEnum table (text v).toList = some v) (s : Str) (v : α) : tryParseEnum table s = some v ↔ s = (text v).toList := by
  have sound : ∀ table : List (String × α), (∀ e ∈ table, e.1 = text e.2) → tryParseEnum table s = some v → s = (text v).toList := by
    intro table
    induction table with
    | nil => intro _ h; cases h
    | cons e es ih =>
      intro h1 h
      rw [tryParseEnum] at h
      split at h
      · rename_i he
        injection h with h
        rw [he, h1 e (by simp), h]
      · exact ih (fun e he => h1 e (List.mem_cons_of_mem _ he)) h
  exact ⟨sound table h1, fun h => h ▸ h2 v⟩

end Verif.Xml
