import Verif.Model.CmdNumbers
import Verif.Proof.CmdLine
import Verif.Proof.NumScan
import Verif.Proof.NumConv
import Verif.Proof.Float
import Mathlib.Tactic.Linarith

/-!
# Helper lemmas: options with numbers that have a fraction
-/

namespace Verif.CmdLine

open Verif.Text Verif.Xml Verif.Flt Verif.Spec

theorem strtof_text {t : Str} {d : ℚ} (h : NumberText t d) {w r : Str} (hw : ∀ c ∈ w, isSpace c = true) (hr : EndsNumber r) :
    strtof (w ++ (t ++ r)) = some (.fin (f32 d), r) := by
  obtain ⟨sg, ip, pf, fp, ex, g, e, rfl, hs, hd, hne, hp, he, rfl⟩ := h
  have hchar := text_char hd hp he
  have hnum := scanNumber_text hd hne hp he hr
  have hassoc : sg ++ (ip ++ (pf ++ ex)) ++ r = sg ++ (ip ++ (pf ++ (ex ++ r))) := by simp only [List.append_assoc]
  -- the first character of the number
  obtain ⟨a, t, hat, ha⟩ : ∃ a t, ip ++ (pf ++ (ex ++ r)) = a :: t ∧ (IsDigit a ∨ a = '.') := by
    cases ip with
    | cons a t => exact ⟨a, t ++ (pf ++ (ex ++ r)), rfl, Or.inl (hd a (by simp))⟩
    | nil =>
      rcases hp with ⟨_, rfl⟩ | rfl
      · exact absurd rfl hne
      · exact ⟨'.', fp ++ (ex ++ r), rfl, Or.inr rfl⟩
  have hna : isSpace a = false ∧ a ≠ '-' ∧ a ≠ '+' := by
    rcases ha with ha | rfl
    · unfold IsDigit at ha
      simp only [List.mem_cons, List.not_mem_nil, or_false] at ha
      rcases ha with rfl | rfl | rfl | rfl | rfl | rfl | rfl | rfl | rfl | rfl <;> decide
    · decide
  unfold strtof
  rw [hassoc]
  cases hs with
  | none =>
    rw [List.nil_append, dropWhile_all hw _ (by rw [hat]; intro c cs e; injection e with e _; rw [← e]; exact hna.1)]
    have hh1 : (ip ++ (pf ++ (ex ++ r))).head? ≠ some '-' := by rw [hat]; intro e; injection e with e; exact hna.2.1 e
    have hh2 : (ip ++ (pf ++ (ex ++ r))).head? ≠ some '+' := by rw [hat]; intro e; injection e with e; exact hna.2.2 e
    dsimp only
    rw [if_neg (by rintro (e | e); exact hh1 e; exact hh2 e), hnum, decide_eq_false hh1]
    simp [Num.signed, Num.map]
  | plus =>
    rw [dropWhile_all hw _ (by intro c cs e; injection e with e _; rw [← e]; decide)]
    dsimp only
    have hif : (if (['+'] ++ (ip ++ (pf ++ (ex ++ r)))).head? = some '-' ∨ (['+'] ++ (ip ++ (pf ++ (ex ++ r)))).head? = some '+' then List.drop 1 (['+'] ++ (ip ++ (pf ++ (ex ++ r)))) else ['+'] ++ (ip ++ (pf ++ (ex ++ r)))) = ip ++ (pf ++ (ex ++ r)) :=
      if_pos (Or.inr rfl)
    rw [hif, hnum]
    have : decide ((['+'] ++ (ip ++ (pf ++ (ex ++ r)))).head? = some '-') = false := by
      apply decide_eq_false
      intro e
      injection e with e
      exact absurd e (by decide)
    rw [this]
    simp [Num.signed, Num.map]
  | minus =>
    rw [dropWhile_all hw _ (by intro c cs e; injection e with e _; rw [← e]; decide)]
    dsimp only
    have hif : (if (['-'] ++ (ip ++ (pf ++ (ex ++ r)))).head? = some '-' ∨ (['-'] ++ (ip ++ (pf ++ (ex ++ r)))).head? = some '+' then List.drop 1 (['-'] ++ (ip ++ (pf ++ (ex ++ r)))) else ['-'] ++ (ip ++ (pf ++ (ex ++ r)))) = ip ++ (pf ++ (ex ++ r)) :=
      if_pos (Or.inl rfl)
    rw [hif, hnum]
    have : decide ((['-'] ++ (ip ++ (pf ++ (ex ++ r)))).head? = some '-') = true := decide_eq_true rfl
    rw [this]
    simp [Num.signed, Num.map]


theorem upper_letter {c l u : Char} (h1 : 97 ≤ l.toNat) (h2 : l.toNat ≤ 122) (h3 : u.toNat + 32 = l.toNat) : upper c = u ↔ c = l ∨ c = u := by
  unfold upper
  constructor
  · intro h
    split at h
    · rename_i hc
      left
      have := congrArg Char.toNat h
      rw [toNat_ofNat (by omega)] at this
      exact toNat_inj (by omega)
    · exact .inr h
  · rintro (rfl | rfl)
    · rw [if_pos ⟨h1, h2⟩]
      apply toNat_inj
      rw [toNat_ofNat (by omega)]
      omega
    · rw [if_neg (by omega)]

theorem upper_I (c : Char) : upper c = 'I' ↔ c = 'i' ∨ c = 'I' := upper_letter (by decide) (by decide) (by decide)
theorem upper_B (c : Char) : upper c = 'B' ↔ c = 'b' ∨ c = 'B' := upper_letter (by decide) (by decide) (by decide)
theorem upper_K (c : Char) : upper c = 'K' ↔ c = 'k' ∨ c = 'K' := upper_letter (by decide) (by decide) (by decide)
theorem upper_M (c : Char) : upper c = 'M' ↔ c = 'm' ∨ c = 'M' := upper_letter (by decide) (by decide) (by decide)
theorem upper_G (c : Char) : upper c = 'G' ↔ c = 'g' ∨ c = 'G' := upper_letter (by decide) (by decide) (by decide)
theorem upper_T (c : Char) : upper c = 'T' ↔ c = 't' ∨ c = 'T' := upper_letter (by decide) (by decide) (by decide)

theorem white_head {w : Str} (h : White w) : w.head?.map upper ≠ some 'I' ∧ w.head?.map upper ≠ some 'B' := by
  cases w with
  | nil => simp
  | cons c w =>
    have := h c (by simp)
    simp only [List.mem_cons, List.not_mem_nil, or_false] at this
    simp only [List.head?_cons, Option.map_some, ne_eq, Option.some.injEq]
    rcases this with rfl | rfl | rfl | rfl | rfl | rfl <;> exact ⟨(by decide), by decide⟩

/-- An optional letter at the start of a text. -/
theorem optional_letter (l u : Char) (h1 : 97 ≤ l.toNat) (h2 : l.toNat ≤ 122) (h3 : u.toNat + 32 = l.toNat) (r : Str) :
    ∃ i, (i = [] ∨ i = [l] ∨ i = [u]) ∧ r = i ++ (if r.head?.map upper = some u then r.drop 1 else r) ∧ (i = [] ↔ r.head?.map upper ≠ some u) := by
  by_cases h : r.head?.map upper = some u
  · rw [if_pos h]
    cases r with
    | nil => cases h
    | cons c r =>
      simp only [List.head?_cons, Option.map_some, Option.some.injEq] at h
      rcases (upper_letter h1 h2 h3).1 h with rfl | rfl
      · exact ⟨[c], .inr (.inl rfl), rfl, by simp [h]⟩
      · exact ⟨[c], .inr (.inr rfl), rfl, by simp [h]⟩
  · rw [if_neg h]
    exact ⟨[], .inl rfl, rfl, by simp [h]⟩

theorem matchUnit_iff (s : Str) (f : Nat) : matchUnit s = some f ↔ ∃ u w, s = u ++ w ∧ White w ∧ UnitText u f := by
  constructor
  · intro h
    unfold matchUnit at h
    split at h
    · cases h
    rename_i c r
    dsimp only at h
    obtain ⟨i, hi, ei, ni⟩ := optional_letter 'i' 'I' (by decide) (by decide) (by decide) r
    generalize (if r.head?.map upper = some 'I' then r.drop 1 else r) = r1 at h ei
    obtain ⟨b, hb, eb, _⟩ := optional_letter 'b' 'B' (by decide) (by decide) (by decide) r1
    generalize (if r1.head?.map upper = some 'B' then r1.drop 1 else r1) = r2 at h eb
    split at h
    swap
    · cases h
    rename_i hw
    have hw' : White r2 := fun e he => (isSpace_iff e).1 (List.all_eq_true.1 hw e he)
    have es : c :: r = (c :: (i ++ b)) ++ r2 := by rw [ei, eb]; simp
    refine ⟨c :: (i ++ b), r2, es, hw', ?_⟩
    have fin : ∀ n : Nat, (1000 ^ n : Nat) = 1000 ^ n := fun _ => rfl
    have hbin : ∀ (n x y : Nat), x = 1024 ^ n → y = 1000 ^ n → (if r.head?.map upper = some 'I' then x else y) = (if i = [] then 1000 else 1024) ^ n := by
      intro n x y hx hy
      by_cases hq : r.head?.map upper = some 'I'
      · rw [if_pos hq, if_neg (fun e => ni.1 e hq), hx]
      · rw [if_neg hq, if_pos (ni.2 hq), hy]
    split at h
    · rename_i hc
      injection h with h
      subst h
      exact ⟨c, i, b, 1, rfl, .inl ⟨by rw [upper_K] at hc; simpa using hc, rfl⟩, hi, hb, hbin 1 _ _ rfl rfl⟩
    split at h
    · rename_i hc
      injection h with h
      subst h
      exact ⟨c, i, b, 2, rfl, .inr (.inl ⟨by rw [upper_M] at hc; simpa using hc, rfl⟩), hi, hb, hbin 2 _ _ rfl rfl⟩
    split at h
    · rename_i hc
      injection h with h
      subst h
      exact ⟨c, i, b, 3, rfl, .inr (.inr (.inl ⟨by rw [upper_G] at hc; simpa using hc, rfl⟩)), hi, hb, hbin 3 _ _ rfl rfl⟩
    split at h
    · rename_i hc
      injection h with h
      subst h
      exact ⟨c, i, b, 4, rfl, .inr (.inr (.inr ⟨by rw [upper_T] at hc; simpa using hc, rfl⟩)), hi, hb, hbin 4 _ _ rfl rfl⟩
    · cases h
  · rintro ⟨u, w, rfl, hw, c, i, b, n, rfl, hc, hi, hb, rfl⟩
    obtain ⟨wi, wb⟩ := white_head hw
    have hall : w.all isSpace = true := List.all_eq_true.2 fun e he => (isSpace_iff e).2 (hw e he)
    have ebw : (b ++ w).head?.map upper ≠ some 'I' := by
      rcases hb with rfl | rfl | rfl
      · simpa using wi
      · simp; decide
      · simp; decide
    have e1 : ((i ++ (b ++ w)).head?.map upper = some 'I' ↔ i ≠ []) ∧ (if (i ++ (b ++ w)).head?.map upper = some 'I' then (i ++ (b ++ w)).drop 1 else i ++ (b ++ w)) = b ++ w := by
      rcases hi with rfl | rfl | rfl
      · simp only [List.nil_append]
        exact ⟨⟨fun h => absurd h ebw, fun h => absurd rfl h⟩, if_neg ebw⟩
      · have : (['i'] ++ (b ++ w)).head?.map upper = some 'I' := by simp; decide
        exact ⟨⟨fun _ => List.cons_ne_nil _ _, fun _ => this⟩, by rw [if_pos this]; rfl⟩
      · have : (['I'] ++ (b ++ w)).head?.map upper = some 'I' := by simp; decide
        exact ⟨⟨fun _ => List.cons_ne_nil _ _, fun _ => this⟩, by rw [if_pos this]; rfl⟩
    have e2 : (if (b ++ w).head?.map upper = some 'B' then (b ++ w).drop 1 else b ++ w) = w := by
      rcases hb with rfl | rfl | rfl
      · simp only [List.nil_append]
        exact if_neg wb
      · have : (['b'] ++ w).head?.map upper = some 'B' := by simp; decide
        rw [if_pos this]; rfl
      · have : (['B'] ++ w).head?.map upper = some 'B' := by simp; decide
        rw [if_pos this]; rfl
    have hbin : ∀ (n x y : Nat), x = 1024 ^ n → y = 1000 ^ n → (if (i ++ (b ++ w)).head?.map upper = some 'I' then x else y) = (if i = [] then 1000 else 1024) ^ n := by
      intro n x y hx hy
      by_cases hq : (i ++ (b ++ w)).head?.map upper = some 'I'
      · rw [if_pos hq, if_neg (e1.1.1 hq), hx]
      · rw [if_neg hq, if_pos (by by_contra hh; exact hq (e1.1.2 hh)), hy]
    unfold matchUnit
    rw [List.cons_append, List.append_assoc]
    dsimp only
    rw [e1.2, e2, if_pos hall]
    simp only [List.mem_cons, List.not_mem_nil, or_false] at hc
    rcases hc with ⟨hc, rfl⟩ | ⟨hc, rfl⟩ | ⟨hc, rfl⟩ | ⟨hc, rfl⟩
    · rw [if_pos ((upper_K c).2 hc), hbin 1 _ _ (by norm_num) (by norm_num)]
    · rw [if_neg (by rw [upper_K]; rcases hc with rfl | rfl <;> decide), if_pos ((upper_M c).2 hc), hbin 2 _ _ (by norm_num) (by norm_num)]
    · rw [if_neg (by rw [upper_K]; rcases hc with rfl | rfl <;> decide), if_neg (by rw [upper_M]; rcases hc with rfl | rfl <;> decide),
        if_pos ((upper_G c).2 hc), hbin 3 _ _ (by norm_num) (by norm_num)]
    · rw [if_neg (by rw [upper_K]; rcases hc with rfl | rfl <;> decide), if_neg (by rw [upper_M]; rcases hc with rfl | rfl <;> decide),
        if_neg (by rw [upper_G]; rcases hc with rfl | rfl <;> decide), if_pos ((upper_T c).2 hc), hbin 4 _ _ (by norm_num) (by norm_num)]

theorem unit_head {u : Str} {f : Nat} (h : UnitText u f) : ∃ c r, u = c :: r ∧ isSpace c = false ∧ c.isDigit = false ∧ c ≠ '.' := by
  obtain ⟨c, i, b, n, rfl, hc, _⟩ := h
  refine ⟨c, i ++ b, rfl, ?_⟩
  simp only [List.mem_cons, List.not_mem_nil, or_false] at hc
  rcases hc with ⟨hc, _⟩ | ⟨hc, _⟩ | ⟨hc, _⟩ | ⟨hc, _⟩ <;> rcases hc with rfl | rfl <;> exact ⟨(by decide), (by decide), by decide⟩

theorem plain_number {t : Str} {d : ℚ} (h : PlainNumber t d) : NumberText t d := by
  obtain ⟨sg, ip, pf, fp, rfl, hs, hd, hne, hp, rfl⟩ := h
  refine ⟨sg, ip, pf, fp, [], 1, 0, by simp, ?_, hd, hne, hp, .none, ?_⟩
  · rcases hs with rfl | rfl
    · exact .none
    · exact .plus
  · rw [one_mul, zero_sub, zpow_neg, zpow_natCast, div_eq_mul_inv]

theorem matchCacheSize_iff (s t : Str) (f : Nat) : matchCacheSize s = some (t, f) ↔
    ∃ w1 w2 u w3 d, s = w1 ++ (t ++ (w2 ++ (u ++ w3))) ∧ White w1 ∧ White w2 ∧ White w3 ∧ PlainNumber t d ∧ UnitText u f := by
  constructor
  · intro h
    unfold matchCacheSize at h
    dsimp only at h
    have es := (span_eq isSpace s).1
    generalize hr : s.dropWhile isSpace = r at h es
    have hsg : ∃ sg, (sg = [] ∨ sg = ['+']) ∧ r = sg ++ (if r.head? = some '+' then r.drop 1 else r) := by
      by_cases hh : r.head? = some '+'
      · rw [if_pos hh]
        cases r with
        | nil => cases hh
        | cons c r => simp at hh; subst hh; exact ⟨['+'], .inr rfl, rfl⟩
      · rw [if_neg hh]; exact ⟨[], .inl rfl, rfl⟩
    obtain ⟨sg, hsg, er⟩ := hsg
    generalize (if r.head? = some '+' then r.drop 1 else r) = q at h er
    split at h
    · cases h
    rename_i ip fp rest hp
    obtain ⟨pf, e1, hd, hne, hpf⟩ := scanPoint_conv hp
    rw [Option.map_eq_some_iff] at h
    obtain ⟨f', hu, h⟩ := h
    injection h with h1 h2
    subst h2
    obtain ⟨u, w, e2, hw, hU⟩ := (matchUnit_iff _ _).1 hu
    have et : t = sg ++ (ip ++ pf) := by
      rw [← h1, er, e1]
      rw [show sg ++ (ip ++ (pf ++ rest)) = (sg ++ (ip ++ pf)) ++ rest by simp]
      rw [show ((sg ++ (ip ++ pf)) ++ rest).length - rest.length = (sg ++ (ip ++ pf)).length by simp only [List.length_append]; omega, List.take_left]
    refine ⟨s.takeWhile isSpace, rest.takeWhile isSpace, u, w, _, ?_, run_white _, run_white _, hw, ⟨sg, ip, pf, fp, et, hsg, hd, hne, hpf, rfl⟩, hU⟩
    rw [← e2, ← (span_eq isSpace rest).1, et, show sg ++ (ip ++ pf) ++ rest = sg ++ (ip ++ (pf ++ rest)) by simp, ← e1, ← er]
    exact es
  · rintro ⟨w1, w2, u, w3, d, rfl, h1, h2, h3, hn, hu⟩
    obtain ⟨c, u', eu, c1, c2, c3⟩ := unit_head hu
    obtain ⟨sg, ip, pf, fp, rfl, hsg, hd, hne, hpf, _⟩ := hn
    obtain ⟨a, q, hq, ha⟩ : ∃ a q, ip ++ (pf ++ (w2 ++ (u ++ w3))) = a :: q ∧ (isSpace a = false ∧ a ≠ '+') := by
      cases ip with
      | cons a t => exact ⟨a, t ++ (pf ++ (w2 ++ (u ++ w3))), rfl, (Text.digit_not (hd a (by simp))).2.2.2.2, (Text.digit_not (hd a (by simp))).2.2.1⟩
      | nil =>
        rcases hpf with ⟨_, rfl⟩ | rfl
        · exact absurd rfl hne
        · exact ⟨'.', fp ++ (w2 ++ (u ++ w3)), rfl, by decide, by decide⟩
    have e0 : w1 ++ (sg ++ (ip ++ pf) ++ (w2 ++ (u ++ w3))) = w1 ++ (sg ++ (ip ++ (pf ++ (w2 ++ (u ++ w3))))) := by simp
    have e1 : (w1 ++ (sg ++ (ip ++ (pf ++ (w2 ++ (u ++ w3)))))).dropWhile isSpace = sg ++ (ip ++ (pf ++ (w2 ++ (u ++ w3)))) := by
      apply white_run h1
      intro x xs e
      rcases hsg with rfl | rfl
      · rw [List.nil_append, hq] at e; injection e with e _; rw [← e]; exact ha.1
      · injection e with e _; rw [← e]; decide
    have e2 : (if (sg ++ (ip ++ (pf ++ (w2 ++ (u ++ w3))))).head? = some '+' then (sg ++ (ip ++ (pf ++ (w2 ++ (u ++ w3))))).drop 1 else sg ++ (ip ++ (pf ++ (w2 ++ (u ++ w3))))) =
        ip ++ (pf ++ (w2 ++ (u ++ w3))) := by
      rcases hsg with rfl | rfl
      · rw [List.nil_append, if_neg (by rw [hq]; simpa using ha.2)]
      · rw [if_pos (by rfl)]; rfl
    have e3 : scanPoint Char.isDigit (ip ++ (pf ++ (w2 ++ (u ++ w3)))) = some (ip, fp, w2 ++ (u ++ w3)) := by
      apply scanPoint_text hd hne hpf
      intro x xs e
      cases w2 with
      | nil => rw [eu] at e; simp at e; rw [← e.1]; exact ⟨c2, c3⟩
      | cons y w2 =>
        simp at e
        have := h2 y (by simp)
        simp only [List.mem_cons, List.not_mem_nil, or_false] at this
        rw [← e.1]
        rcases this with rfl | rfl | rfl | rfl | rfl | rfl <;> exact ⟨(by decide), by decide⟩
    have e4 : (w2 ++ (u ++ w3)).dropWhile isSpace = u ++ w3 := by
      apply white_run h2
      intro x xs e
      rw [eu] at e; simp at e; rw [← e.1]; exact c1
    unfold matchCacheSize
    dsimp only
    rw [e0, e1, e2, e3]
    dsimp only
    rw [e4, (matchUnit_iff _ _).2 ⟨u, w3, rfl, h3, hu⟩, Option.map_some]
    congr 2
    rw [show sg ++ (ip ++ (pf ++ (w2 ++ (u ++ w3)))) = (sg ++ (ip ++ pf)) ++ (w2 ++ (u ++ w3)) by simp]
    rw [show ((sg ++ (ip ++ pf)) ++ (w2 ++ (u ++ w3))).length - (w2 ++ (u ++ w3)).length = (sg ++ (ip ++ pf)).length by simp only [List.length_append]; omega, List.take_left]

theorem unit_bound {u : Str} {f : Nat} (h : UnitText u f) : f ≤ 2 ^ 40 := by
  obtain ⟨c, i, b, n, _, hc, _, _, rfl⟩ := h
  have hn : n ≤ 4 := by
    rcases hc with ⟨_, rfl⟩ | ⟨_, rfl⟩ | ⟨_, rfl⟩ | ⟨_, rfl⟩ <;> omega
  have : (if i = [] then 1000 else 1024) ^ n ≤ 1024 ^ n := Nat.pow_le_pow_left (by split <;> omega) n
  have h2 : 1024 ^ n ≤ 1024 ^ 4 := Nat.pow_le_pow_right (by omega) hn
  omega

theorem f64_factor {f : Nat} (h : f ≤ 2 ^ 40) : f64 (f : ℚ) = f := by
  have := f64_int (f : ℤ) (by rw [Int.abs_natCast]; exact_mod_cast le_trans h (by norm_num))
  exact_mod_cast this

/-- The whole parser on a text of the form. -/
theorem cacheSize_of {s t : Str} {f : Nat} {d : ℚ} (hm : matchCacheSize s = some (t, f)) (ht : PlainNumber t d) (hf : f ≤ 2 ^ 40) :
    tryParseCacheSize s = if lround (f64 (f64 d * f)) < 2 ^ 63 then .ok (lround (f64 (f64 d * f))).toNat else .throws := by
  unfold tryParseCacheSize
  rw [hm]
  dsimp only
  unfold stod
  rw [wcstod_show (plain_number ht)]
  dsimp only
  rw [f64_factor hf]

/-- The value of a size is right to within half a byte and the rounding of two operations. -/
theorem cacheSize_err {d : ℚ} {f : Nat} (hd : 0 ≤ d) : |f64 (f64 d * f) - d * f| ≤ d * f / 2 ^ 51 := by
  have hf : (0 : ℚ) ≤ f := Nat.cast_nonneg f
  have e1 := f64_err d
  rw [abs_of_nonneg hd] at e1
  have e2 := f64_err (f64 d * f)
  have e3 : |f64 d * f - d * f| ≤ d / 2 ^ 53 * f := by
    rw [← sub_mul, abs_mul, abs_of_nonneg hf]
    exact mul_le_mul_of_nonneg_right e1 hf
  have e4 : |f64 d * f| ≤ 2 * (d * f) := by
    have h1 := abs_sub_abs_le_abs_sub (f64 d * f) (d * f)
    rw [abs_of_nonneg (mul_nonneg hd hf)] at h1
    have h2 : d / 2 ^ 53 * f ≤ d * f := by
      have := mul_nonneg hd hf
      rw [div_mul_eq_mul_div]
      rw [div_le_iff₀ (by norm_num)]
      nlinarith
    linarith
  have e5 := abs_sub_le (f64 (f64 d * f)) (f64 d * f) (d * f)
  have e6 : |f64 d * f| / 2 ^ 53 ≤ 2 * (d * f) / 2 ^ 53 := div_le_div_of_nonneg_right e4 (by norm_num)
  have e7 : d / 2 ^ 53 * f + 2 * (d * f) / 2 ^ 53 = 3 * (d * f) / 2 ^ 53 := by ring
  have e8 : 3 * (d * f) / 2 ^ 53 ≤ d * f / 2 ^ 51 := by
    have := mul_nonneg hd hf
    rw [div_le_div_iff₀ (by norm_num) (by norm_num)]
    nlinarith
  linarith

theorem lround_near {x : ℚ} {n : ℕ} (h : |x - n| < 1 / 2) : lround x = n := by
  rw [abs_lt] at h
  unfold lround
  split
  · rw [Int.floor_eq_iff]
    constructor
    · push_cast; linarith
    · push_cast; linarith
  · rename_i hx
    have : (n : ℚ) < 1 := by linarith
    have hn : n = 0 := by
      have : n < 1 := by exact_mod_cast this
      omega
    subst hn
    rw [Int.ceil_eq_iff]
    constructor
    · push_cast at h ⊢; linarith
    · push_cast at h ⊢; linarith

theorem plain_nonneg {t : Str} {d : ℚ} (h : PlainNumber t d) : 0 ≤ d := by
  obtain ⟨sg, ip, pf, fp, _, _, _, _, _, rfl⟩ := h
  positivity

theorem number_head {t : Str} {d : ℚ} (h : NumberText t d) : ∃ a t', t = a :: t' ∧ isSpace a = false ∧ a ∉ [';', ',', '|'] := by
  obtain ⟨sg, ip, pf, fp, ex, g, e, rfl, hs, hd, hne, hp, he, _⟩ := h
  have : ∃ a t', ip ++ (pf ++ ex) = a :: t' ∧ (IsDigit a ∨ a = '.') := by
    cases ip with
    | cons a t => exact ⟨a, t ++ (pf ++ ex), rfl, Or.inl (hd a (by simp))⟩
    | nil =>
      rcases hp with ⟨_, rfl⟩ | rfl
      · exact absurd rfl hne
      · exact ⟨'.', fp ++ ex, rfl, Or.inr rfl⟩
  obtain ⟨a, t', e, ha⟩ := this
  cases hs with
  | none =>
    refine ⟨a, t', by simpa using e, ?_⟩
    rcases ha with ha | rfl
    · refine ⟨(Text.digit_not ha).2.2.2.2, ?_⟩
      intro hm
      simp only [List.mem_cons, List.not_mem_nil, or_false] at hm
      rcases hm with rfl | rfl | rfl <;> exact absurd ha (by unfold IsDigit; decide)
    · exact ⟨(by first | decide | (unfold IsDigit; decide)), by decide⟩
  | plus => exact ⟨'+', _, rfl, by decide, by decide⟩
  | minus => exact ⟨'-', _, rfl, by decide, by decide⟩

theorem skip_white {w : Str} (hw : White w) (b : Bool) (r : Str) : skipDelimiter [';', ',', '|'] b (w ++ r) = skipDelimiter [';', ',', '|'] b r := by
  induction w with
  | nil => rfl
  | cons c w ih =>
    rw [List.cons_append, skipDelimiter, if_pos ((isSpace_iff c).2 (hw c (by simp)))]
    exact ih fun e he => hw e (by simp [he])

theorem skip_stop {a : Char} {r : Str} (b : Bool) (h1 : isSpace a = false) (h2 : a ∉ [';', ',', '|']) : skipDelimiter [';', ',', '|'] b (a :: r) = a :: r := by
  rw [skipDelimiter, if_neg (by simp [h1]), if_neg (fun h => h2 h.2)]

theorem skip_gap {g r : Str} {a : Char} (hg : GapText g) (h1 : isSpace a = false) (h2 : a ∉ [';', ',', '|']) :
    skipDelimiter [';', ',', '|'] false (g ++ a :: r) = a :: r := by
  rcases hg with ⟨w1, c, w2, rfl, hw1, hw2, hc⟩ | ⟨hw, _⟩
  · rw [List.append_assoc, skip_white hw1, List.cons_append, skipDelimiter]
    have hs : isSpace c = false := by
      simp only [List.mem_cons, List.not_mem_nil, or_false] at hc
      rcases hc with rfl | rfl | rfl <;> decide
    rw [if_neg (by simp [hs]), if_pos ⟨rfl, hc⟩, skip_white hw2, skip_stop true h1 h2]
  · rw [skip_white hw, skip_stop false h1 h2]

theorem ends_white {w r : Str} (hw : White w) (hr : EndsNumber r) : EndsNumber (w ++ r) := by
  cases w with
  | nil => exact hr
  | cons a w =>
    intro c cs e
    injection e with e _
    have := hw a (by simp)
    simp only [List.mem_cons, List.not_mem_nil, or_false] at this
    rw [← e]
    rcases this with rfl | rfl | rfl | rfl | rfl | rfl <;> exact ⟨(by first | decide | (unfold IsDigit; decide)), by decide⟩

theorem ends_gap {g r : Str} (hg : GapText g) : EndsNumber (g ++ r) := by
  rcases hg with ⟨w1, c, w2, rfl, hw1, hw2, hc⟩ | ⟨hw, hne⟩
  · rw [List.append_assoc]
    apply ends_white hw1
    intro a cs e
    injection e with e _
    rw [← e]
    simp only [List.mem_cons, List.not_mem_nil, or_false] at hc
    rcases hc with rfl | rfl | rfl <;> exact ⟨(by first | decide | (unfold IsDigit; decide)), by decide⟩
  · cases g with
    | nil => exact absurd rfl hne
    | cons a w =>
      intro c cs e
      injection e with e _
      have := hw a (by simp)
      simp only [List.mem_cons, List.not_mem_nil, or_false] at this
      rw [← e]
      rcases this with rfl | rfl | rfl | rfl | rfl | rfl <;> exact ⟨(by first | decide | (unfold IsDigit; decide)), by decide⟩

theorem next_gap {w t g r : Str} {d : ℚ} {a : Char} (hw : White w) (ht : NumberText t d) (hg : GapText g) (h1 : isSpace a = false) (h2 : a ∉ [';', ',', '|']) :
    nextComponent (w ++ (t ++ (g ++ a :: r))) = (.fin (f32 d), a :: r) := by
  unfold nextComponent
  rw [strtof_text ht (fun c hc => (isSpace_iff c).2 (hw c hc)) (ends_gap hg)]
  dsimp only
  rw [skip_gap hg h1 h2]

theorem next_end {w t w' : Str} {d : ℚ} (hw : White w) (ht : NumberText t d) (hw' : White w') : nextComponent (w ++ (t ++ w')) = (.fin (f32 d), []) := by
  unfold nextComponent
  have : EndsNumber w' := by simpa using ends_white hw' (r := []) (fun c cs e => by cases e)
  rw [strtof_text ht (fun c hc => (isSpace_iff c).2 (hw c hc)) this]
  dsimp only
  have := skip_white hw' false []
  rw [List.append_nil] at this
  rw [this]
  rfl

end Verif.CmdLine
