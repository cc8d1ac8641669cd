import Verif.Model.Text
import Verif.Spec.Text

/-!
# Lemmas about numbers and coordinates as text
-/

namespace Verif.Text
open Spec

theorem isDigit_iff (c : Char) : c.isDigit = true ↔ IsDigit c := by
  constructor
  · intro h
    have h1 : 48 ≤ c.toNat ∧ c.toNat ≤ 57 := by
      simp only [Char.isDigit, Bool.and_eq_true, decide_eq_true_eq] at h
      exact ⟨by simpa [UInt32.le_iff_toNat_le] using h.1, by simpa [UInt32.le_iff_toNat_le] using h.2⟩
    have h2 : c = Char.ofNat c.toNat := (Char.ofNat_toNat c).symm
    have h3 : c.toNat = 48 ∨ c.toNat = 49 ∨ c.toNat = 50 ∨ c.toNat = 51 ∨ c.toNat = 52 ∨ c.toNat = 53 ∨ c.toNat = 54 ∨ c.toNat = 55 ∨
      c.toNat = 56 ∨ c.toNat = 57 := by omega
    generalize c.toNat = n at *
    subst h2
    rcases h3 with rfl | rfl | rfl | rfl | rfl | rfl | rfl | rfl | rfl | rfl <;> simp [IsDigit] <;> decide
  · intro h
    simp only [IsDigit, List.mem_cons, List.not_mem_nil, or_false] at h
    rcases h with rfl | rfl | rfl | rfl | rfl | rfl | rfl | rfl | rfl | rfl <;> rfl

theorem digit_range {c : Char} (h : IsDigit c) : 48 ≤ c.toNat ∧ c.toNat ≤ 57 := by
  simp only [IsDigit, List.mem_cons, List.not_mem_nil, or_false] at h
  rcases h with rfl | rfl | rfl | rfl | rfl | rfl | rfl | rfl | rfl | rfl <;> decide

theorem foldl_digits (ds : List Char) (n : Nat) :
    ds.foldl (fun n c => 10 * n + (c.toNat - 48)) n = n * 10 ^ ds.length + digitsValue ds := by
  induction ds generalizing n with
  | nil => simp [digitsValue]
  | cons c cs ih =>
    rw [List.foldl_cons, ih, digitsValue, List.length_cons, Nat.pow_succ]
    show (10 * n + (c.toNat - 48)) * _ + _ = _ + ((c.toNat - 48) * _ + _)
    rw [Nat.add_mul, show 10 * n * 10 ^ cs.length = n * (10 ^ cs.length * 10) by rw [Nat.mul_comm 10 n, Nat.mul_assoc, Nat.mul_comm 10]]
    omega

theorem natOf_eq (ds : List Char) : natOf ds = digitsValue ds := by
  unfold natOf
  rw [foldl_digits]
  simp

theorem digitsValue_append (a b : List Char) : digitsValue (a ++ b) = digitsValue a * 10 ^ b.length + digitsValue b := by
  rw [← natOf_eq, ← natOf_eq a]
  unfold natOf
  rw [List.foldl_append, foldl_digits]

theorem digitsValue_lt (ds : List Char) (h : ∀ c ∈ ds, IsDigit c) : digitsValue ds < 10 ^ ds.length := by
  induction ds with
  | nil => simp [digitsValue]
  | cons c cs ih =>
    have h1 := ih (fun x hx => h x (List.mem_cons_of_mem _ hx))
    have h2 := digit_range (h c (List.mem_cons_self ..))
    rw [digitsValue, List.length_cons, Nat.pow_succ]
    have : (c.toNat - '0'.toNat) ≤ 9 := by
      show c.toNat - 48 ≤ 9
      omega
    have := Nat.mul_le_mul_right (10 ^ cs.length) this
    omega

theorem digitsValue_ge (c : Char) (cs : List Char) (h : IsDigit c) (h0 : c ≠ '0') : 10 ^ cs.length ≤ digitsValue (c :: cs) := by
  have h2 := digit_range h
  have h3 : 49 ≤ c.toNat := by
    rcases Nat.lt_or_ge c.toNat 49 with h4 | h4
    · exfalso
      apply h0
      have : c.toNat = 48 := by omega
      rw [← Char.ofNat_toNat c, this]
    · exact h4
  rw [digitsValue]
  have : 1 ≤ (c.toNat - '0'.toNat) := by
    show 1 ≤ c.toNat - 48
    omega
  have := Nat.mul_le_mul_right (10 ^ cs.length) this
  omega

theorem digitsValue_zero (cs : List Char) : digitsValue ('0' :: cs) = digitsValue cs := by
  rw [digitsValue]
  simp

/-! ## Printing -/

theorem digitChar (n : Nat) (h : n < 10) : IsDigit (Char.ofNat (48 + n)) ∧ (Char.ofNat (48 + n)).toNat - 48 = n := by
  have : n = 0 ∨ n = 1 ∨ n = 2 ∨ n = 3 ∨ n = 4 ∨ n = 5 ∨ n = 6 ∨ n = 7 ∨ n = 8 ∨ n = 9 := by omega
  rcases this with rfl | rfl | rfl | rfl | rfl | rfl | rfl | rfl | rfl | rfl <;> exact ⟨by simp [IsDigit] <;> decide, by decide⟩

theorem decimal_spec (n : Nat) : Digits (decimal n) ∧ digitsValue (decimal n) = n ∧ (∀ cs, decimal n = '0' :: cs → n = 0) := by
  induction n using Nat.strongRecOn with
  | ind n ih =>
    rw [decimal]
    by_cases h : n < 10
    · rw [if_pos h]
      obtain ⟨h1, h2⟩ := digitChar n h
      refine ⟨⟨by simp, by simpa using h1⟩, ?_, ?_⟩
      · simp only [digitsValue, List.length_nil, Nat.pow_zero, Nat.mul_one, Nat.add_zero]
        exact h2
      · intro cs hc
        have : Char.ofNat (48 + n) = '0' := by injection hc
        rw [this] at h2
        exact h2.symm
    · rw [if_neg h]
      obtain ⟨⟨h1, h1'⟩, h2, h3⟩ := ih (n / 10) (by omega)
      obtain ⟨h4, h5⟩ := digitChar (n % 10) (by omega)
      refine ⟨⟨by simp, ?_⟩, ?_, ?_⟩
      · intro c hc
        rw [List.mem_append, List.mem_singleton] at hc
        rcases hc with hc | rfl
        · exact h1' c hc
        · exact h4
      · rw [digitsValue_append, h2]
        simp only [digitsValue, List.length_nil, List.length_cons, Nat.pow_zero, Nat.mul_one, Nat.add_zero]
        have : (Char.ofNat (48 + n % 10)).toNat - '0'.toNat = n % 10 := h5
        rw [this]
        omega
      · intro cs hc
        exfalso
        cases hd : decimal (n / 10) with
        | nil => exact h1 hd
        | cons x xs =>
          rw [hd] at hc
          have hx : x = '0' := by injection hc
          subst hx
          have := h3 xs hd
          omega

/-! ## Characters -/

theorem takeWhile_all {p : Char → Bool} {a : List Char} (h : ∀ c ∈ a, p c = true) (b : List Char) (hb : ∀ c cs, b = c :: cs → p c = false) :
    (a ++ b).takeWhile p = a ∧ (a ++ b).dropWhile p = b := by
  induction a with
  | nil =>
    cases b with
    | nil => simp
    | cons c cs => simp [hb c cs rfl]
  | cons x xs ih =>
    have := ih (fun c hc => h c (List.mem_cons_of_mem _ hc))
    simp [h x (List.mem_cons_self ..), this]

theorem dropWhile_append {p : Char → Bool} {a : List Char} (h : ∀ c ∈ a, p c = true) (b : List Char) : (a ++ b).dropWhile p = b.dropWhile p := by
  induction a with
  | nil => rfl
  | cons x xs ih =>
    rw [List.cons_append, List.dropWhile_cons, if_pos (h x (List.mem_cons_self ..))]
    exact ih (fun c hc => h c (List.mem_cons_of_mem _ hc))

/-- Splitting a list at the first element that violates `p`. -/
theorem span_eq (p : Char → Bool) (s : List Char) :
    s = s.takeWhile p ++ s.dropWhile p ∧ (∀ c ∈ s.takeWhile p, p c = true) ∧ ∀ c cs, s.dropWhile p = c :: cs → p c = false := by
  refine ⟨(List.takeWhile_append_dropWhile).symm, ?_, ?_⟩
  · intro c hc
    induction s with
    | nil => simp at hc
    | cons x xs ih =>
      rw [List.takeWhile_cons] at hc
      split at hc
      · rename_i hx
        rw [List.mem_cons] at hc
        rcases hc with rfl | hc
        · exact hx
        · exact ih hc
      · simp at hc
  · intro c cs h
    have := List.head?_dropWhile_not p s
    rw [h] at this
    simpa using this

theorem isSep_iff (c : Char) : isSep c = true ↔ c ∈ ['\t', ' ', ',', ';'] := by
  simp [isSep, or_assoc]

theorem isBlank_iff (c : Char) : isBlank c = true ↔ c ∈ ['\t', ' '] := by
  simp [isBlank]

theorem isSpace_iff (c : Char) : isSpace c = true ↔ c ∈ [' ', '\t', '\n', '\x0b', '\x0c', '\r'] := by
  simp [isSpace, or_assoc]

theorem charToDimension_iff (c : Char) (d : Dim) : charToDimension c = some d ↔ c ∈ letters d := by
  unfold charToDimension
  constructor
  · intro h
    repeat' split at h
    all_goals first | (cases h; rename_i hc; rcases hc with rfl | rfl <;> decide) | cases h
  · intro h
    cases d <;> simp only [letters, List.mem_cons, List.not_mem_nil, or_false] at h <;> rcases h with rfl | rfl <;> decide

theorem letters_head (d : Dim) : dimensionToChar d ∈ letters d := by cases d <;> decide

/-- A dimension letter is no digit, no separator and no sign. -/
theorem letter_not {c : Char} {d : Dim} (h : c ∈ letters d) : c.isDigit = false ∧ isSep c = false ∧ isBlank c = false ∧ c ≠ '+' ∧ c ≠ '-' := by
  cases d <;> simp only [letters, List.mem_cons, List.not_mem_nil, or_false] at h <;> rcases h with rfl | rfl <;> decide

theorem digit_not {c : Char} (h : IsDigit c) : isSep c = false ∧ isBlank c = false ∧ c ≠ '+' ∧ c ≠ '-' ∧ isSpace c = false := by
  simp only [IsDigit, List.mem_cons, List.not_mem_nil, or_false] at h
  rcases h with rfl | rfl | rfl | rfl | rfl | rfl | rfl | rfl | rfl | rfl <;> decide

theorem sep_not {c : Char} (h : isSep c = true) : c.isDigit = false := by
  rw [isSep_iff] at h
  simp only [List.mem_cons, List.not_mem_nil, or_false] at h
  rcases h with rfl | rfl | rfl | rfl <;> decide

theorem blank_not {c : Char} (h : isBlank c = true) : c ≠ '+' ∧ c ≠ '-' ∧ c.isDigit = false := by
  rw [isBlank_iff] at h
  simp only [List.mem_cons, List.not_mem_nil, or_false] at h
  rcases h with rfl | rfl <;> decide

/-! ## Numbers -/

theorem saturate_range (v : Int) : (saturate v > intMax ∨ saturate v < intMin) ↔ ¬ IsInt32 v := by
  unfold saturate intMax intMin IsInt32
  split
  · omega
  · split <;> omega

theorem saturate_eq {v : Int} (h : IsInt32 v) : saturate v = v := by
  unfold saturate
  unfold IsInt32 at h
  rw [if_neg (by omega), if_neg (by omega)]

/-- The number denoted by a sign and digits. -/
def signed (neg : Bool) (ds : List Char) : Int := if neg then -(digitsValue ds : Int) else digitsValue ds

/-- `number` holds an optional minus and digits. -/
theorem strtoll_signed (neg : Bool) (ds : List Char) (h : ∀ c ∈ ds, IsDigit c) :
    strtoll ((if neg then ['-'] else []) ++ ds) = saturate (signed neg ds) := by
  have ht : ds.takeWhile Char.isDigit = ds := by
    have := (takeWhile_all (p := Char.isDigit) (fun c hc => (isDigit_iff c).2 (h c hc)) [] (by intro c cs hh; cases hh)).1
    rwa [List.append_nil] at this
  cases neg with
  | true =>
    show saturate (-(natOf (ds.takeWhile Char.isDigit) : Int)) = _
    rw [ht, natOf_eq]
    rfl
  | false =>
    show strtoll ds = _
    unfold strtoll signed
    split
    · exfalso
      have := digit_not (h '-' (List.mem_cons_self ..))
      simp at this
    · exfalso
      have := digit_not (h '+' (List.mem_cons_self ..))
      simp at this
    · rw [ht, natOf_eq]
      simp

theorem tryParseInt_signed (neg : Bool) (ds : List Char) (h : ∀ c ∈ ds, IsDigit c) (v : Int) :
    tryParseInt ((if neg then ['-'] else []) ++ ds) = some v ↔ v = signed neg ds ∧ IsInt32 v := by
  unfold tryParseInt
  rw [strtoll_signed neg ds h]
  have hs := saturate_range (signed neg ds)
  by_cases hr : IsInt32 (signed neg ds)
  · rw [if_neg (fun h => hs.1 h hr), saturate_eq hr]
    constructor
    · intro e
      cases e
      exact ⟨rfl, hr⟩
    · rintro ⟨rfl, _⟩
      rfl
  · rw [if_pos (hs.2 hr)]
    constructor
    · intro e; cases e
    · rintro ⟨rfl, h2⟩
      exact absurd h2 hr

/-! ## The digits loop -/

/-- After the first significant digit. -/
theorem digitsLoop_nz (ds rest num : List Char) (z : Bool) (h : ∀ c ∈ ds, IsDigit c) (hr : ∀ c cs, rest = c :: cs → c.isDigit = false) (hn : num.length ≤ 11) :
    digitsLoop (ds ++ rest) num z true = if num.length + ds.length ≤ 11 then some (num ++ ds, true, rest) else none := by
  induction ds generalizing num with
  | nil =>
    rw [List.nil_append, if_pos (by simpa using hn), List.append_nil]
    cases rest with
    | nil => simp [digitsLoop]
    | cons c cs => simp [digitsLoop, hr c cs rfl]
  | cons d ds ih =>
    rw [List.cons_append, digitsLoop, if_pos ((isDigit_iff d).2 (h d (List.mem_cons_self ..))), if_neg (by simp)]
    by_cases h1 : maxChars ≤ num.length
    · rw [if_pos h1, if_neg (by unfold maxChars at h1; simp only [List.length_cons]; omega)]
    · unfold maxChars at h1
      rw [if_neg (by unfold maxChars; exact h1), ih (num ++ [d]) (fun c hc => h c (List.mem_cons_of_mem _ hc)) (by simp only [List.length_append, List.length_singleton]; omega)]
      simp only [List.length_append, List.length_cons, List.length_nil, List.append_assoc, List.singleton_append]
      by_cases h2 : num.length + (ds.length + 1) ≤ 11
      · rw [if_pos (by omega), if_pos h2]
      · rw [if_neg (by omega), if_neg h2]

/-- Leading zeros after the stored one are skipped. -/
theorem digitsLoop_zeros (k : Nat) (s num : List Char) : digitsLoop (List.replicate k '0' ++ s) num true false = digitsLoop s num true false := by
  induction k with
  | zero => rfl
  | succ k ih =>
    rw [List.replicate_succ, List.cons_append, digitsLoop, if_pos (by decide), if_pos (by decide), if_neg (by decide), ih]

/-- The first significant digit. -/
theorem digitsLoop_first (N rest num : List Char) (z : Bool) (hN : ∀ c cs, N = c :: cs → c ≠ '0') (h : ∀ c ∈ N, IsDigit c)
    (hr : ∀ c cs, rest = c :: cs → c.isDigit = false) (hn : num.length ≤ 11) :
    digitsLoop (N ++ rest) num z false = if num.length + N.length ≤ 11 then some (num ++ N, (z || !N.isEmpty), rest) else none := by
  cases N with
  | nil =>
    rw [List.nil_append, if_pos (by simpa using hn), List.append_nil]
    cases rest with
    | nil => simp [digitsLoop]
    | cons c cs => simp [digitsLoop, hr c cs rfl]
  | cons d ds =>
    have e : digitsLoop (d :: ds ++ rest) num z false = digitsLoop (d :: ds ++ rest) num z true := by
      rw [List.cons_append, digitsLoop, digitsLoop, if_pos ((isDigit_iff d).2 (h d (List.mem_cons_self ..))), if_pos ((isDigit_iff d).2 (h d (List.mem_cons_self ..))),
        if_neg (show ¬ (d = '0' ∧ false = false) from fun hh => hN d ds rfl hh.1), if_neg (show ¬ (d = '0' ∧ true = false) from fun hh => by cases hh.2)]
    rw [e, digitsLoop_nz _ _ _ _ h hr hn]
    simp

/-- What the loop stores of a sequence of digits. -/
def stored (ds : List Char) : List Char := (if ds.head? = some '0' then ['0'] else []) ++ ds.dropWhile (· == '0')

theorem zeros_split (ds : List Char) : ∃ k N, ds = List.replicate k '0' ++ N ∧ (∀ c cs, N = c :: cs → c ≠ '0') ∧ stored ds = (if k = 0 then [] else ['0']) ++ N := by
  obtain ⟨e, h1, h2⟩ := span_eq (· == '0') ds
  refine ⟨(ds.takeWhile (· == '0')).length, ds.dropWhile (· == '0'), ?_, ?_, ?_⟩
  · rw [show List.replicate (ds.takeWhile (· == '0')).length '0' = ds.takeWhile (· == '0') from
      (List.eq_replicate_of_mem (fun c hc => by simpa using h1 c hc)).symm]
    exact e
  · intro c cs hc
    simpa using h2 c cs hc
  · unfold stored
    congr 1
    cases ds with
    | nil => rfl
    | cons x xs =>
      by_cases hx : x = '0'
      · subst hx
        simp
      · simp [hx]

theorem digitsValue_replicate (k : Nat) (N : List Char) : digitsValue (List.replicate k '0' ++ N) = digitsValue N := by
  induction k with
  | zero => rfl
  | succ k ih => rw [List.replicate_succ, List.cons_append, digitsValue_zero, ih]

theorem digitsLoop_spec (ds rest num : List Char) (h : ∀ c ∈ ds, IsDigit c) (hr : ∀ c cs, rest = c :: cs → c.isDigit = false) (hn : num.length ≤ 1) :
    digitsLoop (ds ++ rest) num false false = if num.length + (stored ds).length ≤ 11 then some (num ++ stored ds, !ds.isEmpty, rest) else none := by
  obtain ⟨k, N, rfl, hN, e⟩ := zeros_split ds
  rw [e, List.append_assoc]
  have hNd : ∀ c ∈ N, IsDigit c := fun c hc => h c (List.mem_append_right _ hc)
  cases k with
  | zero =>
    rw [List.replicate_zero, List.nil_append, digitsLoop_first N rest num false hN hNd hr (by omega)]
    simp
  | succ k =>
    rw [List.replicate_succ, List.cons_append, digitsLoop, if_pos (by decide), if_pos (by decide), if_pos rfl, digitsLoop_zeros,
      digitsLoop_first N rest _ true hN hNd hr (by simp only [List.length_append, List.length_singleton]; omega)]
    simp [Nat.add_assoc, Nat.add_comm 1]

theorem stored_digits {ds : List Char} (h : ∀ c ∈ ds, IsDigit c) : (∀ c ∈ stored ds, IsDigit c) ∧ digitsValue (stored ds) = digitsValue ds := by
  obtain ⟨k, N, rfl, hN, e⟩ := zeros_split ds
  rw [e]
  refine ⟨?_, ?_⟩
  · intro c hc
    rw [List.mem_append] at hc
    rcases hc with hc | hc
    · split at hc
      · simp at hc
      · simp only [List.mem_singleton] at hc
        subst hc
        simp [IsDigit]
    · exact h c (List.mem_append_right _ hc)
  · rw [digitsValue_replicate]
    split
    · rfl
    · exact digitsValue_zero N

/-- The number does not fit in the array iff it is written with a minus, a leading zero and ten or more significant digits (or has more digits than any `int`). -/
theorem stored_length (neg : Bool) {ds : List Char} (h : ∀ c ∈ ds, IsDigit c) (hr : IsInt32 (signed neg ds)) :
    (if neg then ['-'] else []).length + (stored ds).length ≤ 11 ↔ ¬ (neg = true ∧ ∃ t, ds = '0' :: t ∧ 1000000000 ≤ digitsValue t) := by
  have hv : digitsValue ds < 10 ^ 10 := by
    unfold signed IsInt32 at hr
    split at hr <;> omega
  obtain ⟨k, N, rfl, hN, e⟩ := zeros_split ds
  rw [e]
  rw [digitsValue_replicate] at hv
  have hNd : ∀ c ∈ N, IsDigit c := fun c hc => h c (List.mem_append_right _ hc)
  have hl1 : N.length ≤ 10 := by
    cases N with
    | nil => simp
    | cons x xs =>
      have := digitsValue_ge x xs (hNd x (List.mem_cons_self ..)) (hN x xs rfl)
      have h2 : 10 ^ xs.length < 10 ^ 10 := by omega
      have := (Nat.pow_lt_pow_iff_right (by omega : 1 < 10)).1 h2
      simp only [List.length_cons]
      omega
  have hl2 : N.length = 10 ↔ 1000000000 ≤ digitsValue N := by
    constructor
    · intro hl
      cases N with
      | nil => simp at hl
      | cons x xs =>
        have := digitsValue_ge x xs (hNd x (List.mem_cons_self ..)) (hN x xs rfl)
        simp only [List.length_cons] at hl
        rw [show xs.length = 9 by omega] at this
        exact this
    · intro hh
      have := digitsValue_lt N hNd
      rcases Nat.lt_or_ge N.length 10 with hc | hc
      · have := Nat.pow_le_pow_right (by omega : 0 < 10) (by omega : N.length ≤ 9)
        omega
      · omega
  constructor
  · rintro hl ⟨rfl, t, ht, hb⟩
    cases k with
    | zero =>
      rw [List.replicate_zero, List.nil_append] at ht
      exact hN _ _ ht rfl
    | succ k =>
      rw [List.replicate_succ, List.cons_append] at ht
      injection ht with _ ht
      rw [← ht, digitsValue_replicate] at hb
      have := hl2.2 hb
      simp at hl
      omega
  · intro hl
    cases neg with
    | false =>
      by_cases hk : k = 0 <;> simp [hk] <;> omega
    | true =>
      cases k with
      | zero => simp; omega
      | succ k =>
        rcases Nat.lt_or_ge N.length 10 with hc | hc
        · simp; omega
        · exfalso
          apply hl
          refine ⟨rfl, List.replicate k '0' ++ N, by rw [List.replicate_succ, List.cons_append], ?_⟩
          rw [digitsValue_replicate]
          exact hl2.1 (by omega)

/-! ## Items -/

/-- Whether the item has a minus. -/
def isNeg (i : CoordItem) : Bool := i.sign == some '-'

theorem item_value {i : CoordItem} (h : i.Ok) : i.value = signed (isNeg i) i.digits := by
  rw [h.value]
  unfold signed isNeg
  by_cases hs : i.sign = some '-'
  · simp [hs]
  · simp [hs]

theorem signPart_spec {i : CoordItem} (h : i.Ok) (r : List Char) :
    signPart ((i.blanks1 ++ i.sign.toList ++ i.blanks2 ++ i.digits ++ r).dropWhile isBlank) = (if isNeg i then ['-'] else [], i.digits ++ r) := by
  have hb1 : ∀ c ∈ i.blanks1, isBlank c = true := fun c hc => (isBlank_iff c).2 (h.blanks1 c hc)
  have hb2 : ∀ c ∈ i.blanks2, isBlank c = true := fun c hc => (isBlank_iff c).2 (h.blanks2 c hc)
  obtain ⟨d, ds, hd⟩ : ∃ d ds, i.digits = d :: ds := by
    cases hh : i.digits with
    | nil => exact absurd hh h.digits.1
    | cons d ds => exact ⟨d, ds, rfl⟩
  have hdd : IsDigit d := h.digits.2 d (by rw [hd]; exact List.mem_cons_self ..)
  have hn := digit_not hdd
  have hdrop : (i.blanks2 ++ (i.digits ++ r)).dropWhile isBlank = i.digits ++ r := by
    rw [dropWhile_append hb2, hd, List.cons_append, List.dropWhile_cons, if_neg (by simp [hn.2.1])]
  unfold isNeg
  simp only [List.append_assoc]
  rw [dropWhile_append hb1]
  rcases h.sign with hs | hs | hs
  · rw [hs]
    show signPart ((i.blanks2 ++ (i.digits ++ r)).dropWhile isBlank) = ([], i.digits ++ r)
    rw [hdrop, hd, List.cons_append]
    unfold signPart
    split
    · rename_i s heq
      injection heq with e _
      exact absurd e hn.2.2.2.1
    · rename_i s heq
      injection heq with e _
      exact absurd e hn.2.2.1
    · rfl
  · rw [hs]
    show signPart (('+' :: (i.blanks2 ++ (i.digits ++ r))).dropWhile isBlank) = ([], i.digits ++ r)
    rw [List.dropWhile_cons, if_neg (by decide)]
    show (([] : List Char), (i.blanks2 ++ (i.digits ++ r)).dropWhile isBlank) = _
    rw [hdrop]
  · rw [hs]
    show signPart (('-' :: (i.blanks2 ++ (i.digits ++ r))).dropWhile isBlank) = (['-'], i.digits ++ r)
    rw [List.dropWhile_cons, if_neg (by decide)]
    show (['-'], (i.blanks2 ++ (i.digits ++ r)).dropWhile isBlank) = _
    rw [hdrop]

theorem longNegative_iff (i : CoordItem) : i.LongNegative ↔ (isNeg i = true ∧ ∃ t, i.digits = '0' :: t ∧ 1000000000 ≤ digitsValue t) := by
  unfold CoordItem.LongNegative isNeg
  simp

theorem parseItem_text {i : CoordItem} (h : i.Ok) (r : List Char) (hr : ∀ c cs, r = c :: cs → c.isDigit = false) :
    (i.LongNegative → parseItem (i.text ++ r) = none) ∧ (¬ i.LongNegative → parseItem (i.text ++ r) = some (i.dim, i.value, r.dropWhile isSep)) := by
  have hb : ∀ c ∈ i.before, isSep c = true := fun c hc => (isSep_iff c).2 (h.before c hc)
  have ha : ∀ c ∈ i.after, isSep c = true := fun c hc => (isSep_iff c).2 (h.after c hc)
  have hl := letter_not h.letter
  have hr' : ∀ c cs, i.after ++ r = c :: cs → c.isDigit = false := by
    intro c cs e
    cases hh : i.after with
    | nil =>
      rw [hh, List.nil_append] at e
      exact hr c cs e
    | cons x xs =>
      rw [hh, List.cons_append] at e
      injection e with e _
      subst e
      exact sep_not (ha x (by rw [hh]; exact List.mem_cons_self ..))
  have hrange := h.range
  rw [item_value h] at hrange
  have hlen := stored_length (isNeg i) h.digits.2 hrange
  have hst := stored_digits h.digits.2
  have hne : i.digits.isEmpty = false := by
    cases hh : i.digits with
    | nil => exact absurd hh h.digits.1
    | cons => rfl
  have e1 : parseItem (i.text ++ r) =
      match (if (if isNeg i then ['-'] else []).length + (stored i.digits).length ≤ 11 then
          some ((if isNeg i then ['-'] else []) ++ stored i.digits, !i.digits.isEmpty, i.after ++ r) else none : Option (List Char × Bool × List Char)) with
      | none => none
      | some (num, hasDigit, rest) =>
        if hasDigit = false then none
        else match tryParseInt num with
          | none => none
          | some v => some (i.dim, v, rest.dropWhile isSep) := by
    unfold parseItem CoordItem.text
    simp only [List.append_assoc, List.cons_append]
    rw [dropWhile_append hb, List.dropWhile_cons, if_neg (by simp [hl.2.1])]
    dsimp only
    rw [(charToDimension_iff _ _).2 h.letter]
    dsimp only
    have hsp := signPart_spec h (i.after ++ r)
    simp only [List.append_assoc] at hsp
    rw [hsp]
    dsimp only
    rw [digitsLoop_spec _ _ _ h.digits.2 hr' (by split <;> simp)]
    rfl
  rw [e1, longNegative_iff]
  refine ⟨fun hq => ?_, fun hq => ?_⟩
  · rw [if_neg (fun hh => hlen.1 hh hq)]
  · rw [if_pos (hlen.2 hq)]
    dsimp only
    have hv : tryParseInt ((if isNeg i then ['-'] else []) ++ stored i.digits) = some i.value := by
      rw [tryParseInt_signed _ _ hst.1]
      refine ⟨?_, h.range⟩
      rw [item_value h]
      unfold signed
      rw [hst.2]
    rw [hne, hv]
    simp only [Bool.not_false, Bool.true_eq_false, if_false]
    rw [dropWhile_append ha]

theorem parseItem_sound {s rest : List Char} {d : Dim} {v : Int} (h : parseItem s = some (d, v, rest)) :
    ∃ i : CoordItem, i.Ok ∧ ¬ i.LongNegative ∧ s = i.text ++ rest ∧ i.dim = d ∧ i.value = v := by
  unfold parseItem at h
  obtain ⟨e0, hb, _⟩ := span_eq isSep s
  split at h
  · cases h
  · rename_i ch s1 hs1
    split at h
    · cases h
    · rename_i d' hd'
      obtain ⟨e1, hb1, hnb⟩ := span_eq isBlank s1
      obtain ⟨sg, b2, s3, hsg, hb2, hsp, e2⟩ : ∃ (sg : Option Char) (b2 s3 : List Char), (sg = none ∨ sg = some '+' ∨ sg = some '-') ∧ (∀ c ∈ b2, isBlank c = true) ∧
          signPart (s1.dropWhile isBlank) = (if sg == some '-' then ['-'] else [], s3) ∧ s1.dropWhile isBlank = sg.toList ++ b2 ++ s3 := by
        generalize s1.dropWhile isBlank = s2
        unfold signPart
        split
        · rename_i r
          obtain ⟨f1, f2, _⟩ := span_eq isBlank r
          exact ⟨some '-', r.takeWhile isBlank, _, .inr (.inr rfl), f2, rfl, congrArg ('-' :: ·) f1⟩
        · rename_i r
          obtain ⟨f1, f2, _⟩ := span_eq isBlank r
          exact ⟨some '+', r.takeWhile isBlank, _, .inr (.inl rfl), f2, rfl, congrArg ('+' :: ·) f1⟩
        · exact ⟨none, [], _, .inl rfl, by simp, rfl, rfl⟩
      rw [hsp] at h
      dsimp only at h
      obtain ⟨e3, hdg, hnd⟩ := span_eq Char.isDigit s3
      have hdg' : ∀ c ∈ s3.takeWhile Char.isDigit, IsDigit c := fun c hc => (isDigit_iff c).1 (hdg c hc)
      have hloop := digitsLoop_spec (s3.takeWhile Char.isDigit) (s3.dropWhile Char.isDigit) (if sg == some '-' then ['-'] else []) hdg' hnd (by split <;> simp)
      rw [← e3] at hloop
      rw [hloop] at h
      by_cases hl : (if sg == some '-' then ['-'] else []).length + (stored (s3.takeWhile Char.isDigit)).length ≤ 11
      · rw [if_pos hl] at h
        dsimp only at h
        by_cases hne : (s3.takeWhile Char.isDigit).isEmpty = true
        · rw [hne] at h
          simp at h
        · rw [if_neg (by simpa using hne)] at h
          have hst := stored_digits hdg'
          split at h
          · cases h
          · rename_i v' hv'
            injection h with h
            injection h with h1 h
            injection h with h2 h3
            subst h1 h2
            rw [tryParseInt_signed _ _ hst.1] at hv'
            obtain ⟨hv1, hv2⟩ := hv'
            unfold signed at hv1
            rw [hst.2] at hv1
            obtain ⟨e4, ha, _⟩ := span_eq isSep (s3.dropWhile Char.isDigit)
            refine ⟨⟨s.takeWhile isSep, ch, s1.takeWhile isBlank, sg, b2, s3.takeWhile Char.isDigit, (s3.dropWhile Char.isDigit).takeWhile isSep, d', v'⟩, ?_, ?_, ?_, rfl, rfl⟩
            · exact {
                before := fun c hc => (isSep_iff c).1 (hb c hc)
                letter := (charToDimension_iff _ _).1 hd'
                blanks1 := fun c hc => (isBlank_iff c).1 (hb1 c hc)
                sign := hsg
                blanks2 := fun c hc => (isBlank_iff c).1 (hb2 c hc)
                digits := ⟨by simpa using hne, hdg'⟩
                after := fun c hc => (isSep_iff c).1 (ha c hc)
                value := by
                  show v' = _
                  rw [hv1]
                  dsimp only
                  by_cases hq : sg = some '-' <;> simp [hq]
                range := hv2 }
            · rw [longNegative_iff]
              have hlen := stored_length (sg == some '-') hdg' (by unfold signed; rw [← hv1]; exact hv2)
              exact hlen.1 hl
            · unfold CoordItem.text
              dsimp only
              rw [← h3]
              simp only [List.append_assoc, List.cons_append]
              rw [← e4, ← e3]
              have : s1 = s1.takeWhile isBlank ++ (sg.toList ++ (b2 ++ s3)) := by
                rw [← List.append_assoc sg.toList, ← e2]
                exact e1
              rw [← this, ← hs1]
              exact e0
      · rw [if_neg hl] at h
        cases h

/-- What the loop over items does with the coordinate. -/
def foldItems : Coord → List CoordItem → Except ParseError Coord
  | c, [] => .ok c
  | c, i :: is => if (c i.dim).isSome then .error .DuplicateDimension else foldItems (c.set i.dim i.value) is

theorem parseItem_sep (s : List Char) : parseItem (s.dropWhile isSep) = parseItem s := by
  unfold parseItem
  have : (s.dropWhile isSep).dropWhile isSep = s.dropWhile isSep := by
    cases h : s.dropWhile isSep with
    | nil => rfl
    | cons c cs =>
      have := (span_eq isSep s).2.2 c cs h
      rw [List.dropWhile_cons, if_neg (by simp [this])]
  rw [this]

theorem text_head (items : List CoordItem) (h : ∀ i ∈ items, i.Ok) (c : Char) (cs : List Char) (e : (items.map CoordItem.text).flatten = c :: cs) : c.isDigit = false := by
  cases items with
  | nil => simp at e
  | cons i is =>
    have hi := h i (List.mem_cons_self ..)
    rw [List.map_cons, List.flatten_cons, CoordItem.text] at e
    cases hb : i.before with
    | nil =>
      rw [hb] at e
      simp only [List.nil_append, List.cons_append] at e
      injection e with e _
      subst e
      exact (letter_not hi.letter).1
    | cons x xs =>
      rw [hb] at e
      simp only [List.cons_append] at e
      injection e with e _
      subst e
      exact sep_not ((isSep_iff x).2 (hi.before x (by rw [hb]; exact List.mem_cons_self ..)))

theorem text_ne (i : CoordItem) (h : i.Ok) (r : List Char) : (i.text ++ r).dropWhile isSep ≠ [] := by
  have hb : ∀ c ∈ i.before, isSep c = true := fun c hc => (isSep_iff c).2 (h.before c hc)
  unfold CoordItem.text
  simp only [List.append_assoc, List.cons_append]
  rw [dropWhile_append hb, List.dropWhile_cons, if_neg (by simp [(letter_not h.letter).2.1])]
  simp

theorem parseItems_text (items : List CoordItem) (h : ∀ i ∈ items, i.Ok) (hq : ∀ i ∈ items, ¬ i.LongNegative) (n : Nat) (hn : items.length ≤ n) (c : Coord)
    (s : List Char) (hs : s = (items.map CoordItem.text).flatten ∨ s = (items.map CoordItem.text).flatten.dropWhile isSep) :
    parseItems n s c = foldItems c items := by
  induction items generalizing n c s with
  | nil =>
    have : s = [] := by rcases hs with rfl | rfl <;> rfl
    subst this
    cases n <;> rfl
  | cons i is ih =>
    have hi := h i (List.mem_cons_self ..)
    have his := fun j hj => h j (List.mem_cons_of_mem i hj)
    have hqs := fun j hj => hq j (List.mem_cons_of_mem i hj)
    cases n with
    | zero => simp at hn
    | succ n =>
      have hp : parseItem s = some (i.dim, i.value, (is.map CoordItem.text).flatten.dropWhile isSep) := by
        have := (parseItem_text hi (is.map CoordItem.text).flatten (text_head is his)).2 (hq i (List.mem_cons_self ..))
        rw [List.map_cons, List.flatten_cons] at hs
        rcases hs with rfl | rfl
        · exact this
        · rw [parseItem_sep, this]
      have hne : s ≠ [] := by
        have := text_ne i hi (is.map CoordItem.text).flatten
        rw [List.map_cons, List.flatten_cons] at hs
        rcases hs with rfl | rfl
        · intro e; rw [e] at this; exact this rfl
        · exact this
      cases s with
      | nil => exact absurd rfl hne
      | cons x xs =>
        rw [parseItems, hp]
        dsimp only
        rw [foldItems]
        split
        · rfl
        · exact ih his hqs n (by simp only [List.length_cons] at hn; omega) _ _ (.inr rfl)
        intro hh; cases hh

theorem parseItems_sound (n : Nat) (s : List Char) (c c' : Coord) (h : parseItems n s c = .ok c') :
    ∃ items : List CoordItem, (∀ i ∈ items, i.Ok ∧ ¬ i.LongNegative) ∧ s = (items.map CoordItem.text).flatten ∧ foldItems c items = .ok c' := by
  induction n generalizing s c with
  | zero =>
    cases s with
    | nil => exact ⟨[], by simp, rfl, h⟩
    | cons x xs => cases h
  | succ n ih =>
    cases s with
    | nil => exact ⟨[], by simp, rfl, h⟩
    | cons x xs =>
      rw [parseItems] at h
      split at h
      · cases h
      · rename_i d v rest hp
        obtain ⟨i, h1, h2, h3, h4, h5⟩ := parseItem_sound hp
        split at h
        · cases h
        · rename_i hd
          obtain ⟨is, g1, g2, g3⟩ := ih rest _ h
          refine ⟨i :: is, ?_, ?_, ?_⟩
          · intro j hj
            rw [List.mem_cons] at hj
            rcases hj with rfl | hj
            · exact ⟨h1, h2⟩
            · exact g1 j hj
          · rw [List.map_cons, List.flatten_cons, h3, g2]
          · rw [foldItems, h4, h5, if_neg hd]
            exact g3
      intro hh; cases hh

/-- The loop succeeds iff no dimension is repeated or already there. -/
theorem foldItems_ok (items : List CoordItem) (c c' : Coord) :
    foldItems c items = .ok c' ↔
      (items.map CoordItem.dim).Nodup ∧ (∀ i ∈ items, c i.dim = none) ∧ (∀ d v, c' d = some v ↔ c d = some v ∨ ∃ i ∈ items, i.dim = d ∧ i.value = v) := by
  induction items generalizing c with
  | nil =>
    rw [foldItems]
    constructor
    · intro e
      cases e
      simp
    · rintro ⟨_, _, h⟩
      congr 1
      funext d
      have := h d
      cases hc : c d with
      | some v =>
        have := ((h d v).2 (.inl hc))
        exact this.symm
      | none =>
        cases hc' : c' d with
        | none => rfl
        | some v =>
          have := (h d v).1 hc'
          simp [hc] at this
  | cons i is ih =>
    rw [foldItems]
    by_cases hd : (c i.dim).isSome = true
    · rw [if_pos hd]
      constructor
      · intro e; cases e
      · rintro ⟨_, h, _⟩
        have := h i (List.mem_cons_self ..)
        rw [this] at hd
        cases hd
    · rw [if_neg hd, ih]
      have hn : c i.dim = none := by simpa using hd
      have hset : ∀ d v, (c.set i.dim i.value) d = some v ↔ c d = some v ∨ (i.dim = d ∧ i.value = v) := by
        intro d v
        unfold Coord.set
        by_cases e : d = i.dim
        · subst e
          simp [hn]
        · rw [if_neg e]
          constructor
          · exact .inl
          · rintro (h | h)
            · exact h
            · exact absurd h.1.symm e
      constructor
      · rintro ⟨h1, h2, h3⟩
        refine ⟨?_, ?_, ?_⟩
        · rw [List.map_cons, List.nodup_cons]
          refine ⟨?_, h1⟩
          intro hm
          obtain ⟨j, hj, e⟩ := List.mem_map.1 hm
          have := h2 j hj
          rw [e] at this
          simp [Coord.set] at this
        · intro j hj
          rw [List.mem_cons] at hj
          rcases hj with rfl | hj
          · exact hn
          · have := h2 j hj
            unfold Coord.set at this
            split at this
            · cases this
            · exact this
        · intro d v
          rw [h3 d v, hset]
          simp only [List.mem_cons, exists_eq_or_imp, or_assoc]
      · rintro ⟨h1, h2, h3⟩
        rw [List.map_cons, List.nodup_cons] at h1
        refine ⟨h1.2, ?_, ?_⟩
        · intro j hj
          unfold Coord.set
          rw [if_neg]
          · exact h2 j (List.mem_cons_of_mem _ hj)
          · intro e
            exact h1.1 (List.mem_map.2 ⟨j, hj, e⟩)
        · intro d v
          rw [h3 d v, hset]
          simp only [List.mem_cons, exists_eq_or_imp, or_assoc]

theorem parseItems_accepted (items : List CoordItem) (h : ∀ i ∈ items, i.Ok) (n : Nat) (c c' : Coord)
    (s : List Char) (hs : s = (items.map CoordItem.text).flatten ∨ s = (items.map CoordItem.text).flatten.dropWhile isSep) (hp : parseItems n s c = .ok c') :
    foldItems c items = .ok c' := by
  induction items generalizing n c s with
  | nil =>
    have : s = [] := by rcases hs with rfl | rfl <;> rfl
    subst this
    cases n <;> exact hp
  | cons i is ih =>
    have hi := h i (List.mem_cons_self ..)
    have his := fun j hj => h j (List.mem_cons_of_mem i hj)
    have hne : s ≠ [] := by
      have := text_ne i hi (is.map CoordItem.text).flatten
      rw [List.map_cons, List.flatten_cons] at hs
      rcases hs with rfl | rfl
      · intro e; rw [e] at this; exact this rfl
      · exact this
    have hpi : parseItem s = parseItem (i.text ++ (is.map CoordItem.text).flatten) := by
      rw [List.map_cons, List.flatten_cons] at hs
      rcases hs with rfl | rfl
      · rfl
      · rw [parseItem_sep]
    have ht := parseItem_text hi (is.map CoordItem.text).flatten (text_head is his)
    cases s with
    | nil => exact absurd rfl hne
    | cons x xs =>
      cases n with
      | zero => cases hp
      | succ n =>
        rw [parseItems, hpi] at hp
        · by_cases hq : i.LongNegative
          · rw [ht.1 hq] at hp
            cases hp
          · rw [ht.2 hq] at hp
            dsimp only at hp
            rw [foldItems]
            split at hp
            · cases hp
            · rename_i hd
              rw [if_neg hd]
              exact ih his n _ _ (.inr rfl) hp
        · intro hh; cases hh

theorem items_length (items : List CoordItem) : items.length ≤ ((items.map CoordItem.text).flatten).length := by
  induction items with
  | nil => simp
  | cons i is ih =>
    rw [List.map_cons, List.flatten_cons, List.length_append, List.length_cons]
    have : 1 ≤ i.text.length := by
      unfold CoordItem.text
      simp only [List.length_append, List.length_cons]
      omega
    omega

end Verif.Text
