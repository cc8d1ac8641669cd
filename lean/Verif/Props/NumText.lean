import Verif.Proof.NumConv
import Verif.Proof.HexText
import Verif.Props.XmlValue

/-!
# C71: numbers with a fraction in the metadata
-/

namespace Verif
open Xml Spec Flt
open Text (isSpace isSpace_iff)

/-! ## Reading -/

/-- **C71 (reading).** If the value of the node is a decimal number in the usual notation, preceded by any white space, then `TryGetValueAsDouble` returns the nearest number of type
`double`, and `TryGetValueAsFloat` the number of type `float` nearest to that. -/
theorem C71_read (n : Node) (w t : Str) (d : ℚ) (hv : tryGetValue n = some (w ++ t)) (hw : ∀ c ∈ w, c ∈ [' ', '\t', '\n', '\x0b', '\x0c', '\r']) (ht : NumberText t d) :
    tryGetDouble n = .value (.fin (f64 d)) ∧ tryGetFloat n = .value (.fin (f32 (f64 d))) := by
  have h : tryGetDouble n = .value (.fin (f64 d)) := by
    have := wcstod_text ht (w := w) (r := []) (fun c hc => (isSpace_iff c).2 (hw c hc)) (fun c cs e => by cases e)
    rw [List.append_nil] at this
    unfold tryGetDouble
    rw [hv]
    dsimp only
    rw [this]
    rfl
  refine ⟨h, ?_⟩
  unfold tryGetFloat
  rw [h]
  rfl

/-- **C71 (reading hexadecimal numbers).** If the value of the node is a hexadecimal number in the notation of C (`0x1.8p3`), preceded by any white space, then `TryGetValueAsDouble` and
`TryGetValueAsFloat` return it, rounded as decimal numbers are. -/
theorem C71_read_hex (n : Node) (w t : Str) (d : ℚ) (hv : tryGetValue n = some (w ++ t)) (hw : ∀ c ∈ w, c ∈ [' ', '\t', '\n', '\x0b', '\x0c', '\r']) (ht : HexNumberText t d) :
    tryGetDouble n = .value (.fin (f64 d)) ∧ tryGetFloat n = .value (.fin (f32 (f64 d))) := by
  have h : tryGetDouble n = .value (.fin (f64 d)) := by
    unfold tryGetDouble
    rw [hv]
    dsimp only
    rw [wcstod_hex ht (fun c hc => (isSpace_iff c).2 (hw c hc))]
    rfl
  refine ⟨h, ?_⟩
  unfold tryGetFloat
  rw [h]
  rfl

/-- **C71 (only numbers are read).** If `TryGetValueAsDouble` returns a finite number, then the value of the node is that number in the usual notation, preceded by white space, or is
the empty text and the number is zero. (Hexadecimal numbers are the exception: they have an `x`.) -/
theorem C71_read_only (n : Node) (x : ℚ) (s : Str) (hv : tryGetValue n = some s) (hx : ∀ c ∈ s, c ≠ 'x' ∧ c ≠ 'X') (h : tryGetDouble n = .value (.fin x)) :
    (s = [] ∧ x = 0) ∨ ∃ w t d, s = w ++ t ∧ (∀ c ∈ w, c ∈ [' ', '\t', '\n', '\x0b', '\x0c', '\r']) ∧ NumberText t d ∧ x = f64 d := by
  unfold tryGetDouble at h
  rw [hv] at h
  dsimp only at h
  cases hq : wcstod s with
  | none =>
    rw [hq] at h
    dsimp only at h
    cases s with
    | nil => left; rw [finish] at h; cases h; exact ⟨rfl, rfl⟩
    | cons c r => rw [finish] at h; split at h <;> cases h
  | some q =>
    obtain ⟨y, r⟩ := q
    rw [hq] at h
    dsimp only at h
    cases r with
    | cons c r => rw [finish] at h; split at h <;> cases h
    | nil =>
      rw [finish] at h
      cases h
      obtain ⟨w, t, d, h1, h2, h3, h4⟩ := wcstod_conv hq hx
      exact Or.inr ⟨w, t, d, h1, fun c hc => (isSpace_iff c).1 (h2 c hc), h3, h4⟩

/-- **C71 (violation: white space after the number).** `TryGetValueAsDouble` and `TryGetValueAsFloat` do not return if the value of the node is a number with white space behind it, or
if there is nothing but white space. -/
theorem C71_hangs_violated (n : Node) (w : Str) (c : Char) (r : Str) (hw : ∀ c ∈ w, c ∈ [' ', '\t', '\n', '\x0b', '\x0c', '\r']) (hc : c ∈ [' ', '\t', '\n', '\x0b', '\x0c', '\r']) :
    (∀ t d, NumberText t d → tryGetValue n = some (w ++ (t ++ c :: r)) → tryGetDouble n = .hangs ∧ tryGetFloat n = .hangs) ∧
    (tryGetValue n = some (c :: w) → tryGetDouble n = .hangs ∧ tryGetFloat n = .hangs) := by
  have sp := (isSpace_iff c).2 hc
  have fl : tryGetDouble n = .hangs → tryGetDouble n = .hangs ∧ tryGetFloat n = .hangs := by
    intro h
    refine ⟨h, ?_⟩
    unfold tryGetFloat
    rw [h]
  constructor
  · intro t d ht hv
    apply fl
    have he : EndsNumber (c :: r) := by
      intro a cs e
      cases e
      have : ∀ x ∈ [' ', '\t', '\n', '\x0b', '\x0c', '\r'], ¬IsDigit x ∧ x ∉ ['.', 'e', 'E', 'x', 'X'] := by unfold IsDigit; decide
      exact this c hc
    have := wcstod_text ht (w := w) (r := c :: r) (fun c hc => (isSpace_iff c).2 (hw c hc)) he
    unfold tryGetDouble
    rw [hv]
    dsimp only
    rw [this]
    dsimp only
    rw [finish, if_pos sp]
  · intro hv
    apply fl
    unfold tryGetDouble
    rw [hv]
    dsimp only
    have : wcstod (c :: w) = none := by
      unfold wcstod
      have : (c :: w).dropWhile isSpace = [] := by
        have := dropWhile_all (a := c :: w) (p := isSpace) (b := []) (by
          intro a ha
          rcases List.mem_cons.1 ha with rfl | ha
          · exact sp
          · exact (isSpace_iff a).2 (hw a ha)) (fun c cs e => by cases e)
        rwa [List.append_nil] at this
      rw [this]
      rfl
    rw [this]
    dsimp only
    rw [finish, if_pos sp]

/-! ## Writing -/

/-- **C71 (writing).** `SetValueDbl` writes the decimal number with 15 significant digits that is nearest to the value, `SetValueFlt` that with 6 significant digits. -/
theorem C71_written (nm : Str) (as : List (Str × Str)) (cs : List Node) (h : ∀ c ∈ cs, c.isElement = false) (hc : ∀ x, cs.head? ≠ some (.text true x)) (x : ℚ) :
    (∃ n' t d, setDouble x (.element nm as cs) = .ok n' ∧ tryGetValue n' = some t ∧ NumberText t d ∧ RoundedToDigits 15 x d) ∧
    (∃ n' t d, setFloat x (.element nm as cs) = .ok n' ∧ tryGetValue n' = some t ∧ NumberText t d ∧ RoundedToDigits 6 x d) := by
  constructor
  · obtain ⟨cs', e, _, hv⟩ := (C62_value nm as cs (showG 15 x)).2 h
    exact ⟨_, _, _, e, hv hc, showG_text (by norm_num) x, decimalOf_rounded (by norm_num) x⟩
  · obtain ⟨cs', e, _, hv⟩ := (C62_value nm as cs (showG 6 x)).2 h
    exact ⟨_, _, _, e, hv hc, showG_text (by norm_num) x, decimalOf_rounded (by norm_num) x⟩

/-! ## Reading what was written -/

/-- **C71 (double).** What was written with `SetValueDbl` is read by `TryGetValueAsDouble` with a relative error of at most 6·10⁻¹⁵; and if what was read is written again, the document is
the same, so that the value does not drift. (The full statement, that the value read is the value written, is false: `C71_exact_violated`.) -/
theorem C71_double_partial (nm : Str) (as : List (Str × Str)) (cs : List Node) (h : ∀ c ∈ cs, c.isElement = false) (hc : ∀ x, cs.head? ≠ some (.text true x)) (x : ℚ) :
    ∃ n' y, setDouble x (.element nm as cs) = .ok n' ∧ tryGetDouble n' = .value (.fin y) ∧ |y - x| ≤ |x| * (6 / 10 ^ 15) ∧ setDouble y (.element nm as cs) = .ok n' := by
  obtain ⟨cs', e, _, hv⟩ := (C62_value nm as cs (showG 15 x)).2 h
  refine ⟨_, f64 (decimalOf 15 x), e, tryGetDouble_text (hv hc) (showG_text (by norm_num) x), double_err x, ?_⟩
  unfold setDouble
  rw [double_stable]
  exact e

/-- **C71 (float).** What was written with `SetValueFlt` is read by `TryGetValueAsFloat` with a relative error of at most 6·10⁻⁶; and if what was read is written again, the document is the
same. -/
theorem C71_float_partial (nm : Str) (as : List (Str × Str)) (cs : List Node) (h : ∀ c ∈ cs, c.isElement = false) (hc : ∀ x, cs.head? ≠ some (.text true x)) (x : ℚ) :
    ∃ n' y, setFloat x (.element nm as cs) = .ok n' ∧ tryGetFloat n' = .value (.fin y) ∧ |y - x| ≤ |x| * (6 / 10 ^ 6) ∧ setFloat y (.element nm as cs) = .ok n' := by
  obtain ⟨cs', e, _, hv⟩ := (C62_value nm as cs (showG 6 x)).2 h
  refine ⟨_, f32 (f64 (decimalOf 6 x)), e, tryGetFloat_text (hv hc) (showG_text (by norm_num) x), float_err x, ?_⟩
  unfold setFloat
  rw [float_stable]
  exact e

/-- **C71 (values with few digits).** A value that a decimal number with at most 15 significant digits is read as, in particular a whole number below 10¹⁵, is read as it was written. For
`float` the limit is 6 digits. -/
theorem C71_short (nm : Str) (as : List (Str × Str)) (cs : List Node) (h : ∀ c ∈ cs, c.isElement = false) (hc : ∀ x, cs.head? ≠ some (.text true x)) (d : ℚ) :
    (HasDigits 15 d → ∃ n', setDouble (f64 d) (.element nm as cs) = .ok n' ∧ tryGetDouble n' = .value (.fin (f64 d))) ∧
    (HasDigits 6 d → ∃ n', setFloat (f32 (f64 d)) (.element nm as cs) = .ok n' ∧ tryGetFloat n' = .value (.fin (f32 (f64 d)))) := by
  constructor
  · intro hd
    obtain ⟨cs', e, _, hv⟩ := (C62_value nm as cs (showG 15 (f64 d))).2 h
    refine ⟨_, e, ?_⟩
    have := showG_text (p := 15) (by norm_num) (f64 d)
    rw [double_short hd] at this
    exact tryGetDouble_text (hv hc) this
  · intro hd
    obtain ⟨cs', e, _, hv⟩ := (C62_value nm as cs (showG 6 (f32 (f64 d)))).2 h
    refine ⟨_, e, ?_⟩
    have := showG_text (p := 6) (by norm_num) (f32 (f64 d))
    rw [float_short hd] at this
    exact tryGetFloat_text (hv hc) this

/-- Whole numbers have few digits. -/
theorem hasDigits_int {p : ℕ} {m : ℤ} (h : |m| < 10 ^ p) : HasDigits p m := ⟨m, 0, h, by simp⟩

/-- **C71 (whole numbers).** Whole numbers below 10¹⁵ (for `float` below 10⁶) are read as they were written. -/
theorem C71_whole (nm : Str) (as : List (Str × Str)) (cs : List Node) (h : ∀ c ∈ cs, c.isElement = false) (hc : ∀ x, cs.head? ≠ some (.text true x)) (m : ℤ) :
    (|m| < 10 ^ 15 → ∃ n', setDouble m (.element nm as cs) = .ok n' ∧ tryGetDouble n' = .value (.fin m)) ∧
    (|m| < 10 ^ 6 → ∃ n', setFloat m (.element nm as cs) = .ok n' ∧ tryGetFloat n' = .value (.fin m)) := by
  constructor
  · intro hm
    have := (C71_short nm as cs h hc m).1 (hasDigits_int hm)
    rwa [f64_int m (by omega)] at this
  · intro hm
    have := (C71_short nm as cs h hc m).2 (hasDigits_int hm)
    rwa [f64_int m (by omega), f32_int m (by omega)] at this

/-- **C71 (violation: other values).** There are different values of type `double` for which `SetValueDbl` writes the same text; so no function can read all of them. The same holds for
`float` and `SetValueFlt`. -/
theorem C71_exact_violated : ∃ x y x' y' : ℚ, IsDouble x ∧ IsDouble y ∧ x ≠ y ∧ (∀ n, setDouble x n = setDouble y n) ∧ IsFloat x' ∧ IsFloat y' ∧ x' ≠ y' ∧ (∀ n, setFloat x' n = setFloat y' n) := by
  refine ⟨1 + 1 / 2 ^ 52, 1, 1 + 1 / 2 ^ 23, 1, ⟨2 ^ 52 + 1, -52, by norm_num, by norm_num⟩, ⟨1, 0, by norm_num, by norm_num⟩, by norm_num, ?_,
    ⟨2 ^ 23 + 1, -23, by norm_num, by norm_num⟩, ⟨1, 0, by norm_num, by norm_num⟩, by norm_num, ?_⟩
  · intro n
    obtain ⟨h1, h2⟩ := sigDigits_recovered (p := 15) (by norm_num) (d := 1) (y := 1 + 1 / 2 ^ 52) ⟨1, 0, by norm_num, by norm_num⟩ (by norm_num)
    unfold setDouble
    rw [showG_congr h1 h2]
  · intro n
    obtain ⟨h1, h2⟩ := sigDigits_recovered (p := 6) (by norm_num) (d := 1) (y := 1 + 1 / 2 ^ 23) ⟨1, 0, by norm_num, by norm_num⟩ (by norm_num)
    unfold setFloat
    rw [showG_congr h1 h2]

/-- **C71 (twenty digits).** The texts with twenty significant digits that are written for the points of a spline are read without any error, by every function based on `strtod`. -/
theorem C71_exact (x : ℚ) (hx : IsDouble x) : ∃ d, NumberText (showE 20 x) d ∧ RoundedToDigits 20 x d ∧ f64 d = x ∧ wcstod (showE 20 x) = some (.fin x, []) := by
  refine ⟨decimalOf 20 x, showE_text (by norm_num) x, decimalOf_rounded (by norm_num) x, f64_decimalOf (by norm_num) hx, ?_⟩
  rw [wcstod_show (showE_text (by norm_num) x), f64_decimalOf (by norm_num) hx]

/-! ## Examples -/

/-- The text of a number with a sign, a fraction and an exponent: `-12.5e-1`. -/
theorem exNumberText : NumberText "-12.5e-1".toList (-5 / 4) := by
  refine ⟨['-'], ['1', '2'], ['.', '5'], ['5'], ['e', '-', '1'], -1, -1 * (1 : ℕ), by decide +kernel, .minus, by unfold IsDigit; decide, by simp, Or.inr rfl, ?_, ?_⟩
  · exact ExponentText.some (ds := ['1']) (Or.inl rfl) (Or.inr (Or.inr ⟨rfl, rfl⟩)) ⟨by simp, by unfold IsDigit; decide⟩
  · have : digitsValue (['1', '2'] ++ ['5']) = 125 := by decide
    rw [this]
    norm_num

example : tryGetDouble (.element "v".toList [] [.text false (" ".toList ++ "-12.5e-1".toList)]) = .value (.fin (-5 / 4)) := by
  have := (C71_read (.element "v".toList [] [.text false (" ".toList ++ "-12.5e-1".toList)]) " ".toList _ _ rfl (by decide) exNumberText).1
  rw [this]
  have hh : f64 (-5 / 4) = -5 / 4 := by
    have h2 : ((-5 : ℤ) : ℚ) * 2 ^ (-2 : ℤ) = -5 / 4 := by norm_num
    have := fround_exact 53 (-5) (-2) (by norm_num)
    rw [h2] at this
    exact this
  rw [hh]

example : tryGetDouble (.element "v".toList [] [.text false ([] ++ ("-12.5e-1".toList ++ ' ' :: []))]) = .hangs :=
  ((C71_hangs_violated _ [] ' ' [] (by simp) (by simp)).1 _ _ exNumberText rfl).1

/-- A hexadecimal number with a fraction and a power of two: `-0x1.8P+3` is −12. -/
private theorem exHexText : HexNumberText ['-', '0', 'x', '1', '.', '8', 'P', '+', '3'] (-12) :=
  ⟨['-'], ['1'], ['.', '8'], ['8'], ['P', '+', '3'], -1, 'x', 24, 3, rfl, .minus, .inl rfl, .snoc (.snoc (ds := []) (v := 1) .nil (by decide)) (v := 8) (by decide), (by decide), .inr rfl,
    .some (s := ['+']) (g := 1) (.inr rfl) (.inr (.inl ⟨rfl, rfl⟩)) (ds := ['3']) ⟨by decide, by intro c hc; rw [List.mem_singleton.1 hc]; unfold IsDigit; decide⟩, (by norm_num)⟩

example : tryGetDouble (.element "v".toList [] [.text false (" ".toList ++ ['-', '0', 'x', '1', '.', '8', 'P', '+', '3'])]) = .value (.fin (f64 (-12))) :=
  (C71_read_hex _ " ".toList _ _ rfl (by decide) exHexText).1

/-- One tenth has one digit: it is read as it was written, though it is not a value of type `double`. -/
example : ∃ n', setDouble (f64 (1 / 10)) (.element "v".toList [] []) = .ok n' ∧ tryGetDouble n' = .value (.fin (f64 (1 / 10))) :=
  (C71_short "v".toList [] [] (by simp) (by simp) (1 / 10)).1 ⟨1, -1, by norm_num, by norm_num⟩

example : ∃ n' y, setDouble (1 / 3) (.element "v".toList [] [.text false "0".toList]) = .ok n' ∧ tryGetDouble n' = .value (.fin y) ∧ |y - 1 / 3| ≤ |(1 / 3 : ℚ)| * (6 / 10 ^ 15) := by
  obtain ⟨n', y, h1, h2, h3, _⟩ := C71_double_partial "v".toList [] [.text false "0".toList] (by simp [Node.isElement]) (by simp) (1 / 3)
  exact ⟨n', y, h1, h2, h3⟩

example : wcstod (showE 20 (-3 / 8)) = some (.fin (-3 / 8), []) := by
  obtain ⟨d, _, _, _, h⟩ := C71_exact (-3 / 8) ⟨-3, -3, by norm_num, by norm_num⟩
  exact h

end Verif
