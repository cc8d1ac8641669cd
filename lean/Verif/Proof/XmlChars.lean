import Verif.Spec.XmlText

/-!
# Lemmas about characters, UTF-8, escapes and names in XML
-/

namespace Verif.Xml

open Verif.Spec

/-! ## UTF-8 -/

theorem toNat_ofNat_lt {n : Nat} (h : n < 256) : (UInt8.ofNat n).toNat = n := by
  rw [UInt8.toNat_ofNat']
  exact Nat.mod_eq_of_lt h

theorem isTail_of {n : Nat} (h : n < 64) : isTail (UInt8.ofNat (0x80 + n)) = true := by
  unfold isTail
  rw [toNat_ofNat_lt (by omega)]
  simp
  omega

theorem char_bound (c : Char) : c.toNat < 1114112 := by
  rcases c.valid with h | ⟨_, h⟩
  · have : c.toNat = c.val.toNat := rfl
    omega
  · exact h

theorem decodeFrom_drop : ∀ (k : Nat) (s : List UInt8), decodeFrom k s = decodeFrom 0 (s.drop k)
  | 0, s => by simp
  | k + 1, [] => by simp [decodeFrom]
  | k + 1, _ :: s => by rw [decodeFrom, decodeFrom_drop k s, List.drop_succ_cons]

theorem decode_encodeChar (c : Char) (s : List UInt8) : decodeFrom 0 (encodeChar c ++ s) = c.toNat :: decodeFrom 0 s := by
  have hb := char_bound c
  unfold encodeChar
  generalize c.toNat = n at hb
  dsimp only
  split
  · rename_i h
    rw [List.singleton_append, decodeFrom.eq_def]
    dsimp only
    rw [toNat_ofNat_lt (by omega), if_pos h]
  · rename_i h1
    split
    · rename_i h2
      rw [List.cons_append, List.cons_append, List.nil_append, decodeFrom.eq_def]
      dsimp only
      rw [toNat_ofNat_lt (by omega), toNat_ofNat_lt (by omega), if_neg (by omega), if_pos ⟨by omega, by omega, isTail_of (by omega)⟩, decodeFrom_drop]
      congr 1
      omega
    · rename_i h2
      split
      · rename_i h3
        simp only [List.cons_append, List.nil_append]
        rw [decodeFrom.eq_def]
        dsimp only
        rw [toNat_ofNat_lt (by omega), toNat_ofNat_lt (by omega), toNat_ofNat_lt (by omega), if_neg (by omega), if_neg (by omega),
          if_pos ⟨by omega, by omega, isTail_of (by omega), isTail_of (by omega)⟩, decodeFrom_drop]
        congr 1
        omega
      · rename_i h3
        simp only [List.cons_append, List.nil_append]
        rw [decodeFrom.eq_def]
        dsimp only
        rw [toNat_ofNat_lt (by omega), toNat_ofNat_lt (by omega), toNat_ofNat_lt (by omega), toNat_ofNat_lt (by omega), if_neg (by omega), if_neg (by omega), if_neg (by omega),
          if_pos ⟨by omega, by omega, isTail_of (by omega), isTail_of (by omega), isTail_of (by omega)⟩, decodeFrom_drop]
        congr 1
        omega

theorem decode_encode (s : Str) : decodeFrom 0 (encode s) = s.map Char.toNat := by
  induction s with
  | nil => rfl
  | cons c s ih =>
    show decodeFrom 0 (encodeChar c ++ encode s) = _
    rw [decode_encodeChar, ih]
    rfl

theorem charOf_toNat (c : Char) : charOf c.toNat = some c := by
  unfold charOf
  rw [if_pos (show c.toNat.isValidChar from c.valid), Char.ofNat_toNat]

theorem chars_encode (s : Str) : (decodeFrom 0 (encode s)).mapM charOf = some s := by
  rw [decode_encode]
  induction s with
  | nil => rfl
  | cons c s ih => simp [charOf_toNat, ih]

theorem encode_ne_nil {s : Str} (h : s ≠ []) : (encode s).isEmpty = false := by
  cases s with
  | nil => exact absurd rfl h
  | cons c s =>
    have : encodeChar c ≠ [] := by
      unfold encodeChar
      dsimp only
      split
      · simp
      · split
        · simp
        · split <;> simp
    cases he : encodeChar c with
    | nil => exact absurd he this
    | cons b t =>
      show (encodeChar c ++ encode s).isEmpty = false
      rw [he]
      rfl

theorem loadXml_encode {s : Str} (h : s ≠ []) : loadXml (encode s) = parseText s := by
  unfold loadXml
  rw [encode_ne_nil h, if_neg (by simp), chars_encode]

/-! ## Names -/

theorem isStartSymbol_iff (c : Char) : isStartSymbol c = true ↔ NameStart c := by
  unfold isStartSymbol NameStart
  simp only [Bool.or_eq_true, Bool.and_eq_true, decide_eq_true_eq, Char.le_def, UInt32.le_iff_toNat_le]
  have e : c.val.toNat = c.toNat := rfl
  rw [e, show ('A' : Char).val.toNat = 65 from rfl, show ('Z' : Char).val.toNat = 90 from rfl, show ('a' : Char).val.toNat = 97 from rfl,
    show ('z' : Char).val.toNat = 122 from rfl, show ('\x80' : Char).val.toNat = 128 from rfl]
  constructor
  · rintro ((((h | h) | h) | h) | h) <;> simp [h]
  · rintro (h | h | h | h | h) <;> simp [h]

theorem isSymbol_iff (c : Char) : isSymbol c = true ↔ NameChar c := by
  unfold isSymbol NameChar
  simp only [Bool.or_eq_true, Bool.and_eq_true, decide_eq_true_eq, Char.le_def, UInt32.le_iff_toNat_le, isStartSymbol_iff]
  have e : c.val.toNat = c.toNat := rfl
  rw [e, show ('0' : Char).val.toNat = 48 from rfl, show ('9' : Char).val.toNat = 57 from rfl]
  constructor
  · rintro (((h | h) | h) | h) <;> simp [h]
  · rintro (h | h | h | h) <;> simp [h]

theorem isSymbol_of_start {c : Char} (h : isStartSymbol c = true) : isSymbol c = true := by
  unfold isSymbol
  rw [h]
  rfl

/-- Symbols are not special and not white space. -/
theorem symbol_facts {c : Char} (h : isSymbol c = true) : c ≠ '<' ∧ c ≠ '>' ∧ c ≠ '/' ∧ c ≠ '=' ∧ c ≠ '\x00' ∧ isPugiSpace c = false := by
  refine ⟨?_, ?_, ?_, ?_, ?_, ?_⟩
  all_goals first
    | (intro e; subst e; revert h; decide)
    | (cases hs : isPugiSpace c with
        | false => rfl
        | true =>
          unfold isPugiSpace at hs
          simp only [Bool.or_eq_true, decide_eq_true_eq] at hs
          rcases hs with ((rfl | rfl) | rfl) | rfl <;> (revert h; decide))

theorem name_symbols {n : Str} (h : XmlName n) : ∃ c s, n = c :: s ∧ isStartSymbol c = true ∧ ∀ d ∈ n, isSymbol d = true := by
  obtain ⟨c, s, rfl, h1, h2⟩ := h
  refine ⟨c, s, rfl, (isStartSymbol_iff c).2 h1, fun d hd => ?_⟩
  rcases List.mem_cons.1 hd with rfl | hd
  · exact isSymbol_of_start ((isStartSymbol_iff _).2 h1)
  · exact (isSymbol_iff d).2 (h2 d hd)

theorem take_symbols {n : Str} (h : ∀ d ∈ n, isSymbol d = true) {c : Char} (hc : isSymbol c = false) (s : Str) :
    (n ++ c :: s).takeWhile isSymbol = n ∧ (n ++ c :: s).dropWhile isSymbol = c :: s := by
  induction n with
  | nil => simp [hc]
  | cons d n ih =>
    obtain ⟨i1, i2⟩ := ih (fun x hx => h x (List.mem_cons_of_mem _ hx))
    rw [List.cons_append, List.takeWhile_cons, List.dropWhile_cons, h d (List.mem_cons_self ..)]
    exact ⟨by simpa using i1, i2⟩

/-! ## Escapes -/

theorem decDigit_ofNat : ∀ k < 10, decDigit (Char.ofNat (k + 48)) = some k := by decide

theorem digit_ne_x : ∀ k < 10, Char.ofNat (k + 48) ≠ 'x' := by decide

theorem numberRef_two {n : Nat} (h : n < 32) (s : Str) :
    numberRef decDigit 10 (Char.ofNat (n / 10 + 48) :: Char.ofNat (n % 10 + 48) :: ';' :: s) = some (n, 3) := by
  have h1 := decDigit_ofNat (n / 10) (by omega)
  have h2 := decDigit_ofNat (n % 10) (by omega)
  have h3 : decDigit ';' = none := by decide
  unfold numberRef
  simp only [List.takeWhile_cons, h1, h2, h3, Option.isSome_some, Option.isSome_none, if_true, Bool.false_eq_true, if_false, List.isEmpty_cons, List.length_cons, List.length_nil,
    List.drop_succ_cons, List.drop_zero, List.filterMap_cons, List.filterMap_nil, digitsMod, List.foldl_cons, List.foldl_nil]
  congr 2
  omega

theorem reference_two {n : Nat} (h : n < 32) (s : Str) :
    reference ('#' :: Char.ofNat (n / 10 + 48) :: Char.ofNat (n % 10 + 48) :: ';' :: s) = some (n, 4) := by
  have hx := digit_ne_x (n / 10) (by omega)
  have h2 := numberRef_two h s
  generalize Char.ofNat (n / 10 + 48) = a at hx h2
  unfold reference
  split
  · rename_i e
    simp only [List.cons.injEq] at e
    exact absurd e.2.1 hx
  · rename_i t _ e
    simp only [List.cons.injEq] at e
    rw [← e.2, h2]
    rfl
  · rename_i e; simp at e
  · rename_i e; simp at e
  · rename_i e; simp at e
  · rename_i e; simp at e
  · rename_i e; simp at e
  · rename_i h' _ _ _ _ _ 
    exact absurd rfl (h' _)

end Verif.Xml
