import Verif.Model.CompressOptions
import Verif.Spec.CompressOptions
import Verif.Proof.XmlValue

/-!
# Lemmas about the text of compression options
-/

namespace Verif.CompressOptions
open Verif.Text Spec
open Verif.Xml (Str icasecmp icasecmp_iff scanInt scan_iff scan_none_iff scanned upper)

private def alphabet : Str := "abcdefghijklmnopqrstuvwxyzABCDEFGHIJKLMNOPQRSTUVWXYZ0123456789".toList

private theorem alnum_small : ∀ n : Fin 128, isAlnum (Char.ofNat n.val) = decide (Char.ofNat n.val ∈ alphabet) := by decide +kernel
private theorem alphabet_small : ∀ c ∈ alphabet, c.toNat < 128 := by decide +kernel
private theorem value_alphabet : "abcdefghijklmnopqrstuvwxyzABCDEFGHIJKLMNOPQRSTUVWXYZ0123456789.+-".toList = alphabet ++ ['.', '+', '-'] := by decide +kernel

theorem isAlnum_iff (c : Char) : isAlnum c = true ↔ c ∈ alphabet := by
  by_cases h : c.toNat < 128
  · have := alnum_small ⟨c.toNat, h⟩
    simp only [Char.ofNat_toNat] at this
    rw [this, decide_eq_true_eq]
  · constructor
    · intro hc
      simp only [isAlnum, Bool.or_eq_true, Bool.and_eq_true, decide_eq_true_eq, Char.le_def, UInt32.le_iff_toNat_le] at hc
      change ((_ ≤ c.toNat ∧ c.toNat ≤ 122) ∨ (_ ≤ c.toNat ∧ c.toNat ≤ 90)) ∨ (_ ≤ c.toNat ∧ c.toNat ≤ 57) at hc
      omega
    · intro hc
      exact absurd (alphabet_small c hc) h

theorem lettersDigits_iff (s : Str) : LettersDigits s ↔ ∀ c ∈ s, isAlnum c = true :=
  ⟨fun h c hc => (isAlnum_iff c).mpr (h c hc), fun h c hc => (isAlnum_iff c).mp (h c hc)⟩

theorem isValueChar_iff (c : Char) : isValueChar c = true ↔ c ∈ alphabet ++ ['.', '+', '-'] := by
  simp only [isValueChar, Bool.or_eq_true, isAlnum_iff, decide_eq_true_eq, List.mem_append, List.mem_cons, List.not_mem_nil, or_false]
  constructor
  · rintro (((h | h) | h) | h) <;> simp [h]
  · rintro (h | h | h | h) <;> simp [h]

theorem valueText_iff (s : Str) : ValueText s ↔ ∀ c ∈ s, isValueChar c = true := by
  unfold ValueText
  rw [value_alphabet]
  exact ⟨fun h c hc => (isValueChar_iff c).mpr (h c hc), fun h c hc => (isValueChar_iff c).mp (h c hc)⟩

theorem white_iff (s : Str) : White s ↔ ∀ c ∈ s, isSpace c = true :=
  ⟨fun h c hc => (isSpace_iff c).mpr (h c hc), fun h c hc => (isSpace_iff c).mp (h c hc)⟩

private theorem space_not {c : Char} (h : isSpace c = true) : isAlnum c = false ∧ isValueChar c = false ∧ c ≠ ';' ∧ c ≠ '=' ∧ c ≠ ':' := by
  rw [isSpace_iff] at h
  simp only [List.mem_cons, List.not_mem_nil, or_false] at h
  rcases h with rfl | rfl | rfl | rfl | rfl | rfl <;> decide

private theorem alnum_not {c : Char} (h : isAlnum c = true) : isSpace c = false ∧ c ≠ ';' ∧ c ≠ '=' ∧ c ≠ ':' := by
  refine ⟨?_, ?_, ?_, ?_⟩
  · cases hs : isSpace c with
    | false => rfl
    | true => rw [(space_not hs).1] at h; cases h
  · rintro rfl; revert h; decide
  · rintro rfl; revert h; decide
  · rintro rfl; revert h; decide

private theorem value_not {c : Char} (h : isValueChar c = true) : isSpace c = false ∧ c ≠ ';' := by
  refine ⟨?_, ?_⟩
  · cases hs : isSpace c with
    | false => rfl
    | true => rw [(space_not hs).2.1] at h; cases h
  · rintro rfl; revert h; decide

/-- White space, characters of a class, white space, rest: these are found. -/
private theorem token_spec {p : Char → Bool} {w k w' r : Str} (hw : ∀ c ∈ w, isSpace c = true) (hk : ∀ c ∈ k, p c = true)
    (hw' : ∀ c ∈ w', isSpace c = true) (hps : ∀ c, isSpace c = true → p c = false) (hsp : ∀ c, p c = true → isSpace c = false)
    (hr : ∀ c cs, r = c :: cs → p c = false ∧ isSpace c = false) (s : Str) (hs : s = w ++ (k ++ (w' ++ r))) :
    (s.dropWhile isSpace).takeWhile p = k ∧ ((s.dropWhile isSpace).dropWhile p).dropWhile isSpace = r := by
  subst hs
  rw [dropWhile_append hw]
  have hwr : ∀ c cs, w' ++ r = c :: cs → p c = false := by
    intro c cs e
    cases w' with
    | nil => exact (hr c cs e).1
    | cons a w' =>
      rw [List.cons_append] at e
      injection e with e1 e2
      exact e1 ▸ hps a (hw' a (by simp))
  by_cases hk0 : k = []
  · subst hk0
    rw [List.nil_append, dropWhile_append hw']
    have hd : r.dropWhile isSpace = r := by
      cases r with
      | nil => rfl
      | cons c cs => rw [List.dropWhile_cons_of_neg (by rw [(hr c cs rfl).2]; decide)]
    rw [hd]
    cases r with
    | nil => simp
    | cons c cs =>
      have := hr c cs rfl
      rw [List.takeWhile_cons_of_neg (by rw [this.1]; decide), List.dropWhile_cons_of_neg (by rw [this.1]; decide), hd]
      exact ⟨rfl, rfl⟩
  · have hd : (k ++ (w' ++ r)).dropWhile isSpace = k ++ (w' ++ r) := by
      cases k with
      | nil => exact absurd rfl hk0
      | cons a k => rw [List.cons_append, List.dropWhile_cons_of_neg (by rw [hsp a (hk a (by simp))]; decide)]
    rw [hd]
    have e := takeWhile_all hk (w' ++ r) hwr
    rw [e.1, e.2]
    refine ⟨rfl, ?_⟩
    have e2 := takeWhile_all hw' r (fun c cs h => (hr c cs h).2)
    exact e2.2

/-- The decomposition computed by the two calls. -/
private theorem token_sound (p : Char → Bool) (s : Str) :
    ∃ w w', (∀ c ∈ w, isSpace c = true) ∧ (∀ c ∈ w', isSpace c = true) ∧ (∀ c ∈ (s.dropWhile isSpace).takeWhile p, p c = true) ∧
      s = w ++ ((s.dropWhile isSpace).takeWhile p ++ (w' ++ ((s.dropWhile isSpace).dropWhile p).dropWhile isSpace)) := by
  obtain ⟨a1, a2, _⟩ := span_eq isSpace s
  obtain ⟨b1, b2, _⟩ := span_eq p (s.dropWhile isSpace)
  obtain ⟨c1, c2, _⟩ := span_eq isSpace ((s.dropWhile isSpace).dropWhile p)
  refine ⟨_, _, a2, c2, b2, ?_⟩
  rw [← c1, ← b1]
  exact a1

theorem matchItem_iff (t k v : Str) : matchItem t = some (k, v) ↔ OptionItem t k v := by
  constructor
  · intro h
    rw [matchItem] at h
    dsimp only at h
    split at h
    · rename_i r hr
      obtain ⟨w1, w2, hw1, hw2, hk, e⟩ := token_sound isAlnum t
      obtain ⟨w3, w4, hw3, hw4, hv, e'⟩ := token_sound isValueChar r
      by_cases h0 : ((r.dropWhile isSpace).dropWhile isValueChar).dropWhile isSpace = []
      · rw [if_pos h0] at h
        injection h with h
        injection h with h1 h2
        rw [hr] at e
        rw [h0] at e'
        subst h1 h2
        refine ⟨(lettersDigits_iff _).mpr hk, (valueText_iff _).mpr hv, w1, w2, w3, w4, (white_iff _).mpr hw1, (white_iff _).mpr hw2,
          (white_iff _).mpr hw3, (white_iff _).mpr hw4, ?_⟩
        refine e.trans ?_
        simp only [List.append_assoc, List.singleton_append]
        congr 4
        refine e'.trans ?_
        simp
      · rw [if_neg h0] at h; cases h
    · cases h
  · rintro ⟨hk, hv, w1, w2, w3, w4, hw1, hw2, hw3, hw4, rfl⟩
    rw [lettersDigits_iff] at hk
    rw [valueText_iff] at hv
    rw [white_iff] at hw1 hw2 hw3 hw4
    have e1 := token_spec hw1 hk hw2 (fun c h => (space_not h).1) (fun c h => (alnum_not h).1) (r := '=' :: (w3 ++ (v ++ w4)))
      (by intro c cs e; injection e with e1 e2; subst e1; decide) (w1 ++ k ++ w2 ++ ['='] ++ w3 ++ v ++ w4) (by simp)
    have e2 := token_spec hw3 hv hw4 (fun c h => (space_not h).2.1) (fun c h => (value_not h).1) (r := [])
      (by intro c cs e; cases e) (w3 ++ (v ++ w4)) (by simp)
    rw [matchItem]
    dsimp only
    rw [e1.1, e1.2]
    change (if (((w3 ++ (v ++ w4)).dropWhile isSpace).dropWhile isValueChar).dropWhile isSpace = [] then
      some (k, ((w3 ++ (v ++ w4)).dropWhile isSpace).takeWhile isValueChar) else none) = some (k, v)
    rw [if_pos e2.2, e2.1]

theorem item_no_sep {t k v : Str} (h : OptionItem t k v) : ';' ∉ t := by
  obtain ⟨hk, hv, w1, w2, w3, w4, hw1, hw2, hw3, hw4, rfl⟩ := h
  rw [lettersDigits_iff] at hk
  rw [valueText_iff] at hv
  rw [white_iff] at hw1 hw2 hw3 hw4
  have s0 : ∀ w : Str, (∀ c ∈ w, isSpace c = true) → ';' ∉ w := fun w hw hm => (space_not (hw _ hm)).2.2.1 rfl
  simp only [List.mem_append, not_or, List.mem_singleton]
  exact ⟨⟨⟨⟨⟨⟨s0 _ hw1, fun hm => (alnum_not (hk _ hm)).2.1 rfl⟩, s0 _ hw2⟩, by decide⟩, s0 _ hw3⟩, fun hm => (value_not (hv _ hm)).2 rfl⟩, s0 _ hw4⟩

theorem white_no_sep {w : Str} (h : White w) : ';' ∉ w := by
  rw [white_iff] at h
  exact fun hm => (space_not (h _ hm)).2.2.1 rfl

theorem white_no_item {w k v : Str} (h : White w) : ¬ OptionItem w k v := by
  rintro ⟨_, _, w1, w2, w3, w4, _, _, _, _, rfl⟩
  rw [white_iff] at h
  exact (space_not (h '=' (by simp))).2.2.2.1 rfl

/-! ## Parts -/

theorem parts_last (cur t : Str) (h : ';' ∉ t) : parts cur t = [cur ++ t] := by
  induction t generalizing cur with
  | nil => simp [parts]
  | cons c t ih =>
    rw [List.mem_cons, not_or] at h
    rw [parts, if_neg (fun e => h.1 e.symm), ih _ h.2]
    simp

theorem parts_cons (cur t r : Str) (h : ';' ∉ t) : parts cur (t ++ ';' :: r) = (cur ++ t) :: parts [] r := by
  induction t generalizing cur with
  | nil => simp [parts]
  | cons c t ih =>
    rw [List.mem_cons, not_or] at h
    rw [List.cons_append, parts, if_neg (fun e => h.1 e.symm), ih _ h.2]
    simp

theorem parts_cases (r : Str) : ';' ∉ r ∨ ∃ t r', r = t ++ ';' :: r' ∧ ';' ∉ t := by
  induction r with
  | nil => exact .inl (by simp)
  | cons c r ih =>
    by_cases hc : c = ';'
    · exact .inr ⟨[], r, by simp [hc], by simp⟩
    · rcases ih with h | ⟨t, r', rfl, h⟩
      · exact .inl (by rw [List.mem_cons, not_or]; exact ⟨fun e => hc e.symm, h⟩)
      · exact .inr ⟨c :: t, r', rfl, by rw [List.mem_cons, not_or]; exact ⟨fun e => hc e.symm, h⟩⟩

theorem parts_ne (cur r : Str) : parts cur r ≠ [] := by
  induction r generalizing cur with
  | nil => simp [parts]
  | cons c r ih =>
    rw [parts]
    split
    · simp
    · exact ih _

theorem split_unique {t t' r r' : Str} (h : ';' ∉ t) (h' : ';' ∉ t') (e : t ++ ';' :: r = t' ++ ';' :: r') : t = t' ∧ r = r' := by
  have a := parts_cons [] t r h
  have b := parts_cons [] t' r' h'
  rw [e, b] at a
  injection a with a1 a2
  simp only [List.nil_append] at a1
  subst a1
  simpa using e

/-- The items of a text. -/
def itemsOf (r : Str) : List (Str × Str) := (parts [] r).filterMap matchItem

theorem matchList_last {t : Str} (h : ';' ∉ t) : matchList t = ((matchItem t).isSome || t.all isSpace) := by
  rw [matchList]
  simp [parts_last [] t h]

theorem matchList_cons {t r : Str} (h : ';' ∉ t) : matchList (t ++ ';' :: r) = ((matchItem t).isSome && matchList r) := by
  rw [matchList, matchList]
  rw [parts_cons [] t r h]
  obtain ⟨p, ps, hp⟩ : ∃ p ps, parts [] r = p :: ps := by
    cases hc : parts [] r with
    | nil => exact absurd hc (parts_ne _ _)
    | cons p ps => exact ⟨p, ps, rfl⟩
  try dsimp only
  rw [hp, List.dropLast_cons_of_ne_nil (by simp), List.getLast?_cons_cons]
  simp [Bool.and_assoc]

theorem optionList_iff (n : Nat) (r : Str) (hn : r.length ≤ n) (items : List (Str × Str)) :
    OptionList r items ↔ matchList r = true ∧ items = itemsOf r := by
  induction n generalizing r items with
  | zero =>
    have : r = [] := List.length_eq_zero_iff.mp (by omega)
    subst this
    constructor
    · intro h
      refine ⟨by decide, ?_⟩
      generalize hr : ([] : Str) = r at h
      cases h with
      | nil w hw => subst hr; decide
      | last t k v ht =>
        subst hr
        have := (matchItem_iff _ _ _).mpr ht
        revert this; rw [show matchItem [] = none from by decide]; intro h; cases h
      | cons t k v r l ht hl => simp at hr
    · rintro ⟨_, rfl⟩
      exact .nil [] (by intro c hc; cases hc)
  | succ n ih =>
    rcases parts_cases r with hr | ⟨t, r', rfl, ht⟩
    · have hi : itemsOf r = (matchItem r).toList := by
        rw [itemsOf, parts_last [] r hr, List.nil_append, List.filterMap_cons]
        cases matchItem r <;> rfl
      rw [matchList_last hr, hi]
      constructor
      · intro h
        cases h with
        | nil w hw =>
          have hm : matchItem r = none := by
            cases hm : matchItem r with
            | none => rfl
            | some kv => exact absurd ((matchItem_iff r kv.1 kv.2).mp hm) (white_no_item hw)
          rw [hm]
          rw [white_iff] at hw
          exact ⟨by simpa using hw, rfl⟩
        | last t k v ht =>
          rw [(matchItem_iff _ _ _).mpr ht]
          exact ⟨by simp, rfl⟩
        | cons t k v r l ht hl => exact absurd (by simp) hr
      · rintro ⟨h, rfl⟩
        cases hm : matchItem r with
        | none =>
          rw [hm] at h
          exact .nil r ((white_iff r).mpr (by simpa using h))
        | some kv => exact .last r kv.1 kv.2 ((matchItem_iff _ _ _).mp hm)
    · have hi : itemsOf (t ++ ';' :: r') = (matchItem t).toList ++ itemsOf r' := by
        rw [itemsOf, parts_cons [] t r' ht, List.nil_append, List.filterMap_cons]
        cases matchItem t <;> rfl
      rw [matchList_cons ht, hi]
      have hlen : r'.length ≤ n := by simp at hn; omega
      constructor
      · intro h
        generalize hx : t ++ ';' :: r' = x at h
        cases h with
        | nil w hw => subst hx; exact absurd (by simp) (white_no_sep hw)
        | last t2 k v h2 => subst hx; exact absurd (by simp) (item_no_sep h2)
        | cons t2 k v r2 l h2 hl =>
          simp only [List.append_assoc, List.singleton_append] at hx
          obtain ⟨rfl, rfl⟩ := split_unique ht (item_no_sep h2) hx
          obtain ⟨a, rfl⟩ := (ih r' hlen l).mp hl
          rw [(matchItem_iff _ _ _).mpr h2, a]
          exact ⟨rfl, rfl⟩
      · rintro ⟨h, rfl⟩
        rw [Bool.and_eq_true] at h
        cases hm : matchItem t with
        | none => rw [hm] at h; cases h.1
        | some kv =>
          have := OptionList.cons t kv.1 kv.2 r' (itemsOf r') ((matchItem_iff _ _ _).mp hm) ((ih r' hlen _).mpr ⟨h.2, rfl⟩)
          simpa using this

theorem matchOptions_iff (s m r : Str) :
    matchOptions s = some (m, r) ↔ m ≠ [] ∧ LettersDigits m ∧ matchList r = true ∧ ∃ w1 w2, White w1 ∧ White w2 ∧ s = w1 ++ m ++ w2 ++ [':'] ++ r := by
  constructor
  · intro h
    rw [matchOptions] at h
    try dsimp only at h
    by_cases h0 : (s.dropWhile isSpace).takeWhile isAlnum = []
    · rw [if_pos h0] at h; cases h
    · rw [if_neg h0] at h
      split at h
      · rename_i r' hr
        by_cases hl : matchList r' = true
        · rw [if_pos hl] at h
          injection h with h
          injection h with h1 h2
          subst h2
          obtain ⟨w1, w2, hw1, hw2, hk, e⟩ := token_sound isAlnum s
          rw [hr] at e
          rw [h1] at e hk h0
          exact ⟨h0, (lettersDigits_iff _).mpr hk, hl, w1, w2, (white_iff _).mpr hw1, (white_iff _).mpr hw2, by rw [e]; simp⟩
        · rw [if_neg hl] at h; cases h
      · cases h
  · rintro ⟨h0, hm, hl, w1, w2, hw1, hw2, rfl⟩
    rw [lettersDigits_iff] at hm
    rw [white_iff] at hw1 hw2
    have e1 := token_spec hw1 hm hw2 (fun c h => (space_not h).1) (fun c h => (alnum_not h).1) (r := ':' :: r)
      (by intro c cs e; injection e with e1 e2; subst e1; decide) (w1 ++ m ++ w2 ++ [':'] ++ r) (by simp)
    rw [matchOptions]
    try dsimp only
    rw [e1.1, e1.2, if_neg h0]
    change (if matchList r = true then some (m, r) else none) = some (m, r)
    rw [if_pos hl]

/-! ## Names -/

private theorem map_explicit : "ExplicitLevel".toList.map upper = "explicitlevel".toList.map upper := by decide +kernel
private theorem map_pre : "PreProcess".toList.map upper = "preprocess".toList.map upper := by decide +kernel
private theorem map_hilo : "HiLoByteUnpack".toList.map upper = "hilobyteunpack".toList.map upper := by decide +kernel

theorem key_level (k : Str) : icasecmp k "ExplicitLevel".toList = true ↔ CaseWord k "explicitlevel".toList := by
  rw [← icasecmp_iff (by decide +kernel), icasecmp, icasecmp, map_explicit]

theorem key_pre (k : Str) : icasecmp k "PreProcess".toList = true ↔ CaseWord k "preprocess".toList := by
  rw [← icasecmp_iff (by decide +kernel), icasecmp, icasecmp, map_pre]

theorem value_hilo (k : Str) : icasecmp k "HiLoByteUnpack".toList = true ↔ CaseWord k "hilobyteunpack".toList := by
  rw [← icasecmp_iff (by decide +kernel), icasecmp, icasecmp, map_hilo]

theorem icasecmp_comm (a b : Str) : icasecmp a b = icasecmp b a := by
  rw [icasecmp, icasecmp, Bool.beq_comm]

private theorem names_small : ∀ m, ∀ l ∈ modeName m, ¬ (65 ≤ l.toNat ∧ l.toNat ≤ 90) := by
  intro m; cases m <;> decide +kernel

theorem name_iff (m : CompressionMode) (s : Str) : icasecmp (modeName m) s = true ↔ CaseWord s (modeName m) := by
  rw [icasecmp_comm, icasecmp_iff (names_small m)]

/-- No two modes have the same name. -/
private theorem names_differ : ∀ a b, (modeName a).map upper = (modeName b).map upper → a = b := by
  intro a b; cases a <;> cases b <;> first | (intro _; rfl) | (intro h; revert h; decide +kernel)

theorem tryParseMode_iff (s : Str) (m : CompressionMode) : tryParseMode s = some m ↔ ∃ nm, methodName m = some nm ∧ CaseWord s nm := by
  have inj : ∀ a b, icasecmp (modeName a) s = true → icasecmp (modeName b) s = true → a = b := by
    intro a b ha hb
    rw [icasecmp, beq_iff_eq] at ha hb
    exact names_differ a b (ha.trans hb.symm)
  constructor
  · intro h
    rw [tryParseMode] at h
    have h1 := List.find?_some h
    have h2 := List.mem_of_find?_eq_some h
    rw [name_iff] at h1
    simp only [List.mem_cons, List.not_mem_nil, or_false] at h2
    rcases h2 with rfl | rfl | rfl | rfl | rfl <;> exact ⟨_, rfl, h1⟩
  · rintro ⟨nm, hn, hc⟩
    have hm : m ∈ [CompressionMode.UnCompressed, .Jpg, .JpgXr, .Zstd0, .Zstd1] := by
      cases m <;> first | (simp; done) | cases hn
    have hc' : icasecmp (modeName m) s = true := by
      rw [name_iff]
      cases m <;> first | (cases hn; exact hc) | cases hn
    rw [tryParseMode]
    cases hf : [CompressionMode.UnCompressed, .Jpg, .JpgXr, .Zstd0, .Zstd1].find? fun m => icasecmp (modeName m) s with
    | none => exact absurd hc' (List.find?_eq_none.mp hf m hm)
    | some m' => rw [inj m' m (List.find?_some (p := fun m => icasecmp (modeName m) s) hf) hc']

/-! ## Items -/

theorem readLevel_iff (v : Str) (x : Int) : readLevel v = some x ↔ IntText v x ∧ IsInt32 x := by
  have hnil : ∀ c cs, ([] : Str) = c :: cs → c.isDigit = false := by intro c cs e; cases e
  have hh : IntText v x ↔ ∃ neg ds, scanInt v = some (neg, ds, []) ∧ x = scanned neg ds := by
    rw [← scan_iff hnil]
    constructor
    · intro h; exact ⟨v, by simp, h⟩
    · rintro ⟨t, e, h⟩; rw [List.append_nil] at e; rw [e]; exact h
  rw [hh, readLevel]
  cases hs : scanInt v with
  | none => simp
  | some q =>
    obtain ⟨neg, ds, rest⟩ := q
    dsimp only
    change (if scanned neg ds < -2147483648 ∨ 2147483647 < scanned neg ds then none else if rest ≠ [] then none else some (scanned neg ds)) = some x ↔ _
    constructor
    · intro h
      split at h
      · cases h
      · rename_i h1
        split at h
        · cases h
        · rename_i h2
          injection h with h
          rw [Decidable.not_not] at h2
          subst h h2
          exact ⟨⟨neg, ds, rfl, rfl⟩, by unfold IsInt32; omega⟩
    · rintro ⟨⟨neg', ds', e, rfl⟩, hx⟩
      injection e with e
      injection e with e1 e2
      injection e2 with e2 e3
      subst e1 e2 e3
      rw [if_neg (by unfold IsInt32 at hx; omega), if_neg (by simp)]

/-- One item. -/
def applyItem (p : Params) (i : Str × Str) : Option Params :=
  if icasecmp i.1 "ExplicitLevel".toList then
    match readLevel i.2 with
    | none => none
    | some x => some { p with level := some x }
  else if icasecmp i.1 "PreProcess".toList then
    if icasecmp i.2 "HiLoByteUnpack".toList then some { p with packing := some true } else some p
  else some p

theorem foldlM_parts (ps : List Str) (p : Params) : ps.foldlM applyPart p = (ps.filterMap matchItem).foldlM applyItem p := by
  induction ps generalizing p with
  | nil => rfl
  | cons t ps ih =>
    rw [List.foldlM_cons, List.filterMap_cons]
    cases hm : matchItem t with
    | none =>
      have : applyPart p t = some p := by rw [applyPart, hm]
      rw [this]
      exact ih p
    | some kv =>
      have : applyPart p t = applyItem p kv := by rw [applyPart, hm]; rfl
      dsimp only
      rw [List.foldlM_cons, this]
      cases applyItem p kv with
      | none => rfl
      | some q => exact ih q

theorem tryParseOptions_items (r : Str) : tryParseOptions r = (itemsOf r).foldlM applyItem ⟨none, none⟩ := foldlM_parts _ _

private theorem level_not_pre {k : Str} (h : CaseWord k "explicitlevel".toList) : ¬ CaseWord k "preprocess".toList := by
  rw [← key_level] at h
  rw [← key_pre]
  rw [icasecmp, beq_iff_eq] at *
  rw [h]
  decide +kernel

theorem mean_nil : OptionsMean [] none false :=
  ⟨by simp, by simp, (by intro x h; cases h), by simp⟩

/-- One more item. -/
theorem mean_snoc {l : List (Str × Str)} {i : Str × Str} {p q : Params} (hp : OptionsMean l p.level p.packing.isSome)
    (hpk : p.packing ≠ some false) (h : applyItem p i = some q) : OptionsMean (l ++ [i]) q.level q.packing.isSome ∧ q.packing ≠ some false := by
  rw [applyItem] at h
  by_cases h1 : icasecmp i.1 "ExplicitLevel".toList = true
  · rw [if_pos h1] at h
    rw [key_level] at h1
    cases hr : readLevel i.2 with
    | none => rw [hr] at h; cases h
    | some x =>
      rw [hr] at h
      injection h with h
      subst h
      rw [readLevel_iff] at hr
      refine ⟨⟨?_, ?_, ?_, ?_⟩, hpk⟩
      · intro j hj hl
        rw [List.mem_append, List.mem_singleton] at hj
        rcases hj with hj | rfl
        · exact hp.numbers j hj hl
        · exact ⟨x, hr⟩
      · intro h; cases h
      · intro y hy
        injection hy with hy
        subst hy
        exact ⟨i, ⟨l, [], rfl, h1, by simp⟩, hr⟩
      · dsimp only
        rw [hp.unpack]
        constructor
        · rintro ⟨j, hj, hu⟩; exact ⟨j, by simp [hj], hu⟩
        · rintro ⟨j, hj, hu⟩
          rw [List.mem_append, List.mem_singleton] at hj
          rcases hj with hj | rfl
          · exact ⟨j, hj, hu⟩
          · exact absurd hu.1 (level_not_pre h1)
  · rw [if_neg h1] at h
    rw [key_level] at h1
    have base : ∀ u : Bool, (u = true ↔ ∃ j ∈ l ++ [i], IsUnpack j) → OptionsMean (l ++ [i]) p.level u := by
      intro u hu
      refine ⟨?_, ?_, ?_, hu⟩
      · intro j hj hl
        rw [List.mem_append, List.mem_singleton] at hj
        rcases hj with hj | rfl
        · exact hp.numbers j hj hl
        · exact absurd hl h1
      · intro hn j hj
        rw [List.mem_append, List.mem_singleton] at hj
        rcases hj with hj | rfl
        · exact hp.noLevel hn j hj
        · exact h1
      · intro x hx
        obtain ⟨j, ⟨a, b, rfl, h3, h4⟩, h5⟩ := hp.lastLevel x hx
        refine ⟨j, ⟨a, b ++ [i], by simp, h3, ?_⟩, h5⟩
        intro k hk
        rw [List.mem_append, List.mem_singleton] at hk
        rcases hk with hk | rfl
        · exact h4 k hk
        · exact h1
    have hno : ¬ IsUnpack i → (p.packing.isSome = true ↔ ∃ j ∈ l ++ [i], IsUnpack j) := by
      intro hi
      rw [hp.unpack]
      constructor
      · rintro ⟨j, hj, hu⟩; exact ⟨j, by simp [hj], hu⟩
      · rintro ⟨j, hj, hu⟩
        rw [List.mem_append, List.mem_singleton] at hj
        rcases hj with hj | rfl
        · exact ⟨j, hj, hu⟩
        · exact absurd hu hi
    by_cases h2 : icasecmp i.1 "PreProcess".toList = true
    · rw [if_pos h2] at h
      rw [key_pre] at h2
      by_cases h3 : icasecmp i.2 "HiLoByteUnpack".toList = true
      · rw [if_pos h3] at h
        rw [value_hilo] at h3
        injection h with h
        subst h
        exact ⟨base true ⟨fun _ => ⟨i, by simp, h2, h3⟩, fun _ => rfl⟩, by simp⟩
      · rw [if_neg h3] at h
        rw [value_hilo] at h3
        injection h with h
        subst h
        exact ⟨base _ (hno (fun hu => h3 hu.2)), hpk⟩
    · rw [if_neg h2] at h
      rw [key_pre] at h2
      injection h with h
      subst h
      exact ⟨base _ (hno (fun hu => h2 hu.1)), hpk⟩

/-- The items can be applied if all levels are numbers. -/
theorem applyItem_some {p : Params} {i : Str × Str} (h : IsLevel i → ∃ x, LevelValue i x) : ∃ q, applyItem p i = some q := by
  rw [applyItem]
  by_cases h1 : icasecmp i.1 "ExplicitLevel".toList = true
  · rw [if_pos h1]
    rw [key_level] at h1
    obtain ⟨x, hx⟩ := h h1
    rw [(readLevel_iff i.2 x).mpr hx]
    exact ⟨_, rfl⟩
  · rw [if_neg h1]
    split
    · split <;> exact ⟨_, rfl⟩
    · exact ⟨_, rfl⟩

theorem fold_sound (l : List (Str × Str)) (l0 : List (Str × Str)) {p q : Params} (hp : OptionsMean l0 p.level p.packing.isSome) (hpk : p.packing ≠ some false)
    (h : l.foldlM applyItem p = some q) : OptionsMean (l0 ++ l) q.level q.packing.isSome ∧ q.packing ≠ some false := by
  induction l generalizing l0 p with
  | nil =>
    simp only [List.foldlM_nil] at h
    injection h with h
    subst h
    simpa using ⟨hp, hpk⟩
  | cons i l ih =>
    rw [List.foldlM_cons] at h
    cases ha : applyItem p i with
    | none => rw [ha] at h; cases h
    | some p' =>
      rw [ha] at h
      have hm := mean_snoc hp hpk ha
      have := ih (l0 ++ [i]) hm.1 hm.2 h
      simpa using this

theorem fold_some (l : List (Str × Str)) (p : Params) (h : ∀ i ∈ l, IsLevel i → ∃ x, LevelValue i x) : ∃ q, l.foldlM applyItem p = some q := by
  induction l generalizing p with
  | nil => exact ⟨p, rfl⟩
  | cons i l ih =>
    obtain ⟨p', hp'⟩ := applyItem_some (p := p) (h i (by simp))
    obtain ⟨q, hq⟩ := ih p' (fun j hj => h j (by simp [hj]))
    exact ⟨q, by rw [List.foldlM_cons, hp']; exact hq⟩

theorem lastWith_unique {α : Type} {P : α → Prop} {l : List α} {i j : α} (hi : LastWith P l i) (hj : LastWith P l j) : i = j := by
  obtain ⟨a, b, rfl, h1, h2⟩ := hi
  obtain ⟨a', b', e, h1', h2'⟩ := hj
  rw [List.append_eq_append_iff] at e
  rcases e with ⟨c, rfl, e⟩ | ⟨c, rfl, e⟩
  · cases c with
    | nil => simp at e; exact e.1
    | cons x c =>
      simp at e
      exact absurd h1' (h2 j (by rw [e.2]; simp))
  · cases c with
    | nil => simp at e; exact e.1.symm
    | cons x c =>
      simp at e
      exact absurd h1 (h2' i (by rw [e.2]; simp))

theorem levelValue_unique {i : Str × Str} {x y : Int} (hx : LevelValue i x) (hy : LevelValue i y) : x = y := by
  have a := (readLevel_iff i.2 x).mpr hx
  have b := (readLevel_iff i.2 y).mpr hy
  rw [a] at b
  injection b

theorem mean_unique {l : List (Str × Str)} {x y : Option Int} {u v : Bool} (h : OptionsMean l x u) (h' : OptionsMean l y v) : x = y ∧ u = v := by
  constructor
  · cases x with
    | none =>
      cases y with
      | none => rfl
      | some b =>
        obtain ⟨i, ⟨c, d, rfl, hi, _⟩, _⟩ := h'.lastLevel b rfl
        exact absurd hi (h.noLevel rfl i (by simp))
    | some a =>
      obtain ⟨i, hi, hv⟩ := h.lastLevel a rfl
      cases y with
      | none =>
        obtain ⟨c, d, rfl, hl, _⟩ := hi
        exact absurd hl (h'.noLevel rfl i (by simp))
      | some b =>
        obtain ⟨j, hj, hw⟩ := h'.lastLevel b rfl
        have := lastWith_unique hi hj
        subst this
        rw [levelValue_unique hv hw]
  · have := h.unpack.trans h'.unpack.symm
    cases u <;> cases v <;> simp_all

/-- The parameters with these values. -/
def paramsOf (level : Option Int) (unpack : Bool) : Params := ⟨level, if unpack then some true else none⟩

theorem fold_iff (l : List (Str × Str)) (level : Option Int) (unpack : Bool) :
    l.foldlM applyItem ⟨none, none⟩ = some (paramsOf level unpack) ↔ OptionsMean l level unpack := by
  constructor
  · intro h
    have := (fold_sound l [] mean_nil (by simp) h).1
    cases unpack <;> simpa [paramsOf] using this
  · intro h
    obtain ⟨q, hq⟩ := fold_some l ⟨none, none⟩ h.numbers
    obtain ⟨m, hm⟩ := fold_sound l [] mean_nil (by simp) hq
    obtain ⟨e1, e2⟩ := mean_unique m h
    rw [hq]
    obtain ⟨ql, qp⟩ := q
    dsimp only at e1 e2 hm
    subst e1 e2
    rw [paramsOf]
    cases qp with
    | none => rfl
    | some b => cases b with
      | true => rfl
      | false => exact absurd rfl hm

theorem fold_paramsOf {l : List (Str × Str)} {q : Params} (h : l.foldlM applyItem ⟨none, none⟩ = some q) : ∃ level unpack, q = paramsOf level unpack := by
  have hm := (fold_sound l [] mean_nil (by simp) h).2
  obtain ⟨ql, qp⟩ := q
  refine ⟨ql, qp.isSome, ?_⟩
  cases qp with
  | none => rfl
  | some b => cases b with
    | true => rfl
    | false => exact absurd rfl hm

end Verif.CompressOptions
