import Verif.Proof.CompressOptions

/-!
# C78: Compression options as text
-/

namespace Verif
open Spec CompressOptions
open Verif.Xml (Str icasecmp icasecmp_iff)

/-- **C78 (a text is accepted if and only if it has the documented form, with the documented meaning).** A method and keys with values,
white space between them; the method is known, every level is a number of 32 bits; the last level is used, low and high bytes are
separated if and only if an item asks for it; other items have no effect. Capital and small letters are the same in all names. -/
theorem C78_parse (s : Str) (m : CompressionMode) (level : Option Int) (unpack : Bool) :
    CompressOptions.parse s = some (m, paramsOf level unpack) ↔
      ∃ method items, OptionText s method items ∧ (∃ nm, methodName m = some nm ∧ CaseWord method nm) ∧ OptionsMean items level unpack := by
  constructor
  · intro h
    rw [CompressOptions.parse] at h
    cases hm : matchOptions s with
    | none => rw [hm] at h; cases h
    | some q =>
      obtain ⟨method, r⟩ := q
      rw [hm] at h
      dsimp only at h
      cases ht : tryParseMode method with
      | none => rw [ht] at h; cases h
      | some m' =>
        rw [ht] at h
        dsimp only at h
        cases ho : tryParseOptions r with
        | none => rw [ho] at h; cases h
        | some p =>
          rw [ho] at h
          injection h with h
          injection h with h1 h2
          subst h1 h2
          obtain ⟨a, b, c, w1, w2, hw1, hw2, e⟩ := (matchOptions_iff s method r).mp hm
          rw [tryParseOptions_items] at ho
          exact ⟨method, itemsOf r, ⟨a, b, w1, w2, r, hw1, hw2, (optionList_iff _ r (Nat.le_refl _) _).mpr ⟨c, rfl⟩, e⟩,
            (tryParseMode_iff method m').mp ht, (fold_iff _ _ _).mp ho⟩
  · rintro ⟨method, items, ⟨a, b, w1, w2, r, hw1, hw2, hl, e⟩, hm, hi⟩
    obtain ⟨c, rfl⟩ := (optionList_iff _ r (Nat.le_refl _) _).mp hl
    rw [CompressOptions.parse, (matchOptions_iff s method r).mpr ⟨a, b, c, w1, w2, hw1, hw2, e⟩]
    dsimp only
    rw [(tryParseMode_iff method m).mpr hm]
    dsimp only
    rw [tryParseOptions_items, (fold_iff _ _ _).mpr hi]

example : CompressOptions.parse " Zstd1 :\texplicitLEVEL = -43 ; abc=; PreProcess=HiLoByteUnpack;ExplicitLevel=+7; ".toList =
    some (.Zstd1, paramsOf (some 7) true) := by decide +kernel
example : CompressOptions.parse "zstd0:".toList = some (.Zstd0, paramsOf none false) := by decide +kernel
example : CompressOptions.parse "zstd0:ExplicitLevel=5;;  ;PreProcess=HiLoByteUnpack".toList = none := by decide +kernel
example : CompressOptions.parse "zstd0:ExplicitLevel=5x".toList = none := by decide +kernel
example : CompressOptions.parse "zstd0:ExplicitLevel=2147483648".toList = none := by decide +kernel
example : CompressOptions.parse "invalid:".toList = none := by decide +kernel
example : OptionsMean [("ExplicitLevel".toList, "3".toList), ("x".toList, "".toList), ("EXPLICITLEVEL".toList, "+4".toList)] (some 4) false :=
  (fold_iff _ _ _).mp (by decide +kernel)

/-- **C78 (all results are of this form).** -/
theorem C78_result {s : Str} {m : CompressionMode} {p : Params} (h : CompressOptions.parse s = some (m, p)) :
    ∃ level unpack, p = paramsOf level unpack := by
  rw [CompressOptions.parse] at h
  cases hm : matchOptions s with
  | none => rw [hm] at h; cases h
  | some q =>
    obtain ⟨method, r⟩ := q
    rw [hm] at h
    dsimp only at h
    cases ht : tryParseMode method with
    | none => rw [ht] at h; cases h
    | some m' =>
      rw [ht] at h
      dsimp only at h
      cases ho : tryParseOptions r with
      | none => rw [ho] at h; cases h
      | some p' =>
        rw [ho] at h
        injection h with h
        injection h with h1 h2
        subst h2
        rw [tryParseOptions_items] at ho
        exact fold_paramsOf ho

/-- **C78 (every other text is rejected, with an exception).** -/
theorem C78_rejects (s : Str) :
    CompressOptions.parse s = none ↔
      ¬ ∃ method items m nm, OptionText s method items ∧ methodName m = some nm ∧ CaseWord method nm ∧ ∀ i ∈ items, IsLevel i → ∃ x, LevelValue i x := by
  constructor
  · rintro h ⟨method, items, m, nm, ht, hn, hc, hl⟩
    obtain ⟨q, hq⟩ := fold_some items ⟨none, none⟩ hl
    obtain ⟨level, unpack, rfl⟩ := fold_paramsOf hq
    have := (C78_parse s m level unpack).mpr ⟨method, items, ht, ⟨nm, hn, hc⟩, (fold_iff _ _ _).mp hq⟩
    rw [h] at this
    cases this
  · intro h
    cases hp : CompressOptions.parse s with
    | none => rfl
    | some q =>
      obtain ⟨m, p⟩ := q
      obtain ⟨level, unpack, rfl⟩ := C78_result hp
      obtain ⟨method, items, ht, ⟨nm, hn, hc⟩, hm⟩ := (C78_parse s m level unpack).mp hp
      exact absurd ⟨method, items, m, nm, ht, hn, hc, hm.numbers⟩ h

/-- **C78 (a text has one reading only).** -/
theorem C78_unambiguous {s m m' : Str} {l l' : List (Str × Str)} (h : OptionText s m l) (h' : OptionText s m' l') : m = m' ∧ l = l' := by
  obtain ⟨a, b, w1, w2, r, hw1, hw2, hl, e⟩ := h
  obtain ⟨a', b', w1', w2', r', hw1', hw2', hl', e'⟩ := h'
  obtain ⟨c, rfl⟩ := (optionList_iff _ r (Nat.le_refl _) _).mp hl
  obtain ⟨c', rfl⟩ := (optionList_iff _ r' (Nat.le_refl _) _).mp hl'
  have k := (matchOptions_iff s m r).mpr ⟨a, b, c, w1, w2, hw1, hw2, e⟩
  have k' := (matchOptions_iff s m' r').mpr ⟨a', b', c', w1', w2', hw1', hw2', e'⟩
  rw [k] at k'
  injection k' with k'
  injection k' with k1 k2
  exact ⟨k1, by rw [k2]⟩

example : ∃ l, OptionText " zstd1 : a=b ; c=".toList "zstd1".toList l :=
  ⟨[("a".toList, "b".toList), ("c".toList, [])], by decide +kernel, (lettersDigits_iff _).mpr (by decide +kernel), " ".toList, " ".toList, " a=b ; c=".toList,
    (white_iff _).mpr (by decide +kernel), (white_iff _).mpr (by decide +kernel), (optionList_iff _ _ (Nat.le_refl _) _).mpr (by decide +kernel), by decide +kernel⟩

private theorem printInt_value (x : Int) : ValueText (Text.printInt x) := by
  have hd := (Text.decimal_spec x.natAbs).1
  have hchars : ∀ c ∈ Text.decimal x.natAbs, isValueChar c = true := by
    intro c hc
    have := hd.2 c hc
    simp only [IsDigit, List.mem_cons, List.not_mem_nil, or_false] at this
    rcases this with rfl | rfl | rfl | rfl | rfl | rfl | rfl | rfl | rfl | rfl <;> decide
  rw [valueText_iff]
  unfold Text.printInt
  split
  · intro c hc
    rw [List.mem_cons] at hc
    rcases hc with rfl | hc
    · decide
    · exact hchars c hc
  · exact hchars

private theorem nil_white : White [] := by intro c hc; cases hc

/-- The text with these options. -/
def optionsText (name : Str) (level : Option Int) (unpack : Bool) : Str :=
  name ++ [':'] ++ (match level with | none => [] | some x => "ExplicitLevel=".toList ++ Text.printInt x ++ [';']) ++
    (if unpack then "PreProcess=HiLoByteUnpack".toList else [])

private theorem item_of {k v : Str} (hk : ∀ c ∈ k, isAlnum c = true) (hv : ∀ c ∈ v, isValueChar c = true) : OptionItem (k ++ ['='] ++ v) k v :=
  ⟨(lettersDigits_iff k).mpr hk, (valueText_iff v).mpr hv, [], [], [], [], nil_white, nil_white, nil_white, nil_white, by simp⟩

private theorem split_level : "ExplicitLevel=".toList = "ExplicitLevel".toList ++ ['='] := by decide +kernel
private theorem split_pre : "PreProcess=HiLoByteUnpack".toList = "PreProcess".toList ++ ['='] ++ "HiLoByteUnpack".toList := by decide +kernel
private theorem unpack_list (unpack : Bool) :
    OptionList (if unpack then "PreProcess=HiLoByteUnpack".toList else []) (if unpack then [("PreProcess".toList, "HiLoByteUnpack".toList)] else []) := by
  cases unpack with
  | false => exact .nil [] nil_white
  | true =>
    rw [if_pos rfl, if_pos rfl, split_pre]
    exact .last _ _ _ (item_of (by decide +kernel) (by decide +kernel))

private theorem is_level (v : Str) : IsLevel ("ExplicitLevel".toList, v) := (key_level "ExplicitLevel".toList).mp (by decide +kernel)

private theorem pre_not_level (v : Str) : ¬ IsLevel ("PreProcess".toList, v) := by
  intro h
  have := (key_level "PreProcess".toList).mpr h
  revert this
  decide +kernel

private theorem is_unpack : IsUnpack ("PreProcess".toList, "HiLoByteUnpack".toList) :=
  ⟨(key_pre _).mp (by decide +kernel), (value_hilo _).mp (by decide +kernel)⟩

private theorem level_not_unpack (v : Str) : ¬ IsUnpack ("ExplicitLevel".toList, v) := by
  intro h
  have := (key_pre "ExplicitLevel".toList).mpr h.1
  revert this
  decide +kernel

/-- **C78 (all options can be expressed).** For every method, every level of 32 bits (or none), with or without separation of the
bytes there is a text that is read as these options. -/
theorem C78_roundtrip (m : CompressionMode) (nm : Str) (hm : methodName m = some nm) (level : Option Int) (hl : ∀ x, level = some x → IsInt32 x) (unpack : Bool) :
    CompressOptions.parse (optionsText nm level unpack) = some (m, paramsOf level unpack) := by
  have hname : nm ≠ [] ∧ LettersDigits nm ∧ CaseWord nm nm := by
    rw [lettersDigits_iff, ← icasecmp_iff (by cases m <;> cases hm <;> decide +kernel), icasecmp, beq_iff_eq]
    cases m <;> cases hm <;> decide +kernel
  refine (C78_parse _ _ _ _).mpr ⟨nm, (match level with | none => [] | some x => [("ExplicitLevel".toList, Text.printInt x)]) ++
    (if unpack then [("PreProcess".toList, "HiLoByteUnpack".toList)] else []), ⟨hname.1, hname.2.1, [], [],
      (match level with | none => [] | some x => "ExplicitLevel=".toList ++ Text.printInt x ++ [';']) ++
        (if unpack then "PreProcess=HiLoByteUnpack".toList else []), nil_white, nil_white, ?_, ?_⟩, ⟨nm, hm, hname.2.2⟩, ?_⟩
  · cases level with
    | none => exact unpack_list unpack
    | some x =>
      dsimp only
      rw [split_level]
      have := OptionList.cons _ _ _ _ _ (item_of (k := "ExplicitLevel".toList) (v := Text.printInt x) (by decide +kernel)
        ((valueText_iff _).mp (printInt_value x))) (unpack_list unpack)
      exact this
  · simp only [optionsText, List.nil_append, List.append_nil, List.append_assoc]
    cases level <;> rfl
  · have hu : ∀ i ∈ (if unpack then [("PreProcess".toList, "HiLoByteUnpack".toList)] else []), ¬ IsLevel i := by
      intro i hi
      cases unpack with
      | false => cases hi
      | true =>
        rw [if_pos rfl, List.mem_singleton] at hi
        rw [hi]; exact pre_not_level _
    cases level with
    | none =>
      refine ⟨fun i hi h => absurd h (hu i hi), fun _ => hu, (by intro x h; cases h), ?_⟩
      cases unpack with
      | false => exact ⟨fun h => (by cases h), fun ⟨i, hi, _⟩ => (by cases hi)⟩
      | true => exact ⟨fun _ => ⟨_, by rw [if_pos rfl]; exact List.mem_singleton.mpr rfl, is_unpack⟩, fun _ => rfl⟩
    | some x =>
      have hx : LevelValue ("ExplicitLevel".toList, Text.printInt x) x := ⟨Xml.printInt_text x, hl x rfl⟩
      refine ⟨?_, (by intro h; cases h), ?_, ?_⟩
      · intro i hi h
        rw [List.mem_append, List.mem_singleton] at hi
        rcases hi with rfl | hi
        · exact ⟨x, hx⟩
        · exact absurd h (hu i hi)
      · intro y hy
        injection hy with hy
        subst hy
        exact ⟨_, ⟨[], _, rfl, is_level _, hu⟩, hx⟩
      · cases unpack with
        | false =>
          constructor
          · intro h; cases h
          · rintro ⟨i, hi, h⟩
            rw [List.mem_append, List.mem_singleton] at hi
            rcases hi with rfl | hi
            · exact absurd h (level_not_unpack _)
            · cases hi
        | true => exact ⟨fun _ => ⟨_, List.mem_append.mpr (.inr (by rw [if_pos rfl]; exact List.mem_singleton.mpr rfl)), is_unpack⟩, fun _ => rfl⟩

example : optionsText "zstd1".toList (some (-12)) true = "zstd1:ExplicitLevel=-12;PreProcess=HiLoByteUnpack".toList := by decide +kernel

/-- **C78 (the level that is used).** Whatever was given, the level is one that zstd accepts: the given one if it is in the range, otherwise
the limit next to it; zero if there is none. -/
theorem C78_level_used (lo hi : Int) (h0 : lo ≤ 0) (h1 : 0 ≤ hi) (p : Option Params) :
    lo ≤ usedLevel lo hi p ∧ usedLevel lo hi p ≤ hi ∧
      (∀ v, p.bind (·.level) = some v → (lo ≤ v ∧ v ≤ hi → usedLevel lo hi p = v) ∧ (v < lo → usedLevel lo hi p = lo) ∧ (hi < v → usedLevel lo hi p = hi)) ∧
      (p.bind (·.level) = none → usedLevel lo hi p = 0) := by
  cases p with
  | none => exact ⟨h0, h1, (by intro v h; cases h), fun _ => rfl⟩
  | some p =>
    obtain ⟨level, packing⟩ := p
    cases level with
    | none => exact ⟨h0, h1, (by intro v h; cases h), fun _ => rfl⟩
    | some x =>
      simp only [usedLevel, Option.bind_some, Option.some.injEq, reduceCtorEq, false_implies, and_true]
      refine ⟨?_, ?_, ?_⟩
      · split
        · omega
        · split <;> omega
      · split
        · omega
        · split <;> omega
      · rintro v rfl
        refine ⟨?_, ?_, ?_⟩
        · intro h; rw [if_neg (by omega), if_neg (by omega)]
        · intro h; rw [if_pos h]
        · intro h; rw [if_neg (by omega), if_pos (by omega)]

example : usedLevel (-131072) 22 (some ⟨some 30, none⟩) = 22 := by decide

/-- **C78 (separation of bytes is used for pixels with 16 bits per channel only).** -/
theorem C78_unpack_used (pt : PixelType) (level : Option Int) (unpack : Bool) :
    usesPacking pt (some (paramsOf level unpack)) = true ↔ unpack = true ∧ (pt = .Gray16 ∨ pt = .Bgr48) := by
  cases unpack <;> cases pt <;> simp [usesPacking, paramsOf]

end Verif
