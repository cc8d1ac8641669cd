import Verif.Proof.ChannelText

/-!
# C83: the channel information in the metadata

`fieldOf n name` is the text of the child `name` of the node, `childNamed n name` that child.
-/

namespace Verif

open Verif.Xml Verif.Spec Verif.Text Verif.Czi

/-- An element that contains only this text. -/
def leafNode (name text : Str) : Node := .element name [] [.text false text]

/-- **C83 (exposure time).** White space does not count. If the text does not contain two minus signs in a row, an exposure time is returned if and only if the text is a
number (`a`) or a range (`a-b`, `a-`, `-b`) of numbers below 2^64; it is the number or the range of the text. Any other text gives no exposure time. Missing: texts with
two minus signs (see `C83_negative_violated`). -/
theorem C83_exposureTime_partial (channel : Node) (t : Str) (ht : fieldOf channel "ExposureTime".toList = some t) (hm : ¬ ['-', '-'] <:+: withoutWhite t)
    (r : RangeOrSingle Nat) : exposureTime channel = some r ↔ ∃ v, RangeText UInt64Text (withoutWhite t) v ∧ r = shownUInt64 v := by
  unfold exposureTime
  rw [ht]
  dsimp only
  rw [removeSpaces_eq]
  have key := parseRange_iff uint64_scans 0 (2 ^ 64 - 1) 0 (withoutWhite_white t) (fun _ _ => trivial) r
  have hshow : ∀ v, shownWith 0 (2 ^ 64 - 1) 0 v = shownUInt64 v := by intro v; cases v <;> rfl
  simp only [rangeText_unsigned hm, hshow] at key
  by_cases h0 : withoutWhite t = []
  · rw [if_pos h0, ← key]
    have : parseRange stoull 0 (2 ^ 64 - 1) 0 (withoutWhite t) = none := by rw [h0]; decide +kernel
    rw [this]
  · rw [if_neg h0]
    exact key

/-- The two kinds of texts in the theorem above: a range of numbers with white space in it, and a text that is none. -/
example : exposureTime (.element "Channel".toList [] [leafNode "ExposureTime".toList " 10 - 250 ".toList]) = some ⟨false, 10, 250⟩ ∧
    exposureTime (.element "Channel".toList [] [leafNode "ExposureTime".toList "10 ms".toList]) = none ∧
    ¬ ['-', '-'] <:+: withoutWhite " 10 - 250 ".toList ∧ RangeText UInt64Text (withoutWhite " 10 - 250 ".toList) (.range (some 10) (some 250)) :=
  ⟨by decide +kernel, by decide +kernel, by decide +kernel,
    RangeText.both (a := ['1', '0']) (b := ['2', '5', '0']) ⟨[], ['1', '0'], rfl, .inl rfl, ⟨by simp, by unfold IsDigit; decide⟩, by decide, by decide⟩ (by simp)
      ⟨[], ['2', '5', '0'], rfl, .inl rfl, ⟨by simp, by unfold IsDigit; decide⟩, by decide, by decide⟩⟩

/-- **C83, violated (exposure time, negative end).** A text with two minus signs is not rejected: the end of the range `a--b` is 2^64 minus `b`. -/
theorem C83_negative_violated (channel : Node) (a b : Str) (x y : Nat) (ht : fieldOf channel "ExposureTime".toList = some (a ++ '-' :: '-' :: b)) (ha : Digits a)
    (hx : x = digitsValue a) (hb : Digits b) (hy : y = digitsValue b) (hx2 : x < 2 ^ 64) (hy1 : 0 < y) (hy2 : y < 2 ^ 64) :
    exposureTime channel = some ⟨false, x, 2 ^ 64 - y⟩ := by
  have hw : withoutWhite (a ++ '-' :: '-' :: b) = a ++ '-' :: '-' :: b := by
    refine List.filter_eq_self.2 fun c hc => ?_
    have hm : ¬ IsWhite '-' := by unfold IsWhite; decide
    have : ¬ IsWhite c := by
      rcases List.mem_append.1 hc with hc | hc
      · exact digit_notWhite (ha.2 c hc)
      · rcases List.mem_cons.1 hc with rfl | hc
        · exact hm
        · rcases List.mem_cons.1 hc with rfl | hc
          · exact hm
          · exact digit_notWhite (hb.2 c hc)
    exact decide_eq_true this
  unfold exposureTime
  rw [ht]
  dsimp only
  rw [removeSpaces_eq, hw, if_neg (by simp)]
  have hwhite := withoutWhite_white (a ++ '-' :: '-' :: b)
  rw [hw] at hwhite
  refine (parseRange_iff uint64_scans 0 (2 ^ 64 - 1) 0 hwhite (fun _ _ => trivial) _).2 ⟨.range (some x) (some (2 ^ 64 - y)), ?_, rfl⟩
  refine .both (b := '-' :: b) ⟨[], a, rfl, by simp, ha, by omega, by simpa using hx⟩ ?_ ⟨['-'], b, rfl, by simp, hb, by omega, ?_⟩
  · obtain ⟨c, cs, rfl⟩ : ∃ c cs, a = c :: cs := by
      cases a with
      | nil => exact absurd rfl ha.1
      | cons c cs => exact ⟨c, cs, rfl⟩
    have := Text.digit_not (ha.2 c (by simp))
    simpa using this.2.2.2.1
  · rw [if_pos rfl, ← hy, Nat.mod_eq_of_lt (by omega)]

/-- Such a text. -/
example : exposureTime (.element "Channel".toList [] [leafNode "ExposureTime".toList "5--1".toList]) = some ⟨false, 5, 18446744073709551615⟩ := by decide +kernel

/-- **C83 (wavelengths).** The list of ranges of a spectrum: if the text contains no letters of hexadecimal numbers, infinities and NaN, a spectrum is returned if and only
if the text is a list of at least one number or range, separated by commas; the ranges are those of the text, in this order. One item that is none of them makes the
whole list invalid; empty items do not count. Missing: hexadecimal numbers, infinities and NaN, which are accepted as well; numbers beyond the range of `double`. -/
theorem C83_wavelength_partial (n : Node) (t : Str) (hp : childNamed n "SinglePeak".toList = none) (ht : fieldOf n "Ranges".toList = some t) (hd : Decimal t) :
    (∀ l, spectrum n = some (.ranges l) ↔ ∃ vs, vs ≠ [] ∧ SpectrumText t vs ∧ l = vs.map shownDouble) ∧ ∀ x, spectrum n ≠ some (.peak x) := by
  have e : spectrum n = if splitAt ',' [] t = [] then none else (parseParts (splitAt ',' [] t)).map Spectrum.ranges := by
    unfold spectrum
    rw [show fieldOf n "SinglePeak".toList = none by unfold fieldOf; rw [hp]; rfl, ht]
  constructor
  · intro l
    rw [e]
    exact ranges_iff hd l
  · intro x h
    rw [e] at h
    split at h
    · cases h
    · cases hq : parseParts (splitAt ',' [] t) with
      | none => rw [hq] at h; cases h
      | some l => rw [hq] at h; cases h

/-- A text with two items, an empty one, and white space. -/
example : SpectrumText "410 - 450,,488".toList [.range (some (.fin (Flt.f64 410))) (some (.fin (Flt.f64 450))), .single (.fin (Flt.f64 488))] ∧
    Decimal "410 - 450,,488".toList := by
  have num : ∀ (ds : Str) (x : Nat), Digits ds → digitsValue ds = x → DoubleText ds (.fin (Flt.f64 x)) := by
    intro ds x h e
    refine ⟨x, ⟨[], ds, [], [], [], 1, 0, by simp, .none, by simpa using h.2, by simpa using h.1, .inl ⟨rfl, rfl⟩, .none, ?_⟩, rfl⟩
    simp [e]
  refine ⟨⟨["410 - 450".toList, [], "488".toList], by simp, by decide +kernel, by decide +kernel, ?_⟩, by unfold Decimal; decide +kernel⟩
  have e : (["410 - 450".toList, [], "488".toList] : List Str).filter (fun p => p ≠ []) = ["410 - 450".toList, "488".toList] := by decide +kernel
  rw [e]
  refine .cons ?_ (.cons ?_ .nil)
  · have e1 : withoutWhite "410 - 450".toList = ['4', '1', '0'] ++ '-' :: ['4', '5', '0'] := by decide +kernel
    rw [e1]
    exact .both (num _ 410 ⟨by simp, by unfold IsDigit; decide⟩ (by decide)) (by decide) (num _ 450 ⟨by simp, by unfold IsDigit; decide⟩ (by decide))
  · have e1 : withoutWhite "488".toList = ['4', '8', '8'] := by decide +kernel
    rw [e1]
    exact .single (num _ 488 ⟨by simp, by unfold IsDigit; decide⟩ (by decide)) (by decide)

/-- **C83 (single peak).** A spectrum with the element for the peak is a peak, whatever else the node contains. -/
theorem C83_peak (n : Node) (t : Str) (d : ℚ) (ht : fieldOf n "SinglePeak".toList = some t) (hn : NumberText t d) : spectrum n = some (.peak (.fin (Flt.f64 d))) := by
  unfold spectrum
  rw [ht]
  dsimp only
  rw [asDouble, wcstod_show hn]
  rfl

/-- **C83, violated (range without start).** The range `-b` is returned with the smallest positive (normal) number as start, not with the smallest number: zero and the
negative numbers are not in the range, although they are below its end. -/
theorem C83_open_start_violated (n : Node) (b : Str) (d : ℚ) (hp : childNamed n "SinglePeak".toList = none) (ht : fieldOf n "Ranges".toList = some ('-' :: b)) (hn : NumberText b d)
    (hc : ∀ c ∈ b, c ≠ ',' ∧ c ∉ ['x', 'X', 'i', 'I', 'n', 'N']) :
    ∃ lo : ℚ, 0 < lo ∧ spectrum n = some (.ranges [⟨false, .fin lo, .fin (Flt.f64 d)⟩]) := by
  have hN : DoubleText b (.fin (Flt.f64 d)) := ⟨d, hn, rfl⟩
  have hw : withoutWhite ('-' :: b) = '-' :: b := by
    refine List.filter_eq_self.2 fun c hc => ?_
    have : ¬ IsWhite c := by
      rcases List.mem_cons.1 hc with rfl | hc
      · unfold IsWhite; decide
      · exact (double_scans.chars hN).2 c hc
    exact decide_eq_true this
  refine ⟨1 / 2 ^ 1022, by positivity, ?_⟩
  have hd : Decimal ('-' :: b) := by
    intro c h
    rcases List.mem_cons.1 h with rfl | h
    · decide
    · exact (hc c h).2
  refine ((C83_wavelength_partial n _ hp ht hd).1 _).2 ⟨[.range none (some (.fin (Flt.f64 d)))], by simp, ⟨['-' :: b], by simp, rfl, ?_, ?_⟩, rfl⟩
  · intro p h
    rw [List.mem_singleton] at h
    subst h
    intro hm
    rcases List.mem_cons.1 hm with e | e
    · cases e
    · exact (hc _ e).1 rfl
  · have e : ([('-' :: b)] : List Str).filter (fun p => p ≠ []) = ['-' :: b] := by simp
    rw [e]
    refine .cons ?_ .nil
    rw [hw]
    exact .stop hN

/-- Such a node. -/
example : ∃ n, childNamed n "SinglePeak".toList = none ∧ fieldOf n "Ranges".toList = some ('-' :: ['5', '0', '0']) ∧ NumberText ['5', '0', '0'] 500 ∧
    ∀ c ∈ ['5', '0', '0'], c ≠ ',' ∧ c ∉ ['x', 'X', 'i', 'I', 'n', 'N'] :=
  ⟨.element "DetectionWavelength".toList [] [leafNode "Ranges".toList "-500".toList], by decide +kernel, by decide +kernel,
    ⟨[], ['5', '0', '0'], [], [], [], 1, 0, by simp, .none, by unfold IsDigit; decide, by simp, .inl ⟨rfl, rfl⟩, .none, by
      have : digitsValue ['5', '0', '0'] = 500 := by decide
      simp [this]⟩, by decide⟩

/-- **C83 (arrays of integers).** A text with words that are separated by white space, all characters below 256: the array consists of the numbers of the words before the
first word that is not a number of 32 bit. Missing: characters beyond 255 (see `C83_wide_character_violated`). -/
theorem C83_int32Array_partial (words rest : List Str) (s : Str) (xs : List Int) (hs : InWords (words ++ rest) s) (hx : List.Forall₂ Int32Text words xs)
    (hr : ∀ u us, rest = u :: us → ¬ ∃ x, Int32Text u x) (hc : ∀ c ∈ s, c.toNat ≤ 255) : parseInt32Array s = .ok xs :=
  arrayLoop_words int32_scans hr _ words xs s (Nat.lt_succ_self _) hs hx hc (fun _ _ => trivial)

/-- **C83 (arrays of numbers).** The same for arrays of `double`, for texts without the letters of hexadecimal numbers, infinities and NaN. -/
theorem C83_doubleArray_partial (words rest : List Str) (s : Str) (xs : List Num) (hs : InWords (words ++ rest) s) (hx : List.Forall₂ DoubleText words xs)
    (hr : ∀ u us, rest = u :: us → ¬ ∃ x, DoubleText u x) (hc : ∀ c ∈ s, c.toNat ≤ 255) (hd : Decimal s) : parseDoubleArray s = .ok xs :=
  arrayLoop_words double_scans hr _ words xs s (Nat.lt_succ_self _) hs hx hc hd

/-- The hypotheses hold for a text with two numbers and a word that is none; the last one is not in the array. -/
example : InWords ([['7'], ['-', '2']] ++ [['x']]) " 7  -2 x".toList ∧ List.Forall₂ Int32Text [['7'], ['-', '2']] [7, -2] ∧ (¬ ∃ x, Int32Text ['x'] x) ∧
    (∀ c ∈ " 7  -2 x".toList, c.toNat ≤ 255) ∧ parseInt32Array " 7  -2 x".toList = .ok [7, -2] := by
  have e : " 7  -2 x".toList = [' '] ++ (['7'] ++ ([' ', ' '] ++ (['-', '2'] ++ ([' '] ++ (['x'] ++ []))))) := by decide +kernel
  have h1 : InWords ([['7'], ['-', '2']] ++ [['x']]) " 7  -2 x".toList := by
    rw [e]
    refine .cons (by unfold IsWhite; decide) (by simp) (by unfold IsWhite; decide) ?_ (.cons (by unfold IsWhite; decide) (by simp) (by unfold IsWhite; decide) ?_
      (.cons (by unfold IsWhite; decide) (by simp) (by unfold IsWhite; decide) (by intro c cs e; cases e) (.nil (by simp))))
    · intro c cs e; injection e with e _; rw [← e]; unfold IsWhite; decide
    · intro c cs e; injection e with e _; rw [← e]; unfold IsWhite; decide
  have h2 : List.Forall₂ Int32Text [['7'], ['-', '2']] [7, -2] :=
    .cons ⟨[], ['7'], rfl, ⟨by simp, by unfold IsDigit; decide⟩, .inl ⟨rfl, by decide⟩, by decide, by decide⟩
      (.cons ⟨['-'], ['2'], rfl, ⟨by simp, by unfold IsDigit; decide⟩, .inr (.inr ⟨rfl, by decide⟩), by decide, by decide⟩ .nil)
  have h3 : ¬ ∃ x, Int32Text ['x'] x := by
    rintro ⟨x, sg, ds, e, hd, h, _⟩
    have hx : ¬ IsDigit 'x' := by unfold IsDigit; decide
    rcases h with ⟨rfl, _⟩ | ⟨rfl, _⟩ | ⟨rfl, _⟩
    · rw [List.nil_append] at e; subst e; exact hx (hd.2 'x' (by simp))
    · simp at e
    · simp at e
  have h4 : ∀ c ∈ " 7  -2 x".toList, c.toNat ≤ 255 := by decide +kernel
  exact ⟨h1, h2, h3, h4, C83_int32Array_partial _ _ _ _ h1 h2 (by intro u us e; injection e with e _; rw [← e]; exact h3) h4⟩

/-- **C83, violated (characters beyond 255).** A number followed by such a character, or by white space and such a character, makes the behaviour undefined: the
character is passed to `isspace`. -/
theorem C83_wide_character_violated (t w r : Str) (c : Char) (hw : ∀ d ∈ w, IsWhite d) (hc : 255 < c.toNat) :
    (∀ x, Int32Text t x → parseInt32Array (t ++ (w ++ c :: r)) = .undefined) ∧ ∀ x, DoubleText t x → parseDoubleArray (t ++ (w ++ c :: r)) = .undefined :=
  ⟨fun _ h => arrayLoop_wide int32_scans h hw hc r _, fun _ h => arrayLoop_wide double_scans h hw hc r _⟩

/-- Such a text. -/
example : parseInt32Array ("3".toList ++ (" ".toList ++ 'µ' :: 'Ω' :: "m".toList)) = .ok [3] ∧
    parseInt32Array ("3".toList ++ (" ".toList ++ 'Ω' :: "m".toList)) = .undefined := by
  constructor
  · rfl
  · exact (C83_wide_character_violated "3".toList " ".toList "m".toList 'Ω' (by unfold IsWhite; decide) (by decide)).1 3
      ⟨[], ['3'], rfl, ⟨by simp, by unfold IsDigit; decide⟩, .inl ⟨rfl, by decide⟩, by decide, by decide⟩

/-- **C83 (enumerations).** For each of the enumerations in the channel information: a text stands for a value if and only if it is the text of this value (the case of
letters matters, and white space is not removed). -/
theorem C83_enumerations :
    (∀ (s : Str) (v : AcquisitionMode), tryParseEnum AcquisitionMode.table s = some v ↔ s = (acquisitionModeText v).toList) ∧
    (∀ (s : Str) (v : IlluminationType), tryParseEnum IlluminationType.table s = some v ↔ s = (illuminationTypeText v).toList) ∧
    (∀ (s : Str) (v : ContrastMethod), tryParseEnum ContrastMethod.table s = some v ↔ s = (contrastMethodText v).toList) ∧
    (∀ (s : Str) (v : PinholeGeometry), tryParseEnum PinholeGeometry.table s = some v ↔ s = (pinholeGeometryText v).toList) ∧
    (∀ (s : Str) (v : ChannelType), tryParseEnum ChannelType.table s = some v ↔ s = (channelTypeText v).toList) ∧
    (∀ (s : Str) (v : Binning), tryParseEnum Binning.table s = some v ↔ s = (binningText v).toList) ∧
    (∀ (s : Str) (v : Shutter), tryParseEnum Shutter.table s = some v ↔ s = (shutterText v).toList) ∧
    (∀ (s : Str) (v : CameraProcessingMode), tryParseEnum CameraProcessingMode.table s = some v ↔ s = (cameraProcessingModeText v).toList) ∧
    (∀ (s : Str) (v : ScanningMode), tryParseEnum ScanningMode.table s = some v ↔ s = (scanningModeText v).toList) ∧
    (∀ (s : Str) (v : ScanDirection), tryParseEnum ScanDirection.table s = some v ↔ s = (scanDirectionText v).toList) ∧
    (∀ (s : Str) (v : AveragingMethod), tryParseEnum AveragingMethod.table s = some v ↔ s = (averagingMethodText v).toList) ∧
    (∀ (s : Str) (v : AveragingMode), tryParseEnum AveragingMode.table s = some v ↔ s = (averagingModeText v).toList) ∧
    (∀ (s : Str) (v : AttenuatorState), tryParseEnum AttenuatorState.table s = some v ↔ s = (attenuatorStateText v).toList) ∧
    (∀ (s : Str) (v : BeamType), tryParseEnum BeamType.table s = some v ↔ s = (beamTypeText v).toList) ∧
    (∀ (s : Str) (v : Medium), tryParseEnum Medium.table s = some v ↔ s = (mediumText v).toList) ∧
    (∀ (s : Str) (v : AiryscanMode), tryParseEnum AiryscanMode.table s = some v ↔ s = (airyscanModeText v).toList) ∧
    (∀ (s : Str) (v : RatioType), tryParseEnum RatioType.table s = some v ↔ s = (ratioTypeText v).toList) :=
  ⟨tryParseEnum_iff (by decide +kernel) (by intro v; cases v <;> decide +kernel),
   tryParseEnum_iff (by decide +kernel) (by intro v; cases v <;> decide +kernel),
   tryParseEnum_iff (by decide +kernel) (by intro v; cases v <;> decide +kernel),
   tryParseEnum_iff (by decide +kernel) (by intro v; cases v <;> decide +kernel),
   tryParseEnum_iff (by decide +kernel) (by intro v; cases v <;> decide +kernel),
   tryParseEnum_iff (by decide +kernel) (by intro v; cases v <;> decide +kernel),
   tryParseEnum_iff (by decide +kernel) (by intro v; cases v <;> decide +kernel),
   tryParseEnum_iff (by decide +kernel) (by intro v; cases v <;> decide +kernel),
   tryParseEnum_iff (by decide +kernel) (by intro v; cases v <;> decide +kernel),
   tryParseEnum_iff (by decide +kernel) (by intro v; cases v <;> decide +kernel),
   tryParseEnum_iff (by decide +kernel) (by intro v; cases v <;> decide +kernel),
   tryParseEnum_iff (by decide +kernel) (by intro v; cases v <;> decide +kernel),
   tryParseEnum_iff (by decide +kernel) (by intro v; cases v <;> decide +kernel),
   tryParseEnum_iff (by decide +kernel) (by intro v; cases v <;> decide +kernel),
   tryParseEnum_iff (by decide +kernel) (by intro v; cases v <;> decide +kernel),
   tryParseEnum_iff (by decide +kernel) (by intro v; cases v <;> decide +kernel),
   tryParseEnum_iff (by decide +kernel) (by intro v; cases v <;> decide +kernel)⟩

/-- A field with a value of an enumeration; a field with other case gives no value. -/
example : enumField AcquisitionMode.table "AcquisitionMode".toList (.element "Channel".toList [] [leafNode "AcquisitionMode".toList "FIB-SEM".toList]) = some .FIB_SEM ∧
    enumField AcquisitionMode.table "AcquisitionMode".toList (.element "Channel".toList [] [leafNode "AcquisitionMode".toList "fib-sem".toList]) = none :=
  ⟨by decide +kernel, by decide +kernel⟩

end Verif
