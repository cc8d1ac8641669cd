import Verif.Proof.CmdNumbers

/-!
# C105: options of CZICmd with numbers that have a fraction
-/

namespace Verif

open Verif.CmdLine Verif.Spec Verif.Flt Verif.Xml Verif.Text

private instance (w : List Char) : Decidable (White w) := by unfold White; infer_instance
private instance (c : Char) : Decidable (IsDigit c) := by unfold IsDigit; infer_instance

/-- **C105 (zoom).** A decimal number, with any white space before it, is taken for the float nearest to it. -/
theorem C105_zoom_partial {w t : List Char} {d : ℚ} (hw : White w) (ht : NumberText t d) : tryParseZoom (w ++ t) = some (.fin (f32 d)) := by
  have := strtof_text ht (w := w) (r := []) (fun c hc => (isSpace_iff c).2 (hw c hc)) (fun c cs e => by cases e)
  rw [List.append_nil] at this
  unfold tryParseZoom
  rw [this]
  rfl

example : tryParseZoom " 0.25".toList = some (.fin (f32 (1 / 4))) :=
  C105_zoom_partial (w := [' ']) (t := "0.25".toList) (by decide)
    ⟨[], ['0'], ".25".toList, "25".toList, [], 1, 0, by decide, .none, by decide, by decide, .inr (by decide), .none, by norm_num [digitsValue]; decide +kernel⟩

/-- **C105 (zoom, the rest of the text).** The parser as such takes the number and ignores whatever follows it, as in `0.5,25`. Whether the tool reports such a text therefore rests only on the range check `CLI::Range(0.f, 1.f)` given with the option (cmdlineoptions.cpp:693), which runs before the parser and belongs to the library CLI11: it is not in the repository and not modelled, so this is no statement about the whole tool. -/
theorem C105_zoom_rest_ignored {w t r : List Char} {d : ℚ} (hw : White w) (ht : NumberText t d) (hr : EndsNumber r) : tryParseZoom (w ++ (t ++ r)) = some (.fin (f32 d)) := by
  unfold tryParseZoom
  rw [strtof_text ht (fun c hc => (isSpace_iff c).2 (hw c hc)) hr]
  rfl

/-- **C105 (background, one number).** One number is a shade of gray. -/
theorem C105_background_gray {w t w' : List Char} {d : ℚ} (hw : White w) (ht : NumberText t d) (hw' : White w') :
    tryParseBackground (w ++ (t ++ w')) = some (.fin (f32 d), .fin (f32 d), .fin (f32 d)) := by
  unfold tryParseBackground
  rw [next_end hw ht hw']
  rfl

/-- **C105 (background, two numbers).** Two numbers are no colour. -/
theorem C105_background_two {w t1 g t2 w' : List Char} {d1 d2 : ℚ} (hw : White w) (h1 : NumberText t1 d1) (hg : GapText g) (h2 : NumberText t2 d2) (hw' : White w') :
    tryParseBackground (w ++ (t1 ++ (g ++ (t2 ++ w')))) = none := by
  obtain ⟨a, t', e, ha, hb⟩ := number_head h2
  have n1 := next_gap (r := t' ++ w') hw h1 hg ha hb
  have n2 := next_end (w := []) (by intro c hc; cases hc) h2 hw'
  rw [List.nil_append, e, List.cons_append] at n2
  unfold tryParseBackground
  rw [e, List.cons_append, n1]
  dsimp only
  rw [if_neg (List.cons_ne_nil _ _), n2]
  rfl

/-- **C105 (background, three numbers).** Three numbers, separated by white space or by a comma, a semicolon or a bar, are red, green and blue. -/
theorem C105_background_rgb_partial {w t1 g1 t2 g2 t3 w' : List Char} {d1 d2 d3 : ℚ} (hw : White w) (h1 : NumberText t1 d1) (hg1 : GapText g1) (h2 : NumberText t2 d2)
    (hg2 : GapText g2) (h3 : NumberText t3 d3) (hw' : White w') :
    tryParseBackground (w ++ (t1 ++ (g1 ++ (t2 ++ (g2 ++ (t3 ++ w')))))) = some (.fin (f32 d1), .fin (f32 d2), .fin (f32 d3)) := by
  obtain ⟨a, t', e, ha, hb⟩ := number_head h2
  obtain ⟨a3, t3', e3, ha3, hb3⟩ := number_head h3
  have n1 := next_gap (r := t' ++ (g2 ++ (t3 ++ w'))) hw h1 hg1 ha hb
  have n2 := next_gap (w := []) (r := t3' ++ w') (by intro c hc; cases hc) h2 hg2 ha3 hb3
  have n3 := next_end (w := []) (by intro c hc; cases hc) h3 hw'
  rw [List.nil_append, e, List.cons_append] at n2
  rw [List.nil_append, e3, List.cons_append] at n3
  unfold tryParseBackground
  rw [e, List.cons_append, n1]
  dsimp only
  rw [if_neg (List.cons_ne_nil _ _), e3, List.cons_append, n2]
  dsimp only
  rw [if_neg (List.cons_ne_nil _ _), n3]
  dsimp only
  rw [if_pos rfl, if_neg (by rintro ⟨h, _⟩; cases h)]

/-- **C105 (background, more).** What comes after three numbers and is neither white space nor a separator makes the text no colour. -/
theorem C105_background_four {w t1 g1 t2 g2 t3 g3 r : List Char} {a : Char} {d1 d2 d3 : ℚ} (hw : White w) (h1 : NumberText t1 d1) (hg1 : GapText g1) (h2 : NumberText t2 d2)
    (hg2 : GapText g2) (h3 : NumberText t3 d3) (hg3 : GapText g3) (ha : ¬IsWhite a) (hb : a ∉ [';', ',', '|']) :
    tryParseBackground (w ++ (t1 ++ (g1 ++ (t2 ++ (g2 ++ (t3 ++ (g3 ++ a :: r))))))) = none := by
  have ha' : isSpace a = false := by
    by_contra h
    rw [Bool.not_eq_false] at h
    exact ha ((isSpace_iff a).1 h)
  obtain ⟨b, t', e, hb1, hb2⟩ := number_head h2
  obtain ⟨a3, t3', e3, ha3, hb3⟩ := number_head h3
  have n1 := next_gap (r := t' ++ (g2 ++ (t3 ++ (g3 ++ a :: r)))) hw h1 hg1 hb1 hb2
  have n2 := next_gap (w := []) (r := t3' ++ (g3 ++ a :: r)) (by intro c hc; cases hc) h2 hg2 ha3 hb3
  have n3 := next_gap (w := []) (r := r) (by intro c hc; cases hc) h3 hg3 ha' hb
  rw [List.nil_append, e, List.cons_append] at n2
  rw [List.nil_append, e3, List.cons_append] at n3
  unfold tryParseBackground
  rw [e, List.cons_append, n1]
  dsimp only
  rw [if_neg (List.cons_ne_nil _ _), e3, List.cons_append, n2]
  dsimp only
  rw [if_neg (List.cons_ne_nil _ _), n3]
  rfl

/-- **C105 (background, violated).** A number that is missing counts as 0, so texts without any number are colours, which violates the promise that every part is a number. -/
theorem C105_background_empty_violated : tryParseBackground [] = some (.fin 0, .fin 0, .fin 0) ∧ tryParseBackground ";".toList = some (.fin 0, .fin 0, .fin 0) ∧
    tryParseBackground ";;;".toList = some (.fin 0, .fin 0, .fin 0) := by
  refine ⟨by decide +kernel, by decide +kernel, by decide +kernel⟩

private theorem numT (t : List Char) (ip : List Char) (h : t = ip) (hd : ∀ c ∈ ip, IsDigit c) (hne : ip ≠ []) : NumberText t (digitsValue ip) :=
  ⟨[], ip, [], [], [], 1, 0, by simp [h], .none, by simpa using hd, by simpa using hne, .inl ⟨rfl, rfl⟩, .none, by simp⟩

example : tryParseBackground " 1, 0 ;1".toList = some (.fin (f32 (digitsValue ['1'])), .fin (f32 (digitsValue ['0'])), .fin (f32 (digitsValue ['1']))) :=
  C105_background_rgb_partial (w := [' ']) (t1 := ['1']) (g1 := [',', ' ']) (t2 := ['0']) (g2 := [' ', ';']) (t3 := ['1']) (w' := []) (by decide)
    (numT _ _ rfl (by decide) (by decide)) (.inl ⟨[], ',', [' '], rfl, (by decide), (by decide), by decide⟩) (numT _ _ rfl (by decide) (by decide))
    (.inl ⟨[' '], ';', [], rfl, (by decide), (by decide), by decide⟩) (numT _ _ rfl (by decide) (by decide)) (by decide)

/-- **C105 (cache size, which texts).** The size of the cache is accepted exactly if the text is a number without exponent followed by a unit
(k, m, g, t for powers of 1000; ki, mi, gi, ti for powers of 1024; with or without b), and the product fits into 63 bits. -/
theorem C105_cache_accepts (s : List Char) (v : Nat) : tryParseCacheSize s = .ok v ↔
    ∃ d f, CacheText s d f ∧ lround (f64 (f64 d * f)) < 2 ^ 63 ∧ v = (lround (f64 (f64 d * f))).toNat := by
  constructor
  · intro h
    cases hm : matchCacheSize s with
    | none => unfold tryParseCacheSize at h; rw [hm] at h; cases h
    | some q =>
      obtain ⟨t, f⟩ := q
      obtain ⟨w1, w2, u, w3, d, e, h1, h2, h3, hn, hu⟩ := (matchCacheSize_iff s t f).1 hm
      rw [cacheSize_of hm hn (unit_bound hu)] at h
      split at h
      · rename_i hv
        injection h with h
        exact ⟨d, f, ⟨w1, t, w2, u, w3, e, h1, h2, h3, hn, hu⟩, hv, h.symm⟩
      · cases h
  · rintro ⟨d, f, ⟨w1, t, w2, u, w3, e, h1, h2, h3, hn, hu⟩, hv, rfl⟩
    rw [cacheSize_of ((matchCacheSize_iff s t f).2 ⟨w1, w2, u, w3, d, e, h1, h2, h3, hn, hu⟩) hn (unit_bound hu), if_pos hv]

/-- **C105 (cache size, other texts).** Every other text is rejected. -/
theorem C105_cache_rejects (s : List Char) : tryParseCacheSize s = .rejected ↔ ¬∃ d f, CacheText s d f := by
  cases hm : matchCacheSize s with
  | none =>
    constructor
    · rintro _ ⟨d, f, w1, t, w2, u, w3, e, h1, h2, h3, hn, hu⟩
      rw [(matchCacheSize_iff s t f).2 ⟨w1, w2, u, w3, d, e, h1, h2, h3, hn, hu⟩] at hm
      cases hm
    · intro _
      unfold tryParseCacheSize
      rw [hm]
  | some q =>
    obtain ⟨t, f⟩ := q
    obtain ⟨w1, w2, u, w3, d, e, h1, h2, h3, hn, hu⟩ := (matchCacheSize_iff s t f).1 hm
    rw [cacheSize_of hm hn (unit_bound hu)]
    constructor
    · intro h; split at h <;> cases h
    · intro h; exact absurd ⟨d, f, w1, t, w2, u, w3, e, h1, h2, h3, hn, hu⟩ h

/-- **C105 (cache size, value).** If number times unit is a whole number of bytes below 2^50 (a pebibyte) then that is the size, although it is computed with doubles. -/
theorem C105_cache_exact {s : List Char} {d : ℚ} {f n : Nat} (h : CacheText s d f) (hn : d * f = n) (hb : n < 2 ^ 50) : tryParseCacheSize s = .ok n := by
  obtain ⟨w1, t, w2, u, w3, e, h1, h2, h3, ht, hu⟩ := h
  have hq : (n : ℚ) < 2 ^ 50 := by exact_mod_cast hb
  have hl : lround (f64 (f64 d * f)) = n := by
    apply lround_near
    have := cacheSize_err (f := f) (plain_nonneg ht)
    rw [hn] at this
    refine lt_of_le_of_lt this ?_
    rw [div_lt_div_iff₀ (by norm_num) (by norm_num)]
    linarith
  have hb' : (n : ℤ) < 2 ^ 50 := by exact_mod_cast hb
  have hv : (n : ℤ) < 2 ^ 63 := by omega
  rw [cacheSize_of ((matchCacheSize_iff s t f).2 ⟨w1, w2, u, w3, d, e, h1, h2, h3, ht, hu⟩) ht (unit_bound hu), hl, if_pos hv]
  rfl

example : tryParseCacheSize " 1.1 MiB".toList ≠ .rejected := by
  rw [ne_eq, C105_cache_rejects, not_not]
  exact ⟨_, 1024 ^ 2, [' '], "1.1".toList, [' '], "MiB".toList, [], by decide, by decide, by decide, by decide,
    ⟨[], ['1'], ".1".toList, ['1'], by decide, .inl rfl, by decide, by decide, .inr (by decide), rfl⟩,
    ⟨'M', ['i'], ['B'], 2, by decide, .inr (.inl ⟨by decide, rfl⟩), .inr (.inl rfl), .inr (.inr rfl), rfl⟩⟩

example : tryParseCacheSize "1.1kb".toList = .ok 1100 :=
  C105_cache_exact (d := 11 / 10) (f := 1000 ^ 1) ⟨[], "1.1".toList, [], "kb".toList, [], by decide, by decide, by decide, by decide,
    ⟨[], ['1'], ".1".toList, ['1'], by decide, .inl rfl, by decide, by decide, .inr (by decide), by
      rw [show digitsValue (['1'] ++ ['1']) = 11 from by decide]; norm_num⟩,
    ⟨'k', [], ['b'], 1, by decide, .inl ⟨by decide, rfl⟩, .inl rfl, .inr (.inl rfl), rfl⟩⟩ (by norm_num) (by norm_num)

private theorem word_len {t w : List Char} (h : CaseWord t w) : t.length = w.length := each_len h

/-- **C105 (pixel type).** The pixel type for a generated document is accepted exactly if the text, without the blanks around it, is one of the four names in capital or small letters. -/
theorem C105_pixeltype (s : List Char) (pt : PixelType) : tryParseGeneratorPixeltype s = some pt ↔ ∃ t, Padded t s ∧
    (CaseWord t "gray8".toList ∧ pt = .Gray8 ∨ CaseWord t "gray16".toList ∧ pt = .Gray16 ∨ CaseWord t "bgr24".toList ∧ pt = .Bgr24 ∨ CaseWord t "bgr48".toList ∧ pt = .Bgr48) := by
  have g8 : ∀ t, icasecmp t "gray8".toList = true ↔ CaseWord t "gray8".toList := fun t => icasecmp_iff (by decide)
  have g16 : ∀ t, icasecmp t "gray16".toList = true ↔ CaseWord t "gray16".toList := fun t => icasecmp_iff (by decide)
  have b24 : ∀ t, icasecmp t "bgr24".toList = true ↔ CaseWord t "bgr24".toList := fun t => icasecmp_iff (by decide)
  have b48 : ∀ t, icasecmp t "bgr48".toList = true ↔ CaseWord t "bgr48".toList := fun t => icasecmp_iff (by decide)
  have key : ∀ t, (generatorPixelTypes.find? fun e => icasecmp t e.2).map (·.1) = some pt ↔
      (CaseWord t "gray8".toList ∧ pt = .Gray8 ∨ CaseWord t "gray16".toList ∧ pt = .Gray16 ∨ CaseWord t "bgr24".toList ∧ pt = .Bgr24 ∨ CaseWord t "bgr48".toList ∧ pt = .Bgr48) := by
    intro t
    have d1 : icasecmp t "gray8".toList = true → icasecmp t "gray16".toList = true → False := by
      rw [g8, g16]; intro a b; have := word_len a; have := word_len b; simp_all
    have d2 : icasecmp t "gray8".toList = true → icasecmp t "bgr24".toList = true → False := by
      unfold icasecmp; intro a b; rw [beq_iff_eq] at a b; rw [a] at b; exact absurd b (by decide)
    have d3 : icasecmp t "gray8".toList = true → icasecmp t "bgr48".toList = true → False := by
      unfold icasecmp; intro a b; rw [beq_iff_eq] at a b; rw [a] at b; exact absurd b (by decide)
    have d4 : icasecmp t "gray16".toList = true → icasecmp t "bgr24".toList = true → False := by
      unfold icasecmp; intro a b; rw [beq_iff_eq] at a b; rw [a] at b; exact absurd b (by decide)
    have d5 : icasecmp t "gray16".toList = true → icasecmp t "bgr48".toList = true → False := by
      unfold icasecmp; intro a b; rw [beq_iff_eq] at a b; rw [a] at b; exact absurd b (by decide)
    have d6 : icasecmp t "bgr24".toList = true → icasecmp t "bgr48".toList = true → False := by
      unfold icasecmp; intro a b; rw [beq_iff_eq] at a b; rw [a] at b; exact absurd b (by decide)
    rw [← g8, ← g16, ← b24, ← b48]
    unfold generatorPixelTypes
    simp only [List.find?_cons, List.find?_nil]
    generalize icasecmp t "gray8".toList = b1 at *
    generalize icasecmp t "gray16".toList = b2 at *
    generalize icasecmp t "bgr24".toList = b3 at *
    generalize icasecmp t "bgr48".toList = b4 at *
    clear g8 g16 b24 b48
    cases b1 <;> cases b2 <;> cases b3 <;> cases b4 <;> first | (exfalso; simp at d1 d2 d3 d4 d5 d6; done) | simp [@eq_comm _ pt]
  constructor
  · intro h
    exact ⟨trim s, trim_padded s, (key _).1 h⟩
  · rintro ⟨t, ht, h⟩
    unfold tryParseGeneratorPixeltype
    rw [trim_unique ht]
    exact (key t).2 h

example : tryParseGeneratorPixeltype " Bgr24 ".toList = some .Bgr24 := by decide
example : tryParseGeneratorPixeltype "bgra32".toList = none := by decide

end Verif
