import Verif.Proof.CmdLine

/-!
# C105: texts given to the options of CZICmd mean what is documented
-/

namespace Verif

open Verif.CmdLine Verif.Spec Verif.Text Verif.Xml

/-! ## Sizes -/

/-- **C105 (sizes).** The size of the tiles of a new document is taken exactly if the text consists of two numbers with `x`, `X` or `*` between them (and white space around
that), each from 1 to 2^32 - 1; the size then has these numbers. -/
theorem C105_size (s : List Char) (w h : Nat) :
    tryParseCreateSize s = .ok (w, h) ↔ ∃ a b, TimesText s a b ∧ Positive32 a w ∧ Positive32 b h := by
  constructor
  · intro hh
    unfold tryParseCreateSize at hh
    split at hh
    · rename_i a b hm
      obtain ⟨w1, c, w2, e, h1, h2, h3, h4, h5, _⟩ := (matchPair_iff _ _ _ _).1 hm
      simp only [bind_ok] at hh
      obtain ⟨v, hv, v', hv', he⟩ := hh
      injection he with he
      injection he with e1 e2
      subst e1 e2
      exact ⟨a, b, ⟨w1, c, w2, by rw [e]; simp, h1, h2, h3, h4, h5⟩, (number_ok h4 _).1 hv, (number_ok h5 _).1 hv'⟩
    · cases hh
  · rintro ⟨a, b, ⟨w1, c, w2, e, h1, h2, h3, h4, h5⟩, p1, p2⟩
    unfold tryParseCreateSize
    rw [(matchPair_iff s a b []).2 ⟨w1, c, w2, by rw [e]; simp, h1, h2, h3, h4, h5, by intro c cs e; cases e⟩]
    dsimp only
    rw [bind_ok]
    refine ⟨w, (number_ok h4 _).2 p1, ?_⟩
    rw [bind_ok]
    exact ⟨h, (number_ok h5 _).2 p2, rfl⟩

example : tryParseCreateSize "1024 x 768".toList = .ok (1024, 768) := by decide
example : tryParseCreateSize "0x768".toList = .rejected := by decide
example : ∃ a b, TimesText "1024 x 768".toList a b ∧ Positive32 a 1024 ∧ Positive32 b 768 := (C105_size _ _ _).1 (by decide)

/-- **C105 (sizes, violated).** The parser leaves with an exception, instead of reporting a wrong text, exactly for those texts of the documented form whose first number does
not fit 64 bits, or whose second does not after a first one in range. So it violates "a text is taken or reported as wrong". -/
theorem C105_size_exception_violated (s : List Char) :
    tryParseCreateSize s = .throws ↔ ∃ a b, TimesText s a b ∧ (2 ^ 64 ≤ digitsValue a ∨ Positive32 a (digitsValue a) ∧ 2 ^ 64 ≤ digitsValue b) := by
  constructor
  · intro hh
    unfold tryParseCreateSize at hh
    split at hh
    · rename_i a b hm
      obtain ⟨w1, c, w2, e, h1, h2, h3, h4, h5, _⟩ := (matchPair_iff _ _ _ _).1 hm
      refine ⟨a, b, ⟨w1, c, w2, by rw [e]; simp, h1, h2, h3, h4, h5⟩, ?_⟩
      rw [bind_throws] at hh
      rcases hh with hh | ⟨v, hv, hh⟩
      · exact .inl ((number_throws h4).1 hh)
      · rw [bind_throws] at hh
        rcases hh with hh | ⟨_, _, hh⟩
        · have := (number_ok h4 _).1 hv
          exact .inr ⟨⟨rfl, by rw [this.1]; exact this.2⟩, (number_throws h5).1 hh⟩
        · cases hh
    · cases hh
  · rintro ⟨a, b, ⟨w1, c, w2, e, h1, h2, h3, h4, h5⟩, p⟩
    unfold tryParseCreateSize
    rw [(matchPair_iff s a b []).2 ⟨w1, c, w2, by rw [e]; simp, h1, h2, h3, h4, h5, by intro c cs e; cases e⟩]
    dsimp only
    rw [bind_throws]
    rcases p with p | ⟨p, q⟩
    · exact .inl ((number_throws h4).2 p)
    · refine .inr ⟨digitsValue a, (number_ok h4 _).2 p, ?_⟩
      rw [bind_throws]
      exact .inl ((number_throws h5).2 q)

example : tryParseCreateSize "18446744073709551616x1".toList = .throws := by decide

/-! ## Arrangements of tiles -/

private theorem white_starts {w : List Char} (h : White w) : NoDigit w := by
  intro c cs e
  subst e
  have := h c (by simp)
  simp only [List.mem_cons, List.not_mem_nil, or_false] at this
  rcases this with rfl | rfl | rfl | rfl | rfl | rfl <;> decide

private theorem percent_starts {r p : List Char} (h : PercentText r p) : NoDigit r := by
  obtain ⟨w1, c, w2, w3, w4, rfl, h1, h2, _⟩ := h
  refine white_noDigit h1 ?_ _
  simp only [List.mem_cons, List.not_mem_nil, or_false] at h2
  rcases h2 with rfl | rfl | rfl <;> decide

private theorem pair_of {t a b rest : List Char} (h : TimesText t a b) (hr : NoDigit rest) : matchPair (t ++ rest) = some (a, b, rest) := by
  obtain ⟨w1, c, w2, rfl, h1, h2, h3, h4, h5⟩ := h
  exact (matchPair_iff _ _ _ _).2 ⟨w1, c, w2, by simp, h1, h2, h3, h4, h5, hr⟩

/-- **C105 (arrangements).** An arrangement of tiles is taken exactly if it consists of two numbers with `x`, `X` or `*` between them and, optionally, a percentage after a
comma, a semicolon or a dash, all numbers from 1 to 2^32 - 1; rows, columns and overlap are these numbers, and without percentage there is no overlap. -/
theorem C105_tiles_partial (s : List Char) (rows columns percent : Nat) :
    tryParseCreateTileInfo s = .ok ⟨rows, columns, percent⟩ ↔
      ∃ t rest a b, s = t ++ rest ∧ TimesText t a b ∧ Positive32 a rows ∧ Positive32 b columns ∧
        (White rest ∧ percent = 0 ∨ ∃ p, PercentText rest p ∧ Positive32 p percent) := by
  constructor
  · intro hh
    unfold tryParseCreateTileInfo at hh
    split at hh
    · cases hh
    rename_i a b r hm
    obtain ⟨w1, c, w2, e, h1, h2, h3, h4, h5, _⟩ := (matchPair_iff _ _ _ _).1 hm
    have hs : s = (a ++ (w1 ++ c :: (w2 ++ b))) ++ r := by rw [e]; simp
    split at hh
    · cases hh
    · rename_i ho
      simp only [bind_ok] at hh
      obtain ⟨v, hv, v', hv', he⟩ := hh
      injection he with he
      injection he with e1 e2 e3
      subst e1 e2 e3
      exact ⟨_, r, a, b, hs, ⟨w1, c, w2, rfl, h1, h2, h3, h4, h5⟩, (number_ok h4 _).1 hv, (number_ok h5 _).1 hv', .inl ⟨(matchOverlap_none r).1 ho, rfl⟩⟩
    · rename_i p ho
      have hp := (matchOverlap_some r p).1 ho
      simp only [bind_ok] at hh
      obtain ⟨v, hv, v', hv', o, ho', he⟩ := hh
      injection he with he
      injection he with e1 e2 e3
      subst e1 e2 e3
      have hd : Digits p := by obtain ⟨_, _, _, _, _, _, _, _, _, _, _, h⟩ := hp; exact h
      exact ⟨_, r, a, b, hs, ⟨w1, c, w2, rfl, h1, h2, h3, h4, h5⟩, (number_ok h4 _).1 hv, (number_ok h5 _).1 hv', .inr ⟨p, hp, (number_ok hd _).1 ho'⟩⟩
  · rintro ⟨t, rest, a, b, rfl, ht, p1, p2, hr⟩
    have h45 : Digits a ∧ Digits b := by obtain ⟨_, _, _, _, _, _, _, h4, h5⟩ := ht; exact ⟨h4, h5⟩
    unfold tryParseCreateTileInfo
    rcases hr with ⟨hw, rfl⟩ | ⟨p, hp, p3⟩
    · rw [pair_of ht (white_starts hw)]
      dsimp only
      rw [(matchOverlap_none rest).2 hw, (number_ok h45.1 _).2 p1, (number_ok h45.2 _).2 p2]
      rfl
    · have hd : Digits p := by obtain ⟨_, _, _, _, _, _, _, _, _, _, _, h⟩ := hp; exact h
      rw [pair_of ht (percent_starts hp)]
      dsimp only
      rw [(matchOverlap_some rest p).2 hp, (number_ok h45.1 _).2 p1, (number_ok h45.2 _).2 p2]
      show (number p).bind _ = _
      rw [(number_ok hd _).2 p3]
      rfl

example : tryParseCreateTileInfo "3x4;10%".toList = .ok ⟨3, 4, 10⟩ := by decide
example : tryParseCreateTileInfo "3*4 ".toList = .ok ⟨3, 4, 0⟩ := by decide
example : ∃ t rest a b, "3x4;10%".toList = t ++ rest ∧ TimesText t a b ∧ Positive32 a 3 ∧ Positive32 b 4 ∧
    (White rest ∧ 10 = 0 ∨ ∃ p, PercentText rest p ∧ Positive32 p 10) := (C105_tiles_partial _ _ _ _).1 (by decide)

/-- **C105 (arrangements, violated).** An arrangement with an explicit overlap of zero percent is reported as wrong, although it has the documented form and its meaning, no
overlap, is available without the percentage: the code violates the documentation here. -/
theorem C105_zero_overlap_violated (t rest a b p : List Char) (rows columns : Nat) (ht : TimesText t a b) (ha : Positive32 a rows) (hb : Positive32 b columns)
    (hp : PercentText rest p) (h0 : digitsValue p = 0) :
    tryParseCreateTileInfo (t ++ rest) = .rejected ∧ tryParseCreateTileInfo t = .ok ⟨rows, columns, 0⟩ := by
  have h45 : Digits a ∧ Digits b := by obtain ⟨_, _, _, _, _, _, _, h4, h5⟩ := ht; exact ⟨h4, h5⟩
  have hd : Digits p := by obtain ⟨_, _, _, _, _, _, _, _, _, _, _, h⟩ := hp; exact h
  constructor
  · unfold tryParseCreateTileInfo
    rw [pair_of ht (percent_starts hp)]
    dsimp only
    rw [(matchOverlap_some rest p).2 hp, (number_ok h45.1 _).2 ha, (number_ok h45.2 _).2 hb]
    show (number p).bind _ = _
    rw [number_digits hd, h0]
    rfl
  · exact (C105_tiles_partial _ _ _ _).2 ⟨t, [], a, b, by simp, ht, ha, hb, .inl ⟨(by intro c hc; cases hc), rfl⟩⟩

example : tryParseCreateTileInfo "4x4;0%".toList = .rejected ∧ tryParseCreateTileInfo "4x4".toList = .ok ⟨4, 4, 0⟩ := by decide

/-! ## Numbers and pyramid layers -/

/-- **C105 (numbers).** A number is taken exactly if the text is a decimal number of 32 bits with an optional sign, with white space before it and blanks after it. -/
theorem C105_number (s : List Char) (v : Int) : tryParseInt32 s = some v ↔ PaddedInt32 s v := tryParseInt32_iff s v

example : tryParseInt32 " -15 ".toList = some (-15) := by decide
example : tryParseInt32 "2147483648".toList = none := by decide
example : PaddedInt32 " -15 ".toList (-15) := (C105_number _ _).1 (by decide)

/-- **C105 (pyramid layers).** A pyramid layer is taken exactly if the text consists of two numbers with a comma, a semicolon or a bar between them: the first is the
minification factor, the second the layer. -/
theorem C105_pyramid (s : List Char) (factor layer : Int) :
    tryParsePyramidInfo s = some (factor, layer) ↔ ∃ t c r, s = t ++ c :: r ∧ c ∈ [';', ',', '|'] ∧ PaddedInt32 t factor ∧ PaddedInt32 r layer := by
  have hdel : ∀ c, isLayerDelimiter c = true ↔ c ∈ [';', ',', '|'] := by intro c; simp [isLayerDelimiter, or_assoc]
  constructor
  · intro h
    unfold tryParsePyramidInfo at h
    split at h
    · cases h
    rename_i c r hr
    simp only [Option.bind_eq_some_iff] at h
    obtain ⟨f, h1, l, h2, h3⟩ := h
    injection h3 with h3
    injection h3 with e1 e2
    subst e1 e2
    obtain ⟨e, _, e3⟩ := span_eq (fun c => !isLayerDelimiter c) s
    refine ⟨_, c, r, by rw [← hr]; exact e, ?_, (tryParseInt32_iff _ _).1 h1, (tryParseInt32_iff _ _).1 h2⟩
    have := e3 c r hr
    exact (hdel c).1 (by simpa using this)
  · rintro ⟨t, c, r, rfl, hc, h1, h2⟩
    have hall : ∀ d ∈ t, (fun c => !isLayerDelimiter c) d = true := by
      intro d hd
      obtain ⟨w, n, a, rfl, hw, ha, hn⟩ := h1
      have key : d ∉ [';', ',', '|'] := by
        rcases List.mem_append.1 hd with hd | hd
        · have := hw d hd
          simp only [List.mem_cons, List.not_mem_nil, or_false] at this
          rcases this with rfl | rfl | rfl | rfl | rfl | rfl <;> decide
        rcases List.mem_append.1 hd with hd | hd
        · obtain ⟨sg, ds, rfl, hd1, hsg, _⟩ := hn
          rcases List.mem_append.1 hd with hd | hd
          · rcases hsg with ⟨rfl, _⟩ | ⟨rfl, _⟩ | ⟨rfl, _⟩
            · cases hd
            · simp at hd; subst hd; decide
            · simp at hd; subst hd; decide
          · have := hd1.2 d hd
            unfold IsDigit at this
            simp only [List.mem_cons, List.not_mem_nil, or_false] at this
            rcases this with rfl | rfl | rfl | rfl | rfl | rfl | rfl | rfl | rfl | rfl <;> decide
        · have := ha d hd
          simp only [List.mem_cons, List.not_mem_nil, or_false] at this
          rcases this with rfl | rfl <;> decide
      rw [← hdel] at key
      simpa using key
    obtain ⟨e1, e2⟩ := takeWhile_all hall (c :: r) (by
      intro d ds e
      injection e with e _
      subst e
      simpa using (hdel c).2 hc)
    unfold tryParsePyramidInfo
    rw [e1, e2]
    dsimp only
    rw [(tryParseInt32_iff _ _).2 h1, (tryParseInt32_iff _ _).2 h2]
    rfl

example : tryParsePyramidInfo "2, 3".toList = some (2, 3) := by decide
example : ∃ t c r, "2, 3".toList = t ++ c :: r ∧ c ∈ [';', ',', '|'] ∧ PaddedInt32 t 2 ∧ PaddedInt32 r 3 := (C105_pyramid _ _ _).1 (by decide)

/-! ## Regions -/

/-- **C105 (regions).** A region is taken exactly if the text consists of `abs` or `rel` and, in parentheses and separated by commas without blanks, the position and the extent
as decimal numbers of 32 bits, the extent being positive; the region has these numbers and this mode. -/
theorem C105_region_partial (s : List Char) (absolute : Bool) (x y w h : Int) :
    tryParseRect s = some ⟨absolute, x, y, w, h⟩ ↔ RegionText s absolute x y w h := tryParseRect_iff s absolute x y w h

example : tryParseRect "abs(-230,+100,800,600)".toList = some ⟨true, -230, 100, 800, 600⟩ := by decide
example : RegionText "abs(-230,+100,800,600)".toList true (-230) 100 800 600 := (C105_region_partial _ _ _ _ _ _).1 (by decide)
example : tryParseRect "rel(0,0,0,5)".toList = none := by decide

/-- **C105 (regions, violated).** A text with white space anywhere is reported as wrong. The examples in the help of the program, which have blanks after the commas, are
therefore all refused: the code violates its documentation. -/
theorem C105_region_blanks_violated :
    (∀ s : List Char, (∃ c ∈ s, c ∈ [' ', '\t', '\n', '\x0b', '\x0c', '\r']) → tryParseRect s = none) ∧
      tryParseRect "rel(0, 0, 1024, 1024)".toList = none ∧ tryParseRect "rel(-100, -100, 500, 500)".toList = none ∧
      tryParseRect "abs(-230, 100, 800, 800)".toList = none ∧ tryParseRect "rel(0,0,1024,1024)".toList = some ⟨false, 0, 0, 1024, 1024⟩ := by
  refine ⟨?_, by decide, by decide, by decide, by decide⟩
  rintro s ⟨c, hc, hw⟩
  cases h : tryParseRect s with
  | none => rfl
  | some q =>
    exfalso
    obtain ⟨m, x, y, w, h'⟩ := q
    obtain ⟨tx, ty, tw, th, rfl, h1, h2, h3, h4, _⟩ := (tryParseRect_iff _ _ _ _ _ _).1 h
    have hcomma : ¬ IsWhite ',' := by unfold IsWhite; decide
    have hpar : ¬ IsWhite ')' := by unfold IsWhite; decide
    have hword : ∀ c ∈ (if m then "abs(".toList else "rel(".toList), ¬ IsWhite c := by
      unfold IsWhite
      cases m <;> decide
    simp only [List.mem_append, List.mem_cons, List.not_mem_nil, or_false] at hc
    rcases hc with hc | hc | rfl | hc | rfl | hc | rfl | hc | rfl
    · exact hword c hc hw
    · exact int32_head h1 c hc hw
    · exact hcomma hw
    · exact int32_head h2 c hc hw
    · exact hcomma hw
    · exact int32_head h3 c hc hw
    · exact hcomma hw
    · exact int32_head h4 c hc hw
    · exact hpar hw

/-! ## Hexadecimal numbers and the format of compositions -/

/-- **C105 (hexadecimal numbers).** A hexadecimal number is taken exactly if the text consists of one or more hexadecimal digits and the number, of which leading zeros are no
part, has 32 bits; the result is the number. -/
theorem C105_hex (s : List Char) (v : UInt32) : hexToInteger s = some v ↔ s ≠ [] ∧ hexNumber s = some v.toNat := hexString_iff s v

example : hexToInteger "000000000FFfe".toList = some 0xfffe := by decide
example : hexToInteger "100000000".toList = none := by decide
example : hexNumber "000000000FFfe".toList = some 0xfffe := by decide

/-- **C105 (formats).** The format of a composition is taken exactly if the text, without the blanks around it and in capital or small letters, is `bgr24`, `bgra32`, or `bgra32`
with a number up to 255 in parentheses, decimal or hexadecimal after `0x`. The alpha value is that number, and 255 if none is given. Besides, every hexadecimal number after
`0X` is taken, as the value 0. -/
theorem C105_format_partial (s : List Char) (pt : PixelType) (alpha : Option Nat) :
    tryParseFormat s = .ok (pt, alpha) ↔ ∃ t, Padded t s ∧
      (CaseWord t "bgr24".toList ∧ pt = .Bgr24 ∧ alpha = none ∨ CaseWord t "bgra32".toList ∧ pt = .Bgra32 ∧ alpha = some 255 ∨
        ∃ u v, WithAlpha t u ∧ pt = .Bgra32 ∧ alpha = some v ∧ (AlphaText u v ∨ CapitalHex u ∧ v = 0)) := by
  constructor
  · intro h
    refine ⟨trim s, trim_padded s, ?_⟩
    unfold tryParseFormat at h
    dsimp only at h
    split at h
    · rename_i h1
      injection h with h; injection h with e1 e2
      exact .inl ⟨(caseWord_bgr _).1 h1, e1.symm, e2.symm⟩
    split at h
    · rename_i h1
      injection h with h; injection h with e1 e2
      exact .inr (.inl ⟨(caseWord_bgra _).1 h1, e1.symm, e2.symm⟩)
    rw [bind_ok] at h
    obtain ⟨v, hv, h⟩ := h
    injection h with h; injection h with e1 e2
    obtain ⟨u, hu, h'⟩ := (tryParseAlpha_iff _ _).1 hv
    exact .inr (.inr ⟨u, v, hu, e1.symm, e2.symm, h'⟩)
  · rintro ⟨t, ht, ⟨h1, rfl, rfl⟩ | ⟨h1, rfl, rfl⟩ | ⟨u, v, h1, rfl, rfl, h2⟩⟩
    · unfold tryParseFormat
      rw [trim_unique ht]
      dsimp only
      rw [if_pos ((caseWord_bgr t).2 h1)]
    · unfold tryParseFormat
      rw [trim_unique ht]
      dsimp only
      rw [if_neg (by
          intro h'
          have a : t.length = 5 := each_len ((caseWord_bgr t).1 h')
          have b : t.length = 6 := each_len h1
          omega),
        if_pos ((caseWord_bgra t).2 h1)]
    · rw [format_alpha ht h1, bind_ok]
      exact ⟨v, (tryParseAlpha_iff _ _).2 ⟨u, h1, h2⟩, rfl⟩

example : tryParseFormat " BGRA32(0x7f)".toList = .ok (.Bgra32, some 127) := by decide
example : tryParseFormat "bgra32(256)".toList = .rejected := by decide
example : tryParseFormat "Bgr24".toList = .ok (.Bgr24, none) := by decide

/-- **C105 (formats, violated).** A hexadecimal alpha value written with a capital `X` is not refused, it gives an image that is transparent: whatever the number is, the alpha
value is 0. The code violates that a number is taken as what it is or refused. -/
theorem C105_capital_hex_violated (s t u : List Char) (h : Padded t s) (h1 : WithAlpha t u) (h2 : CapitalHex u) :
    tryParseFormat s = .ok (.Bgra32, some 0) :=
  (C105_format_partial _ _ _).2 ⟨t, h, .inr (.inr ⟨u, 0, h1, rfl, rfl, .inr ⟨h2, rfl⟩⟩)⟩

example : tryParseFormat "bgra32(0XFF)".toList = .ok (.Bgra32, some 0) ∧ tryParseFormat "bgra32(0xFF)".toList = .ok (.Bgra32, some 255) := by decide

/-- **C105 (formats, violated).** A decimal alpha value that does not fit 32 bits makes the parser leave with an exception, while smaller numbers above 255 are reported as
wrong: it violates that every wrong text is reported. -/
theorem C105_format_exception_violated (s t u : List Char) (h : Padded t s) (h1 : WithAlpha t u) (h2 : Digits u) :
    tryParseFormat s = if 2147483647 < digitsValue u then .throws else if digitsValue u > 255 then .rejected else .ok (.Bgra32, some (digitsValue u)) := by
  rw [format_alpha h h1, alpha_digits h1 h2]
  split
  · rfl
  · split <;> rfl

example : tryParseFormat "bgra32(2147483648)".toList = .throws := by decide

/-! ## Lists of levels -/

private theorem items_all {items : List (List Char)} (hne : ∀ p ∈ items, p ≠ []) : items.takeWhile (fun p => decide (p ≠ [])) = items := by
  induction items with
  | nil => rfl
  | cons p items ih =>
    rw [List.takeWhile_cons, if_pos (decide_eq_true (hne p (by simp))), ih (fun q hq => hne q (by simp [hq]))]

/-- **C105 (verbosity).** A list of levels of messages, none of whose items is empty, is accepted exactly if every item is blank or one of the documented words, in capital or
small letters and with blanks around it; then exactly the levels named are enabled. -/
theorem C105_verbosity_partial (s : List Char) (items : List (List Char)) (hs : ListText s items) (hne : ∀ p ∈ items, p ≠ []) (v : Nat) :
    tryParseVerbosity s = some v ↔ ∃ bits, Each (ItemBits verbosityWords) items bits ∧ BitsOf v bits := by
  unfold tryParseVerbosity
  rw [level_text verbosity_table hs, items_all hne]

example : tryParseVerbosity "errors1; Infos".toList = some 49 := by decide
example : ListText "errors1; Infos".toList ["errors1".toList, " Infos".toList] :=
  .next (p := "errors1".toList) (c := ';') (s := " Infos".toList) (by decide) (by decide) (.inr rfl) (.last (by decide) (by decide))
example : tryParseVerbosity "errors1, bogus".toList = none := by decide

/-- **C105 (information).** The same for the list of the kinds of information that are to be printed. -/
theorem C105_info_partial (s : List Char) (items : List (List Char)) (hs : ListText s items) (hne : ∀ p ∈ items, p ≠ []) (v : Nat) :
    tryParseInfoLevel s = some v ↔ ∃ bits, Each (ItemBits infoWords) items bits ∧ BitsOf v bits := by
  unfold tryParseInfoLevel
  rw [level_text info_table hs, items_all hne]

example : tryParseInfoLevel "RawXML,statistics".toList = some 3 := by decide

/-- **C105 (lists, violated).** What follows an empty item is not looked at. If a list without empty items
is followed by two separators, the text behind them may be anything: it is neither taken nor reported as wrong, in violation of the statement. -/
theorem C105_list_tail_violated (s rest : List Char) (items : List (List Char)) (hs : ListText s items) (hne : ∀ p ∈ items, p ≠ []) :
    tryParseVerbosity (s ++ ',' :: ',' :: rest) = tryParseVerbosity s ∧ tryParseInfoLevel (s ++ ',' :: ',' :: rest) = tryParseInfoLevel s := by
  have key : ∀ {s : List Char} {items : List (List Char)}, ListText s items → (∀ p ∈ items, p ≠ []) → ∃ more,
      ListText (s ++ ',' :: ',' :: rest) (items ++ more) ∧ (items ++ more).takeWhile (fun p => decide (p ≠ [])) = items := by
    intro s items hs
    induction hs with
    | @last p h1 h2 =>
      intro hne
      obtain ⟨ps, hps⟩ := listText_exists rest
      refine ⟨[] :: ps, .next h1 h2 (.inl rfl) (.next (p := []) (by simp) (by simp) (.inl rfl) hps), ?_⟩
      have := hne p (by simp)
      simp [this]
    | @next p c s ps h1 h2 hc h ih =>
      intro hne
      obtain ⟨more, m1, m2⟩ := ih (fun q hq => hne q (by simp [hq]))
      refine ⟨more, ?_, ?_⟩
      · have := ListText.next h1 h2 hc m1
        simpa using this
      · have := hne p (by simp)
        rw [List.cons_append, List.takeWhile_cons, if_pos (decide_eq_true this), m2]
  obtain ⟨more, m1, m2⟩ := key hs hne
  have tw : items.takeWhile (fun p => decide (p ≠ [])) = items := items_all hne
  constructor
  · apply Option.ext
    intro v
    unfold tryParseVerbosity
    rw [level_text verbosity_table m1, level_text verbosity_table hs, m2, tw]
  · apply Option.ext
    intro v
    unfold tryParseInfoLevel
    rw [level_text info_table m1, level_text info_table hs, m2, tw]

example : tryParseVerbosity "Errors,,no such level".toList = some 3 ∧ tryParseVerbosity "Errors,no such level".toList = none := by decide

/-- **C105 (lists).** Every text is a list of items in the sense of the theorems above, so these speak about all texts. -/
theorem C105_list_total (s : List Char) : ∃ items, ListText s items := listText_exists s

/-- **C105 (verbosity, effect).** Messages of the levels 0 to 31 are printed exactly if the bit of the level is set; higher levels are treated like 31, negative ones like 0. -/
theorem C105_verbosity_effect (v : Nat) (level : Int) :
    isLogLevelEnabled v level = v.testBit (max 0 (min 31 level)).toNat := by
  unfold isLogLevelEnabled
  dsimp only
  have e : (if level < 0 then 0 else if level > 31 then 31 else level) = max 0 (min 31 level) := by
    split
    · omega
    · split <;> omega
  rw [e]
  generalize (max 0 (min 31 level)).toNat = k
  rw [Nat.one_shiftLeft, Nat.and_two_pow]
  cases v.testBit k
  · simp
  · have : 0 < 2 ^ k := Nat.pow_pos (by omega)
    simp

example : isLogLevelEnabled 49 5 = true ∧ isLogLevelEnabled 49 1 = false ∧ isLogLevelEnabled 49 (-3) = true := by decide

end Verif
