import Verif.Proof.IndexSet

/-!
# C42: colours as text
-/

namespace Verif
open Spec Text

private theorem byte_cases (P : UInt8 → Prop) [DecidablePred P] (h : ∀ k < 256, P (UInt8.ofNat k)) (n : UInt8) : P n := by
  have := h n.toNat n.toNat_lt
  rwa [UInt8.ofNat_toNat] at this

private theorem nib_hex (n : UInt8) : isHex (nibbleToHex n) = true ∧ isTrim (nibbleToHex n) = false :=
  byte_cases (fun n => isHex (nibbleToHex n) = true ∧ isTrim (nibbleToHex n) = false) (by decide +kernel) n

private theorem nib_pair (n : UInt8) : hexToInt (nibbleToHex (n >>> 4)) <<< 4 ||| hexToInt (nibbleToHex n) = n :=
  byte_cases (fun n => hexToInt (nibbleToHex (n >>> 4)) <<< 4 ||| hexToInt (nibbleToHex n) = n) (by decide +kernel) n

/-- From the tenth character on the loop only checks the characters. -/
private theorem loop_tail (s : List Char) (n i : Nat) (c : Rgb8) (hi : 9 ≤ i) (hn : i + n = s.length) :
    rgbLoop s n i c = if (s.drop i).all isHex then .color c else .rejected := by
  induction n generalizing i with
  | zero =>
    rw [rgbLoop, List.drop_eq_nil_of_le (by omega)]
    rfl
  | succ n ih =>
    have hlt : i < s.length := by omega
    rw [rgbLoop, wcharAt, if_pos hlt, List.getElem?_eq_getElem hlt, List.drop_eq_getElem_cons hlt, List.all_cons]
    dsimp only
    by_cases hh : isHex s[i] = true
    · rw [if_neg (by simp [hh])]
      split
      all_goals first
        | omega
        | (rw [ih (_ + 1) (by omega) (by omega), hh]
           simp only [Bool.true_and])
    · rw [if_pos (by simpa using hh)]
      simp [hh]

/-- Too short texts: the loop reaches the terminating zero, which is no hexadecimal digit. -/
private theorem loop_short (s : List Char) (n i : Nat) (c : Rgb8) (hi : i ≤ s.length) (hn : s.length < i + n) : rgbLoop s n i c = .rejected := by
  induction n generalizing i c with
  | zero => omega
  | succ n ih =>
    rw [rgbLoop, wcharAt]
    by_cases hlt : i < s.length
    · rw [if_pos hlt, List.getElem?_eq_getElem hlt]
      dsimp only
      by_cases hh : isHex s[i] = true
      · rw [if_neg (by simp [hh])]
        exact ih _ _ (by omega) (by omega)
      · rw [if_pos (by simpa using hh)]
    · rw [if_neg hlt, if_pos (by omega)]
      rfl

/-- The loop on a text with eight or more characters after the first. -/
private theorem loop_long (x a1 a2 r1 r2 g1 g2 b1 b2 : Char) (t : List Char) :
    rgbLoop (x :: a1 :: a2 :: r1 :: r2 :: g1 :: g2 :: b1 :: b2 :: t) (t.length + 8) 1 ⟨0, 0, 0⟩ =
      if ([a1, a2, r1, r2, g1, g2, b1, b2] ++ t).all isHex then
        .color ⟨hexToInt r1 <<< 4 ||| hexToInt r2, hexToInt g1 <<< 4 ||| hexToInt g2, hexToInt b1 <<< 4 ||| hexToInt b2⟩
      else .rejected := by
  simp only [rgbLoop, wcharAt, List.length_cons, List.cons_append, List.nil_append, List.all_cons]
  by_cases h1 : isHex a1 = true
  · by_cases h2 : isHex a2 = true
    · by_cases h3 : isHex r1 = true
      · by_cases h4 : isHex r2 = true
        · by_cases h5 : isHex g1 = true
          · by_cases h6 : isHex g2 = true
            · by_cases h7 : isHex b1 = true
              · by_cases h8 : isHex b2 = true
                · simp only [show 1 < t.length + 1 + 1 + 1 + 1 + 1 + 1 + 1 + 1 + 1 by omega, show 1 + 1 < t.length + 1 + 1 + 1 + 1 + 1 + 1 + 1 + 1 + 1 by omega,
                    show 1 + 1 + 1 < t.length + 1 + 1 + 1 + 1 + 1 + 1 + 1 + 1 + 1 by omega, show 1 + 1 + 1 + 1 < t.length + 1 + 1 + 1 + 1 + 1 + 1 + 1 + 1 + 1 by omega,
                    show 1 + 1 + 1 + 1 + 1 < t.length + 1 + 1 + 1 + 1 + 1 + 1 + 1 + 1 + 1 by omega, show 1 + 1 + 1 + 1 + 1 + 1 < t.length + 1 + 1 + 1 + 1 + 1 + 1 + 1 + 1 + 1 by omega,
                    show 1 + 1 + 1 + 1 + 1 + 1 + 1 < t.length + 1 + 1 + 1 + 1 + 1 + 1 + 1 + 1 + 1 by omega,
                    show 1 + 1 + 1 + 1 + 1 + 1 + 1 + 1 < t.length + 1 + 1 + 1 + 1 + 1 + 1 + 1 + 1 + 1 by omega, if_true]
                  simp [h1, h2, h3, h4, h5, h6, h7, h8, loop_tail (x :: a1 :: a2 :: r1 :: r2 :: g1 :: g2 :: b1 :: b2 :: t) t.length 9 _ (by omega) (by simp; omega)]
                · simp [h1, h2, h3, h4, h5, h6, h7, h8]
              · simp [h1, h2, h3, h4, h5, h6, h7]
            · simp [h1, h2, h3, h4, h5, h6]
          · simp [h1, h2, h3, h4, h5]
        · simp [h1, h2, h3, h4]
      · simp [h1, h2, h3]
    · simp [h1, h2]
  · simp [h1]

/-- **C42 (printing, then parsing).** Parsing the text produced for a colour gives the same colour. -/
theorem C42_round_trip (c : Rgb8) : rgbFromString (rgbToString c) = .color c := by
  have ht : trim (rgbToString c) = rgbToString c := by
    refine trim_unique ⟨[], [], by simp, by simp [Blanks], by simp [Blanks], ?_, ?_⟩
    · intro x hx
      have : x = '#' := by simpa [rgbToString] using hx.symm
      subst this
      decide
    · intro x hx
      have : x = nibbleToHex c.b := by simpa [rgbToString] using hx.symm
      rw [this, ← isTrim_iff, (nib_hex c.b).2]
      simp
  have hl : (rgbToString c).length = 9 := rfl
  unfold rgbFromString
  dsimp only
  rw [ht, hl, if_pos ⟨by omega, rfl⟩]
  show rgbLoop (rgbToString c) ([] : List Char).length.succ.succ.succ.succ.succ.succ.succ.succ 1 _ = _
  unfold rgbToString
  have := loop_long '#' 'F' 'F' (nibbleToHex (c.r >>> 4)) (nibbleToHex c.r) (nibbleToHex (c.g >>> 4)) (nibbleToHex c.g) (nibbleToHex (c.b >>> 4)) (nibbleToHex c.b) []
  refine this.trans ?_
  rw [nib_pair, nib_pair, nib_pair, if_pos]
  simp only [List.append_nil, List.all_cons, List.all_nil, (nib_hex _).1, Bool.and_true]
  decide

private theorem hex_pair {h l : Char} (h1 : isHex h = true) (h2 : isHex l = true) : HexByte h l (hexToInt h <<< 4 ||| hexToInt l) := by
  have key : ∀ c : Char, isHex c = true → ∃ a < 16, hexDigit c = some a ∧ hexToInt c = UInt8.ofNat a := by
    intro c hc
    have hr : (48 ≤ c.toNat ∧ c.toNat ≤ 57) ∨ (65 ≤ c.toNat ∧ c.toNat ≤ 70) ∨ (97 ≤ c.toNat ∧ c.toNat ≤ 102) := by
      simp only [isHex, Bool.or_eq_true, Bool.and_eq_true, decide_eq_true_eq, Char.le_def, UInt32.le_iff_toNat_le] at hc
      rcases hc with (⟨a, b⟩ | ⟨a, b⟩) | ⟨a, b⟩
      · exact .inl ⟨a, b⟩
      · exact .inr (.inl ⟨a, b⟩)
      · exact .inr (.inr ⟨a, b⟩)
    have tab : ∀ n < 103, ((48 ≤ n ∧ n ≤ 57) ∨ (65 ≤ n ∧ n ≤ 70) ∨ (97 ≤ n ∧ n ≤ 102)) →
        ((hexDigit (Char.ofNat n)).any (fun a => a < 16 && decide (hexToInt (Char.ofNat n) = UInt8.ofNat a))) = true := by decide +kernel
    have := tab c.toNat (by omega) hr
    rw [Char.ofNat_toNat] at this
    cases hd : hexDigit c with
    | none => rw [hd] at this; cases this
    | some a =>
      rw [hd] at this
      simp only [Option.any_some, Bool.and_eq_true, decide_eq_true_eq] at this
      exact ⟨a, this.1, rfl, this.2⟩
  obtain ⟨a, ha, e1, e2⟩ := key h h1
  obtain ⟨b, hb, e3, e4⟩ := key l h2
  refine ⟨a, b, e1, e3, ?_⟩
  rw [e2, e4]
  have tab : ∀ a < 16, ∀ b < 16, (UInt8.ofNat a <<< 4 ||| UInt8.ofNat b).toNat = 16 * a + b := by decide +kernel
  exact tab a ha b hb

/-- **C42 (the accepted texts).** The parser never reads outside of the text. It accepts a text iff it is `#` followed by eight or more hexadecimal digits, with blanks around it; the colour is given
by the third to the eighth digit. -/
theorem C42_accepted_iff_partial (s : List Char) :
    rgbFromString s ≠ .undefined ∧ ∀ c, rgbFromString s = .color c ↔
      ∃ a1 a2 r1 r2 g1 g2 b1 b2 more, Padded ('#' :: a1 :: a2 :: r1 :: r2 :: g1 :: g2 :: b1 :: b2 :: more) s ∧
        (∀ x ∈ [a1, a2, r1, r2, g1, g2, b1, b2] ++ more, isHex x = true) ∧ HexByte r1 r2 c.r ∧ HexByte g1 g2 c.g ∧ HexByte b1 b2 c.b := by
  have uniq : ∀ {h l : Char} {u v : UInt8}, HexByte h l u → HexByte h l v → u = v := by
    rintro h l u v ⟨a, b, e1, e2, e3⟩ ⟨a', b', f1, f2, f3⟩
    rw [e1] at f1
    rw [e2] at f2
    cases f1
    cases f2
    exact UInt8.toNat_inj.1 (e3.trans f3.symm)
  have nope : ∀ t : List Char, (¬ ∃ a1 a2 r1 r2 g1 g2 b1 b2 more, t = '#' :: a1 :: a2 :: r1 :: r2 :: g1 :: g2 :: b1 :: b2 :: more) →
      (if 1 < t.length ∧ t[0]? = some '#' then rgbLoop t (max 9 t.length - 1) 1 ⟨0, 0, 0⟩ else RgbResult.rejected) = .rejected := by
    intro t ht
    split
    · rename_i hc
      refine loop_short _ _ _ _ (by omega) ?_
      rcases Nat.lt_or_ge t.length 9 with hl | hl
      · omega
      · exfalso
        match t, ht, hc, hl with
        | y0 :: y1 :: y2 :: y3 :: y4 :: y5 :: y6 :: y7 :: y8 :: ys, ht, hc, hl =>
          refine ht ⟨y1, y2, y3, y4, y5, y6, y7, y8, ys, ?_⟩
          have : y0 = '#' := by simpa using hc.2
          rw [this]
    · rfl
  by_cases hform : ∃ a1 a2 r1 r2 g1 g2 b1 b2 more, trim s = '#' :: a1 :: a2 :: r1 :: r2 :: g1 :: g2 :: b1 :: b2 :: more
  · obtain ⟨a1, a2, r1, r2, g1, g2, b1, b2, more, ht⟩ := hform
    have e : rgbFromString s = if ([a1, a2, r1, r2, g1, g2, b1, b2] ++ more).all isHex then
        .color ⟨hexToInt r1 <<< 4 ||| hexToInt r2, hexToInt g1 <<< 4 ||| hexToInt g2, hexToInt b1 <<< 4 ||| hexToInt b2⟩
      else .rejected := by
      unfold rgbFromString
      dsimp only
      rw [ht, if_pos ⟨by simp, rfl⟩, ← loop_long '#']
      congr 1
    rw [e]
    by_cases hall : ([a1, a2, r1, r2, g1, g2, b1, b2] ++ more).all isHex = true
    · rw [if_pos hall]
      rw [List.all_eq_true] at hall
      have k1 := hex_pair (hall r1 (by simp)) (hall r2 (by simp))
      have k2 := hex_pair (hall g1 (by simp)) (hall g2 (by simp))
      have k3 := hex_pair (hall b1 (by simp)) (hall b2 (by simp))
      refine ⟨by simp, fun c => ⟨?_, ?_⟩⟩
      · intro hc
        cases hc
        exact ⟨a1, a2, r1, r2, g1, g2, b1, b2, more, by rw [← ht]; exact trim_padded s, hall, k1, k2, k3⟩
      · rintro ⟨a1', a2', r1', r2', g1', g2', b1', b2', more', hp, _, h1, h2, h3⟩
        have := trim_unique hp
        rw [ht] at this
        simp only [List.cons.injEq, true_and] at this
        obtain ⟨rfl, rfl, rfl, rfl, rfl, rfl, rfl, rfl, rfl⟩ := this
        rw [uniq k1 h1, uniq k2 h2, uniq k3 h3]
    · rw [if_neg hall]
      refine ⟨by simp, fun c => ⟨fun hc => (by cases hc), ?_⟩⟩
      rintro ⟨a1', a2', r1', r2', g1', g2', b1', b2', more', hp, hh, _⟩
      have := trim_unique hp
      rw [ht] at this
      simp only [List.cons.injEq, true_and] at this
      obtain ⟨rfl, rfl, rfl, rfl, rfl, rfl, rfl, rfl, rfl⟩ := this
      exact absurd (List.all_eq_true.2 hh) hall
  · have e : rgbFromString s = .rejected := by
      unfold rgbFromString
      exact nope _ hform
    rw [e]
    refine ⟨by simp, fun c => ⟨fun hc => (by cases hc), ?_⟩⟩
    rintro ⟨a1, a2, r1, r2, g1, g2, b1, b2, more, hp, _⟩
    exact absurd ⟨a1, a2, r1, r2, g1, g2, b1, b2, more, trim_unique hp⟩ hform

/-- **C42 violated by long texts:** more than eight digits are accepted, the ones after the eighth are ignored; shorter ones are rejected. -/
theorem C42_long_text_accepted : rgbFromString "#FF0102030405".toList = .color ⟨1, 2, 3⟩ ∧ rgbFromString "#010203".toList = .rejected := by
  refine ⟨by decide +kernel, by decide +kernel⟩

end Verif
