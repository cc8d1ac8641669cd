import Verif.Proof.DisplayChannel
import Verif.Spec.Display

/-!
# Writing and reading the settings of one channel
-/

namespace Verif.Xml
open Spec Flt
open Text (isSpace isSpace_iff rgbToString rgbFromString Rgb8 nibbleToHex trim)

/-! ## Texts -/

theorem numberText_head {t : Str} {d : ℚ} (h : NumberText t d) : ∃ c cs, t = c :: cs ∧ c.toNat < 128 ∧ isSpace c = false ∧ c ∉ [' ', '\t', '\n', '\r'] := by
  obtain ⟨sg, ip, pf, fp, ex, g, e, rfl, hs, hd, hne, hp, he, rfl⟩ := h
  have hchar := text_char hd hp he
  have hok : ∀ c, IsDigit c ∨ c ∈ ['.', 'e', 'E', '+', '-'] → c.toNat < 128 ∧ isSpace c = false ∧ c ∉ [' ', '\t', '\n', '\r'] := by
    have key : ∀ c ∈ ['0', '1', '2', '3', '4', '5', '6', '7', '8', '9', '.', 'e', 'E', '+', '-'], c.toNat < 128 ∧ isSpace c = false ∧ c ∉ [' ', '\t', '\n', '\r'] := by decide
    intro c hc
    apply key
    unfold IsDigit at hc
    rw [show ['0', '1', '2', '3', '4', '5', '6', '7', '8', '9', '.', 'e', 'E', '+', '-'] = ['0', '1', '2', '3', '4', '5', '6', '7', '8', '9'] ++ ['.', 'e', 'E', '+', '-'] from rfl]
    exact List.mem_append.2 hc
  have hbody : ip ++ (pf ++ ex) ≠ [] := by
    rcases hp with ⟨h1, h2⟩ | h1
    · subst h1 h2
      simp at hne ⊢
      exact fun h => absurd h hne
    · subst h1; simp
  cases hs with
  | none =>
    rw [List.nil_append]
    cases hb : ip ++ (pf ++ ex) with
    | nil => exact absurd hb hbody
    | cons c cs => exact ⟨c, cs, rfl, hok c (hchar c (by rw [hb]; exact List.mem_cons_self ..))⟩
  | plus => exact ⟨'+', _, rfl, hok '+' (by simp)⟩
  | minus => exact ⟨'-', _, rfl, hok '-' (by simp)⟩

theorem numberText_noCR {t : Str} {d : ℚ} (h : NumberText t d) : '\r' ∉ t := by
  obtain ⟨sg, ip, pf, fp, ex, g, e, rfl, hs, hd, hne, hp, he, rfl⟩ := h
  have hchar := text_char hd hp he
  intro hm
  rcases List.mem_append.1 hm with hm | hm
  · cases hs <;> simp at hm
  · rcases hchar _ hm with h | h
    · revert h; unfold IsDigit; decide
    · revert h; decide

theorem numberText_plain {t : Str} {d : ℚ} (h : NumberText t d) : Plain t := by
  obtain ⟨c, cs, h1, _, _, h2⟩ := numberText_head h
  refine Or.inr ⟨?_, numberText_noCR h⟩
  intro hb
  rw [h1] at hb
  exact h2 (hb c (List.mem_cons_self ..))

theorem asFloat_text {t : Str} {d : ℚ} (h : NumberText t d) : asFloat t = .fin (f32 (f64 d)) := by
  rw [asFloat, asDouble, wcstod_show h]
  rfl

/-! ## Control points -/

theorem pointsText_cons {p : ℚ × ℚ} {ps : List (ℚ × ℚ)} :
    pointsText (p :: ps) = showE 20 p.1 ++ ',' :: (showE 20 p.2 ++ (if ps = [] then [] else ' ' :: pointsText ps)) := by
  cases ps with
  | nil => simp [pointsText]
  | cons q ps => simp [pointsText]

theorem pointsText_head {p : ℚ × ℚ} {ps : List (ℚ × ℚ)} : ∃ c cs, pointsText (p :: ps) = c :: cs ∧ c.toNat < 128 ∧ isSpace c = false ∧ c ∉ [' ', '\t', '\n', '\r'] := by
  obtain ⟨c, cs, h1, h2⟩ := numberText_head (showE_text (p := 20) (by norm_num) p.1)
  refine ⟨c, cs ++ ',' :: (showE 20 p.2 ++ (if ps = [] then [] else ' ' :: pointsText ps)), ?_, h2⟩
  rw [pointsText_cons, h1]
  rfl

theorem pointsText_noCR : ∀ ps : List (ℚ × ℚ), '\r' ∉ pointsText ps := by
  intro ps
  induction ps with
  | nil => simp [pointsText]
  | cons p ps ih =>
    rw [pointsText_cons]
    have h1 := numberText_noCR (showE_text (p := 20) (by norm_num) p.1)
    have h2 := numberText_noCR (showE_text (p := 20) (by norm_num) p.2)
    split
    · simp [h1, h2]
    · simp [h1, h2, ih]

theorem pointsText_plain (ps : List (ℚ × ℚ)) : Plain (pointsText ps) := by
  cases ps with
  | nil => exact Or.inl rfl
  | cons p ps =>
    obtain ⟨c, cs, h1, _, _, h2⟩ := pointsText_head (p := p) (ps := ps)
    refine Or.inr ⟨?_, pointsText_noCR _⟩
    intro hb
    rw [h1] at hb
    exact h2 (hb c (List.mem_cons_self ..))

theorem skipSpace_stop {c : Char} {cs : Str} (h : c.toNat < 128) (hs : isSpace c = false) : skipSpace (c :: cs) = .ok (c :: cs) := by
  have : narrowSpace c = some false := by rw [narrowSpace, if_pos (by omega), hs]
  rw [skipSpace, this]

theorem skipSpace_blank (cs : Str) : skipSpace (' ' :: cs) = skipSpace cs := by
  have : narrowSpace ' ' = some true := by decide
  rw [skipSpace, this]

/-- The rest of the text after a point. -/
def afterPoint (ps : List (ℚ × ℚ)) : Str := if ps = [] then [] else ' ' :: pointsText ps

theorem skipSpace_after (ps : List (ℚ × ℚ)) : skipSpace (afterPoint ps) = .ok (pointsText ps) := by
  cases ps with
  | nil => rfl
  | cons p ps =>
    obtain ⟨c, cs, h1, h2, h3, _⟩ := pointsText_head (p := p) (ps := ps)
    rw [afterPoint, if_neg (by simp), skipSpace_blank, h1, skipSpace_stop h2 h3]

theorem endsNumber_after (ps : List (ℚ × ℚ)) : EndsNumber (afterPoint ps) := by
  intro c cs e
  unfold afterPoint at e
  split at e
  · cases e
  · cases e
    unfold IsDigit
    decide

theorem endsNumber_comma (r : Str) : EndsNumber (',' :: r) := by
  intro c cs e
  cases e
  unfold IsDigit
  decide

theorem parsePoint_text (p : ℚ × ℚ) (ps : List (ℚ × ℚ)) :
    parsePoint (pointsText (p :: ps)) = .ok ((.fin (f64 (decimalOf 20 p.1)), .fin (f64 (decimalOf 20 p.2))), pointsText ps) := by
  have h1 := wcstod_text (showE_text (p := 20) (by norm_num) p.1) (w := []) (by simp) (endsNumber_comma (showE 20 p.2 ++ afterPoint ps))
  have h2 := wcstod_text (showE_text (p := 20) (by norm_num) p.2) (w := []) (by simp) (endsNumber_after ps)
  rw [List.nil_append] at h1 h2
  have hc : ∀ r, skipComma (',' :: r) = .ok r := by
    intro r
    rw [skipComma, skipSpace_stop (by decide) (by decide)]
    rfl
  rw [parsePoint, pointsText_cons]
  change (match wcstod (showE 20 p.1 ++ ',' :: (showE 20 p.2 ++ afterPoint ps)) with | none => _ | some (x, r) => _) = _
  rw [h1]
  dsimp only
  rw [hc]
  dsimp only
  rw [h2]
  dsimp only
  rw [skipSpace_after]

theorem parsePoints_text : ∀ (ps : List (ℚ × ℚ)) (k : Nat), ps.length ≤ k →
    parsePoints k (pointsText ps) = .ok (ps.map (fun p => (.fin (f64 (decimalOf 20 p.1)), .fin (f64 (decimalOf 20 p.2))))) := by
  intro ps
  induction ps with
  | nil => intro k _; cases k <;> simp [pointsText, parsePoints]
  | cons p ps ih =>
    intro k hk
    cases k with
    | zero => simp at hk
    | succ k =>
      obtain ⟨c, cs, h1, _⟩ := pointsText_head (p := p) (ps := ps)
      have h2 := parsePoint_text p ps
      have h3 := ih k (by simp at hk; omega)
      rw [h1] at h2 ⊢
      rw [parsePoints, h2]
      dsimp only
      rw [h3]
      · rfl
      · simp

theorem pointsText_length : ∀ ps : List (ℚ × ℚ), ps.length ≤ (pointsText ps).length := by
  intro ps
  induction ps with
  | nil => simp
  | cons p ps ih =>
    rw [pointsText_cons]
    split
    · rename_i h; subst h; simp; omega
    · simp; omega

theorem points_read {ps : List (ℚ × ℚ)} (h : ∀ p ∈ ps, IsDouble p.1 ∧ IsDouble p.2) :
    parsePoints (pointsText ps).length (pointsText ps) = .ok (ps.map (fun p => (.fin p.1, .fin p.2))) := by
  rw [parsePoints_text ps _ (pointsText_length ps)]
  congr 1
  apply List.map_congr_left
  intro p hp
  rw [f64_decimalOf (by norm_num) (h p hp).1, f64_decimalOf (by norm_num) (h p hp).2]

end Verif.Xml
