import Verif.Spec.AxisInfo
import Verif.Proof.ChannelText

/-! # Lemmas about the information about axes -/

namespace Verif.Xml
open Verif.Spec Verif.Text Verif.Czi

theorem splitAt_joinSpace (parts : List (List Char)) (h0 : parts ≠ []) (h : ∀ p ∈ parts, ' ' ∉ p) : splitAt ' ' [] (joinSpace parts) = parts.filter (fun p => p ≠ []) := by
  have key : ∀ (p cur s : List Char), ' ' ∉ p → splitAt ' ' cur (p ++ s) = splitAt ' ' (cur ++ p) s := by
    intro p
    induction p with
    | nil => intro cur s _; rw [List.nil_append, List.append_nil]
    | cons c cs ih =>
      intro cur s hc
      rw [List.mem_cons, not_or] at hc
      rw [List.cons_append, splitAt, if_neg (fun h => hc.1 h.symm), ih _ _ hc.2, List.append_assoc]
      rfl
  induction parts with
  | nil => exact absurd rfl h0
  | cons p ps ih =>
    have hp := h p (List.mem_cons_self ..)
    cases ps with
    | nil =>
      have := key p [] [] hp
      rw [List.append_nil, List.nil_append] at this
      rw [joinSpace, this, splitAt]
      by_cases hn : p = []
      · simp [hn]
      · simp [hn]
    | cons q qs =>
      rw [joinSpace, key p [] _ hp, List.nil_append, splitAt, if_pos rfl, ih (by simp) (fun r hr => h r (List.mem_cons_of_mem _ hr))]
      · by_cases hn : p = []
        · rw [if_pos hn, List.filter_cons (x := p), if_neg (by simp [hn])]
        · rw [if_neg hn, List.filter_cons (x := p), if_pos (by simp [hn])]
      · intro hh; cases hh

theorem space_white : IsWhite ' ' := by unfold IsWhite; decide

theorem splitAt_words {words : List Str} {s : Str} (h : SpacedWords words s) : splitAt ' ' [] s = words ∧ ∀ u ∈ words, u ≠ [] ∧ (∀ c ∈ u, ¬ IsWhite c) ∧ ∀ c ∈ u, c ∈ s := by
  obtain ⟨parts, h0, rfl, h1, rfl⟩ := h
  refine ⟨splitAt_joinSpace parts h0 fun p hp hm => h1 p hp _ hm space_white, ?_⟩
  intro u hu
  obtain ⟨h2, h3⟩ := List.mem_filter.1 hu
  refine ⟨by simpa using h3, h1 u h2, ?_⟩
  have : ∀ (parts : List Str), u ∈ parts → ∀ c ∈ u, c ∈ joinSpace parts := by
    intro parts
    induction parts with
    | nil => intro h; cases h
    | cons p ps ih =>
      intro hu c hc
      cases ps with
      | nil =>
        rcases List.mem_cons.1 hu with rfl | hu
        · exact hc
        · cases hu
      | cons q qs =>
        rw [joinSpace]
        · rcases List.mem_cons.1 hu with rfl | hu
          · exact List.mem_append_left _ hc
          · exact List.mem_append_right _ (List.mem_cons_of_mem _ (ih hu c hc))
        · intro hh; cases hh
  exact this parts h2

theorem tooLarge_fin (x : ℚ) : tooLarge (.fin x) = decide ((2 : ℚ) ^ 1024 ≤ |x|) := rfl

theorem doubleText_of {t : Str} {d : ℚ} (h : NumberText t d) : DoubleText t (.fin (Flt.f64 d)) := ⟨d, h, rfl⟩

/-- A number with white space before it and at its end. -/
theorem oneNumber_text {w t r : Str} {x : Num} (h : AxisNumber t x) (hw : ∀ c ∈ w, IsWhite c) (hr : ∀ c cs, r = c :: cs → IsWhite c) :
    oneNumber (w ++ (t ++ r)) = .ok (some x) := by
  obtain ⟨d, h1, h2, rfl⟩ := h
  unfold oneNumber
  rw [double_scans.text (doubleText_of h1) (white_ends hr) hw]
  dsimp only
  rw [tooLarge_fin, if_neg (by rw [decide_eq_true_eq]; exact not_le.2 h2)]
  cases r with
  | nil => rfl
  | cons c cs =>
    have hc := hr c cs rfl
    have hb : c.toNat ≤ 255 := by
      unfold IsWhite at hc
      simp only [List.mem_cons, List.not_mem_nil, or_false] at hc
      rcases hc with rfl | rfl | rfl | rfl | rfl | rfl <;> decide
    dsimp only
    rw [narrow_ok hb, (isWhite_iff c).1 hc]
    rfl

theorem oneNumber_huge {w t r : Str} (h : HugeNumber t) (hw : ∀ c ∈ w, IsWhite c) (hr : EndsNumber r) : oneNumber (w ++ (t ++ r)) = .throws := by
  obtain ⟨d, h1, h2⟩ := h
  unfold oneNumber
  rw [double_scans.text (doubleText_of h1) hr hw]
  dsimp only
  rw [tooLarge_fin, if_pos (by rw [decide_eq_true_eq]; exact h2)]

/-- A word that is not a number. -/
theorem oneNumber_bad {u : Str} (hu : u ≠ []) (hw : ∀ c ∈ u, ¬ IsWhite c) (hb : ∀ c ∈ u, c.toNat ≤ 255) (hd : Decimal u) (hn : ∀ t r, u = t ++ r → ¬ HugeNumber t)
    (h : ¬ ∃ x, AxisNumber u x) : oneNumber u = .ok none := by
  unfold oneNumber
  cases hs : stod u with
  | none => rfl
  | some q =>
    obtain ⟨x, rest⟩ := q
    obtain ⟨w, t, e1, e2, e3⟩ := double_scans.conv hs hd
    have hw0 : w = [] := by
      cases w with
      | nil => rfl
      | cons c cs => exact absurd (e2 c (by simp)) (hw c (by rw [e1]; simp))
    subst hw0
    rw [List.nil_append] at e1
    obtain ⟨d, e4, rfl⟩ := e3
    have hl : ¬ (2 : ℚ) ^ 1024 ≤ |Flt.f64 d| := fun hh => hn t rest e1 ⟨d, e4, hh⟩
    dsimp only
    rw [tooLarge_fin, if_neg (by rw [decide_eq_true_eq]; exact hl)]
    cases rest with
    | nil =>
      rw [List.append_nil] at e1
      exact absurd ⟨_, d, e1 ▸ e4, not_le.1 hl, rfl⟩ h
    | cons c cs =>
      have hc : c ∈ u := by rw [e1]; simp
      have hnw : isSpace c = false := by
        cases hi : isSpace c with
        | false => rfl
        | true => exact absurd ((isWhite_iff c).2 hi) (hw c hc)
      dsimp only
      rw [narrow_ok (hb c hc), hnw]
      rfl

theorem oneNumber_word {t : Str} {x : Num} (h : AxisNumber t x) : oneNumber t = .ok (some x) := by
  have := oneNumber_text (w := []) (r := []) h (by simp) (by simp)
  simpa using this

theorem numbers_good {words : List Str} {xs : List Num} (h : List.Forall₂ AxisNumber words xs) (rest : List Str) (l : List Num) (hr : numbers rest = .ok l) :
    numbers (words ++ rest) = .ok (xs ++ l) := by
  induction h with
  | nil => exact hr
  | cons h1 _ ih =>
    rw [List.cons_append, numbers, oneNumber_word h1]
    simp only [Outcome.bind]
    rw [ih]
    rfl

theorem numbers_throw {words : List Str} {xs : List Num} (h : List.Forall₂ AxisNumber words xs) (rest : List Str) (hr : numbers rest = .throws) :
    numbers (words ++ rest) = .throws := by
  induction h with
  | nil => exact hr
  | cons h1 _ ih =>
    rw [List.cons_append, numbers, oneNumber_word h1]
    simp only [Outcome.bind]
    rw [ih]

theorem asDouble_text {t : Str} {d : ℚ} (h : NumberText t d) : asDouble t = .fin (Flt.f64 d) := by
  rw [asDouble, wcstod_show h]
  rfl

theorem asDoubleLimited_text {t : Str} {x : Num} (h : AxisNumber t x) : asDoubleLimited t = x := by
  obtain ⟨d, h1, h2, rfl⟩ := h
  unfold asDoubleLimited
  rw [asDouble_text h1]
  dsimp only
  rw [if_neg]
  exact not_le.2 h2

theorem handednessOf_iff (s : Str) (h : Handedness) : handednessOf s = some h ↔ s = (handednessText h).toList := by
  unfold handednessOf
  have a : "LeftHanded".toList ≠ "RightHanded".toList := by decide +kernel
  have b : "LeftHanded".toList ≠ "Undefined".toList := by decide +kernel
  have c : "RightHanded".toList ≠ "Undefined".toList := by decide +kernel
  constructor
  · intro e
    split at e
    · cases e; assumption
    · split at e
      · cases e; assumption
      · split at e
        · cases e; assumption
        · cases e
  · intro e
    cases h
    · rw [show (handednessText Handedness.Undefined).toList = "Undefined".toList from rfl] at e
      subst e
      rw [if_neg b.symm, if_neg c.symm, if_pos rfl]
    · rw [show (handednessText Handedness.LeftHanded).toList = "LeftHanded".toList from rfl] at e
      subst e
      rw [if_pos rfl]
    · rw [show (handednessText Handedness.RightHanded).toList = "RightHanded".toList from rfl] at e
      subst e
      rw [if_neg a.symm, if_pos rfl]

theorem directionOf_iff (s : Str) (h : AxisDirection) : directionOf s = some h ↔ s = (directionText h).toList := by
  unfold directionOf
  have a : "FromSpecimenToObjective".toList ≠ "FromObjectiveToSpecimen".toList := by decide +kernel
  have b : "FromSpecimenToObjective".toList ≠ "Undefined".toList := by decide +kernel
  have c : "FromObjectiveToSpecimen".toList ≠ "Undefined".toList := by decide +kernel
  constructor
  · intro e
    split at e
    · cases e; assumption
    · split at e
      · cases e; assumption
      · split at e
        · cases e; assumption
        · cases e
  · intro e
    cases h
    · rw [show (directionText AxisDirection.Undefined).toList = "Undefined".toList from rfl] at e
      subst e
      rw [if_neg b.symm, if_neg c.symm, if_pos rfl]
    · rw [show (directionText AxisDirection.FromSpecimenToObjective).toList = "FromSpecimenToObjective".toList from rfl] at e
      subst e
      rw [if_pos rfl]
    · rw [show (directionText AxisDirection.FromObjectiveToSpecimen).toList = "FromObjectiveToSpecimen".toList from rfl] at e
      subst e
      rw [if_neg a.symm, if_pos rfl]

theorem driveModeOf_iff (s : Str) (h : DriveMode) : driveModeOf s = some h ↔ s = (driveModeText h).toList := by
  unfold driveModeOf
  have a : "Continuous".toList ≠ "Step".toList := by decide +kernel
  constructor
  · intro e
    split at e
    · cases e; assumption
    · split at e
      · cases e; assumption
      · cases e
  · intro e
    cases h
    · rw [show (driveModeText DriveMode.Continuous).toList = "Continuous".toList from rfl] at e
      subst e
      rw [if_pos rfl]
    · rw [show (driveModeText DriveMode.Step).toList = "Step".toList from rfl] at e
      subst e
      rw [if_neg a.symm, if_pos rfl]

theorem bind_okay {α β : Type} {x : Outcome α} {f : α → Outcome β} {b : β} (h : x.bind f = .ok b) : ∃ a, x = .ok a ∧ f a = .ok b := by
  cases x with
  | ok a => exact ⟨a, rfl, h⟩
  | throws => cases h
  | undefined => cases h

end Verif.Xml
