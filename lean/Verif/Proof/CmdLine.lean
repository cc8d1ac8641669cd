import Verif.Model.CmdLine
import Verif.Spec.CmdLine
import Verif.Proof.ChannelText
import Verif.Proof.CApiGuid
import Verif.Proof.XmlValue

/-!
# Helper lemmas: the texts given to the options of CZICmd
-/

namespace Verif.CmdLine

open Verif.Text Verif.Xml Verif.Czi Verif.CApi Verif.Spec

/-- The text does not begin with a digit. -/
def NoDigit (r : Str) : Prop := ∀ c cs, r = c :: cs → c.isDigit = false

theorem digits_run {a : Str} (h : Digits a) {r : Str} (hr : NoDigit r) : (a ++ r).takeWhile Char.isDigit = a ∧ (a ++ r).dropWhile Char.isDigit = r :=
  takeWhile_all (fun c hc => (isDigit_iff c).2 (h.2 c hc)) r hr

theorem white_run {w : Str} (h : White w) {r : Str} (hr : ∀ c cs, r = c :: cs → isSpace c = false) : (w ++ r).dropWhile isSpace = r :=
  (takeWhile_all (fun c hc => (isSpace_iff c).2 (h c hc)) r hr).2

theorem run_digits {s : Str} (h : s.takeWhile Char.isDigit ≠ []) : Digits (s.takeWhile Char.isDigit) :=
  ⟨h, fun c hc => (isDigit_iff c).1 ((span_eq Char.isDigit s).2.1 c hc)⟩

theorem run_rest (s : Str) : NoDigit (s.dropWhile Char.isDigit) := (span_eq Char.isDigit s).2.2

theorem run_white (s : Str) : White (s.takeWhile isSpace) := fun c hc => (isSpace_iff c).1 ((span_eq isSpace s).2.1 c hc)

theorem digits_head {a : Str} (h : Digits a) (r : Str) : ∀ c cs, a ++ r = c :: cs → isSpace c = false := by
  intro c cs e
  cases a with
  | nil => exact absurd rfl h.1
  | cons d a =>
    simp at e
    rw [← e.1]
    exact (Text.digit_not (h.2 d (by simp))).2.2.2.2

theorem white_noDigit {w : Str} (hw : White w) {c : Char} (hc : c.isDigit = false) (r : Str) : NoDigit (w ++ c :: r) := by
  intro d ds e
  cases w with
  | nil => simp at e; rw [← e.1]; exact hc
  | cons x w =>
    simp at e
    have := hw x (by simp)
    rw [← e.1]
    simp only [List.mem_cons, List.not_mem_nil, or_false] at this
    rcases this with rfl | rfl | rfl | rfl | rfl | rfl <;> decide

theorem matchPair_iff (s a b r : Str) : matchPair s = some (a, b, r) ↔
    ∃ w1 c w2, s = a ++ (w1 ++ c :: (w2 ++ (b ++ r))) ∧ White w1 ∧ c ∈ ['*', 'x', 'X'] ∧ White w2 ∧ Digits a ∧ Digits b ∧ NoDigit r := by
  constructor
  · intro h
    unfold matchPair at h
    split at h
    · cases h
    rename_i ha
    split at h
    · cases h
    rename_i c q hq
    split at h
    swap
    · cases h
    rename_i hc
    dsimp only at h
    split at h
    · cases h
    rename_i hb
    simp only [Option.some.injEq, Prod.mk.injEq] at h
    obtain ⟨rfl, rfl, rfl⟩ := h
    refine ⟨(s.dropWhile Char.isDigit).takeWhile isSpace, c, q.takeWhile isSpace, ?_, run_white _, hc, run_white _, run_digits ha, run_digits hb, run_rest _⟩
    rw [← (span_eq Char.isDigit (q.dropWhile isSpace)).1, ← (span_eq isSpace q).1, ← hq, ← (span_eq isSpace _).1, ← (span_eq Char.isDigit s).1]
  · rintro ⟨w1, c, w2, rfl, h1, h2, h3, h4, h5, h6⟩
    have c1 : c.isDigit = false ∧ isSpace c = false := by
      simp only [List.mem_cons, List.not_mem_nil, or_false] at h2
      rcases h2 with rfl | rfl | rfl <;> decide
    obtain ⟨e1, e2⟩ := digits_run h4 (white_noDigit h1 c1.1 (w2 ++ (b ++ r)))
    have e3 := white_run h1 (r := c :: (w2 ++ (b ++ r))) (by intro d ds e; simp at e; rw [← e.1]; exact c1.2)
    have e4 := white_run h3 (digits_head h5 r)
    obtain ⟨e5, e6⟩ := digits_run h5 h6
    unfold matchPair
    rw [e1, e2, if_neg h4.1, e3]
    dsimp only
    rw [if_pos h2, e4, e5, e6, if_neg h5.1]

theorem matchOverlap_none (s : Str) : matchOverlap s = some none ↔ White s := by
  constructor
  · intro h
    unfold matchOverlap at h
    split at h
    · rename_i hq
      have := (span_eq isSpace s).1
      rw [hq, List.append_nil] at this
      rw [this]; exact run_white s
    · split at h
      · dsimp only at h
        split at h
        · cases h
        · split at h
          · cases h
          · split at h <;> simp at h
      · cases h
  · intro h
    unfold matchOverlap
    have := white_run h (r := []) (by intro c cs e; cases e)
    rw [List.append_nil] at this
    rw [this]

theorem matchOverlap_some (s p : Str) : matchOverlap s = some (some p) ↔ PercentText s p := by
  constructor
  · intro h
    unfold matchOverlap at h
    split at h
    · cases h
    rename_i c q hq
    split at h
    swap
    · cases h
    rename_i hc
    dsimp only at h
    split at h
    · cases h
    rename_i hp
    split at h
    · cases h
    rename_i d z hz
    split at h
    swap
    · cases h
    rename_i hd
    obtain ⟨rfl, hd⟩ := hd
    simp only [Option.some.injEq] at h
    subst h
    refine ⟨s.takeWhile isSpace, c, q.takeWhile isSpace, ((q.dropWhile isSpace).dropWhile Char.isDigit).takeWhile isSpace, z, ?_, run_white _, hc, run_white _,
      run_white _, fun e he => (isSpace_iff e).1 (List.all_eq_true.1 hd e he), run_digits hp⟩
    rw [← hz, ← (span_eq isSpace _).1, ← (span_eq Char.isDigit _).1, ← (span_eq isSpace q).1, ← hq, ← (span_eq isSpace s).1]
  · rintro ⟨w1, c, w2, w3, w4, rfl, h1, h2, h3, h4, h5, h6⟩
    have c1 : isSpace c = false := by
      simp only [List.mem_cons, List.not_mem_nil, or_false] at h2
      rcases h2 with rfl | rfl | rfl <;> decide
    have e1 := white_run h1 (r := c :: (w2 ++ (p ++ (w3 ++ '%' :: w4)))) (by intro d ds e; simp at e; rw [← e.1]; exact c1)
    have e2 := white_run h3 (digits_head h6 (w3 ++ '%' :: w4))
    obtain ⟨e3, e4⟩ := digits_run h6 (white_noDigit h4 (c := '%') (by decide) w4)
    have e5 := white_run h4 (r := '%' :: w4) (by intro d ds e; simp at e; rw [← e.1]; decide)
    unfold matchOverlap
    rw [e1]
    dsimp only
    rw [if_pos h2, e2, e3, e4, if_neg h6.1, e5]
    dsimp only
    rw [if_pos ⟨rfl, List.all_eq_true.2 fun e he => (isSpace_iff e).2 (h5 e he)⟩]

theorem scan_digits {ds : Str} (h : Digits ds) : scanInt ds = some (false, ds, []) := by
  have := scan_text (w := []) (sign := []) (rest := []) (by intro c hc; cases hc) (by simp) h (by intro c cs e; cases e)
  simpa using this

theorem number_digits {ds : Str} (h : Digits ds) :
    number ds = if 2 ^ 64 ≤ digitsValue ds then .throws else if digitsValue ds = 0 ∨ digitsValue ds > 4294967295 then .rejected else .ok (digitsValue ds) := by
  unfold number stoull
  rw [scan_digits h]
  dsimp only
  rw [natOf_eq]
  by_cases h1 : 2 ^ 64 ≤ digitsValue ds
  · rw [if_pos h1, if_pos h1]
  · rw [if_neg h1, if_neg h1]
    simp

theorem number_ok {ds : Str} (h : Digits ds) (v : Nat) : number ds = .ok v ↔ Positive32 ds v := by
  rw [number_digits h]
  unfold Positive32
  split
  · constructor
    · intro h; cases h
    · rintro ⟨rfl, _, _⟩; omega
  · split
    · constructor
      · intro h; cases h
      · rintro ⟨rfl, _, _⟩; omega
    · constructor
      · intro h; injection h with h; subst h; exact ⟨rfl, by omega, by omega⟩
      · rintro ⟨rfl, _, _⟩; rfl

theorem number_throws {ds : Str} (h : Digits ds) : number ds = .throws ↔ 2 ^ 64 ≤ digitsValue ds := by
  rw [number_digits h]
  split
  · simp_all
  · split <;> simp_all

theorem bind_ok {α β : Type} (p : Parsed α) (f : α → Parsed β) (b : β) : p.bind f = .ok b ↔ ∃ a, p = .ok a ∧ f a = .ok b := by
  cases p <;> simp [Parsed.bind]

theorem bind_throws {α β : Type} (p : Parsed α) (f : α → Parsed β) : p.bind f = .throws ↔ p = .throws ∨ ∃ a, p = .ok a ∧ f a = .throws := by
  cases p <;> simp [Parsed.bind]

/-! ## Numbers with sign -/

theorem int32_last {t : Str} {v : Int} (h : Int32Text t v) : ∃ t' d, t = t' ++ [d] ∧ IsDigit d := by
  obtain ⟨sg, ds, rfl, h1, _⟩ := h
  have := List.dropLast_append_getLast h1.1
  refine ⟨sg ++ ds.dropLast, ds.getLast h1.1, by rw [List.append_assoc, this], h1.2 _ (List.getLast_mem _)⟩

theorem int32_head {t : Str} {v : Int} (h : Int32Text t v) : ∀ c ∈ t, ¬ IsWhite c := (int32_scans.chars h).2

theorem blank_white {c : Char} (h : c ∈ ['\t', ' ']) : IsWhite c := by
  simp only [List.mem_cons, List.not_mem_nil, or_false] at h
  unfold IsWhite
  rcases h with rfl | rfl <;> decide

theorem tryParseInt32_iff (s : Str) (v : Int) : tryParseInt32 s = some v ↔ PaddedInt32 s v := by
  constructor
  · intro h
    unfold tryParseInt32 at h
    split at h
    · cases h
    rename_i x rest hx
    split at h
    swap
    · cases h
    rename_i hr
    subst hr
    injection h with h
    subst h
    obtain ⟨w, t, e, hw, ht⟩ := int32_scans.conv hx (fun _ _ => trivial)
    obtain ⟨b, a, e1, hb, ha, _⟩ := trim_padded s
    refine ⟨b ++ w, t, a, ?_, ?_, ha, ht⟩
    · rw [e1, e]; simp
    · intro c hc
      rcases List.mem_append.1 hc with hc | hc
      · exact blank_white (hb c hc)
      · exact hw c hc
  · rintro ⟨w, t, a, rfl, hw, ha, ht⟩
    obtain ⟨e1, h1, h1'⟩ := span_eq isTrim w
    have e : trim (w ++ (t ++ a)) = w.dropWhile isTrim ++ t := by
      apply trim_unique
      refine ⟨w.takeWhile isTrim, a, ?_, fun c hc => (isTrim_iff c).1 (h1 c hc), ha, ?_, ?_⟩
      · rw [← List.append_assoc (w.takeWhile isTrim), ← e1]; simp
      · intro c hc hm
        cases hq : w.dropWhile isTrim with
        | nil =>
          rw [hq, List.nil_append] at hc
          exact int32_head ht c (List.mem_of_mem_head? hc) (blank_white hm)
        | cons x xs =>
          rw [hq] at hc
          simp at hc
          subst hc
          have := h1' x xs hq
          rw [(isTrim_iff x).2 hm] at this
          cases this
      · intro c hc hm
        obtain ⟨t', d, rfl, hd⟩ := int32_last ht
        rw [← List.append_assoc, List.getLast?_append] at hc
        simp at hc
        subst hc
        exact digit_notWhite hd (blank_white hm)
    unfold tryParseInt32
    have := int32_scans.text (w := w.dropWhile isTrim) (r := []) ht (by intro c cs e; cases e) (fun c hc => hw c (by rw [e1]; exact List.mem_append_right _ hc))
    rw [List.append_nil] at this
    rw [e, this]
    simp

/-- A text without white space. -/
theorem padded_plain {s : Str} {v : Int} (h : ∀ c ∈ s, ¬ IsWhite c) : PaddedInt32 s v ↔ Int32Text s v := by
  constructor
  · rintro ⟨w, t, a, rfl, hw, ha, ht⟩
    have e1 : w = [] := by
      cases w with
      | nil => rfl
      | cons c w => exact absurd (hw c (by simp)) (h c (by simp))
    have e2 : a = [] := by
      cases a with
      | nil => rfl
      | cons c a => exact absurd (blank_white (ha c (by simp))) (h c (by simp))
    subst e1 e2
    simpa using ht
  · intro ht
    exact ⟨[], s, [], by simp, by intro c hc; (cases hc), by intro c hc; (cases hc), ht⟩

theorem signedPart_iff {signs : List Char} (hs : ∀ c ∈ signs, ¬ IsDigit c) (s t r : Str) : signedPart signs s = some (t, r) ↔
    ∃ sg ds, t = sg ++ ds ∧ s = t ++ r ∧ (sg = [] ∨ ∃ c ∈ signs, sg = [c]) ∧ Digits ds ∧ NoDigit r := by
  constructor
  · intro h
    unfold signedPart at h
    dsimp only at h
    generalize hsg : signOf signs s = sg at h
    have h1 : s = sg ++ s.drop sg.length ∧ (sg = [] ∨ ∃ c ∈ signs, sg = [c]) := by
      cases s with
      | nil => rw [signOf] at hsg; subst hsg; simp
      | cons c s =>
        rw [signOf] at hsg
        by_cases hc : c ∈ signs
        · rw [if_pos hc] at hsg
          subst hsg
          exact ⟨rfl, .inr ⟨c, hc, rfl⟩⟩
        · rw [if_neg hc] at hsg
          subst hsg
          exact ⟨rfl, .inl rfl⟩
    split at h
    · cases h
    rename_i hd
    simp only [Option.some.injEq, Prod.mk.injEq] at h
    obtain ⟨rfl, rfl⟩ := h
    refine ⟨sg, _, rfl, ?_, h1.2, run_digits hd, run_rest _⟩
    rw [List.append_assoc, ← (span_eq Char.isDigit _).1]
    exact h1.1
  · rintro ⟨sg, ds, rfl, rfl, h1, h2, h3⟩
    obtain ⟨e1, e2⟩ := digits_run h2 h3
    have hsg : signOf signs (sg ++ ds ++ r) = sg := by
      rcases h1 with rfl | ⟨c, hc, rfl⟩
      · cases ds with
        | nil => exact absurd rfl h2.1
        | cons d ds =>
          have : d ∉ signs := fun hm => hs d hm (h2.2 d (by simp))
          simp [signOf, this]
      · simp [signOf, hc]
    unfold signedPart
    dsimp only
    rw [hsg, List.append_assoc, List.drop_left, e1, e2, if_neg h2.1]

theorem eatChar_iff (c : Char) (s r : Str) : eatChar c s = some r ↔ s = c :: r := by
  cases s with
  | nil => simp [eatChar]
  | cons d s =>
    unfold eatChar
    by_cases h : d = c
    · subst h; simp
    · simp [h]

theorem matchRect_iff (s : Str) (m : Bool) (x y w h : Str) : matchRect s = some (m, x, y, w, h) ↔
    s = (if m then "abs(".toList else "rel(".toList) ++ (x ++ ',' :: (y ++ ',' :: (w ++ ',' :: (h ++ [')'])))) ∧
      (∃ sg ds, x = sg ++ ds ∧ (sg = [] ∨ ∃ c ∈ ['+', '|', '-'], sg = [c]) ∧ Digits ds) ∧
      (∃ sg ds, y = sg ++ ds ∧ (sg = [] ∨ ∃ c ∈ ['+', '|', '-'], sg = [c]) ∧ Digits ds) ∧
      (∃ sg ds, w = sg ++ ds ∧ (sg = [] ∨ ∃ c ∈ ['+'], sg = [c]) ∧ Digits ds) ∧
      (∃ sg ds, h = sg ++ ds ∧ (sg = [] ∨ ∃ c ∈ ['+'], sg = [c]) ∧ Digits ds) := by
  have hs3 : ∀ c ∈ ['+', '|', '-'], ¬ IsDigit c := by unfold IsDigit; decide
  have hs1 : ∀ c ∈ ['+'], ¬ IsDigit c := by unfold IsDigit; decide
  constructor
  · intro hh
    unfold matchRect at hh
    split at hh
    swap
    · cases hh
    rename_i hp
    simp only [Option.bind_eq_some_iff] at hh
    obtain ⟨⟨x', r1⟩, h1, r2, h2, ⟨y', r3⟩, h3, r4, h4, ⟨w', r5⟩, h5, r6, h6, ⟨h', r7⟩, h7, r8, h8, h9⟩ := hh
    dsimp only at h1 h2 h3 h4 h5 h6 h7 h8 h9
    split at h9
    swap
    · cases h9
    rename_i hr8
    subst hr8
    simp only [Option.some.injEq, Prod.mk.injEq] at h9
    obtain ⟨hm, rfl, rfl, rfl, rfl⟩ := h9
    obtain ⟨sg1, ds1, a1, b1, c1, d1, _⟩ := (signedPart_iff hs3 _ _ _).1 h1
    obtain ⟨sg2, ds2, a2, b2, c2, d2, _⟩ := (signedPart_iff hs3 _ _ _).1 h3
    obtain ⟨sg3, ds3, a3, b3, c3, d3, _⟩ := (signedPart_iff hs1 _ _ _).1 h5
    obtain ⟨sg4, ds4, a4, b4, c4, d4, _⟩ := (signedPart_iff hs1 _ _ _).1 h7
    rw [eatChar_iff] at h2 h4 h6 h8
    subst h2 h4 h6 h8
    refine ⟨?_, ⟨sg1, ds1, a1, c1, d1⟩, ⟨sg2, ds2, a2, c2, d2⟩, ⟨sg3, ds3, a3, c3, d3⟩, ⟨sg4, ds4, a4, c4, d4⟩⟩
    rw [← b4, ← b3, ← b2, ← b1]
    have : s.take 4 = (if m then "abs(".toList else "rel(".toList) := by
      rcases hp with hp | hp
      · rw [hp] at hm
        rw [← hm, hp]; rfl
      · rw [hp] at hm
        rw [← hm, hp]; rfl
    rw [← this, List.take_append_drop]
  · rintro ⟨e, ⟨sg1, ds1, a1, c1, d1⟩, ⟨sg2, ds2, a2, c2, d2⟩, ⟨sg3, ds3, a3, c3, d3⟩, ⟨sg4, ds4, a4, c4, d4⟩⟩
    have nc : ∀ r, NoDigit (',' :: r) := by intro r c cs e; injection e with e _; subst e; decide
    have np : NoDigit [')'] := by intro c cs e; injection e with e _; subst e; decide
    have t4 : s.take 4 = (if m then "abs(".toList else "rel(".toList) ∧
        s.drop 4 = x ++ ',' :: (y ++ ',' :: (w ++ ',' :: (h ++ [')']))) := by
      rw [e]
      cases m
      · exact ⟨rfl, rfl⟩
      · exact ⟨rfl, rfl⟩
    unfold matchRect
    rw [if_pos (by rw [t4.1]; cases m <;> simp), t4.2,
      (signedPart_iff hs3 _ _ _).2 ⟨sg1, ds1, a1, rfl, c1, d1, nc _⟩, Option.bind_some]
    dsimp only
    rw [(eatChar_iff _ _ _).2 rfl, Option.bind_some, (signedPart_iff hs3 _ _ _).2 ⟨sg2, ds2, a2, rfl, c2, d2, nc _⟩, Option.bind_some]
    dsimp only
    rw [(eatChar_iff _ _ _).2 rfl, Option.bind_some, (signedPart_iff hs1 _ _ _).2 ⟨sg3, ds3, a3, rfl, c3, d3, nc _⟩, Option.bind_some]
    dsimp only
    rw [(eatChar_iff _ _ _).2 rfl, Option.bind_some, (signedPart_iff hs1 _ _ _).2 ⟨sg4, ds4, a4, rfl, c4, d4, np⟩, Option.bind_some]
    dsimp only
    rw [(eatChar_iff _ _ _).2 rfl, Option.bind_some, if_pos rfl, t4.1]
    cases m <;> rfl

theorem part_plain {signs : List Char} (hs : ∀ c ∈ signs, ¬ IsWhite c) {t : Str} (h : ∃ sg ds, t = sg ++ ds ∧ (sg = [] ∨ ∃ c ∈ signs, sg = [c]) ∧ Digits ds) :
    ∀ c ∈ t, ¬ IsWhite c := by
  obtain ⟨sg, ds, rfl, h1, h2⟩ := h
  intro c hc
  rcases List.mem_append.1 hc with hc | hc
  · rcases h1 with rfl | ⟨e, he, rfl⟩
    · cases hc
    · simp at hc; subst hc; exact hs c he
  · exact digit_notWhite (h2.2 c hc)

theorem tryParseRect_iff (s : Str) (m : Bool) (x y w h : Int) : tryParseRect s = some ⟨m, x, y, w, h⟩ ↔ RegionText s m x y w h := by
  have hs3 : ∀ c ∈ ['+', '|', '-'], ¬ IsWhite c := by unfold IsWhite; decide
  have hs1 : ∀ c ∈ ['+'], ¬ IsWhite c := by unfold IsWhite; decide
  constructor
  · intro hh
    unfold tryParseRect at hh
    simp only [Option.bind_eq_some_iff] at hh
    obtain ⟨⟨m', tx, ty, tw, th⟩, h0, x', h1, y', h2, w', h3, h4⟩ := hh
    dsimp only at h0 h1 h2 h3 h4
    split at h4
    · cases h4
    rename_i hw
    simp only [Option.bind_eq_some_iff] at h4
    obtain ⟨h', h5, h6⟩ := h4
    split at h6
    · cases h6
    rename_i hh'
    simp only [Option.some.injEq, RectArg.mk.injEq] at h6
    obtain ⟨rfl, rfl, rfl, rfl, rfl⟩ := h6
    obtain ⟨e, p1, p2, p3, p4⟩ := (matchRect_iff _ _ _ _ _ _).1 h0
    rw [tryParseInt32_iff] at h1 h2 h3 h5
    exact ⟨tx, ty, tw, th, e, (padded_plain (part_plain hs3 p1)).1 h1, (padded_plain (part_plain hs3 p2)).1 h2, (padded_plain (part_plain hs1 p3)).1 h3,
      (padded_plain (part_plain hs1 p4)).1 h5, by omega, by omega⟩
  · rintro ⟨tx, ty, tw, th, e, h1, h2, h3, h4, hw, hh⟩
    have part3 : ∀ {t : Str} {v : Int}, Int32Text t v → ∃ sg ds, t = sg ++ ds ∧ (sg = [] ∨ ∃ c ∈ ['+', '|', '-'], sg = [c]) ∧ Digits ds := by
      rintro t v ⟨sg, ds, e, hd, hsg, _⟩
      refine ⟨sg, ds, e, ?_, hd⟩
      rcases hsg with ⟨rfl, _⟩ | ⟨rfl, _⟩ | ⟨rfl, _⟩
      · exact .inl rfl
      · exact .inr ⟨'+', by simp, rfl⟩
      · exact .inr ⟨'-', by simp, rfl⟩
    have part1 : ∀ {t : Str} {v : Int}, Int32Text t v → 0 < v → ∃ sg ds, t = sg ++ ds ∧ (sg = [] ∨ ∃ c ∈ ['+'], sg = [c]) ∧ Digits ds := by
      rintro t v ⟨sg, ds, e, hd, hsg, _⟩ hv
      refine ⟨sg, ds, e, ?_, hd⟩
      rcases hsg with ⟨rfl, _⟩ | ⟨rfl, _⟩ | ⟨rfl, h⟩
      · exact .inl rfl
      · exact .inr ⟨'+', by simp, rfl⟩
      · omega
    unfold tryParseRect
    rw [(matchRect_iff _ _ _ _ _ _).2 ⟨e, part3 h1, part3 h2, part1 h3 hw, part1 h4 hh⟩, Option.bind_some]
    dsimp only
    rw [(tryParseInt32_iff _ _).2 ((padded_plain (int32_head h1)).2 h1), Option.bind_some,
      (tryParseInt32_iff _ _).2 ((padded_plain (int32_head h2)).2 h2), Option.bind_some,
      (tryParseInt32_iff _ _).2 ((padded_plain (int32_head h3)).2 h3), Option.bind_some, if_neg (by omega),
      (tryParseInt32_iff _ _).2 ((padded_plain (int32_head h4)).2 h4), Option.bind_some, if_neg (by omega)]

/-! ## Hexadecimal numbers -/

theorem hexFrom_ge (cs : List Char) : ∀ {m k : Nat}, hexFrom m cs = some k → m ≤ k := by
  induction cs with
  | nil => intro m k h; simp [hexFrom] at h; omega
  | cons c cs ih =>
    intro m k h
    rw [hexFrom_cons] at h
    cases hd : Spec.hexDigit c with
    | none => rw [hd] at h; cases h
    | some d =>
      rw [hd] at h
      have := ih h
      omega

theorem notHex {c : Char} (h : isHex c = false) : hexToInt c = 255 ∧ Spec.hexDigit c = none := by
  constructor
  · by_contra hne
    have key : ∀ c, hexToInt c ≠ 255 → isHex c = true := by
      intro c hc
      unfold hexToInt at hc
      unfold isHex
      split at hc
      · simp_all
      · split at hc
        · simp_all
        · split at hc
          · simp_all
          · exact absurd rfl hc
    rw [key c hne] at h; cases h
  · cases hd : Spec.hexDigit c with
    | none => rfl
    | some a => rw [digit_isHex hd] at h; cases h

theorem hexLoop_iff (cs : List Char) : ∀ (v : UInt32) (n : Nat) (r : UInt32), (v > 0 → 16 ^ n ≤ v.toNat ∧ v.toNat < 16 ^ (n + 1) ∧ n ≤ 7) → (¬ v > 0 → n = 0) →
    (hexLoop cs v n = some r ↔ hexFrom v.toNat cs = some r.toNat) := by
  induction cs with
  | nil =>
    intro v n r _ _
    show some v = some r ↔ some v.toNat = some r.toNat
    simp [UInt32.toNat_inj]
  | cons c cs ih =>
    intro v n r hv hz
    unfold hexLoop
    dsimp only
    rw [hexFrom_cons]
    cases hc : isHex c with
    | false =>
      rw [if_pos (notHex hc).1, (notHex hc).2]
      simp
    | true =>
      obtain ⟨a, ha, hd, hx⟩ := isHex_digit hc
      have hne : hexToInt c ≠ 255 := by
        rw [hx]
        intro he
        have := congrArg UInt8.toNat he
        rw [UInt8.toNat_ofNat'] at this
        have e3 : (255 : UInt8).toNat = 255 := rfl
        omega
      rw [if_neg hne, hd, Option.bind_some]
      have hv0 : v > 0 ↔ 0 < v.toNat := by rw [gt_iff_lt, UInt32.lt_iff_toNat_lt]; rfl
      have hval : v.toNat < 16 ^ 7 → (v * 16 + (hexToInt c).toUInt32).toNat = 16 * v.toNat + a := by
        intro hlt
        rw [hx, UInt32.toNat_add, UInt32.toNat_mul]
        have e1 : (UInt8.ofNat a).toUInt32.toNat = a := by
          rw [UInt8.toNat_toUInt32, UInt8.toNat_ofNat']
          omega
        rw [e1]
        have e2 : (16 : UInt32).toNat = 16 := rfl
        rw [e2]
        omega
      have hgt : v.toNat < 16 ^ 7 → ((v * 16 + (hexToInt c).toUInt32 > 0) ↔ 0 < 16 * v.toNat + a) := by
        intro hlt
        rw [gt_iff_lt, UInt32.lt_iff_toNat_lt, hval hlt]; rfl
      by_cases hpos : v > 0
      · rw [if_pos hpos]
        obtain ⟨b1, b2, b3⟩ := hv hpos
        by_cases hn : n + 1 > 7
        · rw [if_pos hn]
          constructor
          · intro h; cases h
          · intro h
            exfalso
            have h1 := hexFrom_ge _ h
            have h2 : n = 7 := by omega
            subst h2
            have := r.toNat_lt
            omega
        · rw [if_neg hn]
          have hlt : v.toNat < 16 ^ 7 := by
            have : (16 : Nat) ^ (n + 1) ≤ 16 ^ 7 := Nat.pow_le_pow_right (by omega) (by omega)
            omega
          have p1 : (16 : Nat) ^ (n + 1) = 16 * 16 ^ n := Nat.pow_succ' ..
          have p2 : (16 : Nat) ^ (n + 1 + 1) = 16 * 16 ^ (n + 1) := Nat.pow_succ' ..
          rw [ih _ _ r (by rw [hval hlt]; intro _; omega) (by rw [hgt hlt]; intro h; have := hv0.1 hpos; omega), hval hlt]
      · rw [if_neg hpos]
        have h0 : v.toNat = 0 := by
          have := mt hv0.2 hpos
          omega
        have hn := hz hpos
        subst hn
        have hlt : v.toNat < 16 ^ 7 := by omega
        rw [ih _ _ r (by rw [hval hlt, hgt hlt]; intro _; simp only [Nat.pow_zero, Nat.zero_add, Nat.pow_one]; omega) (fun _ => rfl), hval hlt]

theorem hexString_iff (cs : List Char) (r : UInt32) : hexString cs = some r ↔ cs ≠ [] ∧ hexNumber cs = some r.toNat := by
  unfold hexString
  split
  · rename_i h
    simp [h]
  · rename_i h
    rw [hexLoop_iff cs 0 0 r (fun h => absurd h (by decide)) (fun _ => rfl)]
    simp only [h, ne_eq, not_false_eq_true, true_and]
    rfl

/-! ## The alpha value -/

theorem each_len {α β : Type} {R : α → β → Prop} {a : List α} {b : List β} (h : Each R a b) : a.length = b.length := by
  induction h with
  | nil => rfl
  | cons _ _ ih => simp [ih]

/-- The texts in parentheses the regular expression takes. -/
def Inner (t : Str) : Prop := Digits t ∨ ∃ x hs, t = '0' :: x :: hs ∧ (x = 'x' ∨ x = 'X') ∧ hs ≠ [] ∧ ∀ c ∈ hs, isHexOrBar c = true

theorem matchesAlpha_iff (t : Str) : matchesAlpha t = true ↔ Inner t := by
  unfold matchesAlpha Inner
  rw [Bool.or_eq_true]
  apply or_congr
  · unfold Digits
    simp only [Bool.and_eq_true, decide_eq_true_eq, List.all_eq_true, isDigit_iff]
  · constructor
    · intro h
      split at h
      · rename_i z x hs
        simp only [Bool.and_eq_true, Bool.or_eq_true, beq_iff_eq, decide_eq_true_eq, List.all_eq_true] at h
        obtain ⟨⟨⟨rfl, h2⟩, h3⟩, h4⟩ := h
        exact ⟨x, hs, rfl, h2, h3, h4⟩
      · cases h
    · rintro ⟨x, hs, rfl, h2, h3, h4⟩
      simp only [Bool.and_eq_true, Bool.or_eq_true, beq_iff_eq, decide_eq_true_eq, List.all_eq_true]
      exact ⟨⟨⟨trivial, h2⟩, h3⟩, h4⟩

theorem matchAlpha_iff (s t : Str) : matchAlpha s = some t ↔ WithAlpha s t ∧ Inner t := by
  have hw : ∀ l ∈ "bgra32(".toList, ¬ (65 ≤ l.toNat ∧ l.toNat ≤ 90) := by decide
  constructor
  · intro h
    unfold matchAlpha at h
    split at h
    swap
    · cases h
    rename_i hc
    obtain ⟨h1, h2, h3⟩ := hc
    dsimp only at h
    split at h
    swap
    · cases h
    rename_i hm
    injection h with h
    subst h
    refine ⟨⟨s.take 7, ?_, (icasecmp_iff hw).1 h1⟩, (matchesAlpha_iff _).1 hm⟩
    have e : (s.drop 7).getLast? = some ')' := by
      rw [List.getLast?_drop, if_neg, h3]
      intro hl
      exact h2 (List.drop_eq_nil_of_le hl)
    rw [List.getLast?_eq_some_iff] at e
    obtain ⟨q, hq⟩ := e
    rw [hq, List.dropLast_concat, ← hq, List.take_append_drop]
  · rintro ⟨⟨word, rfl, h1⟩, h2⟩
    have hl : word.length = 7 := each_len h1
    have t7 : (word ++ (t ++ [')'])).take 7 = word := by rw [← hl]; exact List.take_left
    have d7 : (word ++ (t ++ [')'])).drop 7 = t ++ [')'] := by rw [← hl]; exact List.drop_left
    unfold matchAlpha
    rw [t7, d7, if_pos ⟨(icasecmp_iff hw).2 h1, by simp, by simp⟩]
    dsimp only
    rw [List.dropLast_concat, if_pos ((matchesAlpha_iff t).2 h2)]

theorem digits_ne {u : Str} (h : Digits u) {i : Nat} {c : Char} (hc : ¬ IsDigit c) : u[i]? ≠ some c := by
  intro e
  exact hc (h.2 c (List.mem_of_getElem? e))

theorem alpha_digits {s u : Str} (h1 : WithAlpha s u) (h2 : Digits u) :
    tryParseAlpha s = if 2147483647 < digitsValue u then .throws else if digitsValue u > 255 then .rejected else .ok (digitsValue u) := by
  unfold tryParseAlpha
  rw [(matchAlpha_iff s u).2 ⟨h1, .inl h2⟩]
  dsimp only
  rw [if_neg (by
    rintro ⟨_, h0, h⟩
    rcases h with h | h
    · exact digits_ne h2 (by unfold IsDigit; decide) h
    · exact digits_ne h2 (by unfold IsDigit; decide) h)]
  unfold stoi
  rw [scan_digits h2]
  dsimp only
  rw [natOf_eq, if_neg (show ¬ (false = true) by decide)]
  by_cases h : 2147483647 < digitsValue u
  · rw [if_pos (by omega), if_pos h]
  · rw [if_neg (by omega), if_neg h]
    dsimp only
    by_cases h' : digitsValue u > 255
    · rw [if_pos (by omega), if_pos h']
    · rw [if_neg (by omega), if_neg h']
      simp

theorem alpha_hex {s hs : Str} (h1 : WithAlpha s ('0' :: 'x' :: hs)) (h2 : hs ≠ []) (h3 : ∀ c ∈ hs, isHexOrBar c = true) (v : Nat) :
    tryParseAlpha s = .ok v ↔ v ≤ 255 ∧ hexNumber hs = some v := by
  have hl : 0 < hs.length := List.length_pos_of_ne_nil h2
  unfold tryParseAlpha
  rw [(matchAlpha_iff s _).2 ⟨h1, .inr ⟨'x', hs, rfl, .inl rfl, h2, h3⟩⟩]
  dsimp only
  rw [if_pos ⟨by simp; omega, rfl, .inl rfl⟩]
  show (match hexToInteger hs with | none => Parsed.rejected | some v => if v.toNat > 255 then .rejected else .ok v.toNat) = .ok v ↔ _
  unfold hexToInteger
  constructor
  · intro h
    split at h
    · cases h
    rename_i r hr
    split at h
    · cases h
    injection h with h
    subst h
    exact ⟨by omega, ((hexString_iff hs r).1 hr).2⟩
  · rintro ⟨hv, hn⟩
    have e : (UInt32.ofNat v).toNat = v := by rw [UInt32.toNat_ofNat']; omega
    rw [(hexString_iff hs (UInt32.ofNat v)).2 ⟨h2, by rw [e]; exact hn⟩]
    dsimp only
    rw [e, if_neg (by omega)]

theorem alpha_capital {s hs : Str} (h1 : WithAlpha s ('0' :: 'X' :: hs)) (h2 : hs ≠ []) (h3 : ∀ c ∈ hs, isHexOrBar c = true) : tryParseAlpha s = .ok 0 := by
  unfold tryParseAlpha
  rw [(matchAlpha_iff s _).2 ⟨h1, .inr ⟨'X', hs, rfl, .inr rfl, h2, h3⟩⟩]
  dsimp only
  rw [if_neg (by
    rintro ⟨_, _, h⟩
    rcases h with h | h
    · simp at h
    · simp at h)]
  have h0 : Digits ['0'] := ⟨by simp, by intro c hc; simp at hc; subst hc; unfold IsDigit; decide⟩
  have := scan_text (w := []) (sign := []) (rest := 'X' :: hs) (by intro c hc; cases hc) (by simp) h0 (by intro c cs e; injection e with e _; subst e; decide)
  unfold stoi
  rw [show '0' :: 'X' :: hs = [] ++ ([] ++ (['0'] ++ 'X' :: hs)) from rfl, this]
  dsimp only
  rw [natOf_eq]
  rfl

theorem hexBar_iff (c : Char) : isHexOrBar c = true ↔ c = '|' ∨ (Spec.hexDigit c).isSome := by
  unfold isHexOrBar
  rw [Bool.or_eq_true, beq_iff_eq]
  constructor
  · rintro (h | h)
    · obtain ⟨a, _, hd, _⟩ := isHex_digit h
      exact .inr (by rw [hd]; rfl)
    · exact .inl h
  · rintro (h | h)
    · exact .inr h
    · obtain ⟨a, ha⟩ := Option.isSome_iff_exists.1 h
      exact .inl (digit_isHex ha)

theorem tryParseAlpha_iff (s : Str) (v : Nat) : tryParseAlpha s = .ok v ↔ ∃ u, WithAlpha s u ∧ (AlphaText u v ∨ CapitalHex u ∧ v = 0) := by
  constructor
  · intro h
    cases hm : matchAlpha s with
    | none =>
      unfold tryParseAlpha at h
      rw [hm] at h
      cases h
    | some u =>
      obtain ⟨h1, h2⟩ := (matchAlpha_iff s u).1 hm
      refine ⟨u, h1, ?_⟩
      rcases h2 with h2 | ⟨x, hs, rfl, rfl | rfl, h3, h4⟩
      · rw [alpha_digits h1 h2] at h
        split at h
        · cases h
        split at h
        · cases h
        injection h with h
        exact .inl ⟨by omega, .inl ⟨h2, h⟩⟩
      · obtain ⟨a, b⟩ := (alpha_hex h1 h3 h4 v).1 h
        exact .inl ⟨a, .inr ⟨hs, rfl, h3, b⟩⟩
      · rw [alpha_capital h1 h3 h4] at h
        injection h with h
        exact .inr ⟨⟨hs, rfl, h3, fun c hc => (hexBar_iff c).1 (h4 c hc)⟩, h.symm⟩
  · rintro ⟨u, h1, ⟨hv, ⟨h2, h3⟩ | ⟨hs, rfl, h2, h3⟩⟩ | ⟨⟨hs, rfl, h2, h3⟩, rfl⟩⟩
    · rw [alpha_digits h1 h2, if_neg (by omega), if_neg (by omega), h3]
    · refine (alpha_hex h1 h2 (fun c hc => ?_) v).2 ⟨hv, h3⟩
      unfold isHexOrBar
      rw [hexFrom_isHex (m := 0) h3 c hc]; rfl
    · exact alpha_capital h1 h2 (fun c hc => (hexBar_iff c).2 (h3 c hc))

theorem withAlpha_length {s u : Str} (h : WithAlpha s u) : 8 ≤ s.length := by
  obtain ⟨word, rfl, h⟩ := h
  have : word.length = 7 := each_len h
  simp; omega

theorem caseWord_bgr (s : Str) : icasecmp s "bgr24".toList = true ↔ CaseWord s "bgr24".toList := icasecmp_iff (by decide)
theorem caseWord_bgra (s : Str) : icasecmp s "bgra32".toList = true ↔ CaseWord s "bgra32".toList := icasecmp_iff (by decide)

theorem format_alpha {s t u : Str} (h : Padded t s) (h1 : WithAlpha t u) : tryParseFormat s = (tryParseAlpha t).bind fun a => .ok (.Bgra32, some a) := by
  have hl := withAlpha_length h1
  unfold tryParseFormat
  rw [trim_unique h]
  dsimp only
  rw [if_neg (by
      intro h'
      have : t.length = 5 := each_len ((caseWord_bgr t).1 h')
      omega),
    if_neg (by
      intro h'
      have : t.length = 6 := each_len ((caseWord_bgra t).1 h')
      omega)]

/-! ## Lists of levels -/

theorem delimiter_iff (c : Char) : isListDelimiter c = true ↔ c = ',' ∨ c = ';' := by simp [isListDelimiter]

theorem item_plain {p : Str} (h1 : ',' ∉ p) (h2 : ';' ∉ p) : ∀ c ∈ p, (fun c => !isListDelimiter c) c = true := by
  intro c hc
  have : ¬ isListDelimiter c = true := by
    rw [delimiter_iff]
    rintro (rfl | rfl)
    · exact h1 hc
    · exact h2 hc
  simpa using this

/-- The flags of an item as the loop takes them. -/
def ItemFlags (names : List (Str × Nat)) (p : Str) (f : Nat) : Prop := trim p = [] ∧ f = 0 ∨ trim p ≠ [] ∧ findLevel names (trim p) = some f

theorem levelLoop_iff (names : List (Str × Nat)) {s : Str} {ps : List Str} (h : ListText s ps) : ∀ (fuel acc v : Nat), s.length < fuel →
    (levelLoop names fuel s acc = some v ↔ ∃ fs, Each (ItemFlags names) (ps.takeWhile (fun p => decide (p ≠ []))) fs ∧ v = fs.foldl (· ||| ·) acc) := by
  have step : ∀ (p : Str) (acc : Nat) (r : Option Nat), r = (if trim p = [] then some acc else (findLevel names (trim p)).map (fun f => acc ||| f)) →
      ∀ a, r = some a ↔ ∃ f, ItemFlags names p f ∧ a = acc ||| f := by
    intro p acc r hr a
    unfold ItemFlags
    rw [hr]
    split
    · rename_i ht
      constructor
      · intro h; injection h with h; subst h; exact ⟨0, .inl ⟨ht, rfl⟩, by simp⟩
      · rintro ⟨f, ⟨_, rfl⟩ | ⟨h, _⟩, rfl⟩
        · simp
        · exact absurd ht h
    · rename_i ht
      rw [Option.map_eq_some_iff]
      constructor
      · rintro ⟨f, hf, rfl⟩; exact ⟨f, .inr ⟨ht, hf⟩, rfl⟩
      · rintro ⟨f, ⟨h, _⟩ | ⟨_, hf⟩, rfl⟩
        · exact absurd h ht
        · exact ⟨f, hf, rfl⟩
  induction h with
  | @last p h1 h2 =>
    intro fuel acc v hl
    obtain ⟨fuel, rfl⟩ : ∃ n, fuel = n + 1 := ⟨fuel - 1, by omega⟩
    obtain ⟨e1, e2⟩ := takeWhile_all (item_plain h1 h2) [] (by intro c cs e; cases e)
    rw [List.append_nil] at e1 e2
    unfold levelLoop
    dsimp only
    rw [e1, e2]
    by_cases hp : p = []
    · rw [if_pos hp]
      subst hp
      constructor
      · intro h; injection h with h; subst h; exact ⟨[], .nil, rfl⟩
      · rintro ⟨fs, hf, rfl⟩
        cases hf
        rfl
    · rw [if_neg hp]
      have tw : [p].takeWhile (fun p => decide (p ≠ [])) = [p] := by simp [hp]
      rw [tw]
      generalize hr : (if trim p = [] then some acc else (findLevel names (trim p)).map (fun f => acc ||| f)) = r
      have st := step p acc r hr.symm
      constructor
      · intro h
        cases r with
        | none => cases h
        | some a =>
          dsimp only at h
          injection h with h
          subst h
          obtain ⟨f, hf, rfl⟩ := (st a).1 rfl
          exact ⟨[f], .cons hf .nil, rfl⟩
      · rintro ⟨fs, hf, rfl⟩
        cases hf with
        | cons hf hn =>
          cases hn
          rw [(st _).2 ⟨_, hf, rfl⟩]
          rfl
  | @next p c s ps h1 h2 hc h ih =>
    intro fuel acc v hl
    obtain ⟨fuel, rfl⟩ : ∃ n, fuel = n + 1 := ⟨fuel - 1, by omega⟩
    obtain ⟨e1, e2⟩ := takeWhile_all (item_plain h1 h2) (c :: s) (by
      intro d ds e
      injection e with e _
      subst e
      simpa using (delimiter_iff c).2 hc)
    unfold levelLoop
    dsimp only
    rw [e1, e2]
    by_cases hp : p = []
    · rw [if_pos hp]
      subst hp
      constructor
      · intro h; injection h with h; subst h; exact ⟨[], .nil, rfl⟩
      · rintro ⟨fs, hf, rfl⟩
        cases hf
        rfl
    · rw [if_neg hp]
      have tw : (p :: ps).takeWhile (fun p => decide (p ≠ [])) = p :: ps.takeWhile (fun p => decide (p ≠ [])) := by simp [hp]
      rw [tw]
      generalize hr : (if trim p = [] then some acc else (findLevel names (trim p)).map (fun f => acc ||| f)) = r
      have st := step p acc r hr.symm
      have hlen : s.length < fuel := by simp at hl; omega
      constructor
      · intro h
        cases r with
        | none => cases h
        | some a =>
          dsimp only at h
          obtain ⟨f, hf, rfl⟩ := (st a).1 rfl
          obtain ⟨fs, h3, h4⟩ := (ih fuel _ v hlen).1 h
          exact ⟨f :: fs, .cons hf h3, h4⟩
      · rintro ⟨fs, hf, rfl⟩
        cases hf with
        | cons hf hn =>
          rw [(st _).2 ⟨_, hf, rfl⟩]
          exact (ih fuel _ _ hlen).2 ⟨_, hn, rfl⟩

theorem listText_exists (s : Str) : ∃ ps, ListText s ps := by
  have : ∀ n, ∀ s : Str, s.length < n → ∃ ps, ListText s ps := by
    intro n
    induction n with
    | zero => intro s h; omega
    | succ n ih =>
      intro s h
      obtain ⟨e1, e2, e3⟩ := span_eq (fun c => !isListDelimiter c) s
      have h1 : ',' ∉ s.takeWhile (fun c => !isListDelimiter c) := by
        intro hm; have := e2 _ hm; revert this; decide
      have h2 : ';' ∉ s.takeWhile (fun c => !isListDelimiter c) := by
        intro hm; have := e2 _ hm; revert this; decide
      cases hd : s.dropWhile (fun c => !isListDelimiter c) with
      | nil =>
        rw [hd, List.append_nil] at e1
        rw [← e1] at h1 h2
        exact ⟨[s], .last h1 h2⟩
      | cons c r =>
        have hl : r.length < n := by
          have := congrArg List.length e1
          rw [hd] at this
          simp at this
          omega
        obtain ⟨ps, hps⟩ := ih r hl
        refine ⟨s.takeWhile (fun c => !isListDelimiter c) :: ps, ?_⟩
        have hc : c = ',' ∨ c = ';' := (delimiter_iff c).1 (by simpa using e3 c r hd)
        have := ListText.next h1 h2 hc hps
        rwa [← hd, ← e1] at this
  exact this _ s (Nat.lt_succ_self _)

theorem find_pair {k : Str} {f : Nat} : ∀ {l : List (Str × Nat)}, (l.map Prod.fst).Nodup → ((l.find? (fun e => e.1 == k)).map (·.2) = some f ↔ (k, f) ∈ l) := by
  intro l
  induction l with
  | nil => simp
  | cons e l ih =>
    intro hn
    simp only [List.map_cons, List.nodup_cons] at hn
    rw [List.find?_cons]
    by_cases he : e.1 = k
    · have : (e.1 == k) = true := by simp [he]
      rw [this]
      simp only [Option.map_some, Option.some.injEq, List.mem_cons]
      constructor
      · intro h; left; rw [← he, ← h]
      · rintro (h | h)
        · rw [← h]
        · exfalso
          apply hn.1
          rw [he]
          exact List.mem_map.2 ⟨_, h, rfl⟩
    · have : (e.1 == k) = false := by simp [he]
      rw [this]
      simp only [List.mem_cons]
      rw [ih hn.2]
      constructor
      · intro h; exact .inr h
      · rintro (h | h)
        · exact absurd (by rw [← h]) he
        · exact h

/-- The two tables have the same names up to case, and the same flags. -/
structure SameTable (names words : List (Str × Nat)) : Prop where
  same : names.map (fun e => (e.1.map upper, e.2)) = words.map (fun e => (e.1.map upper, e.2))
  small : ∀ e ∈ words, ∀ l ∈ e.1, ¬ (65 ≤ l.toNat ∧ l.toNat ≤ 90)
  nodup : ((words.map (fun e => (e.1.map upper, e.2))).map Prod.fst).Nodup
  nonempty : ∀ e ∈ words, e.1 ≠ []

theorem findLevel_iff {names words : List (Str × Nat)} (h : SameTable names words) (t : Str) (f : Nat) :
    findLevel names t = some f ↔ ∃ word, (word, f) ∈ words ∧ CaseWord t word := by
  have e : findLevel names t = ((names.map (fun e => (e.1.map upper, e.2))).find? (fun e => e.1 == t.map upper)).map (·.2) := by
    unfold findLevel
    rw [List.find?_map, Option.map_map]
    rfl
  rw [e, h.same, find_pair h.nodup, List.mem_map]
  constructor
  · rintro ⟨w, hw, he⟩
    injection he with e1 e2
    subst e2
    refine ⟨w.1, hw, (icasecmp_iff (h.small w hw)).1 ?_⟩
    unfold icasecmp
    rw [e1]; simp
  · rintro ⟨word, hw, hc⟩
    refine ⟨(word, f), hw, ?_⟩
    have := (icasecmp_iff (h.small _ hw)).2 hc
    unfold icasecmp at this
    rw [eq_of_beq this]

theorem verbosity_table : SameTable verbosityNames verbosityWords where
  same := by decide +kernel
  small := by decide +kernel
  nodup := by decide +kernel
  nonempty := by decide +kernel

theorem info_table : SameTable infoNames infoWords where
  same := by decide +kernel
  small := by decide +kernel
  nodup := by decide +kernel
  nonempty := by decide +kernel

theorem itemFlags_iff {names words : List (Str × Nat)} (h : SameTable names words) (p : Str) (f : Nat) : ItemFlags names p f ↔ ItemBits words p f := by
  unfold ItemFlags ItemBits
  constructor
  · intro hh
    refine ⟨trim p, trim_padded p, ?_⟩
    rcases hh with hh | ⟨_, hh⟩
    · exact .inl hh
    · exact .inr ((findLevel_iff h _ _).1 hh)
  · rintro ⟨t, ht, hh⟩
    rw [trim_unique ht]
    rcases hh with hh | ⟨word, hw, hc⟩
    · exact .inl hh
    · refine .inr ⟨?_, (findLevel_iff h _ _).2 ⟨word, hw, hc⟩⟩
      rintro rfl
      have := each_len hc
      exact h.nonempty _ hw (List.length_eq_zero_iff.1 (by simpa using this.symm))

theorem or_bits (fs : List Nat) : ∀ acc k, (fs.foldl (· ||| ·) acc).testBit k = true ↔ acc.testBit k = true ∨ ∃ b ∈ fs, b.testBit k = true := by
  induction fs with
  | nil => intro acc k; simp
  | cons f fs ih =>
    intro acc k
    rw [List.foldl_cons, ih, Nat.testBit_or, Bool.or_eq_true]
    simp [or_assoc]

theorem bitsOf_iff (v : Nat) (fs : List Nat) : BitsOf v fs ↔ v = fs.foldl (· ||| ·) 0 := by
  constructor
  · intro h
    apply Nat.eq_of_testBit_eq
    intro k
    rw [Bool.eq_iff_iff, h k, or_bits]
    simp
  · rintro rfl k
    rw [or_bits]
    simp

theorem level_text {names words : List (Str × Nat)} (h : SameTable names words) {s : Str} {ps : List Str} (hs : ListText s ps) (v : Nat) :
    levelLoop names (s.length + 1) s 0 = some v ↔ ∃ bits, Each (ItemBits words) (ps.takeWhile (fun p => decide (p ≠ []))) bits ∧ BitsOf v bits := by
  rw [levelLoop_iff names hs _ _ _ (Nat.lt_succ_self _)]
  have e : ItemFlags names = ItemBits words := by funext p f; exact propext (itemFlags_iff h p f)
  simp only [e, bitsOf_iff]

end Verif.CmdLine
