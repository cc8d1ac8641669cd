import Verif.Proof.CApi

/-! # Lemmas about reading GUIDs -/

namespace Verif.CApi

open Verif.Spec Verif.Czi Verif.Text

theorem isHex_digit {c : Char} (hc : isHex c = true) : ∃ a < 16, Spec.hexDigit c = some a ∧ hexToInt c = UInt8.ofNat a := by
  have hr : (48 ≤ c.toNat ∧ c.toNat ≤ 57) ∨ (65 ≤ c.toNat ∧ c.toNat ≤ 70) ∨ (97 ≤ c.toNat ∧ c.toNat ≤ 102) := by
    simp only [isHex, Bool.or_eq_true, Bool.and_eq_true, decide_eq_true_eq, Char.le_def, UInt32.le_iff_toNat_le] at hc
    rcases hc with (⟨a, b⟩ | ⟨a, b⟩) | ⟨a, b⟩
    · exact .inl ⟨a, b⟩
    · exact .inr (.inl ⟨a, b⟩)
    · exact .inr (.inr ⟨a, b⟩)
  have tab : ∀ n < 103, ((48 ≤ n ∧ n ≤ 57) ∨ (65 ≤ n ∧ n ≤ 70) ∨ (97 ≤ n ∧ n ≤ 102)) →
      ((Spec.hexDigit (Char.ofNat n)).any (fun a => a < 16 && decide (hexToInt (Char.ofNat n) = UInt8.ofNat a))) = true := by decide +kernel
  have := tab c.toNat (by omega) hr
  rw [Char.ofNat_toNat] at this
  cases hd : Spec.hexDigit c with
  | none => rw [hd] at this; cases this
  | some a =>
    rw [hd] at this
    simp only [Option.any_some, Bool.and_eq_true, decide_eq_true_eq] at this
    exact ⟨a, this.1, rfl, this.2⟩

theorem digit_isHex {c : Char} {a : Nat} (h : Spec.hexDigit c = some a) : isHex c = true := by
  have t1 : ∀ c ∈ "0123456789ABCDEF".toList, isHex c = true := by decide +kernel
  have t2 : ∀ c ∈ "0123456789abcdef".toList, isHex c = true := by decide +kernel
  unfold Spec.hexDigit at h
  simp only [List.findSome?_cons, List.findSome?_nil] at h
  by_cases h1 : c ∈ "0123456789ABCDEF".toList
  · exact t1 c h1
  · by_cases h2 : c ∈ "0123456789abcdef".toList
    · exact t2 c h2
    · rw [if_neg h1, if_neg h2] at h
      cases h

/-- Reading digits after a number. -/
def hexFrom (m : Nat) (cs : List Char) : Option Nat := cs.foldl (fun a c => a.bind fun n => (Spec.hexDigit c).map fun d => 16 * n + d) (some m)

theorem foldl_none (cs : List Char) : cs.foldl (fun (a : Option Nat) c => a.bind fun n => (Spec.hexDigit c).map fun d => 16 * n + d) none = none := by
  induction cs with
  | nil => rfl
  | cons c cs ih => rw [List.foldl_cons]; exact ih

theorem hexFrom_cons (m : Nat) (c : Char) (cs : List Char) : hexFrom m (c :: cs) = (Spec.hexDigit c).bind fun d => hexFrom (16 * m + d) cs := by
  unfold hexFrom
  rw [List.foldl_cons]
  cases h : Spec.hexDigit c with
  | none => simp [foldl_none]
  | some d => simp

theorem hexFrom_isHex {cs : List Char} : ∀ {m n : Nat}, hexFrom m cs = some n → ∀ c ∈ cs, isHex c = true := by
  induction cs with
  | nil => intro m n _ c hc; cases hc
  | cons c cs ih =>
    intro m n h
    rw [hexFrom_cons] at h
    cases hd : Spec.hexDigit c with
    | none => rw [hd] at h; cases h
    | some d =>
      rw [hd] at h
      intro e he
      rcases List.mem_cons.1 he with e1 | e1
      · subst e1; exact digit_isHex hd
      · exact ih h e e1

theorem hexLoop_eq (cs : List Char) : ∀ (v : UInt32) (n : Nat), (∀ c ∈ cs, isHex c = true) → v.toNat < 16 ^ (8 - cs.length) → cs.length ≤ 8 →
    (v > 0 → n + cs.length ≤ 7) → (¬ v > 0 → n = 0) → ∃ r : UInt32, hexLoop cs v n = some r ∧ hexFrom v.toNat cs = some r.toNat ∧ r.toNat < (v.toNat + 1) * 16 ^ cs.length := by
  induction cs with
  | nil => intro v n _ _ _ _ _; exact ⟨v, rfl, rfl, by simp⟩
  | cons c cs ih =>
    intro v n hh hv hl hn hz
    obtain ⟨a, ha, hd, hx⟩ := isHex_digit (hh c (by simp))
    have hc1 : (c :: cs).length = cs.length + 1 := rfl
    have hpow : (16 : Nat) ^ (8 - cs.length) = 16 ^ (8 - (c :: cs).length) * 16 := by
      rw [hc1, show 8 - cs.length = 8 - (cs.length + 1) + 1 by omega]; rfl
    have hp8 : (16 : Nat) ^ (8 - cs.length) ≤ 16 ^ 8 := Nat.pow_le_pow_right (by omega) (by omega)
    have h32 : (16 : Nat) ^ 8 = 4294967296 := rfl
    have hval : (v * 16 + (hexToInt c).toUInt32).toNat = 16 * v.toNat + a := by
      rw [hx, UInt32.toNat_add, UInt32.toNat_mul]
      have e1 : (UInt8.ofNat a).toUInt32.toNat = a := by
        rw [UInt8.toNat_toUInt32, UInt8.toNat_ofNat']
        omega
      rw [e1]
      have e2 : (16 : UInt32).toNat = 16 := rfl
      rw [e2]
      omega
    have hne : hexToInt c ≠ 255 := by
      rw [hx]
      intro he
      have := congrArg UInt8.toNat he
      rw [UInt8.toNat_ofNat'] at this
      have e3 : (255 : UInt8).toNat = 255 := rfl
      omega
    have hlt : (v * 16 + (hexToInt c).toUInt32).toNat < 16 ^ (8 - cs.length) := by rw [hval]; omega
    have hgt : (v * 16 + (hexToInt c).toUInt32 > 0) ↔ 0 < 16 * v.toNat + a := by
      rw [gt_iff_lt, UInt32.lt_iff_toNat_lt, hval]; rfl
    have hv0 : v > 0 ↔ 0 < v.toNat := by rw [gt_iff_lt, UInt32.lt_iff_toNat_lt]; rfl
    have hbound : (16 * v.toNat + a + 1) * 16 ^ cs.length ≤ (v.toNat + 1) * 16 ^ (c :: cs).length := by
      rw [hc1, show (16 : Nat) ^ (cs.length + 1) = 16 * 16 ^ cs.length from Nat.pow_succ' .., ← Nat.mul_assoc]
      exact Nat.mul_le_mul_right _ (by omega)
    unfold hexLoop
    dsimp only
    rw [if_neg hne]
    by_cases hpos : v > 0
    · rw [if_pos hpos]
      have := hn hpos
      rw [if_neg (by omega)]
      obtain ⟨r, h1, h2, h3⟩ := ih (v * 16 + (hexToInt c).toUInt32) (n + 1) (fun e he => hh e (List.mem_cons_of_mem _ he)) hlt (by omega)
        (fun _ => by omega) (fun h => absurd (hgt.2 (by have := hv0.1 hpos; omega)) h)
      rw [hval] at h2 h3
      exact ⟨r, h1, by rw [hexFrom_cons, hd]; exact h2, by omega⟩
    · rw [if_neg hpos]
      have hn0 := hz hpos
      obtain ⟨r, h1, h2, h3⟩ := ih (v * 16 + (hexToInt c).toUInt32) n (fun e he => hh e (List.mem_cons_of_mem _ he)) hlt (by omega)
        (fun _ => by omega) (fun _ => hn0)
      rw [hval] at h2 h3
      exact ⟨r, h1, by rw [hexFrom_cons, hd]; exact h2, by omega⟩

theorem hexString_eq {cs : List Char} (hh : ∀ c ∈ cs, isHex c = true) (h0 : cs ≠ []) (h8 : cs.length ≤ 8) :
    ∃ r : UInt32, hexString cs = some r ∧ hexNumber cs = some r.toNat ∧ r.toNat < 16 ^ cs.length := by
  unfold hexString
  rw [if_neg h0]
  obtain ⟨r, h1, h2, h3⟩ := hexLoop_eq cs 0 0 hh (by show 0 < _; exact Nat.pow_pos (by omega)) h8 (fun h => absurd h (by decide)) (fun _ => rfl)
  have e0 : (0 : UInt32).toNat = 0 := rfl
  rw [e0, Nat.zero_add, Nat.one_mul] at h3
  exact ⟨r, h1, h2, h3⟩

theorem eatHex_iff (n : Nat) : ∀ s r, eatHex n s = some r ↔ ∃ p, s = p ++ r ∧ p.length = n ∧ ∀ c ∈ p, isHex c = true := by
  induction n with
  | zero =>
    intro s r
    unfold eatHex
    constructor
    · intro h; injection h with h; exact ⟨[], by simp [h], rfl, by simp⟩
    · rintro ⟨p, rfl, hp, _⟩
      have := List.length_eq_zero_iff.1 hp
      subst this; rfl
  | succ n ih =>
    intro s r
    cases s with
    | nil =>
      unfold eatHex
      constructor
      · intro h; cases h
      · rintro ⟨p, hp, hl, _⟩
        have := List.append_eq_nil_iff.1 hp.symm
        rw [this.1] at hl; cases hl
    | cons c s =>
      rw [eatHex]
      constructor
      · intro h
        split at h
        · rename_i hc
          obtain ⟨p, rfl, hl, hp⟩ := (ih s r).1 h
          refine ⟨c :: p, rfl, by simp [hl], ?_⟩
          intro e he
          rcases List.mem_cons.1 he with e1 | e1
          · subst e1; exact hc
          · exact hp e e1
        · cases h
      · rintro ⟨p, hp, hl, hh⟩
        cases p with
        | nil => cases hl
        | cons d p =>
          injection hp with h1 h2
          subst h1
          rw [if_pos (hh c (by simp))]
          exact (ih s r).2 ⟨p, h2, by simpa using hl, fun e he => hh e (List.mem_cons_of_mem _ he)⟩

theorem eatDash_iff (s r : List Char) : eatDash s = some r ↔ s = '-' :: r := by
  unfold eatDash
  split
  · rename_i s'
    constructor
    · intro h; injection h with h; rw [h]
    · intro h; injection h with _ h; rw [h]
  · rename_i s' hs
    constructor
    · intro h; cases h
    · intro h; exact absurd h (hs r)

/-- Hexadecimal digits in groups of 8, 4, 4, 4 and 12. -/
structure Groups (s p1 p2 p3 p4 p5 : List Char) : Prop where
  text : s = p1 ++ '-' :: (p2 ++ '-' :: (p3 ++ '-' :: (p4 ++ '-' :: p5)))
  l1 : p1.length = 8
  l2 : p2.length = 4
  l3 : p3.length = 4
  l4 : p4.length = 4
  l5 : p5.length = 12
  h1 : ∀ c ∈ p1, isHex c = true
  h2 : ∀ c ∈ p2, isHex c = true
  h3 : ∀ c ∈ p3, isHex c = true
  h4 : ∀ c ∈ p4, isHex c = true
  h5 : ∀ c ∈ p5, isHex c = true

theorem matchesGuid_iff (s : List Char) : matchesGuid s = true ↔ ∃ p1 p2 p3 p4 p5, Groups s p1 p2 p3 p4 p5 := by
  unfold matchesGuid
  rw [beq_iff_eq]
  simp only [Option.bind_eq_some_iff, eatHex_iff, eatDash_iff]
  constructor
  · rintro ⟨_, ⟨_, ⟨_, ⟨_, ⟨_, ⟨_, ⟨_, ⟨_, ⟨p1, rfl, l1, h1⟩, rfl⟩, ⟨p2, rfl, l2, h2⟩⟩, rfl⟩, ⟨p3, rfl, l3, h3⟩⟩, rfl⟩, ⟨p4, rfl, l4, h4⟩⟩, rfl⟩, ⟨p5, rfl, l5, h5⟩⟩
    exact ⟨p1, p2, p3, p4, p5, by simp, l1, l2, l3, l4, l5, h1, h2, h3, h4, h5⟩
  · rintro ⟨p1, p2, p3, p4, p5, rfl, l1, l2, l3, l4, l5, h1, h2, h3, h4, h5⟩
    exact ⟨_, ⟨_, ⟨_, ⟨_, ⟨_, ⟨_, ⟨_, ⟨_, ⟨p1, rfl, l1, h1⟩, rfl⟩, ⟨p2, rfl, l2, h2⟩⟩, rfl⟩, ⟨p3, rfl, l3, h3⟩⟩, rfl⟩, ⟨p4, rfl, l4, h4⟩⟩, rfl⟩,
      ⟨p5, by simp, l5, h5⟩⟩

theorem mid {s : List Char} (a b c : List Char) (k n : Nat) (h : s = a ++ (b ++ c)) (ha : a.length = k) (hb : b.length = n) : guidPart s k n = hexString b := by
  unfold guidPart
  subst h ha hb
  rw [List.drop_left, List.take_left]

theorem two_chars {p : List Char} (h : p.length = 2) : ∃ a b, p = [a, b] := by
  match p, h with
  | [a, b], _ => exact ⟨a, b, rfl⟩

theorem hexByte_of {a b : Char} (ha : isHex a = true) (hb : isHex b = true) : ∃ r : UInt32, hexString [a, b] = some r ∧ HexByte a b r.toUInt8 := by
  obtain ⟨r, h1, h2, h3⟩ := hexString_eq (cs := [a, b]) (by simp [ha, hb]) (by simp) (by simp)
  refine ⟨r, h1, ?_⟩
  obtain ⟨x, hx, hx1, _⟩ := isHex_digit ha
  obtain ⟨y, hy, hy1, _⟩ := isHex_digit hb
  refine ⟨x, y, hx1, hy1, ?_⟩
  have : hexNumber [a, b] = some (16 * x + y) := by
    unfold hexNumber
    simp [hx1, hy1]
  rw [this] at h2
  injection h2 with h2
  rw [UInt32.toNat_toUInt8]
  omega

theorem chars4 {p : List Char} (h : p.length = 4) : ∃ a b c d, p = [a, b, c, d] := by
  match p, h with
  | [a, b, c, d], _ => exact ⟨a, b, c, d, rfl⟩

theorem chars12 {p : List Char} (h : p.length = 12) : ∃ a b c d e f g i j k l m, p = [a, b, c, d, e, f, g, i, j, k, l, m] := by
  match p, h with
  | [a, b, c, d, e, f, g, i, j, k, l, m], _ => exact ⟨a, b, c, d, e, f, g, i, j, k, l, m, rfl⟩

theorem guidParts_groups {s p1 p2 p3 p4 p5 : List Char} (h : Groups s p1 p2 p3 p4 p5) : ∃ g, guidParts s = some g ∧ GuidText g s := by
  obtain ⟨d1, e1, n1, b1⟩ := hexString_eq h.h1 (by intro e; have := h.l1; rw [e] at this; cases this) (by rw [h.l1])
  obtain ⟨d2, e2, n2, b2⟩ := hexString_eq h.h2 (by intro e; have := h.l2; rw [e] at this; cases this) (by rw [h.l2]; omega)
  obtain ⟨d3, e3, n3, b3⟩ := hexString_eq h.h3 (by intro e; have := h.l3; rw [e] at this; cases this) (by rw [h.l3]; omega)
  rw [h.l2] at b2
  rw [h.l3] at b3
  have h16 : (16 : Nat) ^ 4 = 65536 := rfl
  obtain ⟨a0, a1, a2, a3, q4⟩ := chars4 h.l4
  obtain ⟨c0, c1, c2, c3, c4, c5, c6, c7, c8, c9, c10, c11, q5⟩ := chars12 h.l5
  have k4 : ∀ c ∈ [a0, a1, a2, a3], isHex c = true := by rw [← q4]; exact h.h4
  have k5 : ∀ c ∈ [c0, c1, c2, c3, c4, c5, c6, c7, c8, c9, c10, c11], isHex c = true := by rw [← q5]; exact h.h5
  obtain ⟨r0, f0, g0⟩ := hexByte_of (k4 a0 (by simp)) (k4 a1 (by simp))
  obtain ⟨r1, f1, g1⟩ := hexByte_of (k4 a2 (by simp)) (k4 a3 (by simp))
  obtain ⟨r2, f2, g2⟩ := hexByte_of (k5 c0 (by simp)) (k5 c1 (by simp))
  obtain ⟨r3, f3, g3⟩ := hexByte_of (k5 c2 (by simp)) (k5 c3 (by simp))
  obtain ⟨r4, f4, g4⟩ := hexByte_of (k5 c4 (by simp)) (k5 c5 (by simp))
  obtain ⟨r5, f5, g5⟩ := hexByte_of (k5 c6 (by simp)) (k5 c7 (by simp))
  obtain ⟨r6, f6, g6⟩ := hexByte_of (k5 c8 (by simp)) (k5 c9 (by simp))
  obtain ⟨r7, f7, g7⟩ := hexByte_of (k5 c10 (by simp)) (k5 c11 (by simp))
  have t := h.text
  rw [q4, q5] at t
  have l1 := h.l1
  have l2 := h.l2
  have l3 := h.l3
  have m1 : guidPart s 0 8 = some d1 := (mid [] p1 _ 0 8 (by rw [t]; rfl) rfl l1).trans e1
  have m2 : guidPart s 9 4 = some d2 :=
    (mid (p1 ++ ['-']) p2 ('-' :: (p3 ++ '-' :: ([a0, a1, a2, a3] ++ '-' :: [c0, c1, c2, c3, c4, c5, c6, c7, c8, c9, c10, c11]))) 9 4
      (by rw [t]; simp) (by simp [l1]) l2).trans e2
  have m3 : guidPart s 14 4 = some d3 :=
    (mid (p1 ++ '-' :: (p2 ++ ['-'])) p3 ('-' :: ([a0, a1, a2, a3] ++ '-' :: [c0, c1, c2, c3, c4, c5, c6, c7, c8, c9, c10, c11])) 14 4
      (by rw [t]; simp) (by simp [l1, l2]) l3).trans e3
  have mm : ∀ (x y : List Char) (u v : Char) (k : Nat), [a0, a1, a2, a3] ++ '-' :: [c0, c1, c2, c3, c4, c5, c6, c7, c8, c9, c10, c11] = x ++ ([u, v] ++ y) →
      x.length + 19 = k → guidPart s k 2 = hexString [u, v] := by
    intro x y u v k hx hk
    refine mid (p1 ++ '-' :: (p2 ++ '-' :: (p3 ++ '-' :: x))) [u, v] y k 2 ?_ ?_ rfl
    · rw [t, hx]; simp
    · simp only [List.length_append, List.length_cons, l1, l2, l3]; omega
  have m4 : guidPart s 19 2 = some r0 := (mm [] _ a0 a1 19 rfl rfl).trans f0
  have m5 : guidPart s 21 2 = some r1 := (mm [a0, a1] _ a2 a3 21 rfl rfl).trans f1
  have m6 : guidPart s 24 2 = some r2 := (mm [a0, a1, a2, a3, '-'] _ c0 c1 24 rfl rfl).trans f2
  have m7 : guidPart s 26 2 = some r3 := (mm [a0, a1, a2, a3, '-', c0, c1] _ c2 c3 26 rfl rfl).trans f3
  have m8 : guidPart s 28 2 = some r4 := (mm [a0, a1, a2, a3, '-', c0, c1, c2, c3] _ c4 c5 28 rfl rfl).trans f4
  have m9 : guidPart s 30 2 = some r5 := (mm [a0, a1, a2, a3, '-', c0, c1, c2, c3, c4, c5] _ c6 c7 30 rfl rfl).trans f5
  have m10 : guidPart s 32 2 = some r6 := (mm [a0, a1, a2, a3, '-', c0, c1, c2, c3, c4, c5, c6, c7] _ c8 c9 32 rfl rfl).trans f6
  have m11 : guidPart s 34 2 = some r7 := (mm [a0, a1, a2, a3, '-', c0, c1, c2, c3, c4, c5, c6, c7, c8, c9] [] c10 c11 34 rfl rfl).trans f7
  refine ⟨⟨d1, d2.toUInt16, d3.toUInt16, #v[r0.toUInt8, r1.toUInt8, r2.toUInt8, r3.toUInt8, r4.toUInt8, r5.toUInt8, r6.toUInt8, r7.toUInt8]⟩, ?_, ?_⟩
  · unfold guidParts
    rw [m1, m2, m3, m4, m5, m6, m7, m8, m9, m10, m11]
    rfl
  · refine ⟨p1, p2, p3, p4, p5, h.text, h.l1, h.l2, h.l3, h.l4, h.l5, n1, ?_, ?_, ?_⟩
    · rw [n2]; dsimp only; rw [UInt32.toNat_toUInt16]; congr 1; omega
    · rw [n3]; dsimp only; rw [UInt32.toNat_toUInt16]; congr 1; omega
    · rw [q4, q5]
      intro i
      match i with
      | ⟨0, _⟩ => exact ⟨a0, a1, rfl, rfl, g0⟩
      | ⟨1, _⟩ => exact ⟨a2, a3, rfl, rfl, g1⟩
      | ⟨2, _⟩ => exact ⟨c0, c1, rfl, rfl, g2⟩
      | ⟨3, _⟩ => exact ⟨c2, c3, rfl, rfl, g3⟩
      | ⟨4, _⟩ => exact ⟨c4, c5, rfl, rfl, g4⟩
      | ⟨5, _⟩ => exact ⟨c6, c7, rfl, rfl, g5⟩
      | ⟨6, _⟩ => exact ⟨c8, c9, rfl, rfl, g6⟩
      | ⟨7, _⟩ => exact ⟨c10, c11, rfl, rfl, g7⟩

theorem guidText_groups {g : Guid} {t : List Char} (h : GuidText g t) : ∃ p1 p2 p3 p4 p5, Groups t p1 p2 p3 p4 p5 := by
  obtain ⟨p1, p2, p3, p4, p5, ht, l1, l2, l3, l4, l5, n1, n2, n3, hb⟩ := h.parts
  have hx : ∀ c ∈ p4 ++ p5, isHex c = true := by
    intro c hc
    obtain ⟨k, hk, rfl⟩ := List.getElem_of_mem hc
    have hk' : k < 16 := by rw [List.length_append, l4, l5] at hk; exact hk
    obtain ⟨a, b, e1, e2, x, y, ex, ey, _⟩ := hb ⟨k / 2, by omega⟩
    dsimp only at e1 e2
    rcases Nat.mod_two_eq_zero_or_one k with e | e
    · rw [show 2 * (k / 2) = k by omega, List.getElem?_eq_getElem hk] at e1
      injection e1 with e1
      rw [e1]; exact digit_isHex ex
    · rw [show 2 * (k / 2) + 1 = k by omega, List.getElem?_eq_getElem hk] at e2
      injection e2 with e2
      rw [e2]; exact digit_isHex ey
  exact ⟨p1, p2, p3, p4, p5, ht, l1, l2, l3, l4, l5, hexFrom_isHex n1, hexFrom_isHex n2, hexFrom_isHex n3,
    fun c hc => hx c (by simp [hc]), fun c hc => hx c (by simp [hc])⟩

theorem guidText_unique {g g' : Guid} {t : List Char} (h : GuidText g t) (h' : GuidText g' t) : g = g' := by
  obtain ⟨p1, p2, p3, p4, p5, ht, l1, l2, l3, l4, l5, n1, n2, n3, hb⟩ := h.parts
  obtain ⟨q1, q2, q3, q4, q5, ht', k1, k2, k3, k4, k5, m1, m2, m3, hb'⟩ := h'.parts
  rw [ht] at ht'
  obtain ⟨e1, ht'⟩ := List.append_inj ht' (by rw [l1, k1])
  injection ht' with _ ht'
  obtain ⟨e2, ht'⟩ := List.append_inj ht' (by rw [l2, k2])
  injection ht' with _ ht'
  obtain ⟨e3, ht'⟩ := List.append_inj ht' (by rw [l3, k3])
  injection ht' with _ ht'
  obtain ⟨e4, ht'⟩ := List.append_inj ht' (by rw [l4, k4])
  injection ht' with _ e5
  subst e1 e2 e3 e4 e5
  rw [n1] at m1; rw [n2] at m2; rw [n3] at m3
  injection m1 with m1; injection m2 with m2; injection m3 with m3
  obtain ⟨d1, d2, d3, d4⟩ := g
  obtain ⟨d1', d2', d3', d4'⟩ := g'
  dsimp only at m1 m2 m3 hb hb'
  have x1 := UInt32.toNat_inj.1 m1
  have x2 := UInt16.toNat_inj.1 m2
  have x3 := UInt16.toNat_inj.1 m3
  subst x1 x2 x3
  congr 1
  apply Vector.ext
  intro i hi
  obtain ⟨a, b, ea, eb, x, y, hx, hy, hv⟩ := hb ⟨i, hi⟩
  obtain ⟨a', b', ea', eb', x', y', hx', hy', hv'⟩ := hb' ⟨i, hi⟩
  rw [ea] at ea'; rw [eb] at eb'
  injection ea' with ea'; injection eb' with eb'
  subst ea' eb'
  rw [hx] at hx'; rw [hy] at hy'
  injection hx' with hx'; injection hy' with hy'
  apply UInt8.toNat_inj.1
  show (d4[(⟨i, hi⟩ : Fin 8)]).toNat = (d4'[(⟨i, hi⟩ : Fin 8)]).toNat
  rw [hv, hv', hx', hy']

end Verif.CApi
