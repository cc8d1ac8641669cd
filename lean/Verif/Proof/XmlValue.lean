import Verif.Spec.XmlValue
import Verif.Proof.Xml
import Verif.Proof.IndexSet

/-!
# Helper lemmas: values of metadata nodes
-/

namespace Verif.Xml
open Text Spec

theorem scan_text {w sign ds rest : Str} (hw : White w) (hs : sign ∈ ([[], ['+'], ['-']] : List Str)) (hd : Digits ds)
    (hr : ∀ c cs, rest = c :: cs → c.isDigit = false) :
    scanInt (w ++ (sign ++ (ds ++ rest))) = some (decide (sign = ['-']), ds, rest) := by
  have a : ∀ c ∈ w, isSpace c = true := fun c hc => (isSpace_iff c).mpr (hw c hc)
  have b : ∀ c ∈ ds, c.isDigit = true := fun c hc => (isDigit_iff c).mpr (hd.2 c hc)
  obtain ⟨d, ds', rfl⟩ : ∃ d ds', ds = d :: ds' := by
    cases ds with
    | nil => exact absurd rfl hd.1
    | cons d ds => exact ⟨d, ds, rfl⟩
  have hd0 := digit_not (hd.2 d (by simp))
  have e1 := takeWhile_all a (sign ++ ((d :: ds') ++ rest)) (by
    intro c cs e
    simp only [List.mem_cons, List.not_mem_nil, or_false] at hs
    rcases hs with rfl | rfl | rfl
    · simp at e; rw [← e.1]; exact hd0.2.2.2.2
    · simp at e; rw [← e.1]; decide
    · simp at e; rw [← e.1]; decide)
  have e2 := takeWhile_all b rest hr
  rw [scanInt, e1.2]
  simp only [List.mem_cons, List.not_mem_nil, or_false] at hs
  rcases hs with rfl | rfl | rfl
  · rw [List.cons_append] at e2
    simp only [List.nil_append, List.cons_append, List.head?_cons]
    simp [hd0.2.2.2.1, hd0.2.2.1, e2.1, e2.2]
  · simp only [List.cons_append, List.nil_append, List.head?_cons]
    rw [List.cons_append] at e2
    simp [e2.1, e2.2]
  · simp only [List.cons_append, List.nil_append, List.head?_cons]
    rw [List.cons_append] at e2
    simp [e2.1, e2.2]

theorem scan_sound {s ds rest : Str} {neg : Bool} (h : scanInt s = some (neg, ds, rest)) :
    ∃ w sign, s = w ++ (sign ++ (ds ++ rest)) ∧ White w ∧ sign ∈ ([[], ['+'], ['-']] : List Str) ∧ Digits ds ∧ neg = decide (sign = ['-']) ∧
      ∀ c cs, rest = c :: cs → c.isDigit = false := by
  rw [scanInt] at h
  obtain ⟨s1, s2, _⟩ := span_eq isSpace s
  generalize s.takeWhile isSpace = w at s1 s2
  generalize s.dropWhile isSpace = r at s1 h
  have hw : White w := fun c hc => (isSpace_iff c).mp (s2 c hc)
  have key : ∀ r' : Str, (if r'.takeWhile Char.isDigit = [] then none else some (neg, r'.takeWhile Char.isDigit, r'.dropWhile Char.isDigit)) = some (neg, ds, rest) →
      r' = ds ++ rest ∧ Digits ds ∧ ∀ c cs, rest = c :: cs → c.isDigit = false := by
    intro r' hr'
    split at hr'
    · cases hr'
    · rename_i hne
      injection hr' with hr'
      injection hr' with _ hr'
      injection hr' with e1 e2
      obtain ⟨t1, t2, t3⟩ := span_eq Char.isDigit r'
      rw [e1, e2] at t1
      rw [e1] at t2 hne
      rw [e2] at t3
      exact ⟨t1, ⟨hne, fun c hc => (isDigit_iff c).mp (t2 c hc)⟩, t3⟩
  have neg_eq : neg = decide (r.head? = some '-') := by
    revert h
    generalize (if r.head? = some '-' ∨ r.head? = some '+' then r.drop 1 else r) = r'
    intro h
    split at h
    · cases h
    · injection h with h
      injection h with h _
      exact h.symm
  rw [← neg_eq] at h
  obtain ⟨k1, k2, k3⟩ := key _ h
  by_cases h1 : r.head? = some '-'
  · rw [if_pos (.inl h1)] at k1
    refine ⟨w, ['-'], ?_, hw, by simp, k2, by rw [neg_eq]; simp [h1], k3⟩
    rw [s1]
    cases r with
    | nil => cases h1
    | cons c r => simp at h1 k1; subst h1 k1; rfl
  · by_cases h2 : r.head? = some '+'
    · rw [if_pos (.inr h2)] at k1
      refine ⟨w, ['+'], ?_, hw, by simp, k2, by rw [neg_eq]; simp [h2], k3⟩
      rw [s1]
      cases r with
      | nil => cases h2
      | cons c r => simp at h2 k1; subst h2 k1; rfl
    · rw [if_neg (by rintro (h | h); exacts [h1 h, h2 h])] at k1
      exact ⟨w, [], by rw [s1, k1]; rfl, hw, by simp, k2, by rw [neg_eq]; simp [h1], k3⟩

/-- The value that was read. -/
def scanned (neg : Bool) (ds : Str) : Int := if neg then -(natOf ds : Int) else natOf ds

theorem scan_none_iff (s : Str) : scanInt s = none ↔ ¬ ∃ t rest x, s = t ++ rest ∧ IntText t x := by
  constructor
  · rintro h ⟨t, rest, x, rfl, w, sign, ds, rfl, hw, hs, hd, _⟩
    obtain ⟨t1, t2, t3⟩ := span_eq Char.isDigit rest
    have hall : Digits (ds ++ rest.takeWhile Char.isDigit) := by
      refine ⟨by simp [hd.1], ?_⟩
      intro c hc
      rw [List.mem_append] at hc
      rcases hc with hc | hc
      · exact hd.2 c hc
      · exact (isDigit_iff c).mp (t2 c hc)
    have := scan_text hw hs hall t3
    have e : w ++ (sign ++ ds) ++ rest = w ++ (sign ++ (ds ++ rest.takeWhile Char.isDigit ++ rest.dropWhile Char.isDigit)) := by
      rw [List.append_assoc ds, ← t1]; simp
    rw [e, this] at h
    cases h
  · intro h
    cases hs : scanInt s with
    | none => rfl
    | some r =>
      obtain ⟨neg, ds, rest⟩ := r
      obtain ⟨w, sign, e, hw, hsg, hd, _⟩ := scan_sound hs
      exact absurd ⟨w ++ (sign ++ ds), rest, _, by rw [e]; simp, w, sign, ds, rfl, hw, hsg, hd, rfl⟩ h

theorem scan_iff {s rest : Str} {x : Int} (hr : ∀ c cs, rest = c :: cs → c.isDigit = false) :
    (∃ t, s = t ++ rest ∧ IntText t x) ↔ ∃ neg ds, scanInt s = some (neg, ds, rest) ∧ x = scanned neg ds := by
  constructor
  · rintro ⟨t, rfl, w, sign, ds, rfl, hw, hs, hd, rfl⟩
    refine ⟨decide (sign = ['-']), ds, ?_, ?_⟩
    · have := scan_text hw hs hd hr
      rw [← this]; simp
    · simp [scanned, natOf_eq]
  · rintro ⟨neg, ds, h, rfl⟩
    obtain ⟨w, sign, e, hw, hs, hd, hn, _⟩ := scan_sound h
    refine ⟨w ++ (sign ++ ds), by rw [e]; simp, w, sign, ds, rfl, hw, hs, hd, ?_⟩
    simp [scanned, natOf_eq, hn]

theorem finish_value {a b : Int} {rest : Str} : finish a rest = .value b ↔ a = b ∧ rest = [] := by
  cases rest with
  | nil => simp [finish]
  | cons c r =>
    rw [finish]
    split <;> simp

theorem finish_hangs {α : Type} {a : α} {rest : Str} : finish a rest = .hangs ↔ ∃ c r, rest = c :: r ∧ isSpace c = true := by
  cases rest with
  | nil => simp [finish]
  | cons c r =>
    rw [finish]
    split
    · simp [*]
    · simp [*]

theorem readSigned_some {lo hi : Int} {s ds rest : Str} {neg : Bool} (h : scanInt s = some (neg, ds, rest)) :
    readSigned lo hi (some s) = if scanned neg ds < lo ∨ hi < scanned neg ds then .fails else finish (scanned neg ds) rest := by
  rw [readSigned]
  dsimp only
  rw [h]
  rfl

theorem readSigned_none {lo hi : Int} {s : Str} (h : scanInt s = none) : readSigned lo hi (some s) = .fails := by
  rw [readSigned]
  dsimp only
  rw [h]

/-- The value that was read, as an unsigned number. -/
def scannedU (neg : Bool) (ds : Str) : Nat := if neg then (2 ^ 64 - natOf ds) % 2 ^ 64 else natOf ds

theorem readUnsigned_some {hi : Nat} {s ds rest : Str} {neg : Bool} (h : scanInt s = some (neg, ds, rest)) :
    readUnsigned hi (some s) = if 2 ^ 64 ≤ natOf ds then .fails else if hi < scannedU neg ds then .fails else finish (scannedU neg ds) rest := by
  rw [readUnsigned]
  dsimp only
  rw [h]
  rfl

theorem readUnsigned_none {hi : Nat} {s : Str} (h : scanInt s = none) : readUnsigned hi (some s) = .fails := by
  rw [readUnsigned]
  dsimp only
  rw [h]

theorem readSigned_value {lo hi x : Int} {v : Option Str} :
    readSigned lo hi v = .value x ↔ ∃ t, v = some t ∧ IntText t x ∧ lo ≤ x ∧ x ≤ hi := by
  cases v with
  | none => simp [readSigned]
  | some s =>
    have si := scan_iff (s := s) (rest := []) (x := x) (by simp)
    simp only [List.append_nil] at si
    constructor
    · intro h
      cases hs : scanInt s with
      | none => rw [readSigned_none hs] at h; cases h
      | some r =>
        obtain ⟨neg, ds, rest⟩ := r
        rw [readSigned_some hs] at h
        split at h
        · cases h
        · rename_i hr
          rw [finish_value] at h
          obtain ⟨rfl, rfl⟩ := h
          refine ⟨s, rfl, ?_, by omega, by omega⟩
          obtain ⟨t, rfl, ht⟩ := si.mpr ⟨neg, ds, hs, rfl⟩
          exact ht
    · rintro ⟨t, e, ht, h1, h2⟩
      injection e with e
      subst e
      obtain ⟨neg, ds, hs, rfl⟩ := si.mp ⟨s, rfl, ht⟩
      rw [readSigned_some hs]
      rw [if_neg (show ¬ (scanned neg ds < lo ∨ hi < scanned neg ds) by omega), finish_value]
      exact ⟨rfl, rfl⟩

theorem space_not_digit {c : Char} (h : isSpace c = true) : c.isDigit = false := by
  by_contra hx
  have := (digit_not ((isDigit_iff c).mp (by simpa using hx))).2.2.2.2
  rw [h] at this
  exact Bool.noConfusion this

theorem readSigned_hangs {lo hi : Int} {v : Option Str} :
    readSigned lo hi v = .hangs ↔ ∃ t x c r, v = some (t ++ c :: r) ∧ IntText t x ∧ lo ≤ x ∧ x ≤ hi ∧ c ∈ [' ', '\t', '\n', '\x0b', '\x0c', '\r'] := by
  cases v with
  | none => simp [readSigned]
  | some s =>
    constructor
    · intro h
      cases hs : scanInt s with
      | none => rw [readSigned_none hs] at h; cases h
      | some r =>
        obtain ⟨neg, ds, rest⟩ := r
        rw [readSigned_some hs] at h
        split at h
        · cases h
        · rename_i hr
          rw [finish_hangs] at h
          obtain ⟨c, r, rfl, hc⟩ := h
          obtain ⟨t, rfl, ht⟩ := (scan_iff (by intro c' cs e; injection e with e _; subst e; exact space_not_digit hc)).mpr ⟨neg, ds, hs, rfl⟩
          have hr' : ¬ (scanned neg ds < lo ∨ hi < scanned neg ds) := hr
          exact ⟨t, _, c, r, rfl, ht, by omega, by omega, (isSpace_iff c).mp hc⟩
    · rintro ⟨t, x, c, r, e, ht, h1, h2, hc⟩
      injection e with e
      subst e
      have hc' := (isSpace_iff c).mpr hc
      obtain ⟨neg, ds, hs, rfl⟩ := (scan_iff (s := t ++ c :: r) (rest := c :: r) (by intro c' cs e; injection e with e _; subst e; exact space_not_digit hc')).mp ⟨t, rfl, ht⟩
      rw [readSigned_some hs]
      rw [if_neg (show ¬ (scanned neg ds < lo ∨ hi < scanned neg ds) by omega), finish_hangs]
      exact ⟨c, r, rfl, hc'⟩

/-- What `stoull` makes of a number. -/
def wrapped (x : Int) : Int := if x < 0 then x + 2 ^ 64 else x

theorem wrapped_scanned {neg : Bool} {ds : Str} (h : natOf ds < 2 ^ 64) :
    (scannedU neg ds : Int) = wrapped (scanned neg ds) ∧ -(2 ^ 64) < scanned neg ds ∧ scanned neg ds < 2 ^ 64 := by
  rw [scanned, wrapped, scannedU]
  cases neg with
  | false => simp only [Bool.false_eq_true, if_false]; omega
  | true =>
    simp only [if_true]
    split <;> omega

theorem scanned_bound {neg : Bool} {ds : Str} (h1 : -(2 ^ 64) < scanned neg ds) (h2 : scanned neg ds < 2 ^ 64) : natOf ds < 2 ^ 64 := by
  rw [scanned] at h1 h2
  cases neg with
  | false => simp only [Bool.false_eq_true, if_false] at h1 h2; omega
  | true => simp only [if_true] at h1 h2; omega

theorem finish_value' {a b : Nat} {rest : Str} : finish a rest = .value b ↔ a = b ∧ rest = [] := by
  cases rest with
  | nil => simp [finish]
  | cons c r =>
    rw [finish]
    split <;> simp

theorem readUnsigned_value {hi x : Nat} {v : Option Str} :
    readUnsigned hi v = .value x ↔ ∃ t y, v = some t ∧ IntText t y ∧ -(2 ^ 64) < y ∧ y < 2 ^ 64 ∧ (x : Int) = wrapped y ∧ x ≤ hi := by
  cases v with
  | none => simp [readUnsigned]
  | some s =>
    constructor
    · intro h
      cases hs : scanInt s with
      | none => rw [readUnsigned_none hs] at h; cases h
      | some r =>
        obtain ⟨neg, ds, rest⟩ := r
        rw [readUnsigned_some hs] at h
        split at h
        · cases h
        · rename_i hb
          split at h
          · cases h
          · rename_i hr
            rw [finish_value'] at h
            obtain ⟨rfl, rfl⟩ := h
            obtain ⟨w1, w2, w3⟩ := wrapped_scanned (neg := neg) (ds := ds) (by omega)
            obtain ⟨t, e, ht⟩ := (scan_iff (s := s) (rest := []) (x := scanned neg ds) (by simp)).mpr ⟨neg, ds, hs, rfl⟩
            rw [List.append_nil] at e
            subst e
            exact ⟨s, _, rfl, ht, w2, w3, w1, by omega⟩
    · rintro ⟨t, y, e, ht, h1, h2, h3, h4⟩
      injection e with e
      subst e
      obtain ⟨neg, ds, hs, rfl⟩ := (scan_iff (s := s) (rest := []) (x := y) (by simp)).mp ⟨s, by simp, ht⟩
      have hb := scanned_bound h1 h2
      obtain ⟨w1, _, _⟩ := wrapped_scanned (neg := neg) hb
      rw [readUnsigned_some hs]
      have e : scannedU neg ds = x := by
        have : (scannedU neg ds : Int) = (x : Int) := by rw [w1, h3]
        exact Int.ofNat.inj this
      rw [if_neg (by omega), e, if_neg (by omega), finish_value']
      exact ⟨rfl, rfl⟩

theorem readUnsigned_hangs {hi : Nat} {v : Option Str} :
    readUnsigned hi v = .hangs ↔ ∃ t y c r, v = some (t ++ c :: r) ∧ IntText t y ∧ -(2 ^ 64) < y ∧ y < 2 ^ 64 ∧ wrapped y ≤ hi ∧
      c ∈ [' ', '\t', '\n', '\x0b', '\x0c', '\r'] := by
  cases v with
  | none => simp [readUnsigned]
  | some s =>
    constructor
    · intro h
      cases hs : scanInt s with
      | none => rw [readUnsigned_none hs] at h; cases h
      | some r =>
        obtain ⟨neg, ds, rest⟩ := r
        rw [readUnsigned_some hs] at h
        split at h
        · cases h
        · rename_i hb
          split at h
          · cases h
          · rename_i hr
            rw [finish_hangs] at h
            obtain ⟨c, r, rfl, hc⟩ := h
            obtain ⟨w1, w2, w3⟩ := wrapped_scanned (neg := neg) (ds := ds) (by omega)
            obtain ⟨t, rfl, ht⟩ := (scan_iff (by intro c' cs e; injection e with e _; subst e; exact space_not_digit hc)).mpr ⟨neg, ds, hs, rfl⟩
            exact ⟨t, _, c, r, rfl, ht, w2, w3, by rw [← w1]; omega, (isSpace_iff c).mp hc⟩
    · rintro ⟨t, y, c, r, e, ht, h1, h2, h3, hc⟩
      injection e with e
      subst e
      have hc' := (isSpace_iff c).mpr hc
      obtain ⟨neg, ds, hs, rfl⟩ := (scan_iff (s := t ++ c :: r) (rest := c :: r) (by intro c' cs e; injection e with e _; subst e; exact space_not_digit hc')).mp ⟨t, rfl, ht⟩
      have hb := scanned_bound h1 h2
      obtain ⟨w1, _, _⟩ := wrapped_scanned (neg := neg) hb
      rw [readUnsigned_some hs]
      rw [if_neg (by omega), if_neg (by rw [← w1] at h3; omega), finish_hangs]
      exact ⟨c, r, rfl, hc'⟩

theorem printInt_text (v : Int) : IntText (printInt v) v := by
  obtain ⟨a, b, _⟩ := decimal_spec v.natAbs
  rw [printInt]
  split
  · exact ⟨[], ['-'], decimal v.natAbs, rfl, by simp [White], by simp, a, by rw [if_pos rfl, b]; omega⟩
  · exact ⟨[], [], decimal v.natAbs, rfl, by simp [White], by simp, a, by rw [if_neg (by simp), b]; omega⟩

/-! ## Truth values -/

theorem toNat_ofNat {k : Nat} (h : k < 128) : (Char.ofNat k).toNat = k := by
  have : ∀ k : Fin 128, (Char.ofNat k.val).toNat = k.val := by decide
  exact this ⟨k, h⟩

theorem toNat_inj {a b : Char} (h : a.toNat = b.toNat) : a = b := by
  rw [← Char.ofNat_toNat a, h, Char.ofNat_toNat]

theorem upper_iff {c l : Char} (hl : ¬ (65 ≤ l.toNat ∧ l.toNat ≤ 90)) :
    upper c = upper l ↔ (c = l ∨ (97 ≤ l.toNat ∧ l.toNat ≤ 122 ∧ c.toNat + 32 = l.toNat)) := by
  constructor
  · intro h
    have h' : (upper c).toNat = (upper l).toNat := by rw [h]
    rw [upper, upper] at h'
    split at h' <;> split at h'
    · rw [toNat_ofNat (by omega), toNat_ofNat (by omega)] at h'
      exact .inl (toNat_inj (by omega))
    · rw [toNat_ofNat (by omega)] at h'; omega
    · rw [toNat_ofNat (by omega)] at h'; exact .inr (by omega)
    · exact .inl (toNat_inj h')
  · rintro (rfl | ⟨h1, h2, h3⟩)
    · rfl
    · apply toNat_inj
      rw [upper, upper, if_neg (by omega), if_pos ⟨h1, h2⟩, toNat_ofNat (by omega)]
      omega

theorem icasecmp_iff {t w : Str} (hw : ∀ l ∈ w, ¬ (65 ≤ l.toNat ∧ l.toNat ≤ 90)) : icasecmp t w = true ↔ CaseWord t w := by
  rw [icasecmp, beq_iff_eq, CaseWord]
  induction w generalizing t with
  | nil =>
    cases t with
    | nil => simp only [List.map_nil, true_iff]; exact .nil
    | cons c t => simp only [List.map_cons, List.map_nil, reduceCtorEq, false_iff]; intro h; cases h
  | cons l w ih =>
    cases t with
    | nil => simp only [List.map_cons, List.map_nil, false_iff]; constructor <;> intro h <;> cases h
    | cons c t =>
      rw [List.map_cons, List.map_cons, List.cons.injEq, upper_iff (hw l (by simp)), ih (fun x hx => hw x (by simp [hx]))]
      constructor
      · rintro ⟨a, b⟩; exact .cons a b
      · intro h; cases h with | cons a b => exact ⟨a, b⟩

/-! ## Values and attributes -/

theorem tryGetValue_setText {nm : Str} {as : List (Str × Str)} {cs : List Node} (v : Str) (hc : ∀ x, cs.head? ≠ some (.text true x)) (hn : ∀ c ∈ cs, c.isElement = false) :
    tryGetValue (.element nm as (setText v cs)) = some v := by
  cases cs with
  | nil => rfl
  | cons c cs =>
    cases c with
    | element _ _ _ => exact absurd (hn _ (List.mem_cons_self ..)) (fun h => Bool.noConfusion h)
    | text b x =>
      cases b with
      | false => rfl
      | true => exact absurd rfl (hc x)

theorem tryGetValue_setText_cdata {nm : Str} {as : List (Str × Str)} {cs : List Node} (v x : Str) :
    tryGetValue (.element nm as (setText v (.text true x :: cs))) = none := rfl

theorem setText_noElement {v : Str} {cs : List Node} (hn : ∀ c ∈ cs, c.isElement = false) : ∀ c ∈ setText v cs, c.isElement = false := by
  induction cs with
  | nil => intro c hc; rw [setText, List.mem_singleton] at hc; subst hc; rfl
  | cons d cs ih =>
    intro c hc
    have hd := hn d (by simp)
    cases d with
    | element _ _ _ => cases hd
    | text b x =>
      cases b with
      | false =>
        rw [setText, List.mem_cons] at hc
        rcases hc with rfl | hc
        · rfl
        · exact hn c (by simp [hc])
      | true =>
        have e : setText v (.text true x :: cs) = .text true x :: setText v cs := rfl
        rw [e, List.mem_cons] at hc
        rcases hc with rfl | hc
        · rfl
        · exact ih (fun c hc => hn c (by simp [hc])) c hc

theorem attrValue_setAttr (k v : Str) (as : List (Str × Str)) (k' : Str) :
    attrValue (setAttr k v as) k' = if k' = k then some v else attrValue as k' := by
  induction as with
  | nil => simp only [setAttr, attrValue, eq_comm]
  | cons a as ih =>
    obtain ⟨x, y⟩ := a
    rw [setAttr]
    dsimp only
    by_cases hx : x = k
    · rw [if_pos hx, attrValue, attrValue]
      by_cases hk : k' = k
      · rw [if_pos hk.symm, if_pos hk]
      · rw [if_neg (fun h => hk h.symm), if_neg hk, if_neg (fun h => hk (by rw [← h, hx]))]
    · rw [if_neg hx, attrValue, ih, attrValue]
      by_cases hk : x = k'
      · rw [if_pos hk, if_pos hk, if_neg (by rw [← hk]; exact hx)]
      · rw [if_neg hk, if_neg hk]

theorem setAttr_names (k v : Str) (as : List (Str × Str)) :
    (setAttr k v as).map (·.1) = if k ∈ as.map (·.1) then as.map (·.1) else as.map (·.1) ++ [k] := by
  induction as with
  | nil => simp [setAttr]
  | cons a as ih =>
    rw [setAttr]
    by_cases hx : a.1 = k
    · rw [if_pos hx, if_pos (by simp [hx])]; simp [hx]
    · rw [if_neg hx, List.map_cons, ih]
      by_cases hm : k ∈ as.map (·.1)
      · rw [if_pos hm, if_pos (by rw [List.map_cons, List.mem_cons]; exact .inr hm)]; rfl
      · rw [if_neg hm, if_neg (by rw [List.map_cons, List.mem_cons]; rintro (h | h); exacts [hx h.symm, hm h])]; rfl

theorem attrValue_erase (k : Str) (as : List (Str × Str)) (k' : Str) (hk : k' ≠ k) :
    attrValue (as.eraseP (fun a => a.1 == k)) k' = attrValue as k' := by
  induction as with
  | nil => rfl
  | cons a as ih =>
    obtain ⟨x, y⟩ := a
    rw [List.eraseP_cons]
    by_cases hx : x = k
    · simp [hx, attrValue, Ne.symm hk]
    · have : (x == k) = false := by simpa using hx
      simp only [this, cond_false, Bool.false_eq_true, if_false, attrValue, ih]

theorem attrValue_none {as : List (Str × Str)} {k : Str} : attrValue as k = none ↔ k ∉ as.map (·.1) := by
  induction as with
  | nil => simp [attrValue]
  | cons a as ih =>
    obtain ⟨x, y⟩ := a
    rw [attrValue]
    by_cases hx : x = k
    · simp [hx]
    · rw [if_neg hx, ih]; simp [Ne.symm hx]

theorem attrValue_erase_self {k : Str} {as : List (Str × Str)} (hn : (as.map (·.1)).Nodup) : attrValue (as.eraseP (fun a => a.1 == k)) k = none := by
  induction as with
  | nil => rfl
  | cons a as ih =>
    obtain ⟨x, y⟩ := a
    rw [List.map_cons, List.nodup_cons] at hn
    rw [List.eraseP_cons]
    by_cases hx : x = k
    · simp [hx]
      rw [attrValue_none, ← hx]
      exact hn.1
    · have : (x == k) = false := by simpa using hx
      simp only [this, Bool.false_eq_true, cond_false, if_false, attrValue, if_neg hx, ih hn.2]

theorem eraseP_split (p : Node → Bool) (cs : List Node) :
    (cs.any p = false ∧ cs.eraseP p = cs) ∨ ∃ a c b, cs = a ++ c :: b ∧ (∀ x ∈ a, p x = false) ∧ p c = true ∧ cs.eraseP p = a ++ b ∧ cs.any p = true := by
  induction cs with
  | nil => exact .inl ⟨rfl, rfl⟩
  | cons x cs ih =>
    by_cases hx : p x = true
    · exact .inr ⟨[], x, cs, rfl, by simp, hx, by simp [List.eraseP_cons, hx], by simp [hx]⟩
    · have hx' : p x = false := by simpa using hx
      rcases ih with ⟨a, b⟩ | ⟨a, c, b, e, h1, h2, h3, h4⟩
      · exact .inl ⟨by simp [hx', List.any_cons, a], by simp [List.eraseP_cons, hx', b]⟩
      · refine .inr ⟨x :: a, c, b, by rw [e]; rfl, ?_, h2, by simp [List.eraseP_cons, hx', h3], by simp [List.any_cons, h4]⟩
        intro y hy
        rw [List.mem_cons] at hy
        rcases hy with rfl | hy
        · exact hx'
        · exact h1 y hy

theorem keepsOutside_update (h : List Nat) (doc n n' : Node) (hn : doc.at h = some n) (he : n.isElement = true) (he' : n'.isElement = true) :
    KeepsOutside h doc (doc.update (fun _ => n') h) := by
  induction h generalizing doc with
  | nil => intro q hq; exact absurd (List.nil_prefix) hq
  | cons i h ih =>
    cases hc : doc.children[i]? with
    | none => rw [at_cons_none hc] at hn; cases hn
    | some c =>
      rw [at_cons_some hc] at hn
      obtain ⟨nm, as, cs, rfl⟩ := element_of_child hc
      dsimp only [Node.children] at hc
      have hlt : i < cs.length := by
        by_contra hlt
        rw [List.getElem?_eq_none (by omega)] at hc
        cases hc
      rw [update_cons _ h hc]
      intro q hq
      cases q with
      | nil =>
        refine ⟨_, rfl, rfl, rfl, ?_⟩
        -- the value of the parent
        have kind : c.isElement = true ∧ (c.update (fun _ => n') h).isElement = true := by
          cases h with
          | nil => injection hn with hn; subst hn; exact ⟨he, he'⟩
          | cons j h =>
            cases hcc : c.children[j]? with
            | none => rw [at_cons_none hcc] at hn; cases hn
            | some d =>
              obtain ⟨nm', as', cs', rfl⟩ := element_of_child hcc
              exact ⟨rfl, rfl⟩
        generalize c.update (fun _ => n') h = c' at kind
        cases cs with
        | nil => simp at hc
        | cons x cs =>
          cases i with
          | succ i =>
            cases x with
            | element _ _ _ => rfl
            | text b _ => cases b <;> rfl
          | zero =>
            simp at hc
            subst hc
            cases x with
            | text _ _ => cases kind.1
            | element _ _ _ =>
              cases c' with
              | text _ _ => cases kind.2
              | element _ _ _ => rfl
      | cons j q =>
        by_cases hj : i = j
        · subst hj
          rw [at_cons_some (n := .element nm as cs) hc, at_cons_some (c := c.update (fun _ => n') h) (List.getElem?_set_self hlt)]
          exact ih c hn q (fun hp => hq (List.cons_prefix_cons.mpr ⟨rfl, hp⟩))
        · rw [at_cons, at_cons]
          dsimp only [Node.children]
          rw [List.getElem?_set_ne hj]
          cases hx : cs[j]? with
          | none => rfl
          | some x =>
            dsimp only
            cases x.at q with
            | none => rfl
            | some m => exact ⟨m, rfl, sameNode_refl m⟩

end Verif.Xml
