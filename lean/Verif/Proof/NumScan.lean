import Verif.Proof.NumRound
import Verif.Proof.Text

/-! # Number texts are read as what they denote -/

namespace Verif.Xml

open Verif.Flt Verif.Spec Verif.Text

theorem isDigit_true {c : Char} (h : IsDigit c) : c.isDigit = true := (isDigit_iff c).2 h
theorem isDigit_false {c : Char} (h : ¬IsDigit c) : c.isDigit = false := by
  cases e : c.isDigit
  · rfl
  · exact absurd ((isDigit_iff c).1 e) h

theorem digit_not {c d : Char} (h : IsDigit c) (hd : ¬IsDigit d) : c ≠ d := fun e => hd (e ▸ h)

theorem exponentText_head {ex : Str} {e : ℤ} (h : ExponentText ex e) {r : Str} (hr : EndsNumber r) : ∀ c cs, ex ++ r = c :: cs → c.isDigit = false ∧ c ≠ '.' := by
  intro c cs e
  cases h with
  | none =>
    obtain ⟨h1, h2⟩ := hr c cs e
    exact ⟨isDigit_false h1, fun e => h2 (by simp [e])⟩
  | some hc _ _ =>
    injection e with e _
    subst e
    rcases hc with rfl | rfl <;> decide

theorem scanExponent_text {ex : Str} {e : ℤ} (h : ExponentText ex e) {r : Str} (hr : EndsNumber r) :
    scanExponent (fun c => c = 'e' || c = 'E') (ex ++ r) = (e, r) := by
  cases h with
  | none =>
    rw [List.nil_append]
    unfold scanExponent
    cases r with
    | nil => rfl
    | cons c cs =>
      dsimp only
      have := (hr c cs rfl).2
      simp only [List.mem_cons, not_or] at this
      rw [if_neg (by simp [this.2.1, this.2.2.1])]
  | @some c s ds g hc hs hd =>
    have hstop : ∀ x xs, r = x :: xs → x.isDigit = false := fun x xs e => isDigit_false (hr x xs e).1
    have ht : (ds ++ r).takeWhile Char.isDigit = ds := (takeWhile_all (p := Char.isDigit) (fun x hx => isDigit_true (hd.2 x hx)) r hstop).1
    have hdr : (ds ++ r).dropWhile Char.isDigit = r := by
      rw [dropWhile_append (fun x hx => isDigit_true (hd.2 x hx))]
      cases r with
      | nil => rfl
      | cons x xs => rw [List.dropWhile_cons_of_neg]; rw [hstop x xs rfl]; simp
    unfold scanExponent
    rw [List.cons_append]
    dsimp only
    rw [if_pos (by rcases hc with rfl | rfl <;> decide)]
    rcases hs with ⟨rfl, rfl⟩ | ⟨rfl, rfl⟩ | ⟨rfl, rfl⟩
    · have hne : ¬((([] ++ ds) ++ r).head? = some '-') ∧ ¬((([] ++ ds) ++ r).head? = some '+') := by
        obtain ⟨h1, h2⟩ := hd
        cases ds with
        | nil => exact absurd rfl h1
        | cons a b =>
          have := h2 a (by simp)
          constructor <;> intro e <;> injection e with e <;> exact absurd (e ▸ this) (by unfold IsDigit; decide)
      have hif : (if (([] ++ ds) ++ r).head? = some '-' ∨ (([] ++ ds) ++ r).head? = some '+' then List.drop 1 (([] ++ ds) ++ r) else ([] ++ ds) ++ r) = ds ++ r :=
        if_neg (fun e => e.elim hne.1 hne.2)
      rw [hif, ht, if_neg hd.1, if_neg hne.1, hdr, natOf_eq]
      simp
    · have hif : (if ((['+'] ++ ds) ++ r).head? = some '-' ∨ ((['+'] ++ ds) ++ r).head? = some '+' then List.drop 1 ((['+'] ++ ds) ++ r) else (['+'] ++ ds) ++ r) = ds ++ r :=
        if_pos (Or.inr rfl)
      rw [hif, ht, if_neg hd.1, natOf_eq, if_neg (by intro e; injection e with e; exact absurd e (by decide)), hdr]
      simp
    · have hif : (if ((['-'] ++ ds) ++ r).head? = some '-' ∨ ((['-'] ++ ds) ++ r).head? = some '+' then List.drop 1 ((['-'] ++ ds) ++ r) else (['-'] ++ ds) ++ r) = ds ++ r :=
        if_pos (Or.inl rfl)
      have hh : ((['-'] ++ ds) ++ r).head? = some '-' := rfl
      rw [hif, ht, if_neg hd.1, natOf_eq, if_pos hh, hdr]
      simp

theorem dropWhile_all {p : Char → Bool} {a : List Char} (h : ∀ c ∈ a, p c = true) (b : List Char) (hb : ∀ c cs, b = c :: cs → p c = false) : (a ++ b).dropWhile p = b := by
  rw [dropWhile_append h]
  cases b with
  | nil => rfl
  | cons x xs => rw [List.dropWhile_cons_of_neg]; rw [hb x xs rfl]; simp

theorem scanPoint_text {ip pf fp R : Str} (hd : ∀ c ∈ ip ++ fp, IsDigit c) (hne : ip ++ fp ≠ []) (hp : pf = [] ∧ fp = [] ∨ pf = '.' :: fp)
    (hR : ∀ c cs, R = c :: cs → c.isDigit = false ∧ c ≠ '.') : scanPoint Char.isDigit (ip ++ (pf ++ R)) = some (ip, fp, R) := by
  have hi : ∀ c ∈ ip, c.isDigit = true := fun c hc => isDigit_true (hd c (by simp [hc]))
  have hf : ∀ c ∈ fp, c.isDigit = true := fun c hc => isDigit_true (hd c (by simp [hc]))
  have hne' : ¬(ip = [] ∧ fp = []) := by rintro ⟨a, b⟩; exact hne (by rw [a, b]; rfl)
  unfold scanPoint
  rcases hp with ⟨rfl, rfl⟩ | rfl
  · rw [List.nil_append, (takeWhile_all hi R (fun c cs e => (hR c cs e).1)).1, dropWhile_all hi R (fun c cs e => (hR c cs e).1)]
    have : ¬(R.head? = some '.') := by
      cases R with
      | nil => simp
      | cons c cs => intro e; injection e with e; exact (hR c cs rfl).2 e
    dsimp only
    rw [if_neg this, if_neg this, if_neg hne']
  · have hpt : ∀ c cs, '.' :: fp ++ R = c :: cs → c.isDigit = false := by
      intro c cs e
      injection e with e _
      subst e
      decide
    rw [(takeWhile_all hi _ hpt).1, dropWhile_all hi _ hpt]
    dsimp only
    have hh : ('.' :: fp ++ R).head? = some '.' := rfl
    rw [if_pos hh, if_pos hh]
    show (if ip = [] ∧ List.takeWhile Char.isDigit (fp ++ R) = [] then none else some (ip, List.takeWhile Char.isDigit (fp ++ R), List.dropWhile Char.isDigit (fp ++ R))) = _
    rw [(takeWhile_all hf R (fun c cs e => (hR c cs e).1)).1, dropWhile_all hf R (fun c cs e => (hR c cs e).1), if_neg hne']

theorem scanDecimal_text {ip pf fp ex r : Str} {e : ℤ} (hd : ∀ c ∈ ip ++ fp, IsDigit c) (hne : ip ++ fp ≠ []) (hp : pf = [] ∧ fp = [] ∨ pf = '.' :: fp)
    (he : ExponentText ex e) (hr : EndsNumber r) :
    scanDecimal (ip ++ (pf ++ (ex ++ r))) = some ((digitsValue (ip ++ fp) : ℚ) * 10 ^ (e - fp.length), r) := by
  unfold scanDecimal
  rw [scanPoint_text hd hne hp (exponentText_head he hr), Option.map_some]
  dsimp only
  rw [scanExponent_text he hr, natOf_eq]

/-- Characters that occur in decimal numbers. -/
theorem text_char {ip pf fp ex : Str} {e : ℤ} (hd : ∀ c ∈ ip ++ fp, IsDigit c) (hp : pf = [] ∧ fp = [] ∨ pf = '.' :: fp)
    (he : ExponentText ex e) : ∀ c ∈ ip ++ (pf ++ ex), IsDigit c ∨ c ∈ ['.', 'e', 'E', '+', '-'] := by
  intro c hc
  rcases List.mem_append.1 hc with h | h
  · exact Or.inl (hd c (by simp [h]))
  · rcases List.mem_append.1 h with h | h
    · rcases hp with ⟨rfl, _⟩ | rfl
      · cases h
      · rcases List.mem_cons.1 h with rfl | h
        · exact Or.inr (by simp)
        · exact Or.inl (hd c (by simp [h]))
    · cases he with
      | none => cases h
      | some h1 h2 h3 =>
        rcases List.mem_cons.1 h with rfl | h
        · rcases h1 with rfl | rfl <;> exact Or.inr (by simp)
        · rcases List.mem_append.1 h with h | h
          · rcases h2 with ⟨rfl, _⟩ | ⟨rfl, _⟩ | ⟨rfl, _⟩
            · cases h
            · rw [List.mem_singleton.1 h]; exact Or.inr (by simp)
            · rw [List.mem_singleton.1 h]; exact Or.inr (by simp)
          · exact Or.inl (h3.2 c h)

theorem upper_x {c : Char} (h : upper c = 'X') : c = 'x' ∨ c = 'X' := by
  unfold upper at h
  split at h
  · rename_i hr
    left
    have key : ∀ n < 123, 97 ≤ n → Char.ofNat (n - 32) = 'X' → n = 120 := by decide
    have : c.toNat = 120 := key c.toNat (by omega) hr.1 h
    rw [← Char.ofNat_toNat c, this]
  · exact Or.inr h

/-- The first character of a decimal number. -/
theorem scanNumber_text {ip pf fp ex r : Str} {e : ℤ} (hd : ∀ c ∈ ip ++ fp, IsDigit c) (hne : ip ++ fp ≠ []) (hp : pf = [] ∧ fp = [] ∨ pf = '.' :: fp)
    (he : ExponentText ex e) (hr : EndsNumber r) :
    scanNumber (ip ++ (pf ++ (ex ++ r))) = some (.fin ((digitsValue (ip ++ fp) : ℚ) * 10 ^ (e - fp.length)), r) := by
  have hdec := scanDecimal_text hd hne hp he hr
  have hchar := text_char hd hp he
  -- the first character is a digit or a point
  obtain ⟨a, t, hat, ha⟩ : ∃ a t, ip ++ (pf ++ ex) = a :: t ∧ (IsDigit a ∨ a = '.') := by
    cases ip with
    | cons a t => exact ⟨a, t ++ (pf ++ ex), rfl, Or.inl (hd a (by simp))⟩
    | nil =>
      rcases hp with ⟨_, rfl⟩ | rfl
      · exact absurd rfl hne
      · exact ⟨'.', fp ++ ex, rfl, Or.inr rfl⟩
  have hs : ip ++ (pf ++ (ex ++ r)) = a :: (t ++ r) := by
    rw [← List.append_assoc pf, ← List.append_assoc ip, hat]; rfl
  have hup : upper a ≠ 'I' ∧ upper a ≠ 'N' := by
    rcases ha with ha | rfl
    · unfold IsDigit at ha
      simp only [List.mem_cons, List.not_mem_nil, or_false] at ha
      rcases ha with rfl | rfl | rfl | rfl | rfl | rfl | rfl | rfl | rfl | rfl <;> decide
    · decide
  unfold scanNumber
  rw [hs] at hdec ⊢
  have h1 : startsWith "INFINITY".toList (a :: (t ++ r)) = false := by
    have : "INFINITY".toList = 'I' :: "NFINITY".toList := by decide
    unfold startsWith
    rw [this]
    generalize "NFINITY".toList = w
    simp only [List.length_cons, List.take_succ_cons, List.map_cons, beq_eq_false_iff_ne, ne_eq, List.cons.injEq, not_and]
    intro e
    exact absurd e hup.1
  have h2 : startsWith "INF".toList (a :: (t ++ r)) = false := by
    have : "INF".toList = 'I' :: "NF".toList := by decide
    unfold startsWith
    rw [this]
    generalize "NF".toList = w
    simp only [List.length_cons, List.take_succ_cons, List.map_cons, beq_eq_false_iff_ne, ne_eq, List.cons.injEq, not_and]
    intro e
    exact absurd e hup.1
  have h3 : startsWith "NAN".toList (a :: (t ++ r)) = false := by
    have : "NAN".toList = 'N' :: "AN".toList := by decide
    unfold startsWith
    rw [this]
    generalize "AN".toList = w
    simp only [List.length_cons, List.take_succ_cons, List.map_cons, beq_eq_false_iff_ne, ne_eq, List.cons.injEq, not_and]
    intro e
    exact absurd e hup.2
  have h4 : startsWith "0X".toList (a :: (t ++ r)) = false := by
    have : "0X".toList = ['0', 'X'] := by decide
    unfold startsWith
    rw [this, beq_eq_false_iff_ne]
    intro e
    have key : ∀ b l, t ++ r = b :: l → upper b ≠ 'X' := by
      intro b l hb hu
      cases t with
      | nil =>
        have := (hr b l hb).2
        rcases upper_x hu with rfl | rfl <;> simp at this
      | cons b' t' =>
        injection hb with hb _
        subst hb
        have := hchar b' (by rw [hat]; simp)
        rcases upper_x hu with rfl | rfl
        · rcases this with h | h
          · exact absurd h (by unfold IsDigit; decide)
          · simp at h
        · rcases this with h | h
          · exact absurd h (by unfold IsDigit; decide)
          · simp at h
    cases hb : t ++ r with
    | nil => rw [hb] at e; simp at e
    | cons b l =>
      rw [hb] at e
      simp only [List.length_cons, List.length_nil, List.take_succ_cons, List.map_cons, List.cons.injEq] at e
      exact key b l hb e.2.1
  rw [h1, h2, h3, h4]
  simp only [Bool.false_eq_true, if_false]
  rw [hdec]
  rfl

/-- **Reading.** White space and a decimal number, followed by something else. -/
theorem wcstod_text {t : Str} {d : ℚ} (h : NumberText t d) {w r : Str} (hw : ∀ c ∈ w, isSpace c = true) (hr : EndsNumber r) :
    wcstod (w ++ (t ++ r)) = some (.fin (f64 d), r) := by
  obtain ⟨sg, ip, pf, fp, ex, g, e, rfl, hs, hd, hne, hp, he, rfl⟩ := h
  have hchar := text_char hd hp he
  have hnum := scanNumber_text hd hne hp he hr
  have hassoc : sg ++ (ip ++ (pf ++ ex)) ++ r = sg ++ (ip ++ (pf ++ (ex ++ r))) := by simp only [List.append_assoc]
  -- the first character of the number
  obtain ⟨a, t, hat, ha⟩ : ∃ a t, ip ++ (pf ++ (ex ++ r)) = a :: t ∧ (IsDigit a ∨ a = '.') := by
    cases ip with
    | cons a t => exact ⟨a, t ++ (pf ++ (ex ++ r)), rfl, Or.inl (hd a (by simp))⟩
    | nil =>
      rcases hp with ⟨_, rfl⟩ | rfl
      · exact absurd rfl hne
      · exact ⟨'.', fp ++ (ex ++ r), rfl, Or.inr rfl⟩
  have hna : isSpace a = false ∧ a ≠ '-' ∧ a ≠ '+' := by
    rcases ha with ha | rfl
    · unfold IsDigit at ha
      simp only [List.mem_cons, List.not_mem_nil, or_false] at ha
      rcases ha with rfl | rfl | rfl | rfl | rfl | rfl | rfl | rfl | rfl | rfl <;> decide
    · decide
  unfold wcstod
  rw [hassoc]
  cases hs with
  | none =>
    rw [List.nil_append, dropWhile_all hw _ (by rw [hat]; intro c cs e; injection e with e _; rw [← e]; exact hna.1)]
    have hh1 : (ip ++ (pf ++ (ex ++ r))).head? ≠ some '-' := by rw [hat]; intro e; injection e with e; exact hna.2.1 e
    have hh2 : (ip ++ (pf ++ (ex ++ r))).head? ≠ some '+' := by rw [hat]; intro e; injection e with e; exact hna.2.2 e
    dsimp only
    rw [if_neg (by rintro (e | e); exact hh1 e; exact hh2 e), hnum, decide_eq_false hh1]
    simp [Num.signed, Num.map]
  | plus =>
    rw [dropWhile_all hw _ (by intro c cs e; injection e with e _; rw [← e]; decide)]
    dsimp only
    have hif : (if (['+'] ++ (ip ++ (pf ++ (ex ++ r)))).head? = some '-' ∨ (['+'] ++ (ip ++ (pf ++ (ex ++ r)))).head? = some '+' then List.drop 1 (['+'] ++ (ip ++ (pf ++ (ex ++ r)))) else ['+'] ++ (ip ++ (pf ++ (ex ++ r)))) = ip ++ (pf ++ (ex ++ r)) :=
      if_pos (Or.inr rfl)
    rw [hif, hnum]
    have : decide ((['+'] ++ (ip ++ (pf ++ (ex ++ r)))).head? = some '-') = false := by
      apply decide_eq_false
      intro e
      injection e with e
      exact absurd e (by decide)
    rw [this]
    simp [Num.signed, Num.map]
  | minus =>
    rw [dropWhile_all hw _ (by intro c cs e; injection e with e _; rw [← e]; decide)]
    dsimp only
    have hif : (if (['-'] ++ (ip ++ (pf ++ (ex ++ r)))).head? = some '-' ∨ (['-'] ++ (ip ++ (pf ++ (ex ++ r)))).head? = some '+' then List.drop 1 (['-'] ++ (ip ++ (pf ++ (ex ++ r)))) else ['-'] ++ (ip ++ (pf ++ (ex ++ r)))) = ip ++ (pf ++ (ex ++ r)) :=
      if_pos (Or.inl rfl)
    rw [hif, hnum]
    have : decide ((['-'] ++ (ip ++ (pf ++ (ex ++ r)))).head? = some '-') = true := decide_eq_true rfl
    rw [this]
    simp [Num.signed, Num.map]

end Verif.Xml
