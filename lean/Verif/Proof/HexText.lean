import Verif.Proof.NumScan

/-! # Hexadecimal number texts are read as what they denote -/

namespace Verif.Xml

open Verif.Flt Verif.Spec Verif.Text

theorem hexDigit_value {c : Char} {v : ℕ} (h : (c, v) ∈ hexDigitTable) : isHexDigit c = true ∧ (if c.isDigit then c.toNat - 48 else c.toNat % 32 + 9) = v := by
  have : ∀ q ∈ hexDigitTable, isHexDigit q.1 = true ∧ (if q.1.isDigit then q.1.toNat - 48 else q.1.toNat % 32 + 9) = q.2 := by decide
  exact this (c, v) h

theorem hexNumber_value {ds : List Char} {n : ℕ} (h : HexNumber ds n) : (∀ c ∈ ds, isHexDigit c = true) ∧ hexOf ds = n := by
  induction h with
  | nil => exact ⟨fun c h => (by cases h), rfl⟩
  | @snoc ds n c v h hc ih =>
    obtain ⟨h1, h2⟩ := hexDigit_value hc
    refine ⟨?_, ?_⟩
    · intro x hx
      rcases List.mem_append.1 hx with hx | hx
      · exact ih.1 x hx
      · rw [List.mem_singleton.1 hx]; exact h1
    · unfold hexOf at ih ⊢
      rw [List.foldl_append, ih.2]
      show 16 * n + _ = _
      rw [h2]

theorem binaryExponent_text {ex : Str} {e : ℤ} (h : BinaryExponentText ex e) : scanExponent (fun c => c = 'p' || c = 'P') ex = (e, []) := by
  cases h with
  | none => rfl
  | @some c s ds g hc hs hd =>
    have ht : ds.takeWhile Char.isDigit = ds := by
      have := (takeWhile_all (p := Char.isDigit) (fun x hx => isDigit_true (hd.2 x hx)) [] (fun x xs e => by cases e)).1
      rwa [List.append_nil] at this
    have hdr : ds.dropWhile Char.isDigit = [] := by
      have := dropWhile_all (p := Char.isDigit) (fun x hx => isDigit_true (hd.2 x hx)) [] (fun x xs e => by cases e)
      rwa [List.append_nil] at this
    unfold scanExponent
    dsimp only
    rw [if_pos (by rcases hc with rfl | rfl <;> decide)]
    rcases hs with ⟨rfl, rfl⟩ | ⟨rfl, rfl⟩ | ⟨rfl, rfl⟩
    · have hne : ¬(([] ++ ds).head? = some '-') ∧ ¬(([] ++ ds).head? = some '+') := by
        obtain ⟨h1, h2⟩ := hd
        cases ds with
        | nil => exact absurd rfl h1
        | cons a b =>
          have := h2 a (by simp)
          constructor <;> intro e <;> injection e with e <;> exact absurd (e ▸ this) (by unfold IsDigit; decide)
      have hif : (if ([] ++ ds).head? = some '-' ∨ ([] ++ ds).head? = some '+' then List.drop 1 ([] ++ ds) else [] ++ ds) = ds :=
        if_neg (fun e => e.elim hne.1 hne.2)
      rw [hif, ht, if_neg hd.1, if_neg hne.1, hdr, natOf_eq]
      simp
    · have hif : (if (['+'] ++ ds).head? = some '-' ∨ (['+'] ++ ds).head? = some '+' then List.drop 1 (['+'] ++ ds) else ['+'] ++ ds) = ds :=
        if_pos (Or.inr rfl)
      rw [hif, ht, if_neg hd.1, natOf_eq, if_neg (by intro e; injection e with e; exact absurd e (by decide)), hdr]
      simp
    · have hif : (if (['-'] ++ ds).head? = some '-' ∨ (['-'] ++ ds).head? = some '+' then List.drop 1 (['-'] ++ ds) else ['-'] ++ ds) = ds :=
        if_pos (Or.inl rfl)
      have hh : (['-'] ++ ds).head? = some '-' := rfl
      rw [hif, ht, if_neg hd.1, natOf_eq, if_pos hh, hdr]
      simp

theorem hexPoint_text {ip pf fp R : Str} (hd : ∀ c ∈ ip ++ fp, isHexDigit c = true) (hne : ip ++ fp ≠ []) (hp : pf = [] ∧ fp = [] ∨ pf = '.' :: fp)
    (hR : ∀ c cs, R = c :: cs → isHexDigit c = false ∧ c ≠ '.') : scanPoint isHexDigit (ip ++ (pf ++ R)) = some (ip, fp, R) := by
  have hi : ∀ c ∈ ip, isHexDigit c = true := fun c hc => hd c (by simp [hc])
  have hf : ∀ c ∈ fp, isHexDigit c = true := fun c hc => hd c (by simp [hc])
  have hne' : ¬(ip = [] ∧ fp = []) := by rintro ⟨a, b⟩; exact hne (by rw [a, b]; rfl)
  unfold scanPoint
  rcases hp with ⟨rfl, rfl⟩ | rfl
  · rw [List.nil_append, (takeWhile_all hi R (fun c cs e => (hR c cs e).1)).1, dropWhile_all hi R (fun c cs e => (hR c cs e).1)]
    have : ¬(R.head? = some '.') := by
      cases R with
      | nil => simp
      | cons c cs => intro e; injection e with e; exact (hR c cs rfl).2 e
    dsimp only
    rw [if_neg this, if_neg this, if_neg hne']
  · have hpt : ∀ c cs, '.' :: fp ++ R = c :: cs → isHexDigit c = false := by
      intro c cs e
      injection e with e _
      subst e
      decide
    rw [(takeWhile_all hi _ hpt).1, dropWhile_all hi _ hpt]
    dsimp only
    have hh : ('.' :: fp ++ R).head? = some '.' := rfl
    rw [if_pos hh, if_pos hh]
    show (if ip = [] ∧ List.takeWhile isHexDigit (fp ++ R) = [] then none else some (ip, List.takeWhile isHexDigit (fp ++ R), List.dropWhile isHexDigit (fp ++ R))) = _
    rw [(takeWhile_all hf R (fun c cs e => (hR c cs e).1)).1, dropWhile_all hf R (fun c cs e => (hR c cs e).1), if_neg hne']

theorem scanHex_text {ip pf fp ex : Str} {n : ℕ} {e : ℤ} (hn : HexNumber (ip ++ fp) n) (hne : ip ++ fp ≠ []) (hp : pf = [] ∧ fp = [] ∨ pf = '.' :: fp)
    (he : BinaryExponentText ex e) : scanHex (ip ++ (pf ++ ex)) = some ((n : ℚ) / 16 ^ fp.length * 2 ^ e, []) := by
  obtain ⟨h1, h2⟩ := hexNumber_value hn
  unfold scanHex
  rw [hexPoint_text h1 hne hp (by
    intro c cs e
    cases he with
    | none => cases e
    | some hc _ _ =>
      injection e with e _
      subst e
      rcases hc with rfl | rfl <;> decide), Option.map_some]
  dsimp only
  rw [binaryExponent_text he, h2, zpow_sub₀ (by norm_num)]
  have : ((2 : ℚ) ^ (4 * (fp.length : ℤ))) = 16 ^ fp.length := by
    rw [zpow_mul, zpow_natCast]
    norm_num
  rw [this]
  congr 2
  ring

theorem scanNumber_hex {s : Str} {x : Char} {v : ℚ} (hx : x = 'x' ∨ x = 'X') (h : scanHex s = some (v, [])) : scanNumber ('0' :: x :: s) = some (.fin v, []) := by
  unfold scanNumber
  have h1 : startsWith "INFINITY".toList ('0' :: x :: s) = false := by
    have : "INFINITY".toList = 'I' :: "NFINITY".toList := by decide
    unfold startsWith
    rw [this]
    generalize "NFINITY".toList = w
    simp only [List.length_cons, List.take_succ_cons, List.map_cons, beq_eq_false_iff_ne, ne_eq, List.cons.injEq, not_and]
    intro e
    exact absurd e (by decide)
  have h2 : startsWith "INF".toList ('0' :: x :: s) = false := by
    have : "INF".toList = 'I' :: "NF".toList := by decide
    unfold startsWith
    rw [this]
    generalize "NF".toList = w
    simp only [List.length_cons, List.take_succ_cons, List.map_cons, beq_eq_false_iff_ne, ne_eq, List.cons.injEq, not_and]
    intro e
    exact absurd e (by decide)
  have h3 : startsWith "NAN".toList ('0' :: x :: s) = false := by
    have : "NAN".toList = 'N' :: "AN".toList := by decide
    unfold startsWith
    rw [this]
    generalize "AN".toList = w
    simp only [List.length_cons, List.take_succ_cons, List.map_cons, beq_eq_false_iff_ne, ne_eq, List.cons.injEq, not_and]
    intro e
    exact absurd e (by decide)
  have h4 : startsWith "0X".toList ('0' :: x :: s) = true := by
    have : "0X".toList = ['0', 'X'] := by decide
    unfold startsWith
    rw [this]
    rcases hx with rfl | rfl <;> rfl
  rw [h1, h2, h3, h4]
  simp only [Bool.false_eq_true, if_false, if_true]
  show (match scanHex s with | some (x, r) => some (Num.fin x, r) | none => _) = _
  rw [h]

/-- **Reading.** White space and a hexadecimal number. -/
theorem wcstod_hex {t : Str} {d : ℚ} (h : HexNumberText t d) {w : Str} (hw : ∀ c ∈ w, isSpace c = true) : wcstod (w ++ t) = some (.fin (f64 d), []) := by
  obtain ⟨sg, ip, pf, fp, ex, g, x, n, e, rfl, hs, hx, hn, hne, hp, he, rfl⟩ := h
  have hnum := scanNumber_hex hx (scanHex_text hn hne hp he)
  generalize ip ++ (pf ++ ex) = s at hnum ⊢
  generalize (n : ℚ) / 16 ^ fp.length * 2 ^ e = v at hnum ⊢
  unfold wcstod
  cases hs with
  | none =>
    rw [List.nil_append, dropWhile_all hw _ (by intro c cs e; injection e with e _; rw [← e]; decide)]
    have hh1 : ('0' :: x :: s).head? ≠ some '-' := by intro e; injection e with e; exact absurd e (by decide)
    have hh2 : ('0' :: x :: s).head? ≠ some '+' := by intro e; injection e with e; exact absurd e (by decide)
    dsimp only
    rw [if_neg (by rintro (e | e); exact hh1 e; exact hh2 e), hnum, decide_eq_false hh1]
    simp [Num.signed, Num.map]
  | plus =>
    rw [dropWhile_all hw _ (by intro c cs e; injection e with e _; rw [← e]; decide)]
    dsimp only
    have hif : (if (['+'] ++ ('0' :: x :: s)).head? = some '-' ∨ (['+'] ++ ('0' :: x :: s)).head? = some '+' then List.drop 1 (['+'] ++ ('0' :: x :: s)) else ['+'] ++ ('0' :: x :: s)) = '0' :: x :: s :=
      if_pos (Or.inr rfl)
    rw [hif, hnum]
    have : decide ((['+'] ++ ('0' :: x :: s)).head? = some '-') = false := by
      apply decide_eq_false
      intro e
      injection e with e
      exact absurd e (by decide)
    rw [this]
    simp [Num.signed, Num.map]
  | minus =>
    rw [dropWhile_all hw _ (by intro c cs e; injection e with e _; rw [← e]; decide)]
    dsimp only
    have hif : (if (['-'] ++ ('0' :: x :: s)).head? = some '-' ∨ (['-'] ++ ('0' :: x :: s)).head? = some '+' then List.drop 1 (['-'] ++ ('0' :: x :: s)) else ['-'] ++ ('0' :: x :: s)) = '0' :: x :: s :=
      if_pos (Or.inl rfl)
    rw [hif, hnum]
    have : decide ((['-'] ++ ('0' :: x :: s)).head? = some '-') = true := decide_eq_true rfl
    rw [this]
    simp [Num.signed, Num.map]

end Verif.Xml
