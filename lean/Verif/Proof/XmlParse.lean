import Verif.Proof.XmlChars

/-!
# Lemmas about the pieces of the XML parser
-/

namespace Verif.Xml

open Verif.Spec

/-! ## Text -/

theorem before_ok {α : Type} (c : Char) (s : Str) (a : α) : before c (.ok (s, a)) = .ok (c :: s, a) := rfl

theorem charOf_lt {c : Char} : charOf c.toNat = some c := charOf_toNat c

theorem pcdata_succ (k : Nat) (c : Char) (s : Str) : pcdata (k + 1) (c :: s) = pcdata k s := rfl

theorem pcdata_plain {c : Char} (h1 : c ≠ '<') (h2 : c ≠ '\r') (h3 : c ≠ '&') (s : Str) : pcdata 0 (c :: s) = before c (pcdata 0 s) := by
  rw [pcdata, if_neg h1, if_neg h2, if_neg h3]

theorem pcdata_ref {s : Str} {k : Nat} {d : Char} (h : reference s = some (d.toNat, k)) : pcdata 0 ('&' :: s) = before d (pcdata k s) := by
  rw [pcdata, if_neg (by decide), if_neg (by decide), if_pos rfl, h]
  dsimp only
  rw [charOf_toNat]

theorem escapeChar_control {a : Bool} {c : Char} (hs : isSpecial a c = true) (h1 : c ≠ '&') (h2 : c ≠ '<') (h3 : c ≠ '>') (h4 : c ≠ '"') (h5 : c ≠ '\'') :
    c.toNat < 32 ∧ escapeChar a c = ['&', '#', Char.ofNat (c.toNat / 10 + 48), Char.ofNat (c.toNat % 10 + 48), ';'] := by
  constructor
  · unfold isSpecial at hs
    cases a <;> simp [h1, h2, h3, h4, h5] at hs
    · exact hs.1.1.1
    · exact hs
  · unfold escapeChar
    rw [if_pos hs, if_neg h1, if_neg h2, if_neg h3, if_neg h4, if_neg h5]

/-- An escaped character in text, other than a carriage return, is read as itself. -/
theorem pcdata_escapeChar {c : Char} (h : c ≠ '\r') (s : Str) : pcdata 0 (escapeChar false c ++ s) = before c (pcdata 0 s) := by
  by_cases hs : isSpecial false c = true
  · by_cases h1 : c = '&'
    · subst h1
      exact pcdata_ref (s := 'a' :: 'm' :: 'p' :: ';' :: s) (k := 4) (d := '&') rfl
    by_cases h2 : c = '<'
    · subst h2
      exact pcdata_ref (s := 'l' :: 't' :: ';' :: s) (k := 3) (d := '<') rfl
    by_cases h3 : c = '>'
    · subst h3
      exact pcdata_ref (s := 'g' :: 't' :: ';' :: s) (k := 3) (d := '>') rfl
    have h4 : c ≠ '"' := by
      rintro rfl
      revert hs
      decide
    have h5 : c ≠ '\'' := by
      rintro rfl
      revert hs
      decide
    obtain ⟨hn, e⟩ := escapeChar_control hs h1 h2 h3 h4 h5
    rw [e]
    exact pcdata_ref (d := c) (reference_two hn s)
  · have e : escapeChar false c = [c] := by
      unfold escapeChar
      rw [if_neg hs]
    rw [e, List.singleton_append, pcdata_plain ?_ h ?_]
    · rintro rfl
      exact hs (by decide)
    · rintro rfl
      exact hs (by decide)

theorem escapeChar_head (a : Bool) (c : Char) : escapeChar a c = [c] ∨ (∃ t, escapeChar a c = '&' :: t ∧ isSpecial a c = true) := by
  unfold escapeChar
  split
  · rename_i hs
    repeat' split
    all_goals first
      | exact Or.inr ⟨_, rfl, hs⟩
      | (rename_i e; subst e; exact Or.inl rfl)
  · exact Or.inl rfl

theorem escapeChar_cr : escapeChar false '\r' = ['\r'] := by decide
theorem escapeChar_nl : escapeChar false '\n' = ['\n'] := by decide

theorem escape_cons (a : Bool) (c : Char) (s : Str) : escape a (c :: s) = escapeChar a c ++ escape a s := rfl

theorem escape_head_nl (v : Str) (q : Str) (hv : ∀ t, v ≠ '\n' :: t) : (escape false v ++ '<' :: q).head? ≠ some '\n' := by
  cases v with
  | nil => simp [escape]
  | cons c v =>
    rw [escape_cons]
    rcases escapeChar_head false c with h | ⟨t, h, _⟩
    · rw [h]
      simp only [List.singleton_append, List.cons_append, List.head?_cons, ne_eq, Option.some.injEq]
      rintro rfl
      exact hv v rfl
    · rw [h]
      simp

theorem eol_cons {c : Char} (h : c ≠ '\r') (s : Str) : eol (c :: s) = c :: eol s := by
  cases s with
  | nil => simp [eol, h]
  | cons d s =>
    rw [eol]
    · rw [if_neg h]
    · rintro t rfl
      exact absurd rfl h

/-- Escaped text up to the next tag is read as the text with its line ends converted. -/
theorem pcdata_escape : ∀ (v : Str) (q : Str), pcdata 0 (escape false v ++ '<' :: q) = .ok (eol v, '<' :: q)
  | [], q => by simp [escape, pcdata, eol]
  | [c], q => by
    by_cases h : c = '\r'
    · subst h
      rw [escape_cons, escapeChar_cr]
      rfl
    · rw [escape_cons, List.append_assoc, pcdata_escapeChar h, pcdata_escape [] q, before_ok, eol_cons h]
  | c :: d :: v, q => by
    by_cases h : c = '\r'
    · subst h
      rw [escape_cons, escapeChar_cr]
      by_cases h2 : d = '\n'
      · subst h2
        have := pcdata_escape v q
        rw [escape_cons, escapeChar_nl, List.append_assoc, List.append_assoc]
        simp only [List.singleton_append]
        rw [pcdata, if_neg (by decide), if_pos rfl, List.head?_cons, if_pos rfl, pcdata_succ, this, before_ok]
        rw [eol]
      · have := pcdata_escape (d :: v) q
        have hh := escape_head_nl (d :: v) q (by rintro t e; exact h2 (by injection e))
        rw [List.append_assoc, List.singleton_append, pcdata, if_neg (by decide), if_pos rfl, if_neg hh, this, before_ok]
        rw [eol.eq_3 '\r' (d :: v) (by rintro t _ e; injection e with e _; exact h2 e), if_pos rfl]
    · rw [escape_cons, List.append_assoc, pcdata_escapeChar h, pcdata_escape (d :: v) q, before_ok, eol_cons h]
termination_by v => v.length

/-! ## Attribute values -/

theorem attrString_ref {s : Str} {k : Nat} {d : Char} (h : reference s = some (d.toNat, k)) : attrString '"' 0 ('&' :: s) = before d (attrString '"' k s) := by
  rw [attrString, if_neg (by decide), if_neg (by decide), if_neg (by decide), if_pos rfl, h]
  dsimp only
  rw [charOf_toNat]

/-- An escaped character in an attribute is read as itself. -/
theorem attrString_escapeChar (c : Char) (s : Str) : attrString '"' 0 (escapeChar true c ++ s) = before c (attrString '"' 0 s) := by
  by_cases hs : isSpecial true c = true
  · by_cases h1 : c = '&'
    · subst h1
      exact attrString_ref (s := 'a' :: 'm' :: 'p' :: ';' :: s) (k := 4) (d := '&') rfl
    by_cases h2 : c = '<'
    · subst h2
      exact attrString_ref (s := 'l' :: 't' :: ';' :: s) (k := 3) (d := '<') rfl
    by_cases h3 : c = '>'
    · subst h3
      exact absurd hs (by decide)
    by_cases h4 : c = '"'
    · subst h4
      exact attrString_ref (s := 'q' :: 'u' :: 'o' :: 't' :: ';' :: s) (k := 5) (d := '"') rfl
    by_cases h5 : c = '\''
    · subst h5
      rfl
    obtain ⟨hn, e⟩ := escapeChar_control hs h1 h2 h3 h4 h5
    rw [e]
    exact attrString_ref (d := c) (reference_two hn s)
  · have e : escapeChar true c = [c] := by
      unfold escapeChar
      rw [if_neg hs]
    have hne : ∀ d, isSpecial true d = true → c ≠ d := by
      rintro d hd rfl
      exact hs hd
    rw [e, List.singleton_append, attrString, if_neg (hne _ (by decide)), if_neg (hne _ (by decide)),
      if_neg (by rintro (h | h); exact hne '\n' (by decide) h; exact hne '\t' (by decide) h), if_neg (hne _ (by decide))]

theorem attrString_escape (v : Str) (r : Str) : attrString '"' 0 (escape true v ++ '"' :: r) = .ok (v, r) := by
  induction v with
  | nil => simp [escape, attrString]
  | cons c v ih => rw [escape_cons, List.append_assoc, attrString_escapeChar, ih, before_ok]

theorem zeroTerminated_eq {s : Str} (h : '\x00' ∉ s) : zeroTerminated s = s := by
  unfold zeroTerminated
  induction s with
  | nil => rfl
  | cons c s ih =>
    have hc : c ≠ '\x00' := fun e => h (e ▸ List.mem_cons_self ..)
    rw [List.takeWhile_cons, if_pos (by simpa using hc), ih (fun hm => h (List.mem_cons_of_mem _ hm))]

/-! ## CDATA -/

theorem cdataBody_eq : ∀ (v : Str), ¬ [']', ']', '>'] <:+: v → cdataBody v = v
  | [], _ => rfl
  | c :: s, h => by
    have ih := cdataBody_eq s (fun hi => h (hi.trans (List.suffix_cons c s).isInfix))
    unfold cdataBody
    split
    · exact absurd ⟨[], _, rfl⟩ h
    · rw [ih]

theorem cdata_read : ∀ (v : Str) (r : Str), '\r' ∉ v → ¬ [']', ']', '>'] <:+: v → cdata (v ++ ']' :: ']' :: '>' :: r) = .ok (v, r)
  | [], r, _, _ => by
    rw [List.nil_append, cdata, if_neg (by decide)]
  | c :: v, r, h1, h2 => by
    have ih := cdata_read v r (fun h => h1 (List.mem_cons_of_mem _ h)) (fun hi => h2 (hi.trans (List.suffix_cons c v).isInfix))
    have hc : c ≠ '\r' := by
      rintro rfl
      exact h1 (List.mem_cons_self ..)
    rw [List.cons_append, cdata.eq_def]
    dsimp only
    rw [if_neg hc]
    split
    · rename_i r' e
      exfalso
      match v, e with
      | [], e => simp at e
      | [_], e => simp at e
      | ']' :: '>' :: v', _ => exact h2 ⟨[], v', rfl⟩
      | a :: b :: v', e =>
        simp only [List.cons_append, List.cons.injEq] at e
        obtain ⟨rfl, rfl, _⟩ := e
        exact h2 ⟨[], v', rfl⟩
    · rw [ih, before_ok]

/-! ## Attributes -/

theorem skipWs_cons {c : Char} (h : isPugiSpace c = false) (s : Str) : skipWs (c :: s) = c :: s := by
  unfold skipWs
  rw [List.dropWhile_cons, h]
  rfl

theorem skipWs_space {c : Char} (h : isPugiSpace c = true) (s : Str) : skipWs (c :: s) = skipWs s := by
  unfold skipWs
  rw [List.dropWhile_cons, h]
  rfl

theorem oneAttr_read {n v : Str} (hn : XmlName n) (hv : '\x00' ∉ v) {c : Char} (hc : isStartSymbol c = false) (r : Str) :
    oneAttr (n ++ '=' :: '"' :: (escape true v ++ '"' :: c :: r)) = .ok ((n, v), c :: r) := by
  obtain ⟨_, _, _, _, hs⟩ := name_symbols hn
  obtain ⟨t1, t2⟩ := take_symbols hs (c := '=') (by decide) ('"' :: (escape true v ++ '"' :: c :: r))
  unfold oneAttr
  have k1 : skipWs ('=' :: '"' :: (escape true v ++ '"' :: c :: r)) = '=' :: '"' :: (escape true v ++ '"' :: c :: r) := skipWs_cons (by decide) _
  have k2 : skipWs ('"' :: (escape true v ++ '"' :: c :: r)) = '"' :: (escape true v ++ '"' :: c :: r) := skipWs_cons (by decide) _
  simp only [t1, t2, k1, k2]
  rw [if_pos (Or.inl trivial), attrString_escape]
  dsimp only
  rw [List.head?_cons, Option.map_some, hc, Option.getD_some, if_neg (by decide), zeroTerminated_eq hv]

theorem attributes_space (k : Nat) (s : Str) : attributes (k + 1) (' ' :: s) = attributes (k + 1) s := by
  rw [attributes, attributes, skipWs_space (by decide)]

/-- What may follow the attributes of an element that is written. -/
def AttrsEnd (closed : Bool) (e : Str) : Prop := (closed = true ∧ (e = ['/', '>'] ∨ e = [' ', '/', '>'])) ∨ (closed = false ∧ e = ['>'])

theorem attributes_read {closed : Bool} {e : Str} (he : AttrsEnd closed e) (r : Str) : ∀ (as : List (Str × Str)) (k : Nat), (∀ a ∈ as, XmlName a.1 ∧ '\x00' ∉ a.2) → as.length < k →
    attributes k (attrsText as ++ (e ++ r)) = .ok (as, closed, r)
  | [], k, _, hk => by
    obtain ⟨k, rfl⟩ : ∃ j, k = j + 1 := ⟨k - 1, by simp at hk; omega⟩
    rcases he with ⟨rfl, rfl | rfl⟩ | ⟨rfl, rfl⟩
    · rfl
    · rfl
    · rfl
  | a :: as, k, h, hk => by
    obtain ⟨k, rfl⟩ : ∃ j, k = j + 1 := ⟨k - 1, by simp at hk; omega⟩
    obtain ⟨hn, hv⟩ := h a (List.mem_cons_self ..)
    have ih := attributes_read he r as k (fun x hx => h x (List.mem_cons_of_mem _ hx)) (by simp at hk; omega)
    have hd : ∃ c t, attrsText as ++ (e ++ r) = c :: t ∧ isStartSymbol c = false := by
      cases as with
      | nil =>
        rcases he with ⟨_, rfl | rfl⟩ | ⟨_, rfl⟩
        · exact ⟨_, _, rfl, by decide⟩
        · exact ⟨_, _, rfl, by decide⟩
        · exact ⟨_, _, rfl, by decide⟩
      | cons b as => exact ⟨' ', _, rfl, by decide⟩
    obtain ⟨c, t, e1, hc⟩ := hd
    have ha : attrsText (a :: as) ++ (e ++ r) = ' ' :: (a.1 ++ '=' :: '"' :: (escape true a.2 ++ '"' :: (attrsText as ++ (e ++ r)))) := by
      show (' ' :: (a.1 ++ '=' :: '"' :: (escape true a.2 ++ ['"'])) ++ attrsText as) ++ (e ++ r) = _
      simp [List.append_assoc]
    rw [ha, attributes_space, e1]
    have ho := oneAttr_read hn hv hc t
    obtain ⟨c0, s0, e0, hst, hsy⟩ := name_symbols hn
    have hsp : isPugiSpace c0 = false := (symbol_facts (isSymbol_of_start hst)).2.2.2.2.2
    rw [attributes]
    have e2 : a.1 ++ '=' :: '"' :: (escape true a.2 ++ '"' :: c :: t) = c0 :: (s0 ++ '=' :: '"' :: (escape true a.2 ++ '"' :: c :: t)) := by
      rw [e0]
      rfl
    rw [e2] at ho ⊢
    rw [skipWs_cons hsp]
    dsimp only
    rw [if_pos hst, ho]
    dsimp only
    rw [← e1, ih]
    rfl

theorem attrsText_length (as : List (Str × Str)) : as.length ≤ (attrsText as).length := by
  induction as with
  | nil => simp
  | cons a as ih =>
    show as.length + 1 ≤ (' ' :: (a.1 ++ '=' :: '"' :: (escape true a.2 ++ ['"'])) ++ attrsText as).length
    simp only [List.length_append, List.length_cons]
    omega

/-! ## Tags -/

/-- The beginning of an element as it is written. -/
theorem startTag_read {n : Str} {as : List (Str × Str)} (hn : XmlName n) (ha : ∀ a ∈ as, XmlName a.1 ∧ '\x00' ∉ a.2) {closed : Bool} {e : Str} (he : AttrsEnd closed e)
    (st : Parsing) (r : Str) : turn st ('<' :: (n ++ (attrsText as ++ (e ++ r)))) = .ok (if closed then st.add (.element n as []) else st.push n as, r) := by
  obtain ⟨c0, s0, e0, hst, hsy⟩ := name_symbols hn
  have htag : turn st ('<' :: (n ++ (attrsText as ++ (e ++ r)))) = startTag st (n ++ (attrsText as ++ (e ++ r))) := by
    subst e0
    show tag st (c0 :: (s0 ++ (attrsText as ++ (e ++ r)))) = _
    rw [tag, if_pos hst]
    rfl
  rw [htag]
  unfold startTag
  by_cases hsp : ∃ t, attrsText as ++ (e ++ r) = ' ' :: t
  · obtain ⟨t, et⟩ := hsp
    have hr := attributes_read he r as (t.length + 1) ha (by
      have h1 := congrArg List.length et
      have h2 := attrsText_length as
      simp only [List.length_append, List.length_cons] at h1
      cases as with
      | nil => simp
      | cons a as =>
        have h3 : t = (a.1 ++ '=' :: '"' :: (escape true a.2 ++ ['"'])) ++ attrsText as ++ (e ++ r) := by
          have : ' ' :: ((a.1 ++ '=' :: '"' :: (escape true a.2 ++ ['"'])) ++ attrsText as ++ (e ++ r)) = ' ' :: t := et
          injection this with _ this
          exact this.symm
        have h4 := attrsText_length as
        rw [h3]
        simp only [List.length_append, List.length_cons]
        omega)
    rw [et, attributes_space] at hr
    obtain ⟨t1, t2⟩ := take_symbols hsy (c := ' ') (by decide) t
    rw [et, t1, t2]
    dsimp only
    rw [if_neg (by decide), if_pos (by decide), hr]
  · cases as with
    | cons a as => exact absurd ⟨_, rfl⟩ hsp
    | nil =>
      rcases he with ⟨rfl, rfl | rfl⟩ | ⟨rfl, rfl⟩
      · obtain ⟨t1, t2⟩ := take_symbols hsy (c := '/') (by decide) ('>' :: r)
        have e' : ∀ x : List (Str × Str), x = [] → n ++ (attrsText x ++ (['/', '>'] ++ r)) = n ++ '/' :: '>' :: r := by
          rintro _ rfl
          rfl
        rw [e' [] rfl, t1, t2]
        rfl
      · exact absurd ⟨_, rfl⟩ hsp
      · obtain ⟨t1, t2⟩ := take_symbols hsy (c := '>') (by decide) r
        have e' : ∀ x : List (Str × Str), x = [] → n ++ (attrsText x ++ (['>'] ++ r)) = n ++ '>' :: r := by
          rintro _ rfl
          rfl
        rw [e' [] rfl, t1, t2]
        rfl

theorem turn_lt (st : Parsing) (s : Str) : turn st ('<' :: s) = tag st s := rfl

/-- The end of an element as it is written. -/
theorem endTag_read {n : Str} (hn : XmlName n) (as : List (Str × Str)) (cs : List Node) (os : List OpenElement) (top : List Node) (r : Str) :
    turn ⟨⟨n, as, cs⟩ :: os, top⟩ ('<' :: '/' :: (n ++ '>' :: r)) = .ok ((⟨os, top⟩ : Parsing).add (.element n as cs), r) := by
  obtain ⟨_, _, _, _, hsy⟩ := name_symbols hn
  obtain ⟨t1, t2⟩ := take_symbols hsy (c := '>') (by decide) r
  rw [turn_lt, tag, if_neg (by decide), if_pos rfl, endTag]
  dsimp only
  rw [t1, t2, if_pos rfl, skipWs_cons (by decide)]
  rfl

/-- A CDATA section as it is written. -/
theorem cdata_turn {v : Str} (h1 : '\r' ∉ v) (h2 : ¬ [']', ']', '>'] <:+: v) (st : Parsing) (r : Str) :
    turn st (cdataText v ++ r) = .ok (st.add (.text true v), r) := by
  have e : cdataText v ++ r = '<' :: '!' :: '[' :: 'C' :: 'D' :: 'A' :: 'T' :: 'A' :: '[' :: (v ++ ']' :: ']' :: '>' :: r) := by
    unfold cdataText
    rw [cdataBody_eq v h2]
    simp [List.append_assoc]
  rw [e]
  rw [turn_lt, tag, if_neg (by decide), if_neg (by decide), if_neg (by decide), if_pos rfl, exclamation]
  rw [if_pos (by simp)]
  have : List.drop 6 ('C' :: 'D' :: 'A' :: 'T' :: 'A' :: '[' :: (v ++ ']' :: ']' :: '>' :: r)) = v ++ ']' :: ']' :: '>' :: r := rfl
  rw [this, cdata_read v r h1 h2]

/-! ## A turn shortens the text -/

theorem behind_length {pat : Str} (hp : pat ≠ []) : ∀ {s r : Str}, behind pat s = some r → r.length < s.length
  | [], r, h => by simp [behind] at h
  | c :: s, r, h => by
    rw [behind] at h
    split at h
    · injection h with h
      rw [← h, List.length_drop, List.length_cons]
      have : 0 < pat.length := List.length_pos_iff.2 hp
      omega
    · have := behind_length hp h
      rw [List.length_cons]
      omega

theorem before_inv {α : Type} {c : Char} {x : Except XErr (Str × α)} {v : Str} {a : α} (h : before c x = .ok (v, a)) : ∃ w, x = .ok (w, a) := by
  cases x with
  | error e => cases h
  | ok y =>
    obtain ⟨w, b⟩ := y
    cases h
    exact ⟨w, rfl⟩

theorem pcdata_length : ∀ (k : Nat) (s : Str) {v r : Str}, pcdata k s = .ok (v, r) → r.length ≤ s.length
  | k, [], v, r, h => by
    cases k <;> (rw [pcdata] at h; cases h; simp)
  | k + 1, c :: s, v, r, h => by
    rw [pcdata] at h
    have := pcdata_length k s h
    rw [List.length_cons]
    omega
  | 0, c :: s, v, r, h => by
    have step : ∀ (k : Nat) (d : Char), before d (pcdata k s) = .ok (v, r) → r.length ≤ (c :: s).length := by
      intro k d hd
      obtain ⟨w, hw⟩ := before_inv hd
      have := pcdata_length k s hw
      rw [List.length_cons]
      omega
    rw [pcdata] at h
    split at h
    · cases h
      simp
    · split at h
      · exact step _ _ h
      · split at h
        · split at h
          · exact step _ _ h
          · split at h
            · cases h
            · exact step _ _ h
        · exact step _ _ h

theorem pcdata_length_lt {c : Char} {s : Str} (hc : c ≠ '<') {v r : Str} (h : pcdata 0 (c :: s) = .ok (v, r)) : r.length < (c :: s).length := by
  have step : ∀ (k : Nat) (d : Char), before d (pcdata k s) = .ok (v, r) → r.length < (c :: s).length := by
    intro k d hd
    obtain ⟨w, hw⟩ := before_inv hd
    have := pcdata_length k s hw
    rw [List.length_cons]
    omega
  rw [pcdata, if_neg hc] at h
  split at h
  · exact step _ _ h
  · split at h
    · split at h
      · exact step _ _ h
      · split at h
        · cases h
        · exact step _ _ h
    · exact step _ _ h

theorem attrString_length (q : Char) : ∀ (k : Nat) (s : Str) {v r : Str}, attrString q k s = .ok (v, r) → r.length < s.length
  | k, [], v, r, h => by
    cases k <;> (rw [attrString] at h; cases h)
  | k + 1, c :: s, v, r, h => by
    rw [attrString] at h
    have := attrString_length q k s h
    rw [List.length_cons]
    omega
  | 0, c :: s, v, r, h => by
    have step : ∀ (k : Nat) (d : Char), before d (attrString q k s) = .ok (v, r) → r.length < (c :: s).length := by
      intro k d hd
      obtain ⟨w, hw⟩ := before_inv hd
      have := attrString_length q k s hw
      rw [List.length_cons]
      omega
    rw [attrString] at h
    split at h
    · cases h
      simp
    · split at h
      · exact step _ _ h
      · split at h
        · exact step _ _ h
        · split at h
          · split at h
            · exact step _ _ h
            · split at h
              · cases h
              · exact step _ _ h
          · exact step _ _ h

theorem cdata_length : ∀ (s : Str) {v r : Str}, cdata s = .ok (v, r) → r.length < s.length
  | [], v, r, h => by simp [cdata] at h
  | c :: s, v, r, h => by
    have step : ∀ {w}, cdata s = .ok (w, r) → r.length < (c :: s).length := by
      intro w hw
      have := cdata_length s hw
      rw [List.length_cons]
      omega
    rw [cdata.eq_def] at h
    dsimp only at h
    split at h
    · split at h
      · exact step h
      · obtain ⟨w, hw⟩ := before_inv h
        exact step hw
    · split at h
      · cases h
        simp only [List.length_cons]
        omega
      · obtain ⟨w, hw⟩ := before_inv h
        exact step hw

theorem skipWs_length (s : Str) : (skipWs s).length ≤ s.length := (List.dropWhile_sublist _).length_le

theorem dropSymbol_length (s : Str) : (s.dropWhile isSymbol).length ≤ s.length := (List.dropWhile_sublist _).length_le

theorem oneAttr_length {s : Str} {a : Str × Str} {r : Str} (h : oneAttr s = .ok (a, r)) : r.length < s.length := by
  unfold oneAttr at h
  dsimp only at h
  have h1 := skipWs_length (s.dropWhile isSymbol)
  have h2 := dropSymbol_length s
  split at h
  · rename_i t et
    have h3 := skipWs_length t
    rw [et, List.length_cons] at h1
    split at h
    · rename_i q u eu
      rw [eu, List.length_cons] at h3
      split at h
      · split at h
        · cases h
        · rename_i v r' ev
          have h4 := attrString_length q 0 u ev
          split at h
          · cases h
          · cases h
            omega
      · cases h
    · cases h
  · cases h

theorem attributes_length : ∀ (k : Nat) (s : Str) {as : List (Str × Str)} {c : Bool} {r : Str}, attributes k s = .ok (as, c, r) → r.length < s.length
  | 0, s, as, c, r, h => by simp [attributes] at h
  | k + 1, s, as, c, r, h => by
    rw [attributes] at h
    have h1 := skipWs_length s
    split at h
    · cases h
    · rename_i d t et
      rw [et, List.length_cons] at h1
      split at h
      · split at h
        · cases h
        · rename_i a r' ea
          have h2 := oneAttr_length ea
          rw [List.length_cons] at h2
          cases hx : attributes k r' with
          | error e => rw [hx] at h; cases h
          | ok y =>
            obtain ⟨as', c', r''⟩ := y
            rw [hx] at h
            cases h
            have := attributes_length k r' hx
            omega
      · split at h
        · split at h
          · cases h
            rw [List.length_cons] at h1
            omega
          · cases h
        · split at h
          · cases h
            omega
          · cases h

theorem doctypeIgnore_length : ∀ (k d : Nat) (s : Str) {r : Str}, doctypeIgnore k d s = some r → r.length ≤ s.length
  | k, d, [], r, h => by cases k <;> simp [doctypeIgnore] at h
  | k + 1, d, c :: s, r, h => by
    rw [doctypeIgnore] at h
    have := doctypeIgnore_length k d s h
    rw [List.length_cons]
    omega
  | 0, d, c :: s, r, h => by
    rw [doctypeIgnore] at h
    split at h
    · have := doctypeIgnore_length _ _ s h
      rw [List.length_cons]
      omega
    · split at h
      · split at h
        · cases h
          simp only [List.length_drop, List.length_cons]
          omega
        · have := doctypeIgnore_length _ _ s h
          rw [List.length_cons]
          omega
      · have := doctypeIgnore_length _ _ s h
        rw [List.length_cons]
        omega

theorem doctypePrimitive_length {s r : Str} (h : doctypePrimitive s = some r) : r.length ≤ s.length := by
  unfold doctypePrimitive at h
  split at h
  all_goals first
    | (have := behind_length (by simp) h; simp only [List.length_cons] at *; omega)
    | cases h

theorem doctypeGroup_length : ∀ (k d : Nat) (s : Str) {r : Str}, doctypeGroup k d s = some r → r.length ≤ s.length
  | 0, d, s, r, h => by simp [doctypeGroup] at h
  | k + 1, d, [], r, h => by simp [doctypeGroup] at h
  | k + 1, d, c :: s, r, h => by
    rw [doctypeGroup] at h
    split at h
    · split at h
      · cases hx : doctypeIgnore 0 0 (s.drop 2) with
        | none => rw [hx] at h; cases h
        | some t =>
          rw [hx] at h
          have h1 := doctypeIgnore_length _ _ _ hx
          have h2 := doctypeGroup_length k d t h
          simp only [List.length_drop, List.length_cons] at *
          omega
      · have h2 := doctypeGroup_length k _ _ h
        simp only [List.length_drop, List.length_cons] at *
        omega
    · split at h
      · cases hx : doctypePrimitive (c :: s) with
        | none => rw [hx] at h; cases h
        | some t =>
          rw [hx] at h
          have h1 := doctypePrimitive_length hx
          have h2 := doctypeGroup_length k d t h
          omega
      · split at h
        · split at h
          · cases h
            simp
          · have h2 := doctypeGroup_length k _ _ h
            simp only [List.length_cons] at *
            omega
        · have h2 := doctypeGroup_length k _ _ h
          simp only [List.length_cons] at *
          omega

theorem exclamation_length {st st' : Parsing} {s r : Str} (h : exclamation st s = .ok (st', r)) : r.length ≤ s.length := by
  unfold exclamation at h
  split at h
  · split at h
    · cases h
    · rename_i hb
      cases h
      have := behind_length (by simp) hb
      simp only [List.length_cons]
      omega
  · cases h
  · split at h
    · split at h
      · cases h
      · rename_i hb
        cases h
        have := cdata_length _ hb
        simp only [List.length_cons, List.length_drop] at *
        omega
    · cases h
  · split at h
    · split at h
      · cases h
      · split at h
        · cases h
        · rename_i hb
          cases h
          exact doctypeGroup_length _ _ _ hb
    · cases h

theorem question_length {s r : Str} (h : question s = .ok r) : r.length ≤ s.length := by
  unfold question at h
  split at h
  · split at h
    · cases h
    · rename_i hb
      cases h
      have h1 := behind_length (by simp) hb
      have h2 := dropSymbol_length s
      omega
  · cases h

theorem endTag_length {st st' : Parsing} {s r : Str} (h : endTag st s = .ok (st', r)) : r.length ≤ s.length := by
  unfold endTag at h
  split at h
  · cases h
  · split at h
    · split at h
      · rename_i e
        cases h
        have h1 := skipWs_length (s.dropWhile isSymbol)
        have h2 := dropSymbol_length s
        rw [e, List.length_cons] at h1
        omega
      · cases h
    · cases h

theorem startTag_length {st st' : Parsing} {s r : Str} (h : startTag st s = .ok (st', r)) : r.length ≤ s.length := by
  unfold startTag at h
  dsimp only at h
  have h1 := dropSymbol_length s
  split at h
  · cases h
  · rename_i c t e
    rw [e, List.length_cons] at h1
    split at h
    · cases h
      omega
    · split at h
      · split at h
        · cases h
        · rename_i ha
          cases h
          have := attributes_length _ _ ha
          omega
      · split at h
        · split at h
          · cases h
            rw [List.length_cons] at h1
            omega
          · cases h
        · cases h

theorem tag_length {st st' : Parsing} {s r : Str} (h : tag st s = .ok (st', r)) : r.length ≤ s.length := by
  unfold tag at h
  split at h
  · cases h
  · rename_i c t
    split at h
    · exact startTag_length h
    · split at h
      · have := endTag_length h
        rw [List.length_cons]
        omega
      · split at h
        · cases hq : question t with
          | error e => rw [hq] at h; cases h
          | ok x =>
            rw [hq] at h
            cases h
            have := question_length hq
            rw [List.length_cons]
            omega
        · split at h
          · have := exclamation_length h
            rw [List.length_cons]
            omega
          · cases h

theorem dropWhile_lt {p : Char → Bool} {c : Char} {s : Str} (h : p c = true) : ((c :: s).dropWhile p).length < (c :: s).length := by
  rw [List.dropWhile_cons, h]
  have := (List.dropWhile_sublist (l := s) p).length_le
  simp only [if_true, List.length_cons]
  omega

theorem turn_length {st st' : Parsing} {s r : Str} (hs : s ≠ []) (h : turn st s = .ok (st', r)) : r.length < s.length := by
  unfold turn at h
  split at h
  · have := tag_length h
    rw [List.length_cons]
    omega
  · rename_i hlt
    obtain ⟨c, u, rfl⟩ : ∃ c u, s = c :: u := by
      cases s with
      | nil => exact absurd rfl hs
      | cons c u => exact ⟨c, u, rfl⟩
    have hc : c ≠ '<' := by
      rintro rfl
      exact hlt _ rfl
    split at h
    · cases h
      simp
    · rename_i t e
      cases h
      cases hsp : isPugiSpace c with
      | false =>
        rw [skipWs_cons hsp] at e
        injection e with e _
        exact absurd e hc
      | true =>
        rw [← e]
        exact dropWhile_lt hsp
    · split at h
      · cases h
        exact dropWhile_lt (by simpa using hc)
      · cases hp : pcdata 0 (c :: u) with
        | error e => rw [hp] at h; cases h
        | ok y =>
          obtain ⟨v, r'⟩ := y
          rw [hp] at h
          cases h
          exact pcdata_length_lt hc hp

end Verif.Xml
