import Verif.Proof.XmlText
import Verif.Spec.XmlGrammar

/-!
# The parser reads well-formed texts
-/

namespace Verif.Xml

open Verif.Spec

/-! ## The first occurrence of a text -/

theorem isPrefixOf_take {pat s : Str} : pat.isPrefixOf s = true ↔ ∃ r, s = pat ++ r := by
  rw [List.isPrefixOf_iff_prefix]
  constructor
  · rintro ⟨r, h⟩
    exact ⟨r, h.symm⟩
  · rintro ⟨r, h⟩
    exact ⟨r, h.symm⟩

theorem firstAtEnd_cons {pat : Str} {c : Char} {t : Str} (h : FirstAtEnd pat (c :: t)) : FirstAtEnd pat t :=
  fun hi => h (hi.trans (List.suffix_cons c _).isInfix)

/-- A prefix of `t ++ pat ++ r` that begins inside of `t` lies within `t ++ pat.dropLast`. -/
theorem prefix_inside {pat : Str} {c : Char} {t r : Str} (hp : pat ≠ []) (h : pat <+: c :: (t ++ (pat ++ r))) : pat <:+: (c :: t) ++ pat.dropLast := by
  have hl : pat.length ≤ ((c :: t) ++ pat.dropLast).length := by
    have : 0 < pat.length := List.length_pos_iff.2 hp
    simp only [List.length_append, List.length_cons, List.length_dropLast]
    omega
  have e : c :: (t ++ (pat ++ r)) = ((c :: t) ++ pat.dropLast) ++ ([pat.getLast hp] ++ r) := by
    have := List.dropLast_concat_getLast hp
    rw [List.append_assoc, ← List.append_assoc pat.dropLast, this]
    rfl
  rw [e] at h
  exact (List.prefix_of_prefix_length_le h (List.prefix_append _ _) hl).isInfix

theorem behind_found {pat : Str} (hp : pat ≠ []) (r : Str) : ∀ (t : Str), FirstAtEnd pat t → behind pat (t ++ (pat ++ r)) = some r
  | [], _ => by
    obtain ⟨c, s, rfl⟩ : ∃ c s, pat = c :: s := by
      cases pat with
      | nil => exact absurd rfl hp
      | cons c s => exact ⟨c, s, rfl⟩
    rw [List.nil_append, List.cons_append, behind, if_pos (isPrefixOf_take.2 ⟨r, by simp⟩)]
    simp
  | c :: t, h => by
    rw [List.cons_append, behind, if_neg, behind_found hp r t (firstAtEnd_cons h)]
    intro hx
    rw [List.isPrefixOf_iff_prefix] at hx
    exact h (prefix_inside hp hx)

/-! ## References -/

theorem numeral_ne_nil {digit : Char → Nat → Prop} {base : Nat} {ds : Str} {n : Nat} (h : Numeral digit base ds n) : ds ≠ [] := by
  cases h <;> simp

theorem numeral_value {digit : Char → Nat → Prop} {f : Char → Option Nat} (hf : ∀ c v, digit c v → f c = some v) {base : Nat} {ds : Str} {n : Nat}
    (h : Numeral digit base ds n) (hb : 0 < base) : n < 4294967296 → (∀ c ∈ ds, (f c).isSome = true) ∧ digitsMod base (ds.filterMap f) = n := by
  induction h with
  | one hd =>
    rename_i c v
    intro hn
    rw [List.filterMap_cons, hf _ _ hd]
    refine ⟨?_, ?_⟩
    · intro x hx
      rw [List.mem_singleton] at hx
      rw [hx, hf _ _ hd]
      rfl
    · show (0 * base + v) % 4294967296 = v
      rw [Nat.zero_mul, Nat.zero_add, Nat.mod_eq_of_lt hn]
  | more _ hd ih =>
    rename_i s n c v _
    intro hn
    have hle : n ≤ n * base := Nat.le_mul_of_pos_right n hb
    obtain ⟨i1, i2⟩ := ih (by omega)
    refine ⟨?_, ?_⟩
    · intro x hx
      rcases List.mem_append.1 hx with hx | hx
      · exact i1 x hx
      · rw [List.mem_singleton] at hx
        rw [hx, hf _ _ hd]
        rfl
    · rw [List.filterMap_append, digitsMod, List.foldl_append]
      rw [digitsMod] at i2
      rw [i2, List.filterMap_cons, hf _ _ hd]
      show (n * base + v) % 4294967296 = _
      rw [Nat.mod_eq_of_lt hn]

theorem numberRef_read {digit : Char → Nat → Prop} {f : Char → Option Nat} (hf : ∀ c v, digit c v → f c = some v) (hs : f ';' = none) {base : Nat} (hb : 0 < base) {ds : Str} {n : Nat}
    (h : Numeral digit base ds n) (hn : n < 4294967296) (s : Str) : numberRef f base (ds ++ ';' :: s) = some (n, ds.length + 1) := by
  obtain ⟨h1, h2⟩ := numeral_value hf h hb hn
  have ht : (ds ++ ';' :: s).takeWhile (fun c => (f c).isSome) = ds := by
    clear h h2 hn
    induction ds with
    | nil => simp [hs]
    | cons c ds ih =>
      rw [List.cons_append, List.takeWhile_cons, if_pos (h1 c (List.mem_cons_self ..)), ih (fun x hx => h1 x (List.mem_cons_of_mem _ hx))]
  unfold numberRef
  rw [ht]
  dsimp only
  rw [if_neg (by simp [numeral_ne_nil h]), List.drop_left, h2]
  rfl

theorem decDigit_spec (c : Char) (v : Nat) (h : DecDigit c v) : decDigit c = some v := by
  obtain ⟨h1, h2, h3⟩ := h
  have k1 : 48 ≤ c.toNat := h1
  have k2 : c.toNat ≤ 57 := h2
  unfold decDigit
  rw [if_pos ⟨k1, k2⟩, h3]
  rfl

theorem hexDigit_spec (c : Char) (v : Nat) (h : HexDigit c v) : hexDigit c = some v := by
  unfold hexDigit
  rcases h with ⟨h1, h2, h3⟩ | ⟨h1, h2, h3⟩ | ⟨h1, h2, h3⟩
  · rw [if_pos ⟨h1, h2⟩, h3]
  · rw [if_neg (by omega), if_pos ⟨h1, h2⟩, h3]
  · rw [if_neg (by omega), if_neg (by omega), if_pos ⟨h1, h2⟩, h3]

theorem numeral_head {base : Nat} {ds : Str} {n : Nat} (h : Numeral DecDigit base ds n) : ∃ c t, ds = c :: t ∧ c ≠ 'x' := by
  induction h with
  | one hd =>
    rename_i c v
    refine ⟨c, [], rfl, ?_⟩
    rintro rfl
    exact absurd hd.2.1 (by decide)
  | more _ hd ih =>
    obtain ⟨c, t, e, hc⟩ := ih
    rw [e]
    exact ⟨c, _, rfl, hc⟩

theorem reference_dec {c : Char} {t : Str} (hc : c ≠ 'x') : reference ('#' :: c :: t) = (numberRef decDigit 10 (c :: t)).map fun r => (r.1, r.2 + 1) := by
  rw [reference.eq_def]
  split
  · rename_i e
    simp only [List.cons.injEq] at e
    exact absurd e.2.1 hc
  · rename_i e
    simp only [List.cons.injEq, true_and] at e
    rw [e]
  all_goals first | (rename_i e; simp at e; done) | (rename_i h _ _ _ _ _; exact absurd rfl (h _))

theorem reference_hex (t : Str) : reference ('#' :: 'x' :: t) = (numberRef hexDigit 16 t).map fun r => (r.1, r.2 + 2) := rfl

/-- A reference: the parser finds the character, and where the text goes on. -/
theorem reference_read {c : Char} {r : Str} (h : RefText c r) (s : Str) : ∃ t, r = '&' :: t ∧ reference (t ++ s) = some (c.toNat, t.length) := by
  have hlt : c.toNat < 4294967296 := by have := char_bound c; omega
  cases h with
  | amp => exact ⟨_, rfl, rfl⟩
  | lt => exact ⟨_, rfl, rfl⟩
  | gt => exact ⟨_, rfl, rfl⟩
  | quot => exact ⟨_, rfl, rfl⟩
  | apos => exact ⟨_, rfl, rfl⟩
  | dec hc hn =>
    rename_i ds
    obtain ⟨x, u, e, hx⟩ := numeral_head hn
    refine ⟨_, rfl, ?_⟩
    have hr := numberRef_read decDigit_spec rfl (by omega) hn hlt s
    have e2 : '#' :: (ds ++ [';']) ++ s = '#' :: (ds ++ ';' :: s) := by simp
    rw [e2]
    subst e
    rw [List.cons_append, reference_dec hx]
    rw [List.cons_append] at hr
    rw [hr]
    simp
  | hex hc hn =>
    rename_i ds
    refine ⟨_, rfl, ?_⟩
    have hr := numberRef_read hexDigit_spec rfl (by omega) hn hlt s
    have e2 : '#' :: 'x' :: (ds ++ [';']) ++ s = '#' :: 'x' :: (ds ++ ';' :: s) := by simp
    rw [e2, reference_hex, hr]
    simp

theorem reference_char {c : Char} {r : Str} (h : RefText c r) : c ≠ '\x00' := by
  cases h with
  | dec hc _ => exact hc
  | hex hc _ => exact hc
  | _ => decide

theorem not_mem_cons' {a c : Char} {s : Str} (h1 : a = c → False) (h2 : a ∉ s) : a ∉ c :: s := by
  intro h
  rcases List.mem_cons.1 h with h | h
  · exact h1 h
  · exact h2 h

/-! ## Character data -/

theorem pcdata_skip (t : Str) (s : Str) : pcdata t.length (t ++ s) = pcdata 0 s := by
  induction t with
  | nil => rfl
  | cons c t ih => exact ih

theorem attrString_skip (q : Char) (t : Str) (s : Str) : attrString q t.length (t ++ s) = attrString q 0 s := by
  induction t with
  | nil => rfl
  | cons c t ih => exact ih

theorem head_append {t q : Str} (ht : t.head? ≠ some '\n') (hq : q.head? ≠ some '\n') : (t ++ q).head? ≠ some '\n' := by
  cases t with
  | nil => exact hq
  | cons c t => exact ht

theorem atMarkup_head {q : Str} (h : AtMarkup q) : q.head? ≠ some '\n' := by
  rcases h with rfl | ⟨t, rfl⟩
  · simp
  · simp

theorem pcdata_read {v t : Str} (h : CharData v t) {q : Str} (hq : AtMarkup q) : pcdata 0 (t ++ q) = .ok (v, q) := by
  induction h with
  | nil =>
    rcases hq with rfl | ⟨u, rfl⟩
    · rfl
    · rfl
  | plain hc _ ih =>
    simp only [List.mem_cons, List.not_mem_nil, or_false, not_or] at hc
    rw [List.cons_append, pcdata_plain hc.1 hc.2.2.1 hc.2.1, ih, before_ok]
  | crlf _ ih =>
    rw [List.cons_append, List.cons_append, pcdata, if_neg (by decide), if_pos rfl, List.head?_cons, if_pos rfl, pcdata_succ, ih, before_ok]
  | cr ht _ ih =>
    rw [List.cons_append, pcdata, if_neg (by decide), if_pos rfl, if_neg (head_append ht (atMarkup_head hq)), ih, before_ok]
  | ref hr _ ih =>
    rename_i c r v t _
    obtain ⟨u, e, hu⟩ := reference_read hr (t ++ q)
    rw [e, List.append_assoc, List.cons_append, pcdata_ref hu, pcdata_skip, ih, before_ok]

theorem charData_zero {v t : Str} (h : CharData v t) : '\x00' ∉ v := by
  induction h with
  | nil => simp
  | plain hc _ ih =>
    simp only [List.mem_cons, List.not_mem_nil, or_false, not_or] at hc
    exact not_mem_cons' (fun hx => hc.2.2.2 hx.symm) ih
  | crlf _ ih => exact not_mem_cons' (fun hx => absurd hx (by decide)) ih
  | cr _ _ ih => exact not_mem_cons' (fun hx => absurd hx (by decide)) ih
  | ref hr _ ih => exact not_mem_cons' (fun hx => reference_char hr hx.symm) ih

/-- No markup in character data. -/
theorem charData_lt {v t : Str} (h : CharData v t) : '<' ∉ t := by
  have hnum : ∀ {digit : Char → Nat → Prop} {base : Nat} {ds : Str} {n : Nat}, (∀ v, ¬ digit '<' v) → Numeral digit base ds n → '<' ∉ ds := by
    intro digit base ds n hd hn
    induction hn with
    | one h => exact fun hx => by rw [List.mem_singleton] at hx; subst hx; exact hd _ h
    | more _ h ih =>
      intro hx
      rcases List.mem_append.1 hx with hx | hx
      · exact ih hx
      · rw [List.mem_singleton] at hx
        subst hx
        exact hd _ h
  induction h with
  | nil => simp
  | plain hc _ ih =>
    simp only [List.mem_cons, List.not_mem_nil, or_false, not_or] at hc
    exact not_mem_cons' (fun hx => hc.1 hx.symm) ih
  | crlf _ ih => simpa using ih
  | cr _ _ ih => simpa using ih
  | ref hr _ ih =>
    intro hx
    rcases List.mem_append.1 hx with hx | hx
    · cases hr with
      | dec _ hn =>
        have := hnum (by intro v h; exact absurd h.2.1 (by decide)) hn
        simp [this] at hx
      | hex _ hn =>
        have := hnum (by intro v h; unfold HexDigit at h; have : '<'.toNat = 60 := by decide
                         omega) hn
        simp [this] at hx
      | _ => simp at hx
    · exact ih hx

/-! ## Attributes -/

theorem attrString_ref' {q : Char} (hq : q ≠ '&') {s : Str} {k : Nat} {d : Char} (h : reference s = some (d.toNat, k)) : attrString q 0 ('&' :: s) = before d (attrString q k s) := by
  rw [attrString, if_neg (Ne.symm hq), if_neg (by decide), if_neg (by decide), if_pos rfl, h]
  dsimp only
  rw [charOf_toNat]

theorem attrString_read {q : Char} (hq : q ∈ ['"', '\'']) {v t : Str} (h : AttrData q v t) (r : Str) : attrString q 0 (t ++ q :: r) = .ok (v, r) := by
  have hne : q ≠ '&' ∧ q ≠ '\r' ∧ q ≠ '\n' ∧ q ≠ '\t' := by
    simp only [List.mem_cons, List.not_mem_nil, or_false] at hq
    rcases hq with rfl | rfl <;> decide
  induction h with
  | nil => rw [List.nil_append, attrString, if_pos rfl]
  | plain hc _ ih =>
    simp only [List.mem_cons, List.not_mem_nil, or_false, not_or] at hc
    rw [List.cons_append, attrString, if_neg hc.2.2.2.2.2.2, if_neg hc.2.2.1, if_neg (by simp [hc.2.2.2.1, hc.2.2.2.2.1]), if_neg hc.2.1, ih, before_ok]
  | white hc _ ih =>
    rename_i c _ _ _
    simp only [List.mem_cons, List.not_mem_nil, or_false] at hc
    have : c ≠ q ∧ c ≠ '\r' := by
      rcases hc with rfl | rfl
      · exact ⟨Ne.symm hne.2.2.1, by decide⟩
      · exact ⟨Ne.symm hne.2.2.2, by decide⟩
    rw [List.cons_append, attrString, if_neg this.1, if_neg this.2, if_pos hc, ih, before_ok]
  | crlf _ ih =>
    rw [List.cons_append, List.cons_append, attrString, if_neg (Ne.symm hne.2.1), if_pos rfl, List.head?_cons, if_pos rfl]
    show before ' ' (attrString q 0 _) = _
    rw [ih, before_ok]
  | cr ht _ ih =>
    rw [List.cons_append, attrString, if_neg (Ne.symm hne.2.1), if_pos rfl, if_neg (head_append ht (by simp [hne.2.2.1])), ih, before_ok]
  | ref hr _ ih =>
    rename_i c u v t _
    obtain ⟨w, e, hu⟩ := reference_read hr (t ++ q :: r)
    rw [e, List.append_assoc, List.cons_append, attrString_ref' hne.1 hu, attrString_skip, ih, before_ok]

theorem attrData_zero {q : Char} {v t : Str} (h : AttrData q v t) : '\x00' ∉ v := by
  induction h with
  | nil => simp
  | plain hc _ ih =>
    simp only [List.mem_cons, List.not_mem_nil, or_false, not_or] at hc
    exact not_mem_cons' (fun hx => hc.2.2.2.2.2.1 hx.symm) ih
  | white _ _ ih => exact not_mem_cons' (fun hx => absurd hx (by decide)) ih
  | crlf _ ih => exact not_mem_cons' (fun hx => absurd hx (by decide)) ih
  | cr _ _ ih => exact not_mem_cons' (fun hx => absurd hx (by decide)) ih
  | ref hr _ ih => exact not_mem_cons' (fun hx => reference_char hr hx.symm) ih

theorem blank_space {w : Str} (h : Blank w) : w.all isPugiSpace = true := by
  rw [List.all_eq_true]
  intro c hc
  have := h c hc
  unfold isPugiSpace
  simpa [or_assoc] using this

theorem skipWs_white {w : Str} (h : Blank w) (s : Str) : skipWs (w ++ s) = skipWs s := by
  have := blank_space h
  clear h
  induction w with
  | nil => rfl
  | cons c w ih =>
    rw [List.all_cons, Bool.and_eq_true] at this
    rw [List.cons_append, skipWs_space this.1, ih this.2]

theorem blank_not_symbol {c : Char} (h : c ∈ [' ', '\t', '\n', '\r']) : isSymbol c = false ∧ isPugiSpace c = true := by
  simp only [List.mem_cons, List.not_mem_nil, or_false] at h
  rcases h with rfl | rfl | rfl | rfl <;> decide

/-- A blank text followed by a character that belongs to no name. -/
theorem after_name {w : Str} (h : Blank w) {c : Char} (hc : isSymbol c = false) (s : Str) : ∃ d t, w ++ c :: s = d :: t ∧ isSymbol d = false := by
  cases w with
  | nil => exact ⟨c, s, rfl, hc⟩
  | cons d w => exact ⟨d, _, rfl, (blank_not_symbol (h d (List.mem_cons_self ..))).1⟩

theorem oneAttr_text {k b1 b2 v t : Str} {q : Char} (hk : XmlName k) (h1 : Blank b1) (h2 : Blank b2) (hq : q ∈ ['"', '\'']) (hv : AttrData q v t) {c : Char} (hc : isStartSymbol c = false)
    (r : Str) : oneAttr (k ++ (b1 ++ '=' :: (b2 ++ q :: (t ++ q :: c :: r)))) = .ok ((k, v), c :: r) := by
  obtain ⟨_, _, _, _, hs⟩ := name_symbols hk
  obtain ⟨d, u, e, hd⟩ := after_name h1 (c := '=') (by decide) (b2 ++ q :: (t ++ q :: c :: r))
  obtain ⟨t1, t2⟩ := take_symbols hs hd u
  have hqs : isPugiSpace q = false := by
    simp only [List.mem_cons, List.not_mem_nil, or_false] at hq
    rcases hq with rfl | rfl <;> decide
  have k1 : skipWs (d :: u) = '=' :: (b2 ++ q :: (t ++ q :: c :: r)) := by
    rw [← e, skipWs_white h1, skipWs_cons (by decide)]
  have k2 : skipWs (b2 ++ q :: (t ++ q :: c :: r)) = q :: (t ++ q :: c :: r) := by
    rw [skipWs_white h2, skipWs_cons hqs]
  unfold oneAttr
  rw [e]
  simp only [t1, t2, k1, k2]
  rw [if_pos (by simpa using hq), attrString_read hq hv]
  dsimp only
  rw [List.head?_cons, Option.map_some, hc, Option.getD_some, if_neg (by decide), zeroTerminated_eq (attrData_zero hv)]

/-- The end of a tag. -/
def TagEnd (closed : Bool) : Str := if closed then ['/', '>'] else ['>']

theorem tagAttrs_head {as : List (Str × Str)} {a : Str} (h : TagAttrs as a) (closed : Bool) (r : Str) :
    ∃ c t, a ++ (TagEnd closed ++ r) = c :: t ∧ isSymbol c = false := by
  have hend : ∀ w, Blank w → ∃ c t, w ++ (TagEnd closed ++ r) = c :: t ∧ isSymbol c = false := by
    intro w hw
    cases closed with
    | true => exact after_name hw (by decide) _
    | false => exact after_name hw (by decide) _
  cases h with
  | nil hw => exact hend _ hw
  | @cons w k b1 b2 v t a q as hne hw _ _ _ _ _ _ =>
    cases w with
    | nil => exact absurd rfl hne
    | cons c w => exact ⟨c, _, rfl, (blank_not_symbol (hw c (List.mem_cons_self ..))).1⟩

theorem not_start {c : Char} (h : isSymbol c = false) : isStartSymbol c = false := by
  cases hs : isStartSymbol c with
  | false => rfl
  | true => rw [isSymbol_of_start hs] at h; cases h

theorem attributes_skip {w : Str} (hw : Blank w) (k : Nat) (s : Str) : attributes k (w ++ s) = attributes k s := by
  cases k with
  | zero => rfl
  | succ k => rw [attributes, attributes, skipWs_white hw]

theorem attributes_text {as : List (Str × Str)} {a : Str} (h : TagAttrs as a) (closed : Bool) (r : Str) : ∀ k, as.length < k → attributes k (a ++ (TagEnd closed ++ r)) = .ok (as, closed, r) := by
  induction h with
  | nil hw =>
    intro k hk
    obtain ⟨k, rfl⟩ : ∃ j, k = j + 1 := ⟨k - 1, by omega⟩
    rw [attributes_skip hw]
    cases closed <;> rfl
  | cons hne hw hn h1 h2 hq hv ha ih =>
    rename_i w n b1 b2 v t a q as
    intro k hk
    obtain ⟨k, rfl⟩ : ∃ j, k = j + 1 := ⟨k - 1, by omega⟩
    have ih := ih k (by simp at hk; omega)
    obtain ⟨c, u, e, hc⟩ := tagAttrs_head ha closed r
    obtain ⟨c0, s0, e0, hst, _⟩ := name_symbols hn
    have ho := oneAttr_text hn h1 h2 hq hv (not_start hc) u
    have e1 : (w ++ (n ++ (b1 ++ '=' :: (b2 ++ q :: (t ++ q :: a))))) ++ (TagEnd closed ++ r) =
        w ++ (n ++ (b1 ++ '=' :: (b2 ++ q :: (t ++ q :: (a ++ (TagEnd closed ++ r)))))) := by simp
    rw [e1, attributes_skip hw, e]
    have hsp : isPugiSpace c0 = false := (symbol_facts (isSymbol_of_start hst)).2.2.2.2.2
    rw [attributes]
    rw [e0, List.cons_append] at ho ⊢
    rw [skipWs_cons hsp]
    dsimp only
    rw [if_pos hst, ho]
    dsimp only
    rw [← e, ih]
    rfl

theorem tagAttrs_length {as : List (Str × Str)} {a : Str} (h : TagAttrs as a) : as.length ≤ a.length := by
  induction h with
  | nil => simp
  | cons _ _ _ _ _ _ _ _ ih =>
    simp only [List.length_append, List.length_cons]
    omega

theorem tagAttrs_blank {as : List (Str × Str)} {a : Str} (h : TagAttrs as a) : (a = [] ∧ as = []) ∨ ∃ c t, a = c :: t ∧ c ∈ [' ', '\t', '\n', '\r'] ∧ as.length ≤ t.length := by
  cases h with
  | nil hw =>
    cases a with
    | nil => exact Or.inl ⟨rfl, rfl⟩
    | cons c t => exact Or.inr ⟨c, t, rfl, hw c (List.mem_cons_self ..), by simp⟩
  | @cons w k b1 b2 v t a q as hne hw _ _ _ _ _ ha =>
    cases w with
    | nil => exact absurd rfl hne
    | cons c w =>
      refine Or.inr ⟨c, _, rfl, hw c (List.mem_cons_self ..), ?_⟩
      have := tagAttrs_length ha
      show _ ≤ (w ++ (k ++ (b1 ++ '=' :: (b2 ++ q :: (t ++ q :: a))))).length
      simp only [List.length_append, List.length_cons]
      omega

theorem startTag_text {n a : Str} {as : List (Str × Str)} (hn : XmlName n) (ha : TagAttrs as a) (closed : Bool) (st : Parsing) (r : Str) :
    turn st ('<' :: (n ++ (a ++ (TagEnd closed ++ r)))) = .ok (if closed then st.add (.element n as []) else st.push n as, r) := by
  obtain ⟨c0, s0, e0, hst, hsy⟩ := name_symbols hn
  have htag : turn st ('<' :: (n ++ (a ++ (TagEnd closed ++ r)))) = startTag st (n ++ (a ++ (TagEnd closed ++ r))) := by
    subst e0
    show tag st (c0 :: (s0 ++ _)) = _
    rw [tag, if_pos hst]
    rfl
  rw [htag]
  unfold startTag
  rcases tagAttrs_blank ha with ⟨rfl, rfl⟩ | ⟨c, t, rfl, hc, hl⟩
  · cases closed with
    | true =>
      obtain ⟨t1, t2⟩ := take_symbols hsy (c := '/') (by decide) ('>' :: r)
      show (match (n ++ '/' :: '>' :: r).dropWhile isSymbol with | [] => _ | c :: t => _) = _
      rw [t2]
      have e : n ++ ([] ++ (TagEnd true ++ r)) = n ++ '/' :: '>' :: r := rfl
      rw [e, t1]
      rfl
    | false =>
      obtain ⟨t1, t2⟩ := take_symbols hsy (c := '>') (by decide) r
      have e : n ++ ([] ++ (TagEnd false ++ r)) = n ++ '>' :: r := rfl
      rw [e, t1, t2]
      rfl
  · have hr := attributes_text ha closed r ((t ++ (TagEnd closed ++ r)).length + 1) (by simp only [List.length_append]; omega)
    have hb := blank_not_symbol hc
    obtain ⟨t1, t2⟩ := take_symbols hsy hb.1 (t ++ (TagEnd closed ++ r))
    have hsk : attributes ((t ++ (TagEnd closed ++ r)).length + 1) (c :: (t ++ (TagEnd closed ++ r))) = attributes ((t ++ (TagEnd closed ++ r)).length + 1) (t ++ (TagEnd closed ++ r)) :=
      attributes_skip (w := [c]) (by intro x hx; rw [List.mem_singleton] at hx; rw [hx]; exact hc) _ _
    rw [List.cons_append, hsk] at hr
    rw [List.cons_append, t1, t2]
    dsimp only
    rw [if_neg (by rintro rfl; exact absurd hc (by decide)), if_pos hb.2, hr]

theorem endTag_text {n w : Str} (hn : XmlName n) (hw : Blank w) (as : List (Str × Str)) (cs : List Node) (os : List OpenElement) (top : List Node) (r : Str) :
    turn ⟨⟨n, as, cs⟩ :: os, top⟩ ('<' :: '/' :: (n ++ (w ++ '>' :: r))) = .ok ((⟨os, top⟩ : Parsing).add (.element n as cs), r) := by
  obtain ⟨_, _, _, _, hsy⟩ := name_symbols hn
  obtain ⟨d, u, e, hd⟩ := after_name hw (c := '>') (by decide) r
  obtain ⟨t1, t2⟩ := take_symbols hsy hd u
  have k : skipWs (d :: u) = '>' :: r := by rw [← e, skipWs_white hw, skipWs_cons (by decide)]
  rw [turn_lt, tag, if_neg (by decide), if_pos rfl, endTag]
  dsimp only
  rw [e, t1, t2, if_pos rfl, k]
  rfl

/-! ## CDATA, comments and processing instructions -/

theorem cdata_text {v t : Str} (h : LineEnds v t) (r : Str) : FirstAtEnd [']', ']', '>'] t → cdata (t ++ ']' :: ']' :: '>' :: r) = .ok (v, r) := by
  induction h with
  | nil =>
    intro _
    rfl
  | plain hc _ ih =>
    rename_i c v t _
    intro hf
    rw [List.cons_append, cdata.eq_def]
    dsimp only
    rw [if_neg hc]
    split
    · rename_i u e
      exact absurd (prefix_inside (pat := [']', ']', '>']) (r := r) (by simp) ⟨u, by simp only [List.cons_append, List.nil_append]; rw [e]⟩) hf
    · rw [ih (firstAtEnd_cons hf), before_ok]
  | crlf _ ih =>
    intro hf
    have ih := ih (firstAtEnd_cons (firstAtEnd_cons hf))
    rw [List.cons_append, List.cons_append, cdata.eq_def]
    dsimp only
    rw [if_pos rfl, cdata.eq_def]
    dsimp only
    rw [if_neg (by decide), ih]
    rfl
  | cr ht _ ih =>
    rename_i v t _
    intro hf
    have ih := ih (firstAtEnd_cons hf)
    rw [List.cons_append, cdata.eq_def]
    dsimp only
    rw [if_pos rfl]
    split
    · rename_i u e
      have : (t ++ ']' :: ']' :: '>' :: r).head? ≠ some '\n' := head_append ht (by simp)
      rw [e] at this
      simp at this
    · rw [ih, before_ok]

theorem cdata_head (s : Str) : "<![CDATA[".toList ++ s = '<' :: '!' :: '[' :: 'C' :: 'D' :: 'A' :: 'T' :: 'A' :: '[' :: s := by
  have e : "<![CDATA[".toList = ['<', '!', '[', 'C', 'D', 'A', 'T', 'A', '['] := by decide
  rw [e]
  rfl

theorem cdata_turn_text {v t : Str} (h : LineEnds v t) (hf : FirstAtEnd [']', ']', '>'] t) (st : Parsing) (r : Str) :
    turn st ("<![CDATA[".toList ++ (t ++ ']' :: ']' :: '>' :: r)) = .ok (st.add (.text true v), r) := by
  rw [cdata_head, turn_lt, tag, if_neg (by decide), if_neg (by decide), if_neg (by decide), if_pos rfl, exclamation]
  rw [if_pos (by simp)]
  have hd : ('C' :: 'D' :: 'A' :: 'T' :: 'A' :: '[' :: (t ++ ']' :: ']' :: '>' :: r)).drop 6 = t ++ ']' :: ']' :: '>' :: r := rfl
  rw [hd, cdata_text h r hf]

theorem comment_turn {t : Str} (hf : FirstAtEnd ['-', '-', '>'] t) (st : Parsing) (r : Str) :
    turn st ('<' :: '!' :: '-' :: '-' :: (t ++ '-' :: '-' :: '>' :: r)) = .ok (st, r) := by
  have hb := behind_found (pat := ['-', '-', '>']) (by simp) r t hf
  rw [turn_lt, tag, if_neg (by decide), if_neg (by decide), if_neg (by decide), if_pos rfl, exclamation]
  rw [show t ++ '-' :: '-' :: '>' :: r = t ++ (['-', '-', '>'] ++ r) from rfl, hb]

theorem instruction_turn {n t : Str} (hn : XmlName n) (ht : ∀ c ∈ t.head?, c ∈ [' ', '\t', '\n', '\r']) (hf : FirstAtEnd ['?', '>'] t) (st : Parsing) (r : Str) :
    turn st ('<' :: '?' :: (n ++ (t ++ '?' :: '>' :: r))) = .ok (st, r) := by
  obtain ⟨c0, s0, e0, hst, hsy⟩ := name_symbols hn
  have hb := behind_found (pat := ['?', '>']) (by simp) r t hf
  rw [turn_lt]
  show (question (n ++ (t ++ '?' :: '>' :: r))).map (fun r => (st, r)) = _
  have hd : (n ++ (t ++ '?' :: '>' :: r)).dropWhile isSymbol = t ++ '?' :: '>' :: r := by
    cases t with
    | nil => exact (take_symbols hsy (c := '?') (by decide) _).2
    | cons c t => exact (take_symbols hsy (blank_not_symbol (ht c rfl)).1 _).2
  unfold question
  rw [hd]
  have hh : ((n ++ (t ++ '?' :: '>' :: r)).head?.map isStartSymbol).getD false = true := by
    rw [e0]
    exact hst
  rw [if_pos hh, show t ++ '?' :: '>' :: r = t ++ (['?', '>'] ++ r) from rfl, hb]
  rfl

/-! ## Content -/

theorem Turns.white {w : Str} (hw : Blank w) {q : Str} (hq : AtMarkup q) (st : Parsing) : Turns st (w ++ q) st q := by
  rcases hq with rfl | ⟨t, rfl⟩
  · rw [List.append_nil]
    exact Turns.blank_end (blank_space hw) st
  · exact Turns.blank (blank_space hw) st t

/-- The first character that is not white space. -/
theorem skipWs_text {t : Str} (h1 : ¬ Blank t) (q : Str) : ∃ c u, skipWs (t ++ q) = c :: u ∧ c ∈ t := by
  induction t with
  | nil => exact absurd (by intro c hc; cases hc) h1
  | cons c t ih =>
    by_cases hc : isPugiSpace c = true
    · have hb : ¬ Blank t := by
        intro hb
        apply h1
        intro d hd
        rcases List.mem_cons.1 hd with rfl | hd
        · unfold isPugiSpace at hc
          simpa [or_assoc] using hc
        · exact hb d hd
      obtain ⟨d, u, e, hd⟩ := ih hb
      exact ⟨d, u, by rw [List.cons_append, skipWs_space hc, e], List.mem_cons_of_mem _ hd⟩
    · exact ⟨c, t ++ q, by rw [List.cons_append, skipWs_cons (by simpa using hc)], List.mem_cons_self ..⟩

theorem turn_text {s : Str} {c : Char} {u : Str} (h0 : s.head? ≠ some '<') (hs : skipWs s = c :: u) (hc : c ≠ '<') {st : Parsing} (hst : st.opened ≠ []) :
    turn st s = (pcdata 0 s).map fun r => (st.add (.text false (zeroTerminated r.1)), r.2) := by
  unfold turn
  split
  · simp at h0
  · rw [hs]
    split
    · rename_i e
      cases e
    · rename_i e
      simp only [List.cons.injEq] at e
      exact absurd e.1 hc
    · rw [if_neg (by simpa using hst)]

theorem atMarkup_append {s q : Str} (h : AtMarkup s) (hq : AtMarkup q) : AtMarkup (s ++ q) := by
  rcases h with rfl | ⟨t, rfl⟩
  · exact hq
  · exact Or.inr ⟨t ++ q, rfl⟩

theorem content_turns {ns : List Node} {t : Str} (h : ContentOf ns t) : ∀ (st : Parsing) (q : Str), AtMarkup q → (st.opened ≠ [] ∨ ∀ n ∈ ns, n.isPcdata = false) →
    Turns st (t ++ q) (st.addAll ns) q := by
  induction h with
  | nil => exact fun st q _ _ => .refl _ _
  | text hv hb hs _ ih =>
    rename_i v t s ns hc
    intro st q hq ho
    have ho : st.opened ≠ [] := by
      rcases ho with ho | ho
      · exact ho
      · exact absurd (ho _ (List.mem_cons_self ..)) (by simp [Node.isPcdata])
    obtain ⟨c, u, e, hm⟩ := skipWs_text hb (s ++ q)
    have hlt := charData_lt hv
    have hne : t ≠ [] := by
      rintro rfl
      exact hb (by intro c hc; cases hc)
    have h0 : (t ++ (s ++ q)).head? ≠ some '<' := by
      cases t with
      | nil => exact absurd rfl hne
      | cons d t =>
        intro hd
        injection hd with hd
        exact hlt (hd ▸ List.mem_cons_self ..)
    rw [List.append_assoc]
    refine .step (by simp [hne]) ?_ (ih (st.add (.text false v)) q hq (Or.inl (add_opened st _ ho)))
    rw [turn_text h0 e (by rintro rfl; exact hlt hm) ho, pcdata_read hv (atMarkup_append hs hq)]
    show Except.ok (st.add (.text false (zeroTerminated v)), s ++ q) = _
    rw [zeroTerminated_eq (charData_zero hv)]
  | space hw hs _ ih =>
    intro st q hq ho
    rw [List.append_assoc]
    exact (Turns.white hw (atMarkup_append hs hq) st).trans (ih st q hq ho)
  | cdata hv hf _ ih =>
    rename_i v t s ns hc
    intro st q hq ho
    have e : ("<![CDATA[".toList ++ (t ++ ']' :: ']' :: '>' :: s)) ++ q = "<![CDATA[".toList ++ (t ++ ']' :: ']' :: '>' :: (s ++ q)) := by simp
    rw [e]
    refine .step (by rw [cdata_head]; simp) (cdata_turn_text hv hf st (s ++ q)) (ih _ q hq ?_)
    exact ho.imp (add_opened st _) (fun h n hn => h n (List.mem_cons_of_mem _ hn))
  | comment hf _ ih =>
    rename_i t s ns hc
    intro st q hq ho
    have e : ('<' :: '!' :: '-' :: '-' :: (t ++ '-' :: '-' :: '>' :: s)) ++ q = '<' :: '!' :: '-' :: '-' :: (t ++ '-' :: '-' :: '>' :: (s ++ q)) := by simp
    rw [e]
    exact .step (by simp) (comment_turn hf st (s ++ q)) (ih st q hq ho)
  | instruction hn ht hf _ ih =>
    rename_i n t s ns hc
    intro st q hq ho
    have e : ('<' :: '?' :: (n ++ (t ++ '?' :: '>' :: s))) ++ q = '<' :: '?' :: (n ++ (t ++ '?' :: '>' :: (s ++ q))) := by simp
    rw [e]
    exact .step (by simp) (instruction_turn hn ht hf st (s ++ q)) (ih st q hq ho)
  | empty hn ha _ ih =>
    rename_i n a s as ns hc
    intro st q hq ho
    have e : ('<' :: (n ++ (a ++ '/' :: '>' :: s))) ++ q = '<' :: (n ++ (a ++ (TagEnd true ++ (s ++ q)))) := by simp [TagEnd]
    rw [e]
    refine .step (by simp) (startTag_text hn ha true st (s ++ q)) (ih _ q hq ?_)
    exact ho.imp (add_opened st _) (fun h n hn => h n (List.mem_cons_of_mem _ hn))
  | element hn ha _ hw _ ih1 ih2 =>
    rename_i n a b w s as cs ns _ _
    intro st q hq ho
    have e : ('<' :: (n ++ (a ++ '>' :: (b ++ '<' :: '/' :: (n ++ (w ++ '>' :: s)))))) ++ q =
        '<' :: (n ++ (a ++ (TagEnd false ++ (b ++ '<' :: '/' :: (n ++ (w ++ '>' :: (s ++ q))))))) := by simp [TagEnd]
    rw [e]
    refine .step (by simp) (startTag_text hn ha false st _) ?_
    refine (ih1 (st.push n as) ('<' :: '/' :: (n ++ (w ++ '>' :: (s ++ q)))) (Or.inr ⟨_, rfl⟩) (Or.inl (by simp [Parsing.push]))).trans ?_
    obtain ⟨os, top⟩ := st
    show Turns ((⟨⟨n, as, []⟩ :: os, top⟩ : Parsing).addAll cs) _ _ _
    rw [push_addAll, List.nil_append]
    refine .step (by simp) (endTag_text hn hw as cs os top (s ++ q)) (ih2 _ q hq ?_)
    exact ho.imp (add_opened _ _) (fun h n hn => h n (List.mem_cons_of_mem _ hn))

/-! ## The document type -/

theorem doctypeGroup_char {c : Char} (h1 : c ≠ '<') (h2 : c ≠ '>') (h3 : c ≠ '"') (h4 : c ≠ '\'') (k d : Nat) (s : Str) :
    doctypeGroup (k + 1) d (c :: s) = doctypeGroup k d s := by
  rw [doctypeGroup, if_neg, if_neg (by simp [h1, h3, h4]), if_neg h2]
  rintro ⟨h, _⟩
  obtain ⟨r, e⟩ := isPrefixOf_take.1 h
  injection e with e
  exact h1 e

theorem firstAtEnd_single {q : Char} {u : Str} (h : q ∉ u) : FirstAtEnd [q] u := by
  rintro ⟨a, b, e⟩
  apply h
  rw [show [q].dropLast = [] from rfl, List.append_nil] at e
  rw [← e]
  simp

/-- What is in a declaration is passed over. -/
theorem doctype_body {u : Str} (h : DoctypeBody u) : ∀ (d : Nat) (r : Str) (k : Nat), (u ++ r).length < k → ∃ j, r.length < j ∧ doctypeGroup k d (u ++ r) = doctypeGroup j d r := by
  induction h with
  | nil => exact fun d r k hk => ⟨k, hk, rfl⟩
  | char hc _ ih =>
    rename_i c t _
    intro d r k hk
    obtain ⟨k, rfl⟩ : ∃ j, k = j + 1 := ⟨k - 1, by omega⟩
    simp only [List.mem_cons, List.not_mem_nil, or_false, not_or] at hc
    rw [List.cons_append, doctypeGroup_char hc.1 hc.2.1 hc.2.2.1 hc.2.2.2]
    exact ih d r k (by simp at hk ⊢; omega)
  | literal hq hu _ ih =>
    rename_i q u t _
    intro d r k hk
    obtain ⟨k, rfl⟩ : ∃ j, k = j + 1 := ⟨k - 1, by omega⟩
    have hb := behind_found (pat := [q]) (by simp) (t ++ r) u (firstAtEnd_single hu)
    have e : q :: (u ++ q :: t) ++ r = q :: (u ++ ([q] ++ (t ++ r))) := by simp
    rw [e]
    have hp : doctypePrimitive (q :: (u ++ ([q] ++ (t ++ r)))) = some (t ++ r) := by
      simp only [List.mem_cons, List.not_mem_nil, or_false] at hq
      rcases hq with rfl | rfl
      · exact hb
      · exact hb
    have hq' : q ≠ '<' ∧ (q = '<' ∨ q = '"' ∨ q = '\'') := by
      simp only [List.mem_cons, List.not_mem_nil, or_false] at hq
      rcases hq with rfl | rfl <;> decide
    rw [doctypeGroup, if_neg, if_pos hq'.2, hp]
    · exact ih d r k (by simp at hk ⊢; omega)
    · rintro ⟨h, _⟩
      obtain ⟨r, e⟩ := isPrefixOf_take.1 h
      injection e with e
      exact hq'.1 e
  | comment hf _ ih =>
    rename_i u t _
    intro d r k hk
    obtain ⟨k, rfl⟩ : ∃ j, k = j + 1 := ⟨k - 1, by omega⟩
    have hb := behind_found (pat := ['-', '-', '>']) (by simp) (t ++ r) u hf
    have e : '<' :: '!' :: '-' :: '-' :: (u ++ '-' :: '-' :: '>' :: t) ++ r = '<' :: '!' :: '-' :: '-' :: (u ++ (['-', '-', '>'] ++ (t ++ r))) := by simp
    rw [e]
    have hp : doctypePrimitive ('<' :: '!' :: '-' :: '-' :: (u ++ (['-', '-', '>'] ++ (t ++ r)))) = some (t ++ r) := hb
    rw [doctypeGroup, if_neg (by simp), if_pos (Or.inl rfl), hp]
    exact ih d r k (by simp at hk ⊢; omega)
  | instruction hf _ ih =>
    rename_i u t _
    intro d r k hk
    obtain ⟨k, rfl⟩ : ∃ j, k = j + 1 := ⟨k - 1, by omega⟩
    have hb := behind_found (pat := ['?', '>']) (by simp) (t ++ r) u hf
    have e : '<' :: '?' :: (u ++ '?' :: '>' :: t) ++ r = '<' :: '?' :: (u ++ (['?', '>'] ++ (t ++ r))) := by simp
    rw [e]
    have hp : doctypePrimitive ('<' :: '?' :: (u ++ (['?', '>'] ++ (t ++ r)))) = some (t ++ r) := hb
    rw [doctypeGroup, if_neg (by simp), if_pos (Or.inl rfl), hp]
    exact ih d r k (by simp at hk ⊢; omega)
  | declaration hc _ _ ih1 ih2 =>
    rename_i c u t _ _
    intro d r k hk
    obtain ⟨k, rfl⟩ : ∃ j, k = j + 1 := ⟨k - 1, by omega⟩
    simp only [List.mem_cons, List.not_mem_nil, or_false, not_or] at hc
    have e : '<' :: '!' :: c :: (u ++ '>' :: t) ++ r = '<' :: '!' :: (c :: u ++ ('>' :: (t ++ r))) := by simp
    rw [e, doctypeGroup, if_pos (by simp [hc.1]), if_neg (by simp [hc.2])]
    obtain ⟨j, hj, e1⟩ := ih1 (d + 1) ('>' :: (t ++ r)) k (by simp at hk ⊢; omega)
    have e2 : List.drop 1 ('!' :: (c :: u ++ ('>' :: (t ++ r)))) = c :: u ++ ('>' :: (t ++ r)) := rfl
    rw [e2, e1]
    obtain ⟨j, rfl⟩ : ∃ i, j = i + 1 := ⟨j - 1, by simp at hj; omega⟩
    have e3 : doctypeGroup (j + 1) (d + 1) ('>' :: (t ++ r)) = doctypeGroup j d (t ++ r) := by
      rw [doctypeGroup, if_neg (by simp), if_neg (by decide), if_pos rfl, if_neg (by omega)]
      rfl
    rw [e3]
    exact ih2 d r j (by simp at hj ⊢; omega)

theorem doctype_head (s : Str) : "<!DOCTYPE".toList ++ s = '<' :: '!' :: 'D' :: 'O' :: 'C' :: 'T' :: 'Y' :: 'P' :: 'E' :: s := by
  have e : "<!DOCTYPE".toList = ['<', '!', 'D', 'O', 'C', 'T', 'Y', 'P', 'E'] := by decide
  rw [e]
  rfl

theorem doctype_turn {b : Str} (hb : DoctypeBody b) (top : List Node) (r : Str) : turn ⟨[], top⟩ ("<!DOCTYPE".toList ++ (b ++ '>' :: r)) = .ok (⟨[], top⟩, r) := by
  have hw : DoctypeBody ('D' :: 'O' :: 'C' :: 'T' :: 'Y' :: 'P' :: 'E' :: b) :=
    .char (by decide) (.char (by decide) (.char (by decide) (.char (by decide) (.char (by decide) (.char (by decide) (.char (by decide) hb))))))
  rw [doctype_head, turn_lt, tag, if_neg (by decide), if_neg (by decide), if_neg (by decide), if_pos rfl]
  obtain ⟨j, hj, e⟩ := doctype_body hw 0 ('>' :: r) (('D' :: 'O' :: 'C' :: 'T' :: 'Y' :: 'P' :: 'E' :: (b ++ '>' :: r)).length + 1) (by simp)
  obtain ⟨j, rfl⟩ : ∃ i, j = i + 1 := ⟨j - 1, by simp at hj; omega⟩
  have e3 : doctypeGroup (j + 1) 0 ('>' :: r) = some r := by
    rw [doctypeGroup, if_neg (by simp), if_neg (by decide), if_pos rfl, if_pos rfl]
  rw [e3] at e
  have hx : exclamation ⟨[], top⟩ ('D' :: 'O' :: 'C' :: 'T' :: 'Y' :: 'P' :: 'E' :: (b ++ '>' :: r)) =
      if "DOCTYPE".toList.isPrefixOf ('D' :: 'O' :: 'C' :: 'T' :: 'Y' :: 'P' :: 'E' :: (b ++ '>' :: r)) then
        (if ([] : List OpenElement).isEmpty = false then .error .badDoctype
         else match doctypeGroup (('D' :: 'O' :: 'C' :: 'T' :: 'Y' :: 'P' :: 'E' :: (b ++ '>' :: r)).length + 1) 0 ('D' :: 'O' :: 'C' :: 'T' :: 'Y' :: 'P' :: 'E' :: (b ++ '>' :: r)) with
          | none => .error .badDoctype
          | some r => .ok (⟨[], top⟩, r))
      else .error .unrecognizedTag := rfl
  rw [hx, if_pos (by simp), if_neg (by decide)]
  rw [show 'D' :: 'O' :: 'C' :: 'T' :: 'Y' :: 'P' :: 'E' :: (b ++ '>' :: r) = 'D' :: 'O' :: 'C' :: 'T' :: 'Y' :: 'P' :: 'E' :: b ++ '>' :: r from rfl] at e ⊢
  rw [e]

/-! ## Documents -/

theorem single_pcdata {n : Node} (h : n.isElement = true) : ∀ x ∈ [n], x.isPcdata = false := by
  intro x hx
  rw [List.mem_singleton] at hx
  subst hx
  cases x with
  | text _ _ => cases h
  | element _ _ _ => rfl

theorem document_turns {root : Node} {t : Str} (h : DocumentText root t) : Turns ⟨[], []⟩ t ⟨[], [root]⟩ [] := by
  obtain ⟨he, _, hc | ⟨m, b, u, e, hm, hb, hu⟩⟩ := h
  · have := content_turns hc ⟨[], []⟩ [] (Or.inl rfl) (Or.inr (single_pcdata he))
    rw [List.append_nil, top_addAll] at this
    exact this
  · rw [e]
    have h1 := content_turns hm ⟨[], []⟩ ("<!DOCTYPE".toList ++ (b ++ '>' :: u)) (Or.inr ⟨_, doctype_head _⟩) (Or.inr (by simp))
    have h2 := content_turns hu ⟨[], []⟩ [] (Or.inl rfl) (Or.inr (single_pcdata he))
    rw [List.append_nil, top_addAll] at h2
    exact h1.trans (.step (by rw [doctype_head]; simp) (doctype_turn hb [] u) h2)

theorem parseText_eq {t : Str} (hz : '\x00' ∉ t) (hb : t.head? ≠ some '\ufeff') {root : Node} (he : root.isElement = true) (h : Turns ⟨[], []⟩ t ⟨[], [root]⟩ []) :
    parseText t = .ok [root] ∧ parseText ('\ufeff' :: t) = .ok [root] := by
  obtain ⟨j, hj, e⟩ := h.parse (t.length + 1) (by omega)
  obtain ⟨j, rfl⟩ : ∃ i, j = i + 1 := ⟨j - 1, by simp at hj; omega⟩
  have key : (match parseTree ((zeroTerminated t).length + 1) ⟨[], []⟩ (zeroTerminated t) with
      | .error e => .error e
      | .ok st => if st.top.any Node.isElement then .ok st.top else .error .noDocumentElement) = (.ok [root] : Except XErr (List Node)) := by
    rw [zeroTerminated_eq hz, e, parseTree]
    dsimp only
    rw [List.isEmpty_nil, if_pos rfl]
    dsimp only
    rw [List.any_cons, he, Bool.true_or, if_pos rfl]
  refine ⟨?_, key⟩
  cases t with
  | nil => exact key
  | cons c t =>
    have hc : c ≠ '\ufeff' := by
      rintro rfl
      exact hb rfl
    unfold parseText
    split
    · rename_i r e
      injection e with e
      exact absurd e hc
    · exact key

theorem atMarkup_ne_bom {s : Str} (h : AtMarkup s) : s.head? ≠ some '\ufeff' := by
  rcases h with rfl | ⟨t, rfl⟩ <;> simp

theorem content_bom {ns : List Node} {t : Str} (h : ContentOf ns t) (hn : ∀ n ∈ ns, n.isPcdata = false) {q : Str} (hq : AtMarkup q) : (t ++ q).head? ≠ some '\ufeff' := by
  cases h with
  | nil => exact atMarkup_ne_bom hq
  | text => exact absurd (hn _ (List.mem_cons_self ..)) (by simp [Node.isPcdata])
  | @space w s _ hw hs _ =>
    cases w with
    | nil => exact atMarkup_ne_bom (atMarkup_append hs hq)
    | cons c w =>
      intro e
      injection e with e
      have := hw c (List.mem_cons_self ..)
      rw [e] at this
      exact absurd this (by decide)
  | cdata => rw [cdata_head]; simp
  | comment => simp
  | instruction => simp
  | empty => simp
  | element => simp

/-- **A well-formed document is loaded as the tree it denotes.** -/
theorem load_document {root : Node} {t : Str} (h : DocumentText root t) : loadXml (encode t) = .ok [root] ∧ loadXml (encode ('\ufeff' :: t)) = .ok [root] := by
  have hb : t.head? ≠ some '\ufeff' := by
    obtain ⟨he, _, hc | ⟨m, b, u, e, hm, _, _⟩⟩ := h
    · have := content_bom hc (single_pcdata he) (q := []) (Or.inl rfl)
      rwa [List.append_nil] at this
    · rw [e]
      exact content_bom hm (by simp) (Or.inr ⟨_, doctype_head _⟩)
  obtain ⟨k1, k2⟩ := parseText_eq h.2.1 hb h.1 (document_turns h)
  have hne : t ≠ [] := by
    rintro rfl
    have : parseText [] = .error .noDocumentElement := rfl
    rw [this] at k1
    cases k1
  rw [loadXml_encode hne, loadXml_encode (by simp)]
  exact ⟨k1, k2⟩

end Verif.Xml
