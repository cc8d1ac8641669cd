import Verif.Spec.Xml
import Verif.Proof.Text
import Mathlib.Tactic.ByContra

/-!
# Helper lemmas: the metadata tree
-/

namespace Verif.Xml
open Text Spec

/-! ## Texts -/

theorem tokenize_none {d : Char → Bool} {a : Str} (h : ∀ c ∈ a, d c = false) (cur : Str) : tokenize d cur a = [cur ++ a] := by
  induction a generalizing cur with
  | nil => simp [tokenize]
  | cons c a ih =>
    rw [tokenize, if_neg (by simp [h c (by simp)]), ih (fun x hx => h x (by simp [hx]))]
    simp

theorem tokenize_cons {d : Char → Bool} {a : Str} (h : ∀ c ∈ a, d c = false) {x : Char} (hx : d x = true) (b cur : Str) :
    tokenize d cur (a ++ x :: b) = (cur ++ a) :: tokenize d [] b := by
  induction a generalizing cur with
  | nil => simp [tokenize, hx]
  | cons c a ih =>
    rw [List.cons_append, tokenize, if_neg (by simp [h c (by simp)]), ih (fun x hx => h x (by simp [hx]))]
    simp

theorem not_bracket {c : Char} : (!isBracket c) = true ↔ c ≠ '[' ∧ c ≠ ']' := by
  simp [isBracket]

theorem bracket_open : (!isBracket '[') = false := by decide
theorem bracket_close : (!isBracket ']') = false := by decide

theorem splitToken_name {n : Str} (h : NodeName n) : splitToken n = some (n, none) := by
  have hb : ∀ c ∈ n, (!isBracket c) = true := by
    intro c hc
    have := h.2 c hc
    rw [not_bracket]
    simp at this
    exact ⟨this.2.1, this.2.2⟩
  have := takeWhile_all hb [] (by simp)
  rw [List.append_nil] at this
  rw [splitToken, this.1, if_neg h.1, this.2]

theorem splitToken_spec {n t : Str} (h : NodeName n) (ht : ∀ c ∈ t, (!isBracket c) = true) :
    splitToken (n ++ '[' :: (t ++ [']'])) = some (n, some t) := by
  have hb : ∀ c ∈ n, (!isBracket c) = true := by
    intro c hc
    have := h.2 c hc
    rw [not_bracket]
    simp at this
    exact ⟨this.2.1, this.2.2⟩
  have e1 := takeWhile_all hb ('[' :: (t ++ [']'])) (by intro c cs e; injection e with e _; subst e; exact bracket_open)
  have e2 := takeWhile_all ht [']'] (by intro c cs e; injection e with e _; subst e; exact bracket_close)
  rw [splitToken, e1.1, if_neg h.1, e1.2]
  dsimp only
  rw [e2.2, if_pos ⟨rfl, rfl⟩, e2.1]

theorem splitPair_eq {k v : Str} (hk : AttrName k) (hv : AttrValue v) : splitPair (k ++ '=' :: v) = some (k, v) := by
  have hb : ∀ c ∈ k, (decide (c ≠ '=')) = true := by
    intro c hc
    have := hk.2 c hc
    simp at this
    simp [this.2.2.2.1]
  have e1 := takeWhile_all hb ('=' :: v) (by intro c cs e; injection e with e _; subst e; decide)
  rw [splitPair, e1.2]
  dsimp only
  rw [e1.1, if_neg]
  rintro (h | h)
  · exact hk.1 h
  · rw [List.any_eq_true] at h
    obtain ⟨c, hc, e⟩ := h
    have := hv c hc
    simp at this e
    rcases e with e | e
    · exact this.2.2.2.1 e
    · exact this.2.2.2.2 e

theorem mapInsert_perm {k v : Str} {m : List (Str × Str)} (h : k ∉ m.map (·.1)) : (mapInsert k v m).Perm ((k, v) :: m) := by
  induction m with
  | nil => exact List.Perm.refl _
  | cons a m ih =>
    obtain ⟨k', v'⟩ := a
    simp only [List.map_cons, List.mem_cons, not_or] at h
    rw [mapInsert, if_neg h.1]
    split
    · exact List.Perm.refl _
    · exact ((ih h.2).cons (k', v')).trans (List.Perm.swap _ _ _)

/-- The separators of attributes. -/
def isAttrSep (c : Char) : Bool := c = ',' || c = ';'

theorem pair_noSep {k v : Str} (hk : AttrName k) (hv : AttrValue v) : ∀ c ∈ k ++ '=' :: v, isAttrSep c = false := by
  intro c hc
  rw [List.mem_append, List.mem_cons] at hc
  rcases hc with hc | hc | hc
  · have := hk.2 c hc
    simp at this
    simp [isAttrSep, this.2.2.2.2.1, this.2.2.2.2.2]
  · subst hc; decide
  · have := hv c hc
    simp at this
    simp [isAttrSep, this.2.2.2.1, this.2.2.2.2]

theorem strLt_irrefl (a : Str) : strLt a a = false := by
  induction a with
  | nil => rfl
  | cons c a ih => rw [strLt, if_neg (by omega), if_neg (by omega), ih]

theorem strLt_trans {a b c : Str} (h1 : strLt a b = true) (h2 : strLt b c = true) : strLt a c = true := by
  induction a generalizing b c with
  | nil =>
    cases c with
    | nil => cases b <;> cases h2
    | cons z c => rfl
  | cons x a ih =>
    cases b with
    | nil => cases h1
    | cons y b =>
      cases c with
      | nil => cases h2
      | cons z c =>
        rw [strLt] at h1 h2 ⊢
        by_cases p1 : x.toNat < y.toNat
        · by_cases p2 : y.toNat < z.toNat
          · rw [if_pos (by omega)]
          · rw [if_neg p2] at h2
            by_cases p3 : z.toNat < y.toNat
            · rw [if_pos p3] at h2; cases h2
            · rw [if_pos (by omega)]
        · rw [if_neg p1] at h1
          by_cases p1' : y.toNat < x.toNat
          · rw [if_pos p1'] at h1; cases h1
          · rw [if_neg p1'] at h1
            by_cases p2 : y.toNat < z.toNat
            · rw [if_pos (by omega)]
            · rw [if_neg p2] at h2
              by_cases p3 : z.toNat < y.toNat
              · rw [if_pos p3] at h2; cases h2
              · rw [if_neg p3] at h2
                rw [if_neg (by omega), if_neg (by omega)]
                exact ih h1 h2

theorem strLt_total {a b : Str} (h : a ≠ b) (hn : strLt a b = false) : strLt b a = true := by
  induction a generalizing b with
  | nil =>
    cases b with
    | nil => exact absurd rfl h
    | cons y b => cases hn
  | cons x a ih =>
    cases b with
    | nil => rfl
    | cons y b =>
      rw [strLt] at hn ⊢
      by_cases p1 : x.toNat < y.toNat
      · rw [if_pos p1] at hn; cases hn
      · rw [if_neg p1] at hn
        by_cases p2 : y.toNat < x.toNat
        · rw [if_pos p2]
        · rw [if_neg p2] at hn
          rw [if_neg p2, if_neg p1]
          apply ih _ hn
          intro e
          apply h
          have : x = y := by rw [← Char.ofNat_toNat x, ← Char.ofNat_toNat y, show x.toNat = y.toNat by omega]
          rw [this, e]

/-- The map is sorted by its keys. -/
def SortedMap (m : List (Str × Str)) : Prop := m.Pairwise (fun a b => strLt a.1 b.1 = true)

theorem mapInsert_mem {k v : Str} {m : List (Str × Str)} {x : Str × Str} (h : x ∈ mapInsert k v m) : x = (k, v) ∨ x ∈ m := by
  induction m with
  | nil => exact .inl (List.mem_singleton.mp h)
  | cons a m ih =>
    obtain ⟨k', v'⟩ := a
    rw [mapInsert] at h
    split at h
    · exact .inr h
    · split at h
      · rcases List.mem_cons.mp h with h | h
        · exact .inl h
        · exact .inr h
      · rcases List.mem_cons.mp h with h | h
        · exact .inr (h ▸ List.mem_cons_self ..)
        · rcases ih h with h | h
          · exact .inl h
          · exact .inr (List.mem_cons_of_mem _ h)

theorem mapInsert_sorted {k v : Str} {m : List (Str × Str)} (h : SortedMap m) : SortedMap (mapInsert k v m) := by
  induction m with
  | nil => exact List.pairwise_singleton _ _
  | cons a m ih =>
    obtain ⟨k', v'⟩ := a
    rw [SortedMap, List.pairwise_cons] at h
    rw [mapInsert]
    split
    · exact List.pairwise_cons.mpr h
    · rename_i hne
      split
      · rename_i hlt
        refine List.pairwise_cons.mpr ⟨?_, List.pairwise_cons.mpr h⟩
        intro x hx
        rcases List.mem_cons.mp hx with rfl | hx
        · exact hlt
        · exact strLt_trans hlt (h.1 x hx)
      · rename_i hlt
        refine List.pairwise_cons.mpr ⟨?_, ih h.2⟩
        intro x hx
        rcases mapInsert_mem hx with rfl | hx
        · exact strLt_total hne (by simpa using hlt)
        · exact h.1 x hx

theorem mapInsert_present {k v : Str} {m : List (Str × Str)} (h : SortedMap m) (hk : k ∈ m.map (·.1)) : mapInsert k v m = m := by
  induction m with
  | nil => cases hk
  | cons a m ih =>
    obtain ⟨k', v'⟩ := a
    rw [SortedMap, List.pairwise_cons] at h
    rw [mapInsert]
    split
    · rfl
    · rename_i hne
      rw [List.map_cons, List.mem_cons] at hk
      rcases hk with hk | hk
      · exact absurd hk hne
      · obtain ⟨x, hx, e⟩ := List.mem_map.mp hk
        have hlt := h.1 x hx
        rw [e] at hlt
        split
        · rename_i hlt'
          have := strLt_trans hlt hlt'
          rw [strLt_irrefl] at this
          cases this
        · rw [ih h.2 hk]

theorem firstOf_nodup (as : List (Str × Str)) : ((firstOf as).map (·.1)).Nodup := by
  induction as with
  | nil => exact List.nodup_nil
  | cons a as ih =>
    obtain ⟨k, v⟩ := a
    rw [firstOf, List.map_cons, List.nodup_cons]
    constructor
    · intro h
      obtain ⟨x, hx, e⟩ := List.mem_map.mp h
      have := (List.mem_filter.mp hx).2
      simp only [ne_eq, decide_not, Bool.not_eq_true', decide_eq_false_iff_not] at this
      exact this e
    · exact (List.Sublist.map _ List.filter_sublist).nodup ih

theorem firstOf_self {as : List (Str × Str)} (h : (as.map (·.1)).Nodup) : firstOf as = as := by
  induction as with
  | nil => rfl
  | cons a as ih =>
    obtain ⟨k, v⟩ := a
    rw [List.map_cons, List.nodup_cons] at h
    rw [firstOf, ih h.2, List.filter_eq_self.mpr]
    intro x hx
    simp only [ne_eq, decide_not, Bool.not_eq_true', decide_eq_false_iff_not]
    intro e
    exact h.1 (List.mem_map.mpr ⟨x, hx, e⟩)

/-- One insertion, seen from the attributes that follow. -/
theorem insert_filter {k v : Str} {m : List (Str × Str)} (hm : SortedMap m) (as : List (Str × Str)) :
    (mapInsert k v m ++ (firstOf as).filter (fun a => a.1 ∉ (mapInsert k v m).map (·.1))).Perm
      (m ++ (firstOf ((k, v) :: as)).filter (fun a => a.1 ∉ m.map (·.1))) := by
  by_cases hk : k ∈ m.map (·.1)
  · rw [mapInsert_present hm hk, firstOf, List.filter_cons, if_neg (by simpa using hk), List.filter_filter]
    apply List.Perm.append_left
    have : ∀ a ∈ firstOf as, (decide (a.1 ∉ m.map (·.1)) = (decide (a.1 ∉ m.map (·.1)) && decide (a.1 ≠ k))) := by
      intro a _
      by_cases e : a.1 = k
      · rw [e]; simp only [hk]; simp
      · simp [e]
    rw [List.filter_congr this]
  · have hp := mapInsert_perm (v := v) hk
    rw [firstOf, List.filter_cons, if_pos (by simpa using hk), List.filter_filter]
    have : ∀ a ∈ firstOf as, (decide (a.1 ∉ (mapInsert k v m).map (·.1)) = (decide (a.1 ∉ m.map (·.1)) && decide (a.1 ≠ k))) := by
      intro a _
      have : a.1 ∈ (mapInsert k v m).map (·.1) ↔ a.1 = k ∨ a.1 ∈ m.map (·.1) := by
        rw [(hp.map (·.1)).mem_iff, List.map_cons, List.mem_cons]
      rw [Bool.eq_iff_iff]
      simp only [Bool.and_eq_true, decide_eq_true_eq, this, not_or]
      exact And.comm
    rw [List.filter_congr this]
    refine (hp.append_right _).trans ?_
    rw [List.cons_append]
    exact List.perm_middle.symm

theorem parsePairs_text {as : List (Str × Str)} {t : Str} (h : AttrText as t) :
    ∀ m : List (Str × Str), SortedMap m →
      ∃ m', parsePairs (tokenize isAttrSep [] t) m = some m' ∧ m'.Perm (m ++ (firstOf as).filter (fun a => a.1 ∉ m.map (·.1))) := by
  induction h with
  | one k v hk hv =>
    intro m hm
    rw [tokenize_none (pair_noSep hk hv), List.nil_append, parsePairs, splitPair_eq hk hv]
    dsimp only
    refine ⟨_, rfl, ?_⟩
    have := insert_filter (k := k) (v := v) hm []
    simpa [firstOf] using this
  | more k v sep as t hk hv hs _ ih =>
    intro m hm
    have hsep : isAttrSep sep = true := by
      simp at hs
      rcases hs with rfl | rfl <;> decide
    have e : k ++ '=' :: (v ++ sep :: t) = (k ++ '=' :: v) ++ sep :: t := by simp
    rw [e, tokenize_cons (pair_noSep hk hv) hsep, List.nil_append, parsePairs, splitPair_eq hk hv]
    dsimp only
    obtain ⟨m', e', p'⟩ := ih (mapInsert k v m) (mapInsert_sorted hm)
    exact ⟨m', e', p'.trans (insert_filter hm as)⟩

theorem parseAttributes_text {as : List (Str × Str)} {t : Str} (h : AttrText as t) :
    ∃ m, parseAttributes t = some m ∧ m.Perm (firstOf as) := by
  obtain ⟨m, e, p⟩ := parsePairs_text h [] List.Pairwise.nil
  refine ⟨m, e, ?_⟩
  rw [List.nil_append, List.filter_eq_self.mpr (fun a _ => by simp)] at p
  exact p

theorem attrText_noBracket {as : List (Str × Str)} {t : Str} (h : AttrText as t) : (∀ c ∈ t, (!isBracket c) = true ∧ c ≠ '/') ∧ '=' ∈ t := by
  have base : ∀ k v : Str, AttrName k → AttrValue v → ∀ c ∈ k ++ '=' :: v, (!isBracket c) = true ∧ c ≠ '/' := by
    intro k v hk hv c hc
    rw [List.mem_append, List.mem_cons] at hc
    rcases hc with hc | hc | hc
    · have := hk.2 c hc
      simp at this
      exact ⟨not_bracket.mpr ⟨this.2.1, this.2.2.1⟩, this.1⟩
    · subst hc; decide
    · have := hv c hc
      simp at this
      exact ⟨not_bracket.mpr ⟨this.2.1, this.2.2.1⟩, this.1⟩
  induction h with
  | one k v hk hv => exact ⟨base k v hk hv, by simp⟩
  | more k v sep as t hk hv hs _ ih =>
    refine ⟨?_, by simp⟩
    intro c hc
    have e : k ++ '=' :: (v ++ sep :: t) = (k ++ '=' :: v) ++ sep :: t := by simp
    rw [e, List.mem_append, List.mem_cons] at hc
    rcases hc with hc | hc | hc
    · exact base k v hk hv c hc
    · simp at hs
      rcases hs with rfl | rfl <;> subst hc <;> decide
    · exact ih.1 c hc

theorem isIndex_of {w ds w' : Str} (hw : White w) (hd : Digits ds) (hw' : White w') :
    isIndex (w ++ ds ++ w') = true ∧ (w ++ ds ++ w').dropWhile isSpace = ds ++ w' ∧ (ds ++ w').takeWhile Char.isDigit = ds := by
  have a : ∀ c ∈ w, isSpace c = true := fun c hc => (isSpace_iff c).mpr (hw c hc)
  have b : ∀ c ∈ ds, c.isDigit = true := fun c hc => (isDigit_iff c).mpr (hd.2 c hc)
  have b' : ∀ c cs, ds ++ w' = c :: cs → isSpace c = false := by
    intro c cs e
    cases ds with
    | nil => exact absurd rfl hd.1
    | cons d ds =>
      rw [List.cons_append] at e
      injection e with e _
      subst e
      exact (digit_not (hd.2 d (by simp))).2.2.2.2
  have a' : ∀ c cs, w' = c :: cs → c.isDigit = false := by
    intro c cs e
    have : c ∈ w' := by rw [e]; simp
    have hc := hw' c this
    by_contra hx
    have := (digit_not ((isDigit_iff c).mp (by simpa using hx))).2.2.2.2
    rw [(isSpace_iff c).mpr hc] at this
    exact Bool.noConfusion this
  have e1 := takeWhile_all a (ds ++ w') b'
  have e2 := takeWhile_all b w' a'
  rw [List.append_assoc]
  refine ⟨?_, e1.2, e2.1⟩
  rw [isIndex, e1.2, e2.1, e2.2]
  simp only [Bool.and_eq_true, decide_eq_true_eq, List.all_eq_true]
  exact ⟨hd.1, fun c hc => (isSpace_iff c).mpr (hw' c hc)⟩

theorem not_isIndex {t : Str} (h : '=' ∈ t) : isIndex t = false := by
  by_contra hc
  simp only [isIndex, Bool.not_eq_false, Bool.and_eq_true, decide_eq_true_eq, List.all_eq_true] at hc
  have s1 := span_eq isSpace t
  have s2 := span_eq Char.isDigit (t.dropWhile isSpace)
  have : '=' ∈ t.takeWhile isSpace ++ ((t.dropWhile isSpace).takeWhile Char.isDigit ++ (t.dropWhile isSpace).dropWhile Char.isDigit) := by
    rw [← s2.1, ← s1.1]; exact h
  rw [List.mem_append, List.mem_append] at this
  rcases this with m | m | m
  · exact absurd (s1.2.1 _ m) (by decide)
  · exact absurd (s2.2.1 _ m) (by decide)
  · exact absurd (hc.2 _ m) (by decide)

/-! ## Searching -/

theorem nthIdx_cons (p : Node → Bool) (k : Nat) (n : Node) (ns : List Node) :
    nthIdx p k (n :: ns) = if p n then (if k = 0 then some 0 else (nthIdx p (k - 1) ns).map (· + 1)) else (nthIdx p k ns).map (· + 1) := by
  cases k with
  | zero => by_cases h : p n = true <;> simp [nthIdx, h]
  | succ k => by_cases h : p n = true <;> simp [nthIdx, h]

theorem nthIdx_iff (p : Node → Bool) (cs : List Node) (k i : Nat) :
    nthIdx p k cs = some i ↔ ∃ c, cs[i]? = some c ∧ p c = true ∧ ((cs.take i).filter p).length = k := by
  induction cs generalizing k i with
  | nil => simp [nthIdx]
  | cons n ns ih =>
    rw [nthIdx_cons]
    by_cases hp : p n = true
    · rw [if_pos hp]
      cases k with
      | zero =>
        rw [if_pos rfl]
        cases i with
        | zero => simp [hp]
        | succ i => simp [hp]
      | succ k =>
        rw [if_neg (by omega), Nat.add_sub_cancel]
        cases i with
        | zero => simp
        | succ i => simp [ih, hp]
    · rw [if_neg hp]
      cases i with
      | zero => simp [hp]
      | succ i => simp [ih, hp]

theorem nthIdx_congr {p q : Node → Bool} (h : ∀ n, p n = q n) (k : Nat) (cs : List Node) : nthIdx p k cs = nthIdx q k cs := by
  have : p = q := funext h
  rw [this]

theorem attrOf_eq (as : List (Str × Str)) (k : Str) : attrOf as k = attrValue as k := by
  induction as with
  | nil => rfl
  | cons a as ih =>
    obtain ⟨x, v⟩ := a
    by_cases h : x = k
    · simp [attrOf, attrValue, h]
    · have : (x == k) = false := by simpa using h
      simp only [attrOf, List.find?_cons, this, attrValue, if_neg h]
      exact ih

theorem isNamed_first (n : Str) (c : Node) : isNamed n c = (Selector.first n).candidate c := by
  cases c with
  | element m as cs =>
    by_cases h : m = n <;> simp [isNamed, Node.isElement, Node.name, Selector.candidate, Selector.name, Selector.attrs, h]
  | text _ _ => simp [isNamed, Node.isElement, Selector.candidate]

theorem isNamed_nth (n : Str) (k : Nat) (c : Node) : isNamed n c = (Selector.nth n k).candidate c := by
  rw [isNamed_first]; cases c <;> rfl

theorem isNamedWith_having {n : Str} {m as : List (Str × Str)} (hp : m.Perm as) (c : Node) :
    isNamedWith n m c = (Selector.having n as).candidate c := by
  cases c with
  | element x xs cs =>
    rw [Bool.eq_iff_iff]
    have e : (Selector.having n as).candidate (.element x xs cs) = true ↔ x = n ∧ ∀ kv ∈ as, attrValue xs kv.1 = some kv.2 := by
      rw [Selector.candidate, decide_eq_true_iff]; rfl
    rw [e]
    simp only [isNamedWith, isNamed, Node.isElement, Node.name, Node.attrs, Bool.true_and,
      Bool.and_eq_true, List.all_eq_true, beq_iff_eq, attrOf_eq]
    constructor
    · rintro ⟨a, b⟩; exact ⟨a, fun kv h => b kv (hp.mem_iff.mpr h)⟩
    · rintro ⟨a, b⟩; exact ⟨a, fun kv h => b kv (hp.mem_iff.mp h)⟩
  | text _ _ => simp [isNamedWith, isNamed, Node.isElement, Selector.candidate]

theorem getToken_text {s : Selector} {t : Str} (h : StepText s t) (n : Node) : getToken n t = .ok (nthIdx s.candidate s.skip n.children) := by
  cases h with
  | first m hm =>
    rw [getToken, splitToken_name hm]
    dsimp only
    rw [nthIdx_congr (isNamed_first t)]
    rfl
  | nth m w ds w' hm hw hd hw' hr =>
    obtain ⟨i1, i2, i3⟩ := isIndex_of hw hd hw'
    have hb : ∀ c ∈ w ++ ds ++ w', (!isBracket c) = true := by
      intro c hc
      rw [List.mem_append, List.mem_append] at hc
      rw [not_bracket]
      rcases hc with (hc | hc) | hc
      · have := hw c hc
        simp at this
        rcases this with rfl | rfl | rfl | rfl | rfl | rfl <;> decide
      · have := hd.2 c hc
        simp [IsDigit] at this
        rcases this with rfl | rfl | rfl | rfl | rfl | rfl | rfl | rfl | rfl | rfl <;> decide
      · have := hw' c hc
        simp at this
        rcases this with rfl | rfl | rfl | rfl | rfl | rfl <;> decide
    rw [getToken, splitToken_spec hm hb]
    dsimp only
    rw [if_pos i1, indexOf, i2, i3, natOf_eq, if_pos (by simpa using hr)]
    dsimp only
    rw [nthIdx_congr (isNamed_nth m (digitsValue ds))]
    rfl
  | having m as t hm ha =>
    obtain ⟨x, e, p⟩ := parseAttributes_text ha
    have hb := attrText_noBracket ha
    rw [getToken, splitToken_spec hm (fun c hc => (hb.1 c hc).1)]
    dsimp only
    rw [if_neg (by simp [not_isIndex hb.2]), e]
    dsimp only
    rw [nthIdx_congr (isNamedWith_having p)]
    rfl

theorem stepText_noSlash {s : Selector} {t : Str} (h : StepText s t) : t ≠ [] ∧ ∀ c ∈ t, c ≠ '/' := by
  have nm : ∀ n : Str, NodeName n → ∀ c ∈ n, c ≠ '/' := by
    intro n hn c hc
    have := hn.2 c hc
    simp at this
    exact this.1
  cases h with
  | first m hm => exact ⟨hm.1, nm t hm⟩
  | nth m w ds w' hm hw hd hw' hr =>
    refine ⟨by simp, ?_⟩
    intro c hc
    simp only [List.mem_append, List.mem_cons, List.not_mem_nil, or_false] at hc
    rcases hc with hc | hc | ((hc | hc) | hc) | hc
    · exact nm m hm c hc
    · subst hc; decide
    · have := hw c hc
      simp at this
      rcases this with rfl | rfl | rfl | rfl | rfl | rfl <;> decide
    · have := hd.2 c hc
      simp [IsDigit] at this
      rcases this with rfl | rfl | rfl | rfl | rfl | rfl | rfl | rfl | rfl | rfl <;> decide
    · have := hw' c hc
      simp at this
      rcases this with rfl | rfl | rfl | rfl | rfl | rfl <;> decide
    · subst hc; decide
  | having m as t hm ha =>
    refine ⟨by simp, ?_⟩
    intro c hc
    simp only [List.mem_append, List.mem_cons, List.not_mem_nil, or_false] at hc
    rcases hc with hc | hc | hc | hc
    · exact nm m hm c hc
    · subst hc; decide
    · exact ((attrText_noBracket ha).1 c hc).2
    · subst hc; decide

/-- The steps with their texts. -/
inductive Steps : List Selector → List Str → Prop where
  | nil : Steps [] []
  | cons (s t ss ts) : StepText s t → Steps ss ts → Steps (s :: ss) (t :: ts)

theorem pathText_tokens {sels : List Selector} {path : Str} (h : PathText sels path) :
    ∃ ts, pathTokens path = some ts ∧ Steps sels ts := by
  have key : ∃ ts, tokenize (fun c => c = '/') [] path = ts ∧ Steps sels ts ∧ ts ≠ [] ∧ ts.any List.isEmpty = false := by
    induction h with
    | one s t h =>
      obtain ⟨a, b⟩ := stepText_noSlash h
      refine ⟨[t], ?_, .cons _ _ _ _ h .nil, by simp, ?_⟩
      · rw [tokenize_none (by intro c hc; simp [b c hc])]; rfl
      · simp [a]
    | more s t ss u h _ ih =>
      obtain ⟨a, b⟩ := stepText_noSlash h
      obtain ⟨ts, e, hs, hne, he⟩ := ih
      refine ⟨t :: ts, ?_, .cons _ _ _ _ h hs, by simp, ?_⟩
      · rw [tokenize_cons (by intro c hc; simp [b c hc]) (by simp), e]; rfl
      · rw [List.any_cons, he]; simp [a]
  obtain ⟨ts, e, hs, hne, he⟩ := key
  refine ⟨ts, ?_, hs⟩
  rw [pathTokens, e, if_neg]
  simp [he, hne]

theorem getPath_spec {sels : List Selector} {ts : List Str} (h : Steps sels ts) (n : Node) :
    ∃ r, getPath n ts = .ok r ∧ ∀ p, r = some p ↔ PathDenotes n sels p := by
  induction h generalizing n with
  | nil =>
    refine ⟨some [], rfl, ?_⟩
    intro p
    constructor
    · intro e; injection e with e; subst e; exact .here n
    · intro d; cases d; rfl
  | cons s t ss ts hst _ ih =>
    rw [getPath, getToken_text hst]
    cases hi : nthIdx s.candidate s.skip n.children with
    | none =>
      refine ⟨none, rfl, ?_⟩
      intro p
      constructor
      · intro e; cases e
      · intro d
        cases d with
        | step _ _ _ i c p hsel hc hd =>
          rw [PartSelects, ← nthIdx_iff, hi] at hsel
          cases hsel
    | some i =>
      obtain ⟨c, hc, hcand, hlen⟩ := (nthIdx_iff _ _ _ _).mp hi
      dsimp only
      rw [hc]
      dsimp only
      obtain ⟨r, er, hr⟩ := ih c
      rw [er]
      have uniq : ∀ j, PartSelects s n j → j = i := by
        intro j hj
        rw [PartSelects, ← nthIdx_iff, hi] at hj
        injection hj with hj
        exact hj.symm
      cases r with
      | none =>
        refine ⟨none, rfl, ?_⟩
        intro p
        constructor
        · intro e; cases e
        · intro d
          cases d with
          | step _ _ _ j c' p hsel hc' hd =>
            have := uniq j hsel
            subst this
            rw [hc] at hc'
            injection hc' with hc'
            subst hc'
            exact absurd ((hr p).mpr hd) (by simp)
      | some q =>
        refine ⟨some (i :: q), rfl, ?_⟩
        intro p
        constructor
        · intro e
          injection e with e
          subst e
          exact .step n s ss i c q ⟨c, hc, hcand, hlen⟩ hc ((hr q).mp rfl)
        · intro d
          cases d with
          | step _ _ _ j c' p hsel hc' hd =>
            have := uniq j hsel
            subst this
            rw [hc] at hc'
            injection hc' with hc'
            subst hc'
            have := (hr p).mpr hd
            injection this with this
            rw [this]

/-! ## Creating -/

theorem attrValue_mem {m : List (Str × Str)} (hn : (m.map (·.1)).Nodup) {kv : Str × Str} (h : kv ∈ m) : attrValue m kv.1 = some kv.2 := by
  induction m with
  | nil => cases h
  | cons a m ih =>
    obtain ⟨k, v⟩ := a
    rw [List.map_cons, List.nodup_cons] at hn
    rw [List.mem_cons] at h
    rcases h with h | h
    · subst h; simp [attrValue]
    · rw [attrValue, if_neg]
      · exact ih hn.2 h
      · intro e
        apply hn.1
        show k ∈ _
        rw [e]
        exact List.mem_map_of_mem h

theorem createToken_text {s : Selector} {t : Str} (h : StepText s t) (hs : s.NoIndex) (cs : List Node) :
    ∃ m, m.Perm s.attrs ∧ s.candidate (.element s.name m []) = true ∧
      getOrCreateToken cs t = .ok (findOrAppend s.candidate (.element s.name m []) cs) := by
  cases h with
  | first m hm =>
    refine ⟨[], List.Perm.refl _, ?_, ?_⟩
    · simp [Selector.candidate, Selector.attrs]
    · have e : isNamed t = (Selector.first t).candidate := funext (isNamed_first t)
      rw [getOrCreateToken, splitToken_name hm]
      dsimp only
      rw [e]
      rfl
  | nth m w ds w' hm hw hd hw' hr => exact absurd hs (by simp [Selector.NoIndex])
  | having m as t hm ha =>
    obtain ⟨x, e, p⟩ := parseAttributes_text ha
    have hb := attrText_noBracket ha
    refine ⟨x, p, ?_, ?_⟩
    · rw [Selector.candidate, decide_eq_true_iff]
      refine ⟨rfl, ?_⟩
      intro kv hkv
      exact attrValue_mem ((p.map (·.1)).nodup_iff.mpr (firstOf_nodup as)) (p.mem_iff.mpr hkv)
    · have e' : isNamedWith m x = (Selector.having m (firstOf as)).candidate := funext (isNamedWith_having p)
      rw [getOrCreateToken, splitToken_spec hm (fun c hc => (hb.1 c hc).1)]
      dsimp only
      rw [e]
      dsimp only
      rw [e']
      rfl

theorem createToken_index {s : Selector} {t : Str} (h : StepText s t) (hs : ¬ s.NoIndex) (cs : List Node) :
    getOrCreateToken cs t = .error () := by
  cases h with
  | first m hm => exact absurd trivial hs
  | having m as t hm ha => exact absurd trivial hs
  | nth m w ds w' hm hw hd hw' hr =>
    have cl : ∀ c ∈ w ++ ds ++ w', c ∈ ([' ', '\t', '\n', '\x0b', '\x0c', '\r'] : Str) ∨ c ∈ ("0123456789".toList : Str) := by
      intro c hc
      rw [List.mem_append, List.mem_append] at hc
      rcases hc with (hc | hc) | hc
      · exact .inl (hw c hc)
      · refine .inr ?_
        have := hd.2 c hc
        simpa [IsDigit] using this
      · exact .inl (hw' c hc)
    have cl2 : ∀ c ∈ w ++ ds ++ w', (!isBracket c) = true ∧ c ≠ '=' ∧ isAttrSep c = false := by
      intro c hc
      rcases cl c hc with h | h
      · simp at h
        rcases h with rfl | rfl | rfl | rfl | rfl | rfl <;> decide
      · simp at h
        rcases h with rfl | rfl | rfl | rfl | rfl | rfl | rfl | rfl | rfl | rfl <;> decide
    have e : parseAttributes (w ++ ds ++ w') = none := by
      have t1 := tokenize_none (d := isAttrSep) (fun c hc => (cl2 c hc).2.2) []
      rw [List.nil_append] at t1
      have t2 : splitPair (w ++ ds ++ w') = none := by
        have := takeWhile_all (p := fun c => decide (c ≠ '=')) (fun c hc => by simpa using (cl2 c hc).2.1) [] (by simp)
        rw [List.append_nil] at this
        rw [splitPair, this.2]
      show parsePairs (tokenize isAttrSep [] _) [] = none
      rw [t1, parsePairs, t2]
    rw [getOrCreateToken, splitToken_spec hm (fun c hc => (cl2 c hc).1)]
    dsimp only
    rw [e]

theorem findOrAppend_spec {p : Node → Bool} {new : Node} (hnew : p new = true) (cs : List Node) :
    ∃ c, (findOrAppend p new cs).1[(findOrAppend p new cs).2]? = some c ∧ p c = true ∧
      (((findOrAppend p new cs).1.take (findOrAppend p new cs).2).filter p).length = 0 ∧
      ((findOrAppend p new cs).1 = cs ∧ nthIdx p 0 cs = some (findOrAppend p new cs).2 ∨
       (findOrAppend p new cs).1 = cs ++ [new] ∧ (findOrAppend p new cs).2 = cs.length ∧ c = new ∧ nthIdx p 0 cs = none) := by
  cases h : nthIdx p 0 cs with
  | some i =>
    obtain ⟨c, a, b, d⟩ := (nthIdx_iff p cs 0 i).mp h
    simp only [findOrAppend, h]
    exact ⟨c, a, b, d, .inl ⟨trivial, trivial⟩⟩
  | none =>
    simp only [findOrAppend, h]
    refine ⟨new, by simp, hnew, ?_, .inr ⟨trivial, trivial, rfl, trivial⟩⟩
    rw [List.take_left, List.length_eq_zero_iff, List.filter_eq_nil_iff]
    intro x hx hpx
    have : ∀ l : List Node, nthIdx p 0 l = none → x ∈ l → False := by
      intro l
      induction l with
      | nil => intro _ hm; cases hm
      | cons y l ih =>
        intro e hm
        rw [nthIdx_cons] at e
        by_cases hy : p y = true
        · rw [if_pos hy, if_pos rfl] at e; cases e
        · rw [if_neg hy, Option.map_eq_none_iff] at e
          rw [List.mem_cons] at hm
          rcases hm with rfl | hm
          · exact hy hpx
          · exact ih e hm
    exact this cs h hx

theorem candidate_congr (s : Selector) {c c' : Node} (h1 : c.isElement = c'.isElement) (h2 : c.name = c'.name) (h3 : c.attrs = c'.attrs) :
    s.candidate c = s.candidate c' := by
  cases c <;> cases c' <;> simp [Node.isElement, Node.name, Node.attrs] at h1 h2 h3
  · subst h2 h3; rfl
  · rfl

theorem candidate_element {s : Selector} {c : Node} (h : s.candidate c = true) : c.isElement = true := by
  cases c <;> simp_all [Node.isElement, Selector.candidate]

theorem sameNode_refl (n : Node) : SameNode n n := by
  cases n <;> simp [SameNode]

theorem sameNode_trans {a b c : Node} (h1 : SameNode a b) (h2 : SameNode b c) : SameNode a c := by
  cases a <;> cases b <;> cases c <;> simp_all [SameNode, tryGetValue, Node.children]

theorem keeps_refl (n : Node) : Keeps n n := fun _ m h => ⟨m, h, sameNode_refl m⟩

theorem keeps_trans {a b c : Node} (h1 : Keeps a b) (h2 : Keeps b c) : Keeps a c := by
  intro q m hq
  obtain ⟨m', e', s'⟩ := h1 q m hq
  obtain ⟨m'', e'', s''⟩ := h2 q m' e'
  exact ⟨m'', e'', sameNode_trans s' s''⟩

theorem keeps_same {a b : Node} (h : Keeps a b) : SameNode a b := by
  obtain ⟨m', e, s⟩ := h [] a rfl
  injection e with e
  subst e
  exact s

theorem at_cons (n : Node) (i : Nat) (p : List Nat) : n.at (i :: p) = match n.children[i]? with | none => none | some c => c.at p := by
  rw [Node.at]
  cases n.children[i]? <;> rfl

theorem at_cons_some {n c : Node} {i : Nat} (h : n.children[i]? = some c) (p : List Nat) : n.at (i :: p) = c.at p := by
  rw [Node.at, h]

theorem at_cons_none {n : Node} {i : Nat} (h : n.children[i]? = none) (p : List Nat) : n.at (i :: p) = none := by
  rw [Node.at, h]

theorem value_set {nm : Str} {as : List (Str × Str)} {cs : List Node} {i : Nat} {c c' : Node} (hc : cs[i]? = some c) (hs : SameNode c c') :
    tryGetValue (.element nm as cs) = tryGetValue (.element nm as (cs.set i c')) := by
  cases cs with
  | nil => simp at hc
  | cons x cs =>
    cases i with
    | succ i =>
      cases x with
      | element _ _ _ => rfl
      | text b _ => cases b <;> rfl
    | zero =>
      simp at hc
      subst hc
      cases x with
      | element _ _ _ =>
        cases c' with
        | element _ _ _ => simp [tryGetValue, Node.children]
        | text _ _ => cases hs
      | text a v =>
        cases c' with
        | element _ _ _ => cases hs
        | text a' v' =>
          obtain ⟨rfl, rfl⟩ := hs
          rfl

theorem value_append {nm : Str} {as : List (Str × Str)} {cs : List Node} {c : Node} (hc : c.isElement = true) :
    tryGetValue (.element nm as cs) = tryGetValue (.element nm as (cs ++ [c])) := by
  cases cs with
  | nil =>
    cases c with
    | element _ _ _ => rfl
    | text _ _ => cases hc
  | cons x cs =>
    cases x with
    | element _ _ _ => rfl
    | text b _ => cases b <;> rfl

/-- One child is replaced. -/
theorem keeps_set {nm : Str} {as : List (Str × Str)} {cs : List Node} {i : Nat} {c c' : Node} (hc : cs[i]? = some c) (hk : Keeps c c') :
    Keeps (.element nm as cs) (.element nm as (cs.set i c')) := by
  have hi : i < cs.length := by
    by_contra h
    rw [List.getElem?_eq_none (by omega)] at hc
    cases hc
  intro q m hq
  cases q with
  | nil =>
    rw [Node.at] at hq
    injection hq with hq
    subst hq
    exact ⟨_, rfl, rfl, rfl, value_set hc (keeps_same hk)⟩
  | cons j q =>
    by_cases hj : i = j
    · subst hj
      rw [at_cons_some (n := .element nm as cs) hc] at hq
      obtain ⟨m', e', s'⟩ := hk q m hq
      refine ⟨m', ?_, s'⟩
      rw [at_cons_some (c := c')]
      · exact e'
      · show (cs.set i c')[i]? = _
        rw [List.getElem?_set_self hi]
    · refine ⟨m, ?_, sameNode_refl m⟩
      rw [← hq, at_cons, at_cons]
      show (match (cs.set i c')[j]? with | none => none | some c => c.at q) = match cs[j]? with | none => none | some c => c.at q
      rw [List.getElem?_set_ne hj]

/-- An element is appended. -/
theorem keeps_append {nm : Str} {as : List (Str × Str)} {cs : List Node} {c : Node} (hc : c.isElement = true) :
    Keeps (.element nm as cs) (.element nm as (cs ++ [c])) := by
  intro q m hq
  cases q with
  | nil =>
    rw [Node.at] at hq
    injection hq with hq
    subst hq
    exact ⟨_, rfl, rfl, rfl, value_append hc⟩
  | cons j q =>
    cases hj : cs[j]? with
    | none => rw [at_cons_none (n := .element nm as cs) hj] at hq; cases hq
    | some x =>
      refine ⟨m, ?_, sameNode_refl m⟩
      rw [at_cons_some (n := .element nm as cs) hj] at hq
      rw [at_cons_some (c := x), hq]
      show (cs ++ [c])[j]? = some x
      have : j < cs.length := by
        by_contra h
        rw [List.getElem?_eq_none (by omega)] at hj
        cases hj
      rw [List.getElem?_append_left this, hj]

/-- What `getOrCreatePath` achieves. -/
structure Created (n n' : Node) (sels : List Selector) (ts : List Str) (p : List Nat) : Prop where
  elem : n'.isElement = n.isElement
  name : n'.name = n.name
  attrs : n'.attrs = n.attrs
  len : p.length = sels.length
  found : PathDenotes n' sels p
  again : getOrCreatePath n' ts = (n', .ok p)
  same : ∀ q, PathDenotes n sels q → n' = n
  keeps : Keeps n n'
  adds : OnlyAdds n n' [] p sels

theorem getOrCreatePath_spec {sels : List Selector} {ts : List Str} (h : Steps sels ts) :
    (∀ s ∈ sels, s.NoIndex) → ∀ n : Node, n.isElement = true →
      ∃ p, (getOrCreatePath n ts).2 = .ok p ∧ Created n (getOrCreatePath n ts).1 sels ts p := by
  induction h with
  | nil =>
    intro _ n _
    exact ⟨[], rfl, rfl, rfl, rfl, rfl, .here n, rfl, fun _ _ => rfl, keeps_refl n, fun q m h1 h2 => by
      simp only [getOrCreatePath] at h1
      rw [h1] at h2; cases h2⟩
  | cons s t ss ts hst hss ih =>
    intro hni n hn
    obtain ⟨x, hx, hcand, htok⟩ := createToken_text hst (hni s (by simp)) n.children
    obtain ⟨c, hc, hpc, hlen, hcase⟩ := findOrAppend_spec hcand n.children
    obtain ⟨nm, as, cs, rfl⟩ : ∃ nm as cs, n = .element nm as cs := by
      cases n with
      | element nm as cs => exact ⟨nm, as, cs, rfl⟩
      | text _ _ => cases hn
    simp only [Node.children] at htok hc hlen hcase
    generalize hfa : findOrAppend s.candidate (.element s.name x []) cs = r at htok hc hlen hcase
    obtain ⟨cs', i⟩ := r
    dsimp only at hc hlen hcase
    have hi : i < cs'.length := by
      by_contra h
      rw [List.getElem?_eq_none (by omega)] at hc
      cases hc
    have hce := candidate_element hpc
    obtain ⟨p, ep, cr⟩ := ih (fun s hs => hni s (by simp [hs])) c hce
    generalize hc' : (getOrCreatePath c ts).1 = c' at cr
    have hpc' : s.candidate c' = true := by rw [candidate_congr s cr.elem cr.name cr.attrs]; exact hpc
    have e1 : getOrCreatePath (.element nm as cs) (t :: ts) = (.element nm as (cs'.set i c'), .ok (i :: p)) := by
      rw [getOrCreatePath, Node.children, htok]
      dsimp only
      rw [hc]
      dsimp only
      rw [ep, hc']
      rfl
    have hget : (cs'.set i c')[i]? = some c' := List.getElem?_set_self hi
    have htake : ((cs'.set i c').take i).filter s.candidate = (cs'.take i).filter s.candidate := by
      rw [List.take_set_of_le (Nat.le_refl i)]
    have hsel : PartSelects s (.element nm as (cs'.set i c')) i := by
      refine ⟨c', hget, hpc', ?_⟩
      show (((cs'.set i c').take i).filter s.candidate).length = s.skip
      rw [htake, hlen]
      cases s with
      | first _ => rfl
      | nth _ _ => exact absurd (hni _ (List.mem_cons_self ..)) (fun h => h)
      | having _ _ => rfl
    have hskip : s.skip = 0 := by
      obtain ⟨_, _, _, h⟩ := hsel
      rw [← h]
      show (((cs'.set i c').take i).filter s.candidate).length = 0
      rw [htake, hlen]
    rw [e1]
    refine ⟨i :: p, rfl, ?_⟩
    refine ⟨rfl, rfl, rfl, by simp [cr.len], .step _ s ss i c' p hsel hget cr.found, ?_, ?_, ?_, ?_⟩
    · obtain ⟨y, hy, hycand, hytok⟩ := createToken_text hst (hni s (by simp)) (cs'.set i c')
      have hnth : nthIdx s.candidate 0 (cs'.set i c') = some i := by
        rw [nthIdx_iff]
        exact ⟨c', hget, hpc', by rw [htake, hlen]⟩
      have hfa' : findOrAppend s.candidate (.element s.name y []) (cs'.set i c') = (cs'.set i c', i) := by
        rw [findOrAppend, hnth]
      dsimp only
      rw [getOrCreatePath, Node.children, hytok, hfa']
      dsimp only
      rw [hget]
      dsimp only
      rw [cr.again]
      dsimp only
      rw [List.set_set]
      rfl
    · intro q hq
      cases hq with
      | step _ _ _ j d q hselj hd hqd =>
        rw [PartSelects, ← nthIdx_iff, hskip] at hselj
        dsimp only [Node.children] at hselj hd
        rcases hcase with ⟨rfl, hnth⟩ | ⟨_, _, _, hnone⟩
        · rw [hnth] at hselj
          injection hselj with hij
          subst hij
          rw [hc] at hd
          injection hd with hd
          subst hd
          rw [cr.same q hqd]
          congr 1
          rw [List.getElem?_eq_some_iff] at hc
          obtain ⟨hlt, hcv⟩ := hc
          rw [← hcv, List.set_getElem_self]
        · rw [hnone] at hselj; cases hselj
    · refine keeps_trans ?_ (keeps_set hc cr.keeps)
      rcases hcase with ⟨rfl, _⟩ | ⟨rfl, _, rfl, _⟩
      · exact keeps_refl _
      · exact keeps_append hce
    · intro q m hq hno
      cases q with
      | nil => cases hno
      | cons j q =>
        by_cases hj : i = j
        · subst hj
          rw [at_cons_some (c := c') hget] at hq
          rcases hcase with ⟨rfl, _⟩ | ⟨rfl, _, rfl, _⟩
          · rw [at_cons_some (c := c) hc] at hno
            obtain ⟨k, s', h1, h2, h3, h4⟩ := cr.adds q m hq hno
            exact ⟨k + 1, s', by rw [h1]; simp, by simp; exact h2, by simpa using h3, h4⟩
          · cases q with
            | nil =>
              rw [Node.at] at hq
              injection hq with hq
              subst hq
              refine ⟨0, s, by simp, by simp, by simp, ?_, ?_, ?_⟩
              · rw [cr.elem]; rfl
              · rw [cr.name]; rfl
              · rw [cr.attrs]; exact hx
            | cons l q =>
              have : (Node.element s.name x []).at (l :: q) = none := at_cons_none (by simp [Node.children]) q
              obtain ⟨k, s', h1, h2, h3, h4⟩ := cr.adds (l :: q) m hq this
              exact ⟨k + 1, s', by rw [h1]; simp, by simp; exact h2, by simpa using h3, h4⟩
        · exfalso
          rw [at_cons] at hq hno
          dsimp only [Node.children] at hq hno
          rw [List.getElem?_set_ne hj] at hq
          rcases hcase with ⟨rfl, _⟩ | ⟨rfl, hil, rfl, _⟩
          · rw [hno] at hq; cases hq
          · by_cases hlt : j < cs.length
            · rw [List.getElem?_append_left hlt, hno] at hq; cases hq
            · rw [List.getElem?_eq_none (by rw [List.length_append, List.length_singleton]; omega)] at hq
              cases hq

/-! ## Changing a node of the document -/

theorem element_of_child {n c : Node} {i : Nat} (h : n.children[i]? = some c) : ∃ nm as cs, n = .element nm as cs := by
  cases n with
  | element nm as cs => exact ⟨nm, as, cs, rfl⟩
  | text _ _ => simp [Node.children] at h

theorem update_cons {nm : Str} {as : List (Str × Str)} {cs : List Node} {i : Nat} {c : Node} (f : Node → Node) (p : List Nat) (h : cs[i]? = some c) :
    Node.update f (i :: p) (.element nm as cs) = .element nm as (cs.set i (Node.update f p c)) := by
  haveI : Inhabited Node := ⟨c⟩
  rw [Node.update, Node.children, Node.setChildren, List.modify_eq_set, h]
  rfl

theorem at_update (f : Node → Node) (h : List Nat) (doc n : Node) (hn : doc.at h = some n) (p : List Nat) :
    (doc.update f h).at (h ++ p) = (f n).at p := by
  induction h generalizing doc with
  | nil => injection hn with hn; subst hn; rfl
  | cons i h ih =>
    cases hc : doc.children[i]? with
    | none => rw [at_cons_none hc] at hn; cases hn
    | some c =>
      rw [at_cons_some hc] at hn
      obtain ⟨nm, as, cs, rfl⟩ := element_of_child hc
      dsimp only [Node.children] at hc
      rw [update_cons f h hc, List.cons_append, at_cons_some (c := c.update f h)]
      · exact ih c hn
      · show (cs.set i _)[i]? = _
        rw [List.getElem?_set_self]
        by_contra hlt
        rw [List.getElem?_eq_none (by omega)] at hc
        cases hc

theorem update_const (h : List Nat) (doc n : Node) (hn : doc.at h = some n) : doc.update (fun _ => n) h = doc := by
  induction h generalizing doc with
  | nil => injection hn with hn; subst hn; rfl
  | cons i h ih =>
    cases hc : doc.children[i]? with
    | none => rw [at_cons_none hc] at hn; cases hn
    | some c =>
      rw [at_cons_some hc] at hn
      obtain ⟨nm, as, cs, rfl⟩ := element_of_child hc
      dsimp only [Node.children] at hc
      rw [update_cons _ h hc, ih c hn]
      congr 1
      rw [List.getElem?_eq_some_iff] at hc
      obtain ⟨hlt, hcv⟩ := hc
      rw [← hcv, List.set_getElem_self]

theorem update_update (f g : Node → Node) (h : List Nat) (doc n : Node) (hn : doc.at h = some n) :
    (doc.update f h).update g h = doc.update (fun m => g (f m)) h := by
  induction h generalizing doc with
  | nil => rfl
  | cons i h ih =>
    cases hc : doc.children[i]? with
    | none => rw [at_cons_none hc] at hn; cases hn
    | some c =>
      rw [at_cons_some hc] at hn
      obtain ⟨nm, as, cs, rfl⟩ := element_of_child hc
      dsimp only [Node.children] at hc
      have hlt : i < cs.length := by
        by_contra hlt
        rw [List.getElem?_eq_none (by omega)] at hc
        cases hc
      rw [update_cons _ h hc, update_cons _ h hc, update_cons (c := c.update f h) _ h (List.getElem?_set_self hlt), ih c hn, List.set_set]

theorem keeps_update (f : Node → Node) (h : List Nat) (doc n : Node) (hn : doc.at h = some n) (hk : Keeps n (f n)) : Keeps doc (doc.update f h) := by
  induction h generalizing doc with
  | nil => injection hn with hn; subst hn; exact hk
  | cons i h ih =>
    cases hc : doc.children[i]? with
    | none => rw [at_cons_none hc] at hn; cases hn
    | some c =>
      rw [at_cons_some hc] at hn
      obtain ⟨nm, as, cs, rfl⟩ := element_of_child hc
      dsimp only [Node.children] at hc
      rw [update_cons f h hc]
      exact keeps_set hc (ih c hn)

theorem adds_update (f : Node → Node) (h : List Nat) (doc n : Node) (hn : doc.at h = some n) {p : List Nat} {sels : List Selector}
    (ha : OnlyAdds n (f n) [] p sels) : OnlyAdds doc (doc.update f h) h p sels := by
  induction h generalizing doc with
  | nil => injection hn with hn; subst hn; exact ha
  | cons i h ih =>
    cases hc : doc.children[i]? with
    | none => rw [at_cons_none hc] at hn; cases hn
    | some c =>
      rw [at_cons_some hc] at hn
      obtain ⟨nm, as, cs, rfl⟩ := element_of_child hc
      dsimp only [Node.children] at hc
      rw [update_cons f h hc]
      have hlt : i < cs.length := by
        by_contra hlt
        rw [List.getElem?_eq_none (by omega)] at hc
        cases hc
      intro q m hq hno
      cases q with
      | nil => cases hno
      | cons j q =>
        by_cases hj : i = j
        · subst hj
          rw [at_cons_some (c := c.update f h)] at hq
          · rw [at_cons_some (c := c) hc] at hno
            obtain ⟨k, s', h1, h2⟩ := ih c hn q m hq hno
            exact ⟨k, s', by rw [h1]; simp, h2⟩
          · exact List.getElem?_set_self hlt
        · exfalso
          rw [at_cons] at hq hno
          dsimp only [Node.children] at hq hno
          rw [List.getElem?_set_ne hj, hno] at hq
          cases hq

/-! ## Calls that fail -/

theorem tokenize_append {d : Char → Bool} {x : Char} (hx : d x = true) (a b cur : Str) :
    tokenize d cur (a ++ x :: b) = tokenize d cur a ++ tokenize d [] b := by
  induction a generalizing cur with
  | nil => simp [tokenize, hx]
  | cons c a ih =>
    rw [List.cons_append, tokenize, tokenize]
    split
    · rw [ih]; rfl
    · rw [ih]

theorem pathTokens_empty {path : Str} (h : EmptyPart path) : pathTokens path = none := by
  have h0 : ∀ b : Str, (b = [] ∨ ∃ b', b = '/' :: b') → [] ∈ tokenize (fun c => decide (c = '/')) [] b := by
    intro b hb
    rcases hb with rfl | ⟨b', rfl⟩
    · simp [tokenize]
    · simp [tokenize]
  have key : [] ∈ tokenize (fun c => decide (c = '/')) [] path := by
    obtain ⟨a, b, rfl, ha, hb⟩ := h
    rcases ha with rfl | ⟨a', rfl⟩
    · exact h0 b hb
    · rw [List.append_assoc, List.singleton_append, tokenize_append (by simp)]
      exact List.mem_append_right _ (h0 b hb)
  rw [pathTokens, if_pos]
  rw [Bool.or_eq_true]
  exact .inr (List.any_eq_true.mpr ⟨[], key, rfl⟩)

theorem getOrCreatePath_same (ts : List Str) (n : Node) :
    (getOrCreatePath n ts).1.isElement = n.isElement ∧ (getOrCreatePath n ts).1.name = n.name ∧ (getOrCreatePath n ts).1.attrs = n.attrs := by
  cases ts with
  | nil => exact ⟨rfl, rfl, rfl⟩
  | cons t ts =>
    rw [getOrCreatePath]
    split
    · exact ⟨rfl, rfl, rfl⟩
    · split
      · exact ⟨rfl, rfl, rfl⟩
      · cases n <;> exact ⟨rfl, rfl, rfl⟩

theorem findOrAppend_cases (p : Node → Bool) (new : Node) (cs : List Node) :
    (findOrAppend p new cs).1 = cs ∨ (findOrAppend p new cs).1 = cs ++ [new] := by
  cases h : nthIdx p 0 cs with
  | some i => simp [findOrAppend, h]
  | none => simp [findOrAppend, h]

theorem createToken_cases {cs : List Node} {t : Str} {r : List Node × Nat} (h : getOrCreateToken cs t = .ok r) :
    r.1 = cs ∨ ∃ new, new.isElement = true ∧ r.1 = cs ++ [new] := by
  rw [getOrCreateToken] at h
  split at h
  · cases h
  · injection h with h
    subst h
    rcases findOrAppend_cases (isNamed _) (.element _ [] []) cs with e | e
    · exact .inl e
    · exact .inr ⟨_, rfl, e⟩
  · split at h
    · cases h
    · injection h with h
      subst h
      rcases findOrAppend_cases (isNamedWith _ _) (.element _ _ []) cs with e | e
      · exact .inl e
      · exact .inr ⟨_, rfl, e⟩

theorem getOrCreatePath_keeps (ts : List Str) (n : Node) : Keeps n (getOrCreatePath n ts).1 := by
  induction ts generalizing n with
  | nil => exact keeps_refl n
  | cons t ts ih =>
    rw [getOrCreatePath]
    split
    · exact keeps_refl n
    · rename_i cs' i htok
      split
      · exact keeps_refl n
      · rename_i c hc
        cases n with
        | text _ _ => exact keeps_refl _
        | element nm as cs =>
          refine keeps_trans (b := .element nm as cs') ?_ (keeps_set hc (ih c))
          rcases createToken_cases htok with e | ⟨new, hn, e⟩
          · dsimp only [Node.children] at e
            subst e
            exact keeps_refl _
          · dsimp only [Node.children] at e
            subst e
            exact keeps_append hn

theorem getOrCreatePath_index {sels : List Selector} {ts : List Str} (h : Steps sels ts) :
    ∀ n : Node, (∃ s ∈ sels, ¬ s.NoIndex) → (getOrCreatePath n ts).2 = .error () := by
  induction h with
  | nil => rintro n ⟨s, hs, _⟩; cases hs
  | cons s t ss ts hst hss ih =>
    rintro n ⟨s', hs', hni⟩
    by_cases hs : s.NoIndex
    · obtain ⟨x, _, hcand, htok⟩ := createToken_text hst hs n.children
      obtain ⟨c, hc, _⟩ := findOrAppend_spec hcand n.children
      rw [getOrCreatePath, htok]
      dsimp only
      rw [hc]
      dsimp only
      rw [List.mem_cons] at hs'
      rcases hs' with rfl | hs'
      · exact absurd hs hni
      · rw [ih c ⟨s', hs', hni⟩]
    · rw [getOrCreatePath, createToken_index hst hs]

theorem getOrCreatePath_first {s : Selector} {ss : List Selector} {ts : List Str} (h : Steps (s :: ss) ts) (hs : s.NoIndex) {n : Node}
    (hn : n.isElement = true) : ∃ i, PartSelects s (getOrCreatePath n ts).1 i := by
  cases h with
  | cons _ t _ ts hst hss =>
    obtain ⟨x, _, hcand, htok⟩ := createToken_text hst hs n.children
    obtain ⟨c, hc, hpc, hlen, _⟩ := findOrAppend_spec hcand n.children
    obtain ⟨nm, as, cs, rfl⟩ : ∃ nm as cs, n = .element nm as cs := by
      cases n with
      | element nm as cs => exact ⟨nm, as, cs, rfl⟩
      | text _ _ => cases hn
    dsimp only [Node.children] at htok hc hlen
    rw [getOrCreatePath, Node.children, htok]
    dsimp only
    rw [hc]
    dsimp only
    generalize findOrAppend s.candidate (.element s.name x []) cs = r at hc hlen
    obtain ⟨cs', i⟩ := r
    dsimp only at hc hlen
    have hi : i < cs'.length := by
      by_contra h
      rw [List.getElem?_eq_none (by omega)] at hc
      cases hc
    obtain ⟨g1, g2, g3⟩ := getOrCreatePath_same ts c
    refine ⟨i, (getOrCreatePath c ts).1, List.getElem?_set_self hi, ?_, ?_⟩
    · rw [candidate_congr s g1 g2 g3]; exact hpc
    · show (((cs'.set i _).take i).filter s.candidate).length = s.skip
      rw [List.take_set_of_le (Nat.le_refl i), hlen]
      cases s with
      | first _ => rfl
      | nth _ _ => exact absurd hs (fun h => h)
      | having _ _ => rfl

/-! ## Texts that are accepted are paths -/

theorem splitToken_sound {t n : Str} {o : Option Str} (h : splitToken t = some (n, o)) (hs : ∀ c ∈ t, c ≠ '/') :
    NodeName n ∧ (o = none ∧ t = n ∨ ∃ u, o = some u ∧ t = n ++ '[' :: (u ++ [']']) ∧ ∀ c ∈ u, (!isBracket c) = true ∧ c ≠ '/') := by
  have s1 := span_eq (fun c => !isBracket c) t
  have hname : ∀ m : Str, m ≠ [] → (∀ c ∈ m, (!isBracket c) = true) → (∀ c ∈ m, c ∈ t) → NodeName m := by
    intro m hne hb hm
    refine ⟨hne, ?_⟩
    intro c hc
    have h1 := not_bracket.mp (hb c hc)
    have h2 := hs c (hm c hc)
    simp only [List.mem_cons, List.not_mem_nil, or_false, not_or]
    exact ⟨h2, h1.1, h1.2⟩
  rw [splitToken] at h
  by_cases he : t.takeWhile (fun c => !isBracket c) = []
  · rw [if_pos he] at h; cases h
  · rw [if_neg he] at h
    cases hd : t.dropWhile (fun c => !isBracket c) with
    | nil =>
      rw [hd] at h s1
      injection h with h
      injection h with h1 h2
      subst h1 h2
      rw [List.append_nil] at s1
      rw [← s1.1] at he s1
      exact ⟨hname t he s1.2.1 (fun c hc => hc), .inl ⟨rfl, rfl⟩⟩
    | cons x r =>
      rw [hd] at h s1
      dsimp only at h
      split at h
      · rename_i hx
        injection h with h
        injection h with h1 h2
        subst h1 h2
        have s2 := span_eq (fun c => !isBracket c) r
        rw [hx.2] at s2
        refine ⟨hname _ he s1.2.1 (fun c hc => by rw [s1.1]; exact List.mem_append_left _ hc), .inr ⟨_, rfl, ?_, ?_⟩⟩
        · rw [← s2.1, ← hx.1]; exact s1.1
        · intro c hc
          refine ⟨s2.2.1 c hc, hs c ?_⟩
          rw [s1.1]
          apply List.mem_append_right
          apply List.mem_cons_of_mem
          rw [s2.1]
          exact List.mem_append_left _ hc
      · cases h

theorem split_first (d : Char → Bool) (s : Str) :
    (∀ c ∈ s, d c = false) ∨ ∃ a x b, s = a ++ x :: b ∧ (∀ c ∈ a, d c = false) ∧ d x = true := by
  induction s with
  | nil => exact .inl (by simp)
  | cons c s ih =>
    by_cases hc : d c = true
    · exact .inr ⟨[], c, s, rfl, by simp, hc⟩
    · have hc : d c = false := by simpa using hc
      rcases ih with h | ⟨a, x, b, e, ha, hx⟩
      · exact .inl (by intro y hy; rcases List.mem_cons.mp hy with rfl | hy; exact hc; exact h y hy)
      · refine .inr ⟨c :: a, x, b, by rw [e]; rfl, ?_, hx⟩
        intro y hy
        rcases List.mem_cons.mp hy with rfl | hy
        · exact hc
        · exact ha y hy

theorem splitPair_sound {s k v : Str} (h : splitPair s = some (k, v)) (hb : ∀ c ∈ s, (!isBracket c) = true ∧ c ≠ '/')
    (hs : ∀ c ∈ s, isAttrSep c = false) : s = k ++ '=' :: v ∧ AttrName k ∧ AttrValue v := by
  have s1 := span_eq (fun c => decide (c ≠ '=')) s
  have key : ∀ c ∈ s, c ≠ '/' ∧ c ≠ '[' ∧ c ≠ ']' ∧ c ≠ ',' ∧ c ≠ ';' := by
    intro c hc
    have h1 := not_bracket.mp (hb c hc).1
    have h2 := hs c hc
    simp only [isAttrSep, Bool.or_eq_false_iff, decide_eq_false_iff_not] at h2
    exact ⟨(hb c hc).2, h1.1, h1.2, h2.1, h2.2⟩
  rw [splitPair] at h
  cases hd : s.dropWhile (fun c => decide (c ≠ '=')) with
  | nil => rw [hd] at h; cases h
  | cons x r =>
    rw [hd] at h s1
    dsimp only at h
    split at h
    · cases h
    · rename_i hx
      injection h with h
      injection h with h1 h2
      subst h2
      have hx' : x = '=' := by
        have := s1.2.2 x r rfl
        simpa using this
      subst hx'
      rw [h1] at s1 hx
      refine ⟨s1.1, ⟨fun e => hx (.inl e), ?_⟩, ?_⟩
      · intro c hc
        have h1 := key c (by rw [s1.1]; exact List.mem_append_left _ hc)
        have h2 := s1.2.1 c hc
        simp only [decide_eq_true_eq] at h2
        simp only [List.mem_cons, List.not_mem_nil, or_false, not_or]
        exact ⟨h1.1, h1.2.1, h1.2.2.1, h2, h1.2.2.2.1, h1.2.2.2.2⟩
      · intro c hc
        have h1 := key c (by rw [s1.1]; exact List.mem_append_right _ (List.mem_cons_of_mem _ hc))
        simp only [List.mem_cons, List.not_mem_nil, or_false, not_or]
        exact h1

theorem parsePairs_sound (n : Nat) : ∀ (s : Str) (m m' : List (Str × Str)), s.length ≤ n → (∀ c ∈ s, (!isBracket c) = true ∧ c ≠ '/') →
    parsePairs (tokenize isAttrSep [] s) m = some m' → ∃ as, AttrText as s := by
  induction n with
  | zero =>
    intro s m m' hl _ h
    have : s = [] := List.length_eq_zero_iff.mp (by omega)
    subst this
    cases h
  | succ n ih =>
    intro s m m' hl hb h
    rcases split_first isAttrSep s with hs | ⟨a, x, b, e, ha, hx⟩
    · rw [tokenize_none hs, List.nil_append, parsePairs] at h
      cases hp : splitPair s with
      | none => rw [hp] at h; cases h
      | some kv =>
        obtain ⟨k, v⟩ := kv
        obtain ⟨e, hk, hv⟩ := splitPair_sound hp hb hs
        rw [e]
        exact ⟨_, .one k v hk hv⟩
    · subst e
      rw [tokenize_cons ha hx, List.nil_append, parsePairs] at h
      cases hp : splitPair a with
      | none => rw [hp] at h; cases h
      | some kv =>
        obtain ⟨k, v⟩ := kv
        rw [hp] at h
        dsimp only at h
        obtain ⟨e, hk, hv⟩ := splitPair_sound hp (fun c hc => hb c (List.mem_append_left _ hc)) ha
        rw [List.length_append, List.length_cons] at hl
        obtain ⟨as, has⟩ := ih b _ m' (by omega) (fun c hc => hb c (List.mem_append_right _ (List.mem_cons_of_mem _ hc))) h
        subst e
        refine ⟨(k, v) :: as, ?_⟩
        rw [List.append_assoc, List.cons_append]
        refine .more k v x as b hk hv ?_ has
        simpa [isAttrSep] using hx

theorem parseAttributes_sound {s : Str} {m : List (Str × Str)} (h : parseAttributes s = some m) (hb : ∀ c ∈ s, (!isBracket c) = true ∧ c ≠ '/') :
    ∃ as, AttrText as s := parsePairs_sound s.length s [] m (Nat.le_refl _) hb h

theorem isIndex_sound {s : Str} (h : isIndex s = true) :
    ∃ w ds w', s = w ++ ds ++ w' ∧ White w ∧ Digits ds ∧ White w' ∧ (s.dropWhile isSpace).takeWhile Char.isDigit = ds := by
  simp only [isIndex, Bool.and_eq_true, decide_eq_true_eq, List.all_eq_true] at h
  have s1 := span_eq isSpace s
  have s2 := span_eq Char.isDigit (s.dropWhile isSpace)
  refine ⟨_, _, _, ?_, fun c hc => (isSpace_iff c).mp (s1.2.1 c hc), ⟨h.1, fun c hc => (isDigit_iff c).mp (s2.2.1 c hc)⟩,
    fun c hc => (isSpace_iff c).mp (h.2 c hc), rfl⟩
  rw [List.append_assoc, ← s2.1, ← s1.1]

theorem getToken_sound {n : Node} {t : Str} {r : Option Nat} (h : getToken n t = .ok r) (hs : ∀ c ∈ t, c ≠ '/') : ∃ s, StepText s t := by
  rw [getToken] at h
  cases hp : splitToken t with
  | none => rw [hp] at h; cases h
  | some x =>
    obtain ⟨name, o⟩ := x
    obtain ⟨hn, ⟨rfl, e⟩ | ⟨u, rfl, e, hu⟩⟩ := splitToken_sound hp hs
    · subst e; exact ⟨_, .first t hn⟩
    · rw [hp] at h
      dsimp only at h
      subst e
      split at h
      · rename_i hi
        obtain ⟨w, ds, w', e, hw, hd, hw', et⟩ := isIndex_sound hi
        rw [indexOf, et] at h
        by_cases hr : natOf ds < 2 ^ 32
        · rw [natOf_eq] at hr
          rw [e]
          exact ⟨_, .nth name w ds w' hn hw hd hw' hr⟩
        · rw [if_neg hr] at h; cases h
      · cases hq : parseAttributes u with
        | none => rw [hq] at h; cases h
        | some m =>
          obtain ⟨as, has⟩ := parseAttributes_sound hq hu
          exact ⟨_, .having name as u hn has⟩

theorem createToken_sound {cs : List Node} {t : Str} {r : List Node × Nat} (h : getOrCreateToken cs t = .ok r) (hs : ∀ c ∈ t, c ≠ '/') :
    ∃ s, StepText s t ∧ s.NoIndex := by
  rw [getOrCreateToken] at h
  cases hp : splitToken t with
  | none => rw [hp] at h; cases h
  | some x =>
    obtain ⟨name, o⟩ := x
    obtain ⟨hn, ⟨rfl, e⟩ | ⟨u, rfl, e, hu⟩⟩ := splitToken_sound hp hs
    · subst e; exact ⟨.first t, .first t hn, trivial⟩
    · rw [hp] at h
      dsimp only at h
      subst e
      cases hq : parseAttributes u with
      | none => rw [hq] at h; cases h
      | some m =>
        obtain ⟨as, has⟩ := parseAttributes_sound hq hu
        exact ⟨.having name (firstOf as), .having name as u hn has, trivial⟩

theorem tokenize_noSlash (n : Nat) : ∀ s : Str, s.length ≤ n → ∀ t ∈ tokenize (fun c => c = '/') [] s, ∀ c ∈ t, c ≠ '/' := by
  induction n with
  | zero =>
    intro s hl t ht
    have : s = [] := List.length_eq_zero_iff.mp (by omega)
    subst this
    rw [tokenize, List.mem_singleton] at ht
    subst ht
    simp
  | succ n ih =>
    intro s hl t ht
    rcases split_first (fun c => c = '/') s with hs | ⟨a, x, b, e, ha, hx⟩
    · rw [tokenize_none hs, List.nil_append, List.mem_singleton] at ht
      subst ht
      simpa using hs
    · subst e
      rw [tokenize_cons ha hx, List.nil_append, List.mem_cons] at ht
      rcases ht with rfl | ht
      · simpa using ha
      · rw [List.length_append, List.length_cons] at hl
        exact ih b (by omega) t ht

theorem steps_path {sels : List Selector} {ts : List Str} (h : Steps sels ts) : ∀ path : Str, tokenize (fun c => c = '/') [] path = ts →
    ts ≠ [] → PathText sels path := by
  induction h with
  | nil => intro _ _ hne; exact absurd rfl hne
  | cons s t ss ts hst hss ih =>
    intro path e _
    rcases split_first (fun c => c = '/') path with hs | ⟨a, x, b, e', ha, hx⟩
    · rw [tokenize_none hs, List.nil_append] at e
      injection e with e1 e2
      subst e1 e2
      cases hss
      exact .one _ _ hst
    · subst e'
      rw [tokenize_cons ha hx, List.nil_append] at e
      injection e with e1 e2
      subst e1
      have hx : x = '/' := by simpa using hx
      subst hx
      refine .more _ _ _ _ hst (ih b e2 ?_)
      rintro rfl
      rcases split_first (fun c => c = '/') b with hs | ⟨a', x', b', e', ha', hx'⟩
      · rw [tokenize_none hs] at e2; cases e2
      · rw [e', tokenize_cons ha' hx'] at e2; cases e2

theorem getPath_sound (ts : List Str) : ∀ (n : Node) (p : List Nat), (∀ t ∈ ts, ∀ c ∈ t, c ≠ '/') → getPath n ts = .ok (some p) →
    ∃ sels, Steps sels ts := by
  induction ts with
  | nil => intro _ _ _ _; exact ⟨[], .nil⟩
  | cons t ts ih =>
    intro n p hs h
    rw [getPath] at h
    cases hg : getToken n t with
    | error e => rw [hg] at h; cases h
    | ok r =>
      obtain ⟨s, hst⟩ := getToken_sound hg (hs t (by simp))
      rw [hg] at h
      cases r with
      | none => cases h
      | some i =>
        dsimp only at h
        cases hc : n.children[i]? with
        | none => rw [hc] at h; cases h
        | some c =>
          rw [hc] at h
          dsimp only at h
          cases hq : getPath c ts with
          | error e => rw [hq] at h; cases h
          | ok r =>
            cases r with
            | none => rw [hq] at h; cases h
            | some q =>
              obtain ⟨sels, hsel⟩ := ih c q (fun t ht => hs t (by simp [ht])) hq
              exact ⟨_, .cons _ _ _ _ hst hsel⟩

theorem getOrCreatePath_sound (ts : List Str) : ∀ (n : Node) (p : List Nat), (∀ t ∈ ts, ∀ c ∈ t, c ≠ '/') → (getOrCreatePath n ts).2 = .ok p →
    ∃ sels, Steps sels ts ∧ ∀ s ∈ sels, s.NoIndex := by
  induction ts with
  | nil => intro _ _ _ _; exact ⟨[], .nil, by simp⟩
  | cons t ts ih =>
    intro n p hs h
    rw [getOrCreatePath] at h
    cases hg : getOrCreateToken n.children t with
    | error e => rw [hg] at h; cases h
    | ok r =>
      obtain ⟨s, hst, hx⟩ := createToken_sound hg (hs t (by simp))
      rw [hg] at h
      obtain ⟨cs, i⟩ := r
      dsimp only at h
      cases hc : cs[i]? with
      | none => rw [hc] at h; cases h
      | some c =>
        rw [hc] at h
        dsimp only at h
        cases hq : (getOrCreatePath c ts).2 with
        | error e => rw [hq] at h; cases h
        | ok q =>
          obtain ⟨sels, hsel, hxs⟩ := ih c q (fun t ht => hs t (by simp [ht])) hq
          refine ⟨_, .cons _ _ _ _ hst hsel, ?_⟩
          intro s' hs'
          rcases List.mem_cons.mp hs' with rfl | hs'
          · exact hx
          · exact hxs s' hs'

theorem pathTokens_sound {path : Str} {ts : List Str} (h : pathTokens path = some ts) :
    (∀ t ∈ ts, ∀ c ∈ t, c ≠ '/') ∧ ∀ sels, Steps sels ts → PathText sels path := by
  rw [pathTokens] at h
  split at h
  · cases h
  · rename_i hx
    injection h with h
    subst h
    refine ⟨tokenize_noSlash path.length path (Nat.le_refl _), ?_⟩
    intro sels hs
    refine steps_path hs path rfl ?_
    intro e
    rw [e] at hx
    exact hx rfl

end Verif.Xml
