import Verif.Proof.XmlParse

/-!
# What is written is parsed as the same tree
-/

namespace Verif.Xml

open Verif.Spec

/-! ## Turns of the parser -/

/-- The parser gets from one state and text to another. -/
inductive Turns : Parsing → Str → Parsing → Str → Prop
  | refl (st : Parsing) (s : Str) : Turns st s st s
  | step {st st1 st2 : Parsing} {s s1 s2 : Str} : s ≠ [] → turn st s = .ok (st1, s1) → Turns st1 s1 st2 s2 → Turns st s st2 s2

theorem Turns.trans {a b c : Parsing} {s t u : Str} (h1 : Turns a s b t) (h2 : Turns b t c u) : Turns a s c u := by
  induction h1 with
  | refl => exact h2
  | step hs ht _ ih => exact .step hs ht (ih h2)

theorem Turns.one {a b : Parsing} {s t : Str} (hs : s ≠ []) (h : turn a s = .ok (b, t)) : Turns a s b t := .step hs h (.refl _ _)

theorem Turns.parse {a b : Parsing} {s t : Str} (h : Turns a s b t) : ∀ k, s.length < k → ∃ j, t.length < j ∧ parseTree k a s = parseTree j b t := by
  induction h with
  | refl => exact fun k hk => ⟨k, hk, rfl⟩
  | step hs ht _ ih =>
    rename_i st st1 st2 s s1 s2 _
    intro k hk
    have hl := turn_length hs ht
    obtain ⟨c, u, rfl⟩ : ∃ c u, s = c :: u := by
      cases s with
      | nil => exact absurd rfl hs
      | cons c u => exact ⟨c, u, rfl⟩
    obtain ⟨k, rfl⟩ : ∃ j, k = j + 1 := ⟨k - 1, by omega⟩
    obtain ⟨j, hj, e⟩ := ih k (by omega)
    refine ⟨j, hj, ?_⟩
    rw [parseTree, ht]
    exact e

/-! ## White space -/

theorem skipWs_blank {w : Str} (hw : w.all isPugiSpace = true) (s : Str) : skipWs (w ++ s) = skipWs s := by
  induction w with
  | nil => rfl
  | cons c w ih =>
    simp only [List.all_cons, Bool.and_eq_true] at hw
    rw [List.cons_append, skipWs_space hw.1, ih hw.2]

theorem space_ne_lt {c : Char} (h : isPugiSpace c = true) : c ≠ '<' := by
  rintro rfl
  revert h
  decide

theorem Turns.blank {w : Str} (hw : w.all isPugiSpace = true) (st : Parsing) (s : Str) : Turns st (w ++ '<' :: s) st ('<' :: s) := by
  cases w with
  | nil => exact .refl _ _
  | cons c w =>
    refine .one (by simp) ?_
    have hk := skipWs_blank hw ('<' :: s)
    rw [skipWs_cons (by decide)] at hk
    have hc : c ≠ '<' := by
      simp only [List.all_cons, Bool.and_eq_true] at hw
      exact space_ne_lt hw.1
    unfold turn
    split
    · rename_i e
      simp only [List.cons_append, List.cons.injEq] at e
      exact absurd e.1 hc
    · rw [hk]
      rfl

theorem Turns.blank_end {w : Str} (hw : w.all isPugiSpace = true) (st : Parsing) : Turns st w st [] := by
  cases w with
  | nil => exact .refl _ _
  | cons c w =>
    refine .one (by simp) ?_
    have hk := skipWs_blank hw []
    rw [List.append_nil] at hk
    have hc : c ≠ '<' := by
      simp only [List.all_cons, Bool.and_eq_true] at hw
      exact space_ne_lt hw.1
    unfold turn
    split
    · rename_i e
      simp only [List.cons.injEq] at e
      exact absurd e.1 hc
    · rw [hk]
      rfl

theorem escapeChar_space {c : Char} (h : isPugiSpace c = true) : escapeChar false c = [c] := by
  unfold isPugiSpace at h
  simp only [Bool.or_eq_true, decide_eq_true_eq] at h
  rcases h with ((rfl | rfl) | rfl) | rfl <;> decide

theorem escape_blank {v : Str} (h : v.all isPugiSpace = true) : escape false v = v := by
  induction v with
  | nil => rfl
  | cons c v ih =>
    simp only [List.all_cons, Bool.and_eq_true] at h
    rw [escape_cons, escapeChar_space h.1, ih h.2]
    rfl

theorem escape_not_blank {v : Str} (h : v.all isPugiSpace = false) (q : Str) : ∃ c t, skipWs (escape false v ++ q) = c :: t ∧ c ≠ '<' := by
  induction v with
  | nil => simp at h
  | cons c v ih =>
    by_cases hc : isPugiSpace c = true
    · rw [List.all_cons, hc, Bool.true_and] at h
      rw [escape_cons, escapeChar_space hc, List.append_assoc, List.singleton_append, skipWs_space hc]
      exact ih h
    · rw [escape_cons]
      rcases escapeChar_head false c with e | ⟨t, e, _⟩
      · rw [e, List.append_assoc, List.singleton_append, skipWs_cons (by simpa using hc)]
        refine ⟨_, _, rfl, ?_⟩
        rintro rfl
        revert e
        decide
      · rw [e, List.append_assoc, List.cons_append, skipWs_cons (by decide)]
        exact ⟨_, _, rfl, by decide⟩

theorem escape_head_lt {v : Str} {c : Char} {t : Str} (h : escape false v = c :: t) : c ≠ '<' := by
  cases v with
  | nil => cases h
  | cons d v =>
    rw [escape_cons] at h
    rcases escapeChar_head false d with e | ⟨u, e, _⟩
    · rw [e] at h
      injection h with h _
      subst h
      rintro rfl
      revert e
      decide
    · rw [e] at h
      injection h with h _
      subst h
      decide

theorem eol_zero {v : Str} (h : '\x00' ∉ v) : '\x00' ∉ eol v := by
  induction v using eol.induct with
  | case1 => simp [eol]
  | case2 s ih =>
    rw [eol]
    simp only [List.mem_cons, not_or] at h ⊢
    exact ⟨by decide, ih h.2.2⟩
  | case3 c s hs ih =>
    rw [eol.eq_3 c s hs]
    simp only [List.mem_cons, not_or] at h ⊢
    refine ⟨?_, ih h.2⟩
    split
    · decide
    · exact h.1

/-- Add nodes. -/
def Parsing.addAll (st : Parsing) : List Node → Parsing
  | [] => st
  | n :: ns => (st.add n).addAll ns

/-- Text inside an element. -/
theorem Turns.text {v : Str} (hv : '\x00' ∉ v) {st : Parsing} (hst : st.opened ≠ []) (q : Str) :
    Turns st (escape false v ++ '<' :: q) (st.addAll (reloadAll [.text false v])) ('<' :: q) := by
  by_cases hb : v.all isPugiSpace = true
  · rw [reloadAll, if_pos hb, reloadAll, escape_blank hb]
    exact Turns.blank hb _ _
  · have hb' : v.all isPugiSpace = false := by simpa using hb
    rw [reloadAll, if_neg hb, reloadAll]
    show Turns _ _ (st.add (.text false (eol v))) _
    refine .one (by simp) ?_
    obtain ⟨c, t, hk, hc⟩ := escape_not_blank hb' ('<' :: q)
    have hp := pcdata_escape v q
    have hl : ∀ u, escape false v ++ '<' :: q ≠ '<' :: u := by
      intro u e
      cases he : escape false v with
      | nil =>
        cases v with
        | nil => simp at hb'
        | cons d v =>
          rw [escape_cons] at he
          rcases escapeChar_head false d with e' | ⟨u, e', _⟩ <;> (rw [e'] at he; cases he)
      | cons d u' =>
        have := escape_head_lt he
        rw [he, List.cons_append] at e
        injection e with e _
        exact this e
    unfold turn
    split
    · rename_i e
      exact absurd e (hl _)
    · rw [hk]
      split
      · rename_i e
        cases e
      · rename_i e
        injection e with e _
        exact absurd e hc
      · have : st.opened.isEmpty = false := by
          cases ho : st.opened with
          | nil => exact absurd ho hst
          | cons _ _ => rfl
        rw [this, if_neg (by decide), hp]
        show Except.ok (st.add (.text false (zeroTerminated (eol v))), '<' :: q) = _
        rw [zeroTerminated_eq (eol_zero hv)]

/-! ## The tree -/

theorem addAll_append (st : Parsing) (a b : List Node) : st.addAll (a ++ b) = (st.addAll a).addAll b := by
  induction a generalizing st with
  | nil => rfl
  | cons n a ih => exact ih _

theorem reloadAll_step (c : Node) (cs : List Node) : reloadAll (c :: cs) = reloadAll [c] ++ reloadAll cs := by
  cases c with
  | element n as ds => rfl
  | text cd v =>
    cases cd with
    | true => rfl
    | false =>
      rw [reloadAll, reloadAll]
      split <;> rfl

theorem reloadAll_single {c : Node} (h : c.isPcdata = false) : reloadAll [c] = [reload c] := by
  cases c with
  | element n as ds => rfl
  | text cd v =>
    cases cd with
    | true => rfl
    | false => cases h

theorem add_opened (st : Parsing) (n : Node) : st.opened ≠ [] → (st.add n).opened ≠ [] := by
  unfold Parsing.add
  cases st.opened with
  | nil => exact fun h => absurd rfl h
  | cons e es => exact fun _ => by simp

theorem addAll_opened (st : Parsing) (ns : List Node) (h : st.opened ≠ []) : (st.addAll ns).opened ≠ [] := by
  induction ns generalizing st with
  | nil => exact h
  | cons n ns ih => exact ih _ (add_opened st n h)

theorem push_addAll (os : List OpenElement) (top : List Node) (n : Str) (as : List (Str × Str)) (ns cs : List Node) :
    (⟨⟨n, as, cs⟩ :: os, top⟩ : Parsing).addAll ns = ⟨⟨n, as, cs ++ ns⟩ :: os, top⟩ := by
  induction ns generalizing cs with
  | nil => simp [Parsing.addAll]
  | cons m ns ih =>
    show (⟨⟨n, as, cs ++ [m]⟩ :: os, top⟩ : Parsing).addAll ns = _
    rw [ih, List.append_assoc]
    rfl

theorem top_addAll (top ns : List Node) : (⟨[], top⟩ : Parsing).addAll ns = ⟨[], top ++ ns⟩ := by
  induction ns generalizing top with
  | nil => simp [Parsing.addAll]
  | cons m ns ih =>
    show (⟨[], top ++ [m]⟩ : Parsing).addAll ns = _
    rw [ih, List.append_assoc]
    rfl

/-- The indentation is white space. -/
def Format.Blank (f : Format) : Prop := f.indent.all isPugiSpace = true

theorem leadText_blank {f : Format} (hf : f.Blank) (d : Nat) (l : Lead) : (leadText f d l).all isPugiSpace = true := by
  unfold leadText
  rw [List.all_append, Bool.and_eq_true]
  constructor
  · split
    · rfl
    · rfl
  · split
    · induction d with
      | zero => rfl
      | succ d ih =>
        rw [List.replicate_succ, List.flatten_cons, List.all_append, Bool.and_eq_true]
        exact ⟨hf, ih⟩
    · rfl

/-- `indent_flags` after a node. -/
def leadAfter : Node → Lead
  | .text _ _ => ⟨false, false⟩
  | .element _ _ _ => ⟨true, true⟩

theorem printNodes_nil (f : Format) (d : Nat) (l : Lead) : printNodes f d l [] = ([], l) := by
  rw [printNodes.eq_def]

theorem printNodes_cons (f : Format) (d : Nat) (l : Lead) (c : Node) (cs : List Node) :
    printNodes f d l (c :: cs) = (printNode f d l c ++ (printNodes f d (leadAfter c) cs).1, (printNodes f d (leadAfter c) cs).2) := by
  rw [printNodes.eq_def]
  cases c <;> rfl

theorem cdataText_head (v r : Str) : ∃ t, cdataText v ++ r = '<' :: t := by
  unfold cdataText
  have e : "<![CDATA[".toList = '<' :: "![CDATA[".toList := by decide
  rw [e]
  exact ⟨_, rfl⟩

/-- What comes after a text begins with a tag. -/
theorem printNodes_lt {cs : List Node} (f : Format) (d dd : Nat) (q : Str) (h : ∀ c ∈ cs.head?, c.isPcdata = false) :
    ∃ t, (printNodes f d ⟨false, false⟩ cs).1 ++ (leadText f dd (printNodes f d ⟨false, false⟩ cs).2 ++ '<' :: q) = '<' :: t := by
  cases cs with
  | nil => exact ⟨q, by rw [printNodes_nil]; rfl⟩
  | cons c cs =>
    rw [printNodes_cons]
    dsimp only
    rw [List.append_assoc]
    have hc := h c rfl
    cases c with
    | element n as ds =>
      rw [printNode]
      exact ⟨_, rfl⟩
    | text cd v =>
      cases cd with
      | false => cases hc
      | true =>
        rw [printNode]
        exact cdataText_head _ _

mutual
/-- One element or CDATA section. -/
theorem node_turns {f : Format} (hf : f.Blank) : ∀ (n : Node), Writable n → n.isPcdata = false → ∀ (d : Nat) (l : Lead) (st : Parsing) (r : Str),
    Turns st (printNode f d l n ++ r) (st.add (reload n)) r
  | .text false v, _, h, _, _, _, _ => by cases h
  | .text true v, hw, _, d, l, st, r => by
    rw [Writable] at hw
    rw [printNode, reload]
    obtain ⟨t, e⟩ := cdataText_head v r
    have h := cdata_turn hw.2.1 hw.2.2 st r
    rw [e] at h ⊢
    exact .one (by simp) h
  | .element n as [], hw, _, d, l, st, r => by
    rw [Writable] at hw
    obtain ⟨hn, ha, _, _⟩ := hw
    rw [printNode, reload, reloadAll, List.append_assoc]
    refine (Turns.blank (leadText_blank hf d l) st _).trans ?_
    rw [List.isEmpty_nil, if_pos rfl]
    have he : AttrsEnd true ((if f.raw then [] else [' ']) ++ ['/', '>']) := by
      cases f.raw with
      | true => exact Or.inl ⟨rfl, Or.inl rfl⟩
      | false => exact Or.inl ⟨rfl, Or.inr rfl⟩
    have hstart := startTag_read hn ha he st r
    refine .one (by simp) (Eq.trans (congrArg _ ?_) hstart)
    simp only [List.append_assoc, List.append_eq]
  | .element n as (c :: cs), hw, _, d, l, st, r => by
    rw [Writable] at hw
    obtain ⟨hn, ha, ht, hc⟩ := hw
    rw [printNode, reload, List.append_assoc]
    refine (Turns.blank (leadText_blank hf d l) st _).trans ?_
    rw [if_neg (by simp)]
    have he : AttrsEnd false ['>'] := Or.inr ⟨rfl, rfl⟩
    generalize hP : printNodes f (d + 1) ⟨true, true⟩ (c :: cs) = P
    have hbody := nodes_turns hf (c :: cs) ht hc (d + 1) d ⟨true, true⟩ (st.push n as) ('/' :: (n ++ '>' :: r)) (by simp [Parsing.push])
    rw [hP] at hbody
    have hstart := startTag_read hn ha he st (P.1 ++ (leadText f d P.2 ++ '<' :: '/' :: (n ++ '>' :: r)))
    refine Turns.step (by simp) (Eq.trans (congrArg _ ?_) hstart) ?_
    · simp only [List.append_assoc, List.append_eq, List.cons_append, List.nil_append]
    · refine hbody.trans ?_
      obtain ⟨os, top⟩ := st
      show Turns ((⟨⟨n, as, []⟩ :: os, top⟩ : Parsing).addAll _) _ _ _
      rw [push_addAll, List.nil_append]
      exact .one (by simp) (endTag_read hn as _ os top r)

/-- The children of an element. -/
theorem nodes_turns {f : Format} (hf : f.Blank) : ∀ (cs : List Node), TextsApart cs → AllWritable cs → ∀ (d dd : Nat) (l : Lead) (st : Parsing) (q : Str), st.opened ≠ [] →
    Turns st ((printNodes f d l cs).1 ++ (leadText f dd (printNodes f d l cs).2 ++ '<' :: q)) (st.addAll (reloadAll cs)) ('<' :: q)
  | [], _, _, d, dd, l, st, q, _ => by
    rw [printNodes_nil, reloadAll]
    exact Turns.blank (leadText_blank hf dd l) st q
  | .text false v :: cs, ht, hw, d, dd, l, st, q, hst => by
    rw [AllWritable] at hw
    have ht' : TextsApart cs ∧ ∀ c ∈ cs.head?, c.isPcdata = false := by
      cases cs with
      | nil => exact ⟨trivial, by simp⟩
      | cons c cs =>
        rw [TextsApart] at ht
        refine ⟨ht.2, ?_⟩
        intro x hx
        cases hx
        exact ht.1 rfl
    rw [printNodes_cons, reloadAll_step, addAll_append, printNode]
    dsimp only
    rw [List.append_assoc]
    have ih := nodes_turns hf cs ht'.1 hw.2 d dd ⟨false, false⟩ (st.addAll (reloadAll [.text false v])) q (addAll_opened _ _ hst)
    obtain ⟨t, e⟩ := printNodes_lt f d dd q ht'.2
    rw [show leadAfter (.text false v) = ⟨false, false⟩ from rfl]
    rw [e] at ih ⊢
    have hv := hw.1
    rw [Writable] at hv
    exact (Turns.text hv hst t).trans ih
  | .text true v :: cs, ht, hw, d, dd, l, st, q, hst => by
    rw [AllWritable] at hw
    have ht' : TextsApart cs := by
      cases cs with
      | nil => trivial
      | cons c cs => exact ht.2
    rw [printNodes_cons, reloadAll_step, addAll_append]
    dsimp only
    rw [List.append_assoc]
    refine (node_turns hf (.text true v) hw.1 rfl d l st _).trans ?_
    rw [reloadAll_single rfl]
    exact nodes_turns hf cs ht' hw.2 d dd _ _ q (add_opened _ _ hst)
  | .element n as ds :: cs, ht, hw, d, dd, l, st, q, hst => by
    rw [AllWritable] at hw
    have ht' : TextsApart cs := by
      cases cs with
      | nil => trivial
      | cons c cs => exact ht.2
    rw [printNodes_cons, reloadAll_step, addAll_append]
    dsimp only
    rw [List.append_assoc]
    refine (node_turns hf (.element n as ds) hw.1 rfl d l st _).trans ?_
    rw [reloadAll_single rfl]
    exact nodes_turns hf cs ht' hw.2 d dd _ _ q (add_opened _ _ hst)
end

/-- The children of a document. -/
theorem doc_turns {f : Format} (hf : f.Blank) : ∀ (cs : List Node), (∀ n ∈ cs, n.isPcdata = false) → AllWritable cs → ∀ (d : Nat) (l : Lead) (st : Parsing) (r : Str),
    Turns st ((printNodes f d l cs).1 ++ r) (st.addAll (reloadAll cs)) r
  | [], _, _, d, l, st, r => by
    rw [printNodes_nil, reloadAll]
    exact .refl _ _
  | c :: cs, ht, hw, d, l, st, r => by
    rw [AllWritable] at hw
    have hc := ht c (List.mem_cons_self ..)
    rw [printNodes_cons, reloadAll_step, addAll_append]
    dsimp only
    rw [List.append_assoc]
    refine (node_turns hf c hw.1 hc d l st _).trans ?_
    rw [reloadAll_single hc]
    exact doc_turns hf cs (fun n hn => ht n (List.mem_cons_of_mem _ hn)) hw.2 d _ _ r

/-! ## No zeros -/

theorem not_mem_append {c : Char} {a b : Str} (ha : c ∉ a) (hb : c ∉ b) : c ∉ a ++ b := by
  rw [List.mem_append, not_or]
  exact ⟨ha, hb⟩

theorem not_mem_cons {c d : Char} {b : Str} (ha : c ≠ d) (hb : c ∉ b) : c ∉ d :: b := by
  rw [List.mem_cons, not_or]
  exact ⟨ha, hb⟩

theorem digits_ne_zero : ∀ n < 32, Char.ofNat (n / 10 + 48) ≠ '\x00' ∧ Char.ofNat (n % 10 + 48) ≠ '\x00' := by decide

theorem escapeChar_zero {a : Bool} {c : Char} (h : c ≠ '\x00') : '\x00' ∉ escapeChar a c := by
  by_cases hs : isSpecial a c = true
  · by_cases h1 : c = '&'
    · subst h1; cases a <;> decide
    by_cases h2 : c = '<'
    · subst h2; cases a <;> decide
    by_cases h3 : c = '>'
    · subst h3; cases a <;> decide
    by_cases h4 : c = '"'
    · subst h4; cases a <;> decide
    by_cases h5 : c = '\''
    · subst h5; cases a <;> decide
    obtain ⟨hn, e⟩ := escapeChar_control hs h1 h2 h3 h4 h5
    obtain ⟨d1, d2⟩ := digits_ne_zero _ hn
    rw [e]
    exact not_mem_cons (by decide) (not_mem_cons (by decide) (not_mem_cons d1.symm (not_mem_cons d2.symm (not_mem_cons (by decide) (by simp)))))
  · have e : escapeChar a c = [c] := by
      unfold escapeChar
      rw [if_neg hs]
    rw [e]
    exact not_mem_cons h.symm (by simp)

theorem escape_zero {a : Bool} {v : Str} (h : '\x00' ∉ v) : '\x00' ∉ escape a v := by
  induction v with
  | nil => simp [escape]
  | cons c v ih =>
    rw [List.mem_cons, not_or] at h
    rw [escape_cons]
    exact not_mem_append (escapeChar_zero (Ne.symm h.1)) (ih h.2)

theorem name_zero {n : Str} (h : XmlName n) : '\x00' ∉ n := by
  obtain ⟨_, _, _, _, hs⟩ := name_symbols h
  intro hm
  exact absurd (hs _ hm) (by decide)

theorem attrsText_zero {as : List (Str × Str)} (h : ∀ a ∈ as, XmlName a.1 ∧ '\x00' ∉ a.2) : '\x00' ∉ attrsText as := by
  induction as with
  | nil => simp [attrsText]
  | cons a as ih =>
    obtain ⟨hn, hv⟩ := h a (List.mem_cons_self ..)
    show '\x00' ∉ ' ' :: (a.1 ++ '=' :: '"' :: (escape true a.2 ++ ['"'])) ++ attrsText as
    refine not_mem_append ?_ (ih (fun x hx => h x (List.mem_cons_of_mem _ hx)))
    exact not_mem_cons (by decide) (not_mem_append (name_zero hn) (not_mem_cons (by decide) (not_mem_cons (by decide) (not_mem_append (escape_zero hv) (by decide)))))

theorem blank_zero {w : Str} (h : w.all isPugiSpace = true) : '\x00' ∉ w := by
  intro hm
  rw [List.all_eq_true] at h
  exact absurd (h _ hm) (by decide)

theorem cdataText_zero {v : Str} (h1 : '\x00' ∉ v) (h2 : ¬ [']', ']', '>'] <:+: v) : '\x00' ∉ cdataText v := by
  unfold cdataText
  rw [cdataBody_eq v h2]
  exact not_mem_append (not_mem_append (by decide) h1) (by decide)

mutual
theorem node_zero {f : Format} (hf : f.Blank) : ∀ (n : Node), Writable n → ∀ (d : Nat) (l : Lead), '\x00' ∉ printNode f d l n
  | .text false v, hw, d, l => by
    rw [Writable] at hw
    rw [printNode]
    exact escape_zero hw
  | .text true v, hw, d, l => by
    rw [Writable] at hw
    rw [printNode]
    exact cdataText_zero hw.1 hw.2.2
  | .element n as cs, hw, d, l => by
    rw [Writable] at hw
    obtain ⟨hn, ha, _, hc⟩ := hw
    have h1 := nodes_zero hf cs hc (d + 1) ⟨true, true⟩
    rw [printNode]
    refine not_mem_append (blank_zero (leadText_blank hf d l)) (not_mem_cons (by decide) (not_mem_append (name_zero hn) (not_mem_append (attrsText_zero ha) ?_)))
    split
    · split
      · decide
      · decide
    · exact not_mem_cons (by decide) (not_mem_append h1 (not_mem_append (blank_zero (leadText_blank hf _ _))
        (not_mem_cons (by decide) (not_mem_cons (by decide) (not_mem_append (name_zero hn) (by decide))))))

theorem nodes_zero {f : Format} (hf : f.Blank) : ∀ (cs : List Node), AllWritable cs → ∀ (d : Nat) (l : Lead), '\x00' ∉ (printNodes f d l cs).1
  | [], _, d, l => by
    rw [printNodes_nil]
    simp
  | c :: cs, hw, d, l => by
    rw [AllWritable] at hw
    rw [printNodes_cons]
    exact not_mem_append (node_zero hf c hw.1 d l) (nodes_zero hf cs hw.2 d _)
end

/-! ## Whole documents -/

theorem reloadAll_any {doc : List Node} (h : DocumentNodes doc) : (reloadAll doc).any Node.isElement = true := by
  obtain ⟨h1, n, hn, he⟩ := h
  induction doc with
  | nil => cases hn
  | cons c cs ih =>
    rw [reloadAll_step, reloadAll_single (h1 c (List.mem_cons_self ..)), List.any_append, Bool.or_eq_true]
    rcases List.mem_cons.1 hn with rfl | hn
    · left
      cases n with
      | element _ _ _ => rfl
      | text _ _ => cases he
    · exact Or.inr (ih (fun x hx => h1 x (List.mem_cons_of_mem _ hx)) hn)

/-- The text of a document begins with `<`. -/
theorem saveText_head {decl : Bool} {f : Format} {doc : List Node} (h : DocumentNodes doc) : ∃ t, saveText decl f doc = '<' :: t := by
  unfold saveText
  cases decl with
  | true =>
    have e : "<?xml version=\"1.0\"?>".toList = '<' :: "?xml version=\"1.0\"?>".toList := by decide
    rw [if_pos rfl, e]
    exact ⟨_, rfl⟩
  | false =>
    rw [if_neg (by decide), List.nil_append]
    obtain ⟨h1, n, hn, he⟩ := h
    cases doc with
    | nil => cases hn
    | cons c cs =>
      rw [printNodes_cons]
      have hc := h1 c (List.mem_cons_self ..)
      cases c with
      | element m as ds =>
        rw [printNode]
        exact ⟨_, rfl⟩
      | text cd v =>
        cases cd with
        | false => cases hc
        | true =>
          rw [printNode]
          dsimp only
          rw [List.append_assoc]
          exact cdataText_head _ _

theorem saveText_zero {decl : Bool} {f : Format} (hf : f.Blank) {doc : List Node} (hw : AllWritable doc) : '\x00' ∉ saveText decl f doc := by
  unfold saveText
  refine not_mem_append ?_ (not_mem_append (nodes_zero hf doc hw _ _) ?_)
  · split
    · exact not_mem_append (by decide) (by split <;> decide)
    · simp
  · split
    · decide
    · simp

theorem declaration_turn (st : Parsing) (s : Str) : turn st ("<?xml version=\"1.0\"?>".toList ++ s) = .ok (st, s) := by
  have e : "<?xml version=\"1.0\"?>".toList = ['<', '?', 'x', 'm', 'l', ' ', 'v', 'e', 'r', 's', 'i', 'o', 'n', '=', '"', '1', '.', '0', '"', '?', '>'] := by decide
  rw [e]
  rfl

theorem parseText_lt (t : Str) : parseText ('<' :: t) =
    match parseTree ((zeroTerminated ('<' :: t)).length + 1) ⟨[], []⟩ (zeroTerminated ('<' :: t)) with
    | .error e => .error e
    | .ok st => if st.top.any Node.isElement then .ok st.top else .error .noDocumentElement := rfl

/-- **Saving and loading.** -/
theorem parseText_saveText (decl : Bool) {f : Format} (hf : f.Blank) {doc : List Node} (h : DocumentNodes doc) (hw : AllWritable doc) :
    parseText (saveText decl f doc) = .ok (reloadAll doc) := by
  have hz := saveText_zero (decl := decl) hf hw
  obtain ⟨t, et⟩ := saveText_head (decl := decl) (f := f) h
  have hturns : Turns ⟨[], []⟩ (saveText decl f doc) ⟨[], reloadAll doc⟩ [] := by
    have hend : (if (printNodes f 0 ⟨false, true⟩ doc).2.newline && !f.raw then ['\n'] else []).all isPugiSpace = true := by
      split <;> rfl
    have hdoc := doc_turns hf doc h.1 hw 0 ⟨false, true⟩ ⟨[], []⟩ (if (printNodes f 0 ⟨false, true⟩ doc).2.newline && !f.raw then ['\n'] else [])
    rw [top_addAll, List.nil_append] at hdoc
    have hall := hdoc.trans (Turns.blank_end hend _)
    unfold saveText
    cases decl with
    | false => exact hall
    | true =>
      rw [if_pos rfl, List.append_assoc]
      obtain ⟨u, eu⟩ := saveText_head (decl := false) (f := f) h
      unfold saveText at eu
      rw [if_neg (by decide), List.nil_append] at eu
      rw [eu] at hall ⊢
      have hd := declaration_turn ⟨[], []⟩ ((if f.raw then [] else ['\n']) ++ '<' :: u)
      refine .step (by simp) hd ?_
      refine (Turns.blank (by split <;> rfl) _ _).trans hall
  obtain ⟨j, hj, e⟩ := hturns.parse ((saveText decl f doc).length + 1) (by omega)
  obtain ⟨j, rfl⟩ : ∃ i, j = i + 1 := ⟨j - 1, by simp at hj; omega⟩
  rw [et] at hz e ⊢
  rw [parseText_lt]
  rw [zeroTerminated_eq hz, e, parseTree]
  dsimp only
  rw [List.isEmpty_nil, if_pos rfl]
  dsimp only
  rw [reloadAll_any h, if_pos rfl]

theorem saveText_ne_nil {decl : Bool} {f : Format} {doc : List Node} (h : DocumentNodes doc) : saveText decl f doc ≠ [] := by
  obtain ⟨t, et⟩ := saveText_head (decl := decl) (f := f) h
  rw [et]
  simp

theorem load_builder {doc : List Node} (h : DocumentNodes doc) (hw : AllWritable doc) (b : Bool) : loadXml (builderXml b doc) = .ok (reloadAll doc) := by
  unfold builderXml
  rw [loadXml_encode (saveText_ne_nil h)]
  exact parseText_saveText false (by cases b <;> rfl) h hw

theorem load_metadata {doc : List Node} (h : DocumentNodes doc) (hw : AllWritable doc) : loadXml (metadataXml doc) = .ok (reloadAll doc) := by
  unfold metadataXml
  rw [loadXml_encode (saveText_ne_nil h)]
  exact parseText_saveText true (f := ⟨false, [' ']⟩) rfl h hw

/-! ## Trees that are preserved -/

theorem eol_eq {v : Str} (h : '\r' ∉ v) : eol v = v := by
  induction v with
  | nil => rfl
  | cons c v ih =>
    rw [List.mem_cons, not_or] at h
    rw [eol_cons (Ne.symm h.1), ih h.2]

theorem not_blank {v : Str} (h : ∃ c ∈ v, c ∉ [' ', '\t', '\n', '\r']) : v.all isPugiSpace = false := by
  obtain ⟨c, hc, hn⟩ := h
  rw [List.all_eq_false]
  refine ⟨c, hc, ?_⟩
  unfold isPugiSpace
  simpa [and_assoc] using hn

mutual
theorem reload_preserved : ∀ (n : Node), Preserved n → reload n = n
  | .text c v, _ => by rw [reload]
  | .element n as cs, h => by
    rw [Preserved] at h
    rw [reload, reloadAll_preserved cs h]

theorem reloadAll_preserved : ∀ (cs : List Node), AllPreserved cs → reloadAll cs = cs
  | [], _ => by rw [reloadAll]
  | c :: cs, h => by
    rw [AllPreserved] at h
    have ih := reloadAll_preserved cs h.2
    match c, h.1 with
    | .text false v, hc =>
      rw [Preserved] at hc
      rw [reloadAll, not_blank hc.2, if_neg (by decide), eol_eq hc.1, ih]
    | .text true v, hc =>
      rw [reloadAll_step, reloadAll_single rfl, ih]
      rfl
    | .element n as ds, hc =>
      have := reload_preserved (.element n as ds) hc
      rw [reloadAll_step, reloadAll_single rfl, this, ih]
      rfl
end

end Verif.Xml
