import Verif.Spec.XmlBroken
import Verif.Proof.XmlPrefix

/-!
# Texts that are not well-formed are rejected
-/

namespace Verif.Xml
open Spec

/-- The operation failed. -/
def Failed {α : Type} (r : Except XErr α) : Prop := ∃ e, r = .error e

theorem behind_none {pat : Str} : ∀ {s : Str}, ¬ pat <:+: s → behind pat s = none
  | [], _ => rfl
  | c :: s, h => by
    rw [behind, if_neg]
    · exact behind_none fun hi => h (hi.trans (List.suffix_cons c s).isInfix)
    · intro hp
      exact h (List.isPrefixOf_iff_prefix.1 hp).isInfix

theorem cdata_fails : ∀ {s : Str}, ¬ [']', ']', '>'] <:+: s → Failed (cdata s)
  | [], _ => ⟨_, by rw [cdata]⟩
  | c :: s, h => by
    obtain ⟨e, he⟩ := cdata_fails (s := s) fun hi => h (hi.trans (List.suffix_cons c s).isInfix)
    refine ⟨e, ?_⟩
    rw [cdata.eq_def]
    dsimp only
    split
    · split
      · exact he
      · rw [he]
        rfl
    · split
      · exact absurd (List.prefix_append [']', ']', '>'] _).isInfix h
      · rw [he]
        rfl

theorem take_name {m r : Str} (hm : ∀ d ∈ m, isSymbol d = true) (hr : ∀ c ∈ r.head?, isSymbol c = false) :
    (m ++ r).takeWhile isSymbol = m ∧ (m ++ r).dropWhile isSymbol = r := by
  cases r with
  | nil =>
    rw [List.append_nil]
    refine ⟨?_, ?_⟩
    · have := List.takeWhile_append_of_pos (l₂ := []) hm
      rwa [List.append_nil, List.takeWhile_nil, List.append_nil] at this
    · have := List.dropWhile_append_of_pos (l₂ := []) hm
      rwa [List.append_nil, List.dropWhile_nil] at this
  | cons c r => exact take_symbols hm (hr c rfl) r

theorem not_symbol {c : Char} (h : ¬ NameChar c) : isSymbol c = false := by
  cases e : isSymbol c with
  | false => rfl
  | true => exact absurd ((isSymbol_iff c).1 e) h

theorem skipWs_fixed {r : Str} (h : ∀ c ∈ r.head?, isPugiSpace c = false) : skipWs r = r := by
  cases r with
  | nil => rfl
  | cons c r => exact skipWs_cons (h c rfl) r

theorem space_mem {c : Char} (h : c ∉ [' ', '\t', '\n', '\r']) : isPugiSpace c = false := by
  cases e : isPugiSpace c with
  | false => rfl
  | true =>
    exfalso
    apply h
    simpa [isPugiSpace, or_assoc] using e

theorem oneAttr_noValue {k b r : Str} (hk : XmlName k) (hb : Blank b) (hr : ∀ c ∈ r.head?, c ∉ ['=', ' ', '\t', '\n', '\r'] ∧ (b = [] → ¬ NameChar c)) :
    Failed (oneAttr (k ++ (b ++ r))) := by
  obtain ⟨_, _, _, _, hs⟩ := name_symbols hk
  have h1 : ∀ c ∈ (b ++ r).head?, isSymbol c = false := by
    intro c hc
    cases b with
    | nil => exact not_symbol ((hr c hc).2 rfl)
    | cons d b =>
      rw [List.cons_append, List.head?_cons, Option.mem_some_iff] at hc
      exact (blank_not_symbol (hb c (hc ▸ List.mem_cons_self ..))).1
  have h2 := (take_name hs h1).2
  have h3 : skipWs (b ++ r) = r := by
    rw [skipWs_white hb]
    refine skipWs_fixed fun c hc => space_mem ?_
    have := (hr c hc).1
    intro hm
    exact this (List.mem_cons_of_mem _ hm)
  unfold oneAttr
  dsimp only
  rw [h2, h3]
  split
  · exact absurd (List.mem_cons_self ..) (hr '=' rfl).1
  · exact ⟨_, rfl⟩

theorem oneAttr_noQuotes {k b b2 r : Str} (hk : XmlName k) (hb : Blank b) (hb2 : Blank b2) (hr : ∀ c ∈ r.head?, c ∉ ['"', '\'', ' ', '\t', '\n', '\r']) :
    Failed (oneAttr (k ++ (b ++ '=' :: (b2 ++ r)))) := by
  obtain ⟨_, _, _, _, hs⟩ := name_symbols hk
  obtain ⟨d, u, e, hd⟩ := after_name hb (c := '=') (by decide) (b2 ++ r)
  have h2 := (take_symbols hs hd u).2
  have h3 : skipWs (d :: u) = '=' :: (b2 ++ r) := by
    rw [← e, skipWs_white hb, skipWs_cons (by decide)]
  have h4 : skipWs (b2 ++ r) = r := by
    rw [skipWs_white hb2]
    refine skipWs_fixed fun c hc => space_mem ?_
    intro hm
    exact hr c hc (List.mem_cons_of_mem _ (List.mem_cons_of_mem _ hm))
  unfold oneAttr
  dsimp only
  rw [e, h2, h3]
  split
  · rename_i t et
    injection et with _ et
    subst et
    rw [h4]
    split
    · rename_i q u'
      rw [if_neg]
      · exact ⟨_, rfl⟩
      · intro hq
        refine hr q rfl ?_
        simp only [List.mem_cons]
        rcases hq with h | h
        · exact Or.inl h
        · exact Or.inr (Or.inl h)
    · exact ⟨_, rfl⟩
  · exact ⟨_, rfl⟩

theorem attributes_one {w k r : Str} (hw : Blank w) (hk : XmlName k) (h : Failed (oneAttr (k ++ r))) : ∀ j, Failed (attributes j (w ++ (k ++ r)))
  | 0 => ⟨_, rfl⟩
  | j + 1 => by
    obtain ⟨c0, s0, e0, hst, _⟩ := name_symbols hk
    obtain ⟨e, he⟩ := h
    refine ⟨e, ?_⟩
    have hsp : isPugiSpace c0 = false := (symbol_facts (isSymbol_of_start hst)).2.2.2.2.2
    rw [attributes_skip hw, attributes]
    rw [e0, List.cons_append] at he ⊢
    rw [skipWs_cons hsp]
    dsimp only
    rw [if_pos hst, he]

theorem tagAttrs_next {as : List (Str × Str)} {a : Str} (h : TagAttrs as a) {w : Str} (hne : w ≠ []) (hw : Blank w) (x : Str) :
    ∃ c t, a ++ (w ++ x) = c :: t ∧ c ∈ [' ', '\t', '\n', '\r'] := by
  cases h with
  | nil hw' =>
    cases a with
    | nil =>
      cases w with
      | nil => exact absurd rfl hne
      | cons c w => exact ⟨c, _, rfl, hw c (List.mem_cons_self ..)⟩
    | cons c w' => exact ⟨c, _, rfl, hw' c (List.mem_cons_self ..)⟩
  | @cons w' _ _ _ _ _ _ _ _ hne' hw' =>
    cases w' with
    | nil => exact absurd rfl hne'
    | cons c w' => exact ⟨c, _, rfl, hw' c (List.mem_cons_self ..)⟩

theorem attributes_fail {as : List (Str × Str)} {a : Str} (h : TagAttrs as a) {w : Str} (hne : w ≠ []) (hw : Blank w) {x : Str} (hx : ∀ j, Failed (attributes j (w ++ x))) :
    ∀ j, Failed (attributes j (a ++ (w ++ x))) := by
  induction h with
  | nil hw' =>
    intro j
    rw [attributes_skip hw']
    exact hx j
  | @cons w' n b1 b2 v t a q as hne' hw' hn h1 h2 hq hv ha ih =>
    intro j
    cases j with
    | zero => exact ⟨_, rfl⟩
    | succ j =>
      obtain ⟨e', he'⟩ := ih j
      obtain ⟨c, u, e, hc⟩ := tagAttrs_next ha hne hw x
      obtain ⟨c0, s0, e0, hst, _⟩ := name_symbols hn
      have ho := oneAttr_text hn h1 h2 hq hv (not_start (blank_not_symbol hc).1) u
      have e1 : (w' ++ (n ++ (b1 ++ '=' :: (b2 ++ q :: (t ++ q :: a))))) ++ (w ++ x) =
          w' ++ (n ++ (b1 ++ '=' :: (b2 ++ q :: (t ++ q :: (a ++ (w ++ x)))))) := by simp
      refine ⟨e', ?_⟩
      rw [e1, attributes_skip hw', e]
      have hsp : isPugiSpace c0 = false := (symbol_facts (isSymbol_of_start hst)).2.2.2.2.2
      rw [attributes]
      rw [e0, List.cons_append] at ho ⊢
      rw [skipWs_cons hsp]
      dsimp only
      rw [if_pos hst, ho]
      dsimp only
      rw [← e, he']
      rfl

theorem startTag_fail {n a : Str} {as : List (Str × Str)} (hn : XmlName n) (ha : TagAttrs as a) {w : Str} (hne : w ≠ []) (hw : Blank w) {x : Str}
    (hx : ∀ j, Failed (attributes j (w ++ x))) (st : Parsing) : Failed (turn st ('<' :: (n ++ (a ++ (w ++ x))))) := by
  obtain ⟨c0, s0, e0, hst, hsy⟩ := name_symbols hn
  have htag : turn st ('<' :: (n ++ (a ++ (w ++ x)))) = startTag st (n ++ (a ++ (w ++ x))) := by
    subst e0
    show tag st (c0 :: (s0 ++ _)) = _
    rw [tag, if_pos hst]
    rfl
  rw [htag]
  obtain ⟨c, t, e, hc⟩ := tagAttrs_next ha hne hw x
  have hb := blank_not_symbol hc
  obtain ⟨er, her⟩ := attributes_fail ha hne hw hx (t.length + 1)
  rw [e] at her ⊢
  have hsk : attributes (t.length + 1) (c :: t) = attributes (t.length + 1) t :=
    attributes_skip (w := [c]) (by intro x hx; rw [List.mem_singleton] at hx; rw [hx]; exact hc) _ _
  rw [hsk] at her
  refine ⟨er, ?_⟩
  unfold startTag
  dsimp only
  rw [(take_symbols hsy hb.1 t).2]
  dsimp only
  rw [if_neg (by rintro rfl; exact absurd hc (by decide)), if_pos hb.2, her]

/-- The names of the open elements. -/
def Parsing.names (st : Parsing) : List Str := st.opened.map OpenElement.name

theorem wrong_fails {names : List Str} {q : Str} (h : Wrong names q) {st : Parsing} (hn : st.names = names) : AtMarkup q ∧ ∀ j, Failed (parseTree j st q) := by
  have key : ∀ {c : Char} {t : Str}, Failed (turn st (c :: t)) → ∀ j, Failed (parseTree j st (c :: t)) := by
    rintro c t ⟨e, he⟩ j
    cases j with
    | zero => exact ⟨_, rfl⟩
    | succ j => exact ⟨e, by rw [parseTree, he]⟩
  cases h with
  | cut =>
    refine ⟨Or.inl rfl, fun j => ⟨.endElementMismatch, ?_⟩⟩
    rw [parseTree_nil, if_neg]
    intro he
    rw [Parsing.names, List.isEmpty_iff.1 he] at hn
    cases hn
  | @mismatch _ m r hm hne hr =>
    obtain ⟨_, _, _, _, hs⟩ := name_symbols hm
    refine ⟨Or.inr ⟨_, rfl⟩, key ?_⟩
    rw [turn_lt, tag, if_neg (by decide), if_pos rfl]
    unfold endTag
    split
    · exact ⟨_, rfl⟩
    · rename_i e es heq
      rw [(take_name hs fun c hc => not_symbol (hr c hc)).1, if_neg]
      · exact ⟨_, rfl⟩
      · intro he
        apply hne
        rw [← hn, Parsing.names, heq, List.map_cons, List.head?_cons, he]
  | @markup _ r hr =>
    refine ⟨Or.inr ⟨_, rfl⟩, key ?_⟩
    rw [turn_lt]
    cases r with
    | nil => exact ⟨_, rfl⟩
    | cons c r =>
      obtain ⟨h1, h2⟩ := hr c rfl
      simp only [List.mem_cons, List.not_mem_nil, or_false, not_or] at h2
      rw [tag, if_neg (fun h => h1 ((isStartSymbol_iff c).1 h)), if_neg h2.1, if_neg h2.2.1, if_neg h2.2.2]
      exact ⟨_, rfl⟩
  | @comment _ r hr =>
    refine ⟨Or.inr ⟨_, rfl⟩, key ?_⟩
    rw [turn_lt, tag, if_neg (by decide), if_neg (by decide), if_neg (by decide), if_pos rfl, exclamation, behind_none hr]
    exact ⟨_, rfl⟩
  | @cdata _ r hr =>
    rw [cdata_head]
    refine ⟨Or.inr ⟨_, rfl⟩, key ?_⟩
    obtain ⟨e, he⟩ := cdata_fails hr
    rw [turn_lt, tag, if_neg (by decide), if_neg (by decide), if_neg (by decide), if_pos rfl]
    refine ⟨e, ?_⟩
    have e0 : exclamation st ('[' :: 'C' :: 'D' :: 'A' :: 'T' :: 'A' :: '[' :: r) = (match Xml.cdata r with
        | .error e => .error e
        | .ok (v, r) => .ok (st.add (.text true v), r)) := rfl
    rw [e0, he]
  | @instruction _ r hr =>
    refine ⟨Or.inr ⟨_, rfl⟩, key ?_⟩
    rw [turn_lt, tag, if_neg (by decide), if_neg (by decide), if_pos rfl]
    unfold question
    split
    · rw [behind_none fun hi => hr (hi.trans (List.dropWhile_suffix _).isInfix)]
      exact ⟨_, rfl⟩
    · exact ⟨_, rfl⟩
  | noValue hn' ha hne hw hk hb hr =>
    exact ⟨Or.inr ⟨_, rfl⟩, key (startTag_fail hn' ha hne hw (attributes_one hw hk (oneAttr_noValue hk hb hr)) st)⟩
  | noQuotes hn' ha hne hw hk hb hb2 hr =>
    exact ⟨Or.inr ⟨_, rfl⟩, key (startTag_fail hn' ha hne hw (attributes_one hw hk (oneAttr_noQuotes hk hb hb2 hr)) st)⟩

theorem addAll_names (st : Parsing) (ns : List Node) : (st.addAll ns).names = st.names := by
  induction ns generalizing st with
  | nil => rfl
  | cons n ns ih =>
    rw [Parsing.addAll, ih]
    obtain ⟨os, top⟩ := st
    cases os <;> rfl

theorem unfinished_turns {names : List Str} {t : Str} (h : Unfinished names t) : ∀ {q : Str}, AtMarkup q → ∃ st : Parsing, st.names = names ∧ Turns ⟨[], []⟩ (t ++ q) st q := by
  induction h with
  | @start ns t hc hp =>
    intro q hq
    exact ⟨_, addAll_names ⟨[], []⟩ ns, content_turns hc _ q hq (Or.inr hp)⟩
  | @doctype ns m b u hm hb hu hp =>
    intro q hq
    refine ⟨_, addAll_names ⟨[], []⟩ ns, ?_⟩
    have e : (m ++ ("<!DOCTYPE".toList ++ (b ++ '>' :: u))) ++ q = m ++ ("<!DOCTYPE".toList ++ (b ++ '>' :: (u ++ q))) := by simp
    rw [e]
    have h1 := content_turns hm ⟨[], []⟩ ("<!DOCTYPE".toList ++ (b ++ '>' :: (u ++ q))) (Or.inr ⟨_, doctype_head _⟩) (Or.inr (by simp))
    have h2 := content_turns hu ⟨[], []⟩ q hq (Or.inr hp)
    exact h1.trans (.step (by rw [doctype_head]; simp) (doctype_turn hb [] (u ++ q)) h2)
  | @enter names t n a b as cs _ hn ha hb ih =>
    intro q hq
    obtain ⟨st, hs, ht⟩ := ih (q := '<' :: (n ++ (a ++ '>' :: (b ++ q)))) (Or.inr ⟨_, rfl⟩)
    have e : (t ++ '<' :: (n ++ (a ++ '>' :: b))) ++ q = t ++ '<' :: (n ++ (a ++ '>' :: (b ++ q))) := by simp
    rw [e]
    have h1 := startTag_text hn ha false st (b ++ q)
    have h2 := content_turns hb (st.push n as) q hq (Or.inl (by simp [Parsing.push]))
    refine ⟨_, ?_, ht.trans (.step (by simp) h1 h2)⟩
    rw [addAll_names, ← hs]
    rfl

theorem unfinished_bom {names : List Str} {t : Str} (h : Unfinished names t) : ∀ {q : Str}, AtMarkup q → (t ++ q).head? ≠ some '﻿' := by
  induction h with
  | start hc hp => exact fun hq => content_bom hc hp hq
  | doctype hm _ _ _ =>
    intro q hq
    rw [List.append_assoc]
    refine content_bom hm (by simp) (Or.inr ?_)
    rw [List.append_assoc, doctype_head]
    exact ⟨_, rfl⟩
  | enter _ _ _ _ ih =>
    intro q hq
    rw [List.append_assoc]
    exact ih (Or.inr ⟨_, rfl⟩)

theorem failed_text {t : Str} (h : ∀ k, t.length < k → Failed (parseTree k ⟨[], []⟩ t)) (hz : '\x00' ∉ t) (hb : t.head? ≠ some '﻿') : Failed (parseText t) := by
  obtain ⟨e, he⟩ := h (t.length + 1) (by omega)
  refine ⟨e, ?_⟩
  have key : (match parseTree ((zeroTerminated t).length + 1) ⟨[], []⟩ (zeroTerminated t) with
      | .error e => .error e
      | .ok st => if st.top.any Node.isElement then .ok st.top else .error .noDocumentElement) = (.error e : Except XErr (List Node)) := by
    rw [zeroTerminated_eq hz, he]
  cases t with
  | nil => exact key
  | cons c t =>
    have hc : c ≠ '﻿' := by
      rintro rfl
      exact hb rfl
    unfold parseText
    split
    · rename_i r e
      injection e with e
      exact absurd e hc
    · exact key

/-- A text that goes on wrongly is not loaded. -/
theorem wrong_rejected {names : List Str} {t q : Str} (ht : Unfinished names t) (hq : Wrong names q) (hz : '\x00' ∉ t ++ q) : Failed (loadXml (encode (t ++ q))) := by
  have ha : AtMarkup q := by
    cases hq with
    | cut => exact Or.inl rfl
    | cdata => rw [cdata_head]; exact Or.inr ⟨_, rfl⟩
    | _ => exact Or.inr ⟨_, rfl⟩
  obtain ⟨st, hs, htu⟩ := unfinished_turns ht ha
  have hw := (wrong_fails hq hs).2
  have hp : Failed (parseText (t ++ q)) := by
    refine failed_text (fun k hk => ?_) hz (unfinished_bom ht ha)
    obtain ⟨j, _, e⟩ := htu.parse k hk
    rw [e]
    exact hw j
  cases e : t ++ q with
  | nil => exact ⟨.noDocumentElement, rfl⟩
  | cons c u =>
    rw [e] at hp
    rw [loadXml_encode (by simp)]
    exact hp

end Verif.Xml
