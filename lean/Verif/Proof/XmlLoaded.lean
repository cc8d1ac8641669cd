import Verif.Proof.XmlText

/-!
# What is known about a document that was loaded
-/

namespace Verif.Xml

open Verif.Spec

/-! ## Nothing is invented: the rest of a text has only characters of the text -/

theorem behind_subset {pat : Str} : ∀ {s r : Str}, behind pat s = some r → r ⊆ s
  | [], r, h => by simp [behind] at h
  | c :: s, r, h => by
    rw [behind] at h
    split at h
    · injection h with h
      rw [← h]
      exact List.drop_subset _ _
    · exact List.subset_cons_of_subset _ (behind_subset h)

theorem pcdata_subset : ∀ (k : Nat) (s : Str) {v r : Str}, pcdata k s = .ok (v, r) → r ⊆ s
  | k, [], v, r, h => by
    cases k <;> (rw [pcdata] at h; cases h; simp)
  | k + 1, c :: s, v, r, h => by
    rw [pcdata] at h
    exact List.subset_cons_of_subset _ (pcdata_subset k s h)
  | 0, c :: s, v, r, h => by
    have step : ∀ (k : Nat) (d : Char), before d (pcdata k s) = .ok (v, r) → r ⊆ c :: s := by
      intro k d hd
      obtain ⟨w, hw⟩ := before_inv hd
      exact List.subset_cons_of_subset _ (pcdata_subset k s hw)
    rw [pcdata] at h
    split at h
    · cases h
      exact List.Subset.refl _
    · split at h
      · exact step _ _ h
      · split at h
        · split at h
          · exact step _ _ h
          · split at h
            · cases h
            · exact step _ _ h
        · exact step _ _ h

theorem attrString_subset (q : Char) : ∀ (k : Nat) (s : Str) {v r : Str}, attrString q k s = .ok (v, r) → r ⊆ s
  | k, [], v, r, h => by
    cases k <;> (rw [attrString] at h; cases h)
  | k + 1, c :: s, v, r, h => by
    rw [attrString] at h
    exact List.subset_cons_of_subset _ (attrString_subset q k s h)
  | 0, c :: s, v, r, h => by
    have step : ∀ (k : Nat) (d : Char), before d (attrString q k s) = .ok (v, r) → r ⊆ c :: s := by
      intro k d hd
      obtain ⟨w, hw⟩ := before_inv hd
      exact List.subset_cons_of_subset _ (attrString_subset q k s hw)
    rw [attrString] at h
    split at h
    · cases h
      exact List.subset_cons_of_subset _ (List.Subset.refl _)
    · split at h
      · exact step _ _ h
      · split at h
        · exact step _ _ h
        · split at h
          · split at h
            · exact step _ _ h
            · split at h
              · cases h
              · exact step _ _ h
          · exact step _ _ h

theorem skipWs_subset (s : Str) : skipWs s ⊆ s := (List.dropWhile_sublist _).subset

theorem dropSymbol_subset (s : Str) : s.dropWhile isSymbol ⊆ s := (List.dropWhile_sublist _).subset

theorem subset_of_eq {a : Str} {c : Char} {t s : Str} (e : a = c :: t) (h : a ⊆ s) : t ⊆ s := by
  rw [e] at h
  exact List.Subset.trans (List.subset_cons_of_subset _ (List.Subset.refl _)) h

theorem not_zero {a b : Str} (h : a ⊆ b) (hb : '\x00' ∉ b) : '\x00' ∉ a := fun ha => hb (h ha)

/-! ## Values -/

theorem zeroTerminated_zero (s : Str) : '\x00' ∉ zeroTerminated s := by
  unfold zeroTerminated
  intro h
  have : ∀ (s : Str), '\x00' ∉ s.takeWhile (· ≠ '\x00') := by
    intro s
    induction s with
    | nil => simp
    | cons c s ih =>
      rw [List.takeWhile_cons]
      split
      · rename_i hc
        simp only [ne_eq, decide_not, Bool.not_eq_eq_eq_not, Bool.not_true, decide_eq_false_iff_not] at hc
        exact not_mem_cons (Ne.symm hc) ih
      · simp
  exact this s h

theorem take_symbols_all (s : Str) : ∀ d ∈ s.takeWhile isSymbol, isSymbol d = true := by
  induction s with
  | nil => simp
  | cons c s ih =>
    rw [List.takeWhile_cons]
    split
    · rename_i hc
      intro d hd
      rcases List.mem_cons.1 hd with rfl | hd
      · exact hc
      · exact ih d hd
    · simp

theorem name_take {c : Char} (h : isStartSymbol c = true) (t : Str) : XmlName ((c :: t).takeWhile isSymbol) := by
  rw [List.takeWhile_cons, if_pos (isSymbol_of_start h)]
  refine ⟨c, _, rfl, (isStartSymbol_iff c).1 h, fun d hd => (isSymbol_iff d).1 (take_symbols_all t d hd)⟩

theorem oneAttr_good {c : Char} (h : isStartSymbol c = true) {t : Str} {a : Str × Str} {r : Str} (ho : oneAttr (c :: t) = .ok (a, r)) :
    (XmlName a.1 ∧ '\x00' ∉ a.2) ∧ r ⊆ c :: t := by
  have hn := name_take h t
  generalize c :: t = s at hn ho
  unfold oneAttr at ho
  dsimp only at ho
  have h1 := List.Subset.trans (skipWs_subset (s.dropWhile isSymbol)) (dropSymbol_subset s)
  split at ho
  · rename_i u eu
    have h2 := List.Subset.trans (skipWs_subset u) (subset_of_eq eu h1)
    split at ho
    · rename_i q w ew
      have h3 := subset_of_eq ew h2
      split at ho
      · split at ho
        · cases ho
        · rename_i v r' ev
          have h4 := List.Subset.trans (attrString_subset q 0 w ev) h3
          split at ho
          · cases ho
          · cases ho
            exact ⟨⟨hn, zeroTerminated_zero v⟩, h4⟩
      · cases ho
    · cases ho
  · cases ho

theorem attributes_good : ∀ (k : Nat) (s : Str) {as : List (Str × Str)} {c : Bool} {r : Str}, attributes k s = .ok (as, c, r) →
    (∀ a ∈ as, XmlName a.1 ∧ '\x00' ∉ a.2) ∧ r ⊆ s
  | 0, s, as, c, r, h => by simp [attributes] at h
  | k + 1, s, as, c, r, h => by
    rw [attributes] at h
    have h1 := skipWs_subset s
    split at h
    · cases h
    · rename_i d t et
      rw [et] at h1
      have h2 : t ⊆ s := subset_of_eq rfl h1
      split at h
      · rename_i hd
        split at h
        · cases h
        · rename_i a r' ea
          obtain ⟨h3, h4⟩ := oneAttr_good hd ea
          cases hx : attributes k r' with
          | error e => rw [hx] at h; cases h
          | ok y =>
            obtain ⟨as', c', r''⟩ := y
            rw [hx] at h
            cases h
            obtain ⟨h5, h6⟩ := attributes_good k r' hx
            refine ⟨?_, List.Subset.trans h6 (List.Subset.trans h4 h1)⟩
            intro x hx
            rcases List.mem_cons.1 hx with rfl | hx
            · exact h3
            · exact h5 x hx
      · split at h
        · split at h
          · cases h
            exact ⟨by simp, subset_of_eq rfl h2⟩
          · cases h
        · split at h
          · cases h
            exact ⟨by simp, h2⟩
          · cases h

/-! ## CDATA -/

/-- A character of a CDATA section other than a new line is there in the text. -/
theorem cdata_cons : ∀ {s : Str} {d : Char} {v r : Str}, cdata s = .ok (d :: v, r) → d ≠ '\n' → ∃ s', s = d :: s' ∧ cdata s' = .ok (v, r)
  | [], d, v, r, h, _ => by simp [cdata] at h
  | c :: s, d, v, r, h, hd => by
    rw [cdata.eq_def] at h
    dsimp only at h
    split at h
    · split at h
      · rename_i t
        exfalso
        obtain ⟨s', e, _⟩ := cdata_cons h hd
        injection e with e _
        exact hd e.symm
      · cases hx : cdata s with
        | error e => rw [hx] at h; cases h
        | ok y =>
          rw [hx] at h
          cases h
          exact absurd rfl hd
    · split at h
      · cases h
      · cases hx : cdata s with
        | error e => rw [hx] at h; cases h
        | ok y =>
          rw [hx] at h
          cases h
          exact ⟨s, rfl, hx⟩

theorem cdata_good : ∀ {s : Str} {v r : Str}, cdata s = .ok (v, r) → v ⊆ '\n' :: s ∧ '\r' ∉ v ∧ (¬ [']', ']', '>'] <:+: v) ∧ r ⊆ s
  | [], v, r, h => by simp [cdata] at h
  | c :: s, v, r, h => by
    have h0 := h
    rw [cdata.eq_def] at h
    dsimp only at h
    have hinfix : ∀ {w : Str} {d : Char}, v = d :: w → (¬ [']', ']', '>'] <:+: w) → ¬ [']', ']', '>'] <:+: v := by
      intro w d e hw hv
      rw [e, List.infix_cons_iff] at hv
      rcases hv with hv | hv
      · obtain ⟨t, et⟩ := hv
        simp only [List.cons_append, List.nil_append] at et
        rw [e, ← et] at h0
        obtain ⟨s1, e1, h1⟩ := cdata_cons h0 (by decide)
        obtain ⟨s2, e2, h2⟩ := cdata_cons h1 (by decide)
        obtain ⟨s3, e3, h3⟩ := cdata_cons h2 (by decide)
        subst e3 e2
        rw [e1, cdata.eq_def] at h0
        simp at h0
      · exact hw hv
    split at h
    · rename_i hc
      split at h
      · rename_i t
        obtain ⟨h1, h2, h3, h4⟩ := cdata_good h
        refine ⟨?_, h2, h3, List.subset_cons_of_subset _ h4⟩
        intro x hx
        have := h1 hx
        simp only [List.mem_cons] at this ⊢
        rcases this with h | h | h
        · exact Or.inl h
        · exact Or.inl h
        · exact Or.inr (Or.inr (Or.inr h))
      · cases hx : cdata s with
        | error e => rw [hx] at h; cases h
        | ok y =>
          obtain ⟨w, r'⟩ := y
          rw [hx] at h
          obtain ⟨h1, h2, h3, h4⟩ := cdata_good hx
          cases h
          refine ⟨?_, not_mem_cons (by decide) h2, hinfix rfl h3, List.subset_cons_of_subset _ h4⟩
          intro x hx
          simp only [List.mem_cons] at hx ⊢
          rcases hx with h | h
          · exact Or.inl h
          · have := h1 h
            simp only [List.mem_cons] at this
            rcases this with h | h
            · exact Or.inl h
            · exact Or.inr (Or.inr h)
    · rename_i hc
      split at h
      · cases h
        refine ⟨by simp, by simp, by simp, ?_⟩
        exact List.subset_cons_of_subset _ (List.subset_cons_of_subset _ (List.subset_cons_of_subset _ (List.Subset.refl _)))
      · cases hx : cdata s with
        | error e => rw [hx] at h; cases h
        | ok y =>
          obtain ⟨w, r'⟩ := y
          rw [hx] at h
          obtain ⟨h1, h2, h3, h4⟩ := cdata_good hx
          cases h
          refine ⟨?_, not_mem_cons (fun e => hc e.symm) h2, hinfix rfl h3, List.subset_cons_of_subset _ h4⟩
          intro x hx
          simp only [List.mem_cons] at hx ⊢
          rcases hx with h | h
          · exact Or.inr (Or.inl h)
          · have := h1 h
            simp only [List.mem_cons] at this
            rcases this with h | h
            · exact Or.inl h
            · exact Or.inr (Or.inr h)

/-! ## Document types -/

theorem doctypeIgnore_subset : ∀ (k d : Nat) (s : Str) {r : Str}, doctypeIgnore k d s = some r → r ⊆ s
  | k, d, [], r, h => by cases k <;> simp [doctypeIgnore] at h
  | k + 1, d, c :: s, r, h => by
    rw [doctypeIgnore] at h
    exact List.subset_cons_of_subset _ (doctypeIgnore_subset k d s h)
  | 0, d, c :: s, r, h => by
    rw [doctypeIgnore] at h
    split at h
    · exact List.subset_cons_of_subset _ (doctypeIgnore_subset _ _ s h)
    · split at h
      · split at h
        · cases h
          exact List.subset_cons_of_subset _ (List.drop_subset _ _)
        · exact List.subset_cons_of_subset _ (doctypeIgnore_subset _ _ s h)
      · exact List.subset_cons_of_subset _ (doctypeIgnore_subset _ _ s h)

theorem doctypePrimitive_subset {s r : Str} (h : doctypePrimitive s = some r) : r ⊆ s := by
  unfold doctypePrimitive at h
  split at h
  · exact List.subset_cons_of_subset _ (behind_subset h)
  · exact List.subset_cons_of_subset _ (behind_subset h)
  · exact List.subset_cons_of_subset _ (List.subset_cons_of_subset _ (behind_subset h))
  · exact List.subset_cons_of_subset _ (List.subset_cons_of_subset _ (List.subset_cons_of_subset _ (List.subset_cons_of_subset _ (behind_subset h))))
  · cases h

theorem doctypeGroup_subset : ∀ (k d : Nat) (s : Str) {r : Str}, doctypeGroup k d s = some r → r ⊆ s
  | 0, d, s, r, h => by simp [doctypeGroup] at h
  | k + 1, d, [], r, h => by simp [doctypeGroup] at h
  | k + 1, d, c :: s, r, h => by
    rw [doctypeGroup] at h
    split at h
    · split at h
      · cases hx : doctypeIgnore 0 0 (s.drop 2) with
        | none => rw [hx] at h; cases h
        | some t =>
          rw [hx] at h
          exact List.Subset.trans (doctypeGroup_subset k d t h)
            (List.subset_cons_of_subset _ (List.Subset.trans (doctypeIgnore_subset _ _ _ hx) (List.drop_subset _ _)))
      · exact List.Subset.trans (doctypeGroup_subset k _ _ h) (List.subset_cons_of_subset _ (List.drop_subset _ _))
    · split at h
      · cases hx : doctypePrimitive (c :: s) with
        | none => rw [hx] at h; cases h
        | some t =>
          rw [hx] at h
          exact List.Subset.trans (doctypeGroup_subset k d t h) (doctypePrimitive_subset hx)
      · split at h
        · split at h
          · cases h
            exact List.subset_cons_of_subset _ (List.Subset.refl _)
          · exact List.subset_cons_of_subset _ (doctypeGroup_subset k _ _ h)
        · exact List.subset_cons_of_subset _ (doctypeGroup_subset k _ _ h)

/-! ## The invariant of the parser -/

mutual
/-- As `Writable`, without anything about neighbouring texts. -/
def Sound : Node → Prop
  | .text false v => '\x00' ∉ v
  | .text true v => '\x00' ∉ v ∧ '\r' ∉ v ∧ ¬ [']', ']', '>'] <:+: v
  | .element n as cs => XmlName n ∧ (∀ a ∈ as, XmlName a.1 ∧ '\x00' ∉ a.2) ∧ AllSound cs

/-- All nodes of a list. -/
def AllSound : List Node → Prop
  | [] => True
  | c :: cs => Sound c ∧ AllSound cs
end

theorem allSound_append {a b : List Node} (ha : AllSound a) (hb : AllSound b) : AllSound (a ++ b) := by
  induction a with
  | nil => exact hb
  | cons c a ih =>
    rw [AllSound] at ha
    rw [List.cons_append, AllSound]
    exact ⟨ha.1, ih ha.2⟩

/-- What holds for the state of the parser. -/
def SoundState (st : Parsing) : Prop :=
  (∀ n ∈ st.top, n.isPcdata = false) ∧ AllSound st.top ∧ ∀ e ∈ st.opened, XmlName e.name ∧ (∀ a ∈ e.attrs, XmlName a.1 ∧ '\x00' ∉ a.2) ∧ AllSound e.children

theorem SoundState.add {st : Parsing} (h : SoundState st) {n : Node} (hn : Sound n) (hp : st.opened = [] → n.isPcdata = false) : SoundState (st.add n) := by
  obtain ⟨os, top⟩ := st
  obtain ⟨h1, h2, h3⟩ := h
  cases os with
  | nil =>
    refine ⟨?_, allSound_append h2 ⟨hn, trivial⟩, h3⟩
    intro x hx
    rcases List.mem_append.1 hx with hx | hx
    · exact h1 x hx
    · rw [List.mem_singleton.1 hx]
      exact hp rfl
  | cons e es =>
    refine ⟨h1, h2, ?_⟩
    intro x hx
    rcases List.mem_cons.1 hx with rfl | hx
    · obtain ⟨a, b, c⟩ := h3 e (List.mem_cons_self ..)
      exact ⟨a, b, allSound_append c ⟨hn, trivial⟩⟩
    · exact h3 x (List.mem_cons_of_mem _ hx)

theorem SoundState.push {st : Parsing} (h : SoundState st) {n : Str} {as : List (Str × Str)} (hn : XmlName n) (ha : ∀ a ∈ as, XmlName a.1 ∧ '\x00' ∉ a.2) :
    SoundState (st.push n as) := by
  obtain ⟨h1, h2, h3⟩ := h
  refine ⟨h1, h2, ?_⟩
  intro x hx
  rcases List.mem_cons.1 hx with rfl | hx
  · exact ⟨hn, ha, trivial⟩
  · exact h3 x hx

theorem exclamation_sound {st st' : Parsing} (hst : SoundState st) {s r : Str} (hz : '\x00' ∉ s) (h : exclamation st s = .ok (st', r)) : SoundState st' ∧ r ⊆ s := by
  unfold exclamation at h
  split at h
  · split at h
    · cases h
    · rename_i hb
      cases h
      exact ⟨hst, List.subset_cons_of_subset _ (List.subset_cons_of_subset _ (behind_subset hb))⟩
  · cases h
  · rename_i t
    split at h
    · split at h
      · cases h
      · rename_i v r' hb
        cases h
        obtain ⟨h1, h2, h3, h4⟩ := cdata_good hb
        refine ⟨hst.add ⟨?_, h2, h3⟩ (fun _ => rfl), List.subset_cons_of_subset _ (List.Subset.trans h4 (List.drop_subset _ _))⟩
        intro hv
        rcases List.mem_cons.1 (h1 hv) with h | h
        · exact absurd h (by decide)
        · exact hz (List.mem_cons_of_mem _ (List.mem_of_mem_drop h))
    · cases h
  · split at h
    · split at h
      · cases h
      · split at h
        · cases h
        · rename_i hb
          cases h
          exact ⟨hst, doctypeGroup_subset _ _ _ hb⟩
    · cases h

theorem question_subset {s r : Str} (h : question s = .ok r) : r ⊆ s := by
  unfold question at h
  split at h
  · split at h
    · cases h
    · rename_i hb
      cases h
      exact List.Subset.trans (behind_subset hb) (dropSymbol_subset s)
  · cases h

theorem endTag_sound {st st' : Parsing} (hst : SoundState st) {s r : Str} (h : endTag st s = .ok (st', r)) : SoundState st' ∧ r ⊆ s := by
  obtain ⟨os, top⟩ := st
  unfold endTag at h
  cases os with
  | nil => cases h
  | cons e es =>
    dsimp only at h
    split at h
    · split at h
      · rename_i e'
        cases h
        obtain ⟨h1, h2, h3⟩ := hst
        obtain ⟨a, b, c⟩ := h3 e (List.mem_cons_self ..)
        refine ⟨SoundState.add (st := ⟨es, top⟩) (n := .element e.name e.attrs e.children) ⟨h1, h2, fun x hx => h3 x (List.mem_cons_of_mem _ hx)⟩ ⟨a, b, c⟩ (fun _ => rfl), ?_⟩
        exact subset_of_eq e' (List.Subset.trans (skipWs_subset _) (dropSymbol_subset s))
      · cases h
    · cases h

theorem startTag_sound {st st' : Parsing} (hst : SoundState st) {c : Char} (hc : isStartSymbol c = true) {t r : Str} (h : startTag st (c :: t) = .ok (st', r)) :
    SoundState st' ∧ r ⊆ c :: t := by
  have hn := name_take hc t
  generalize c :: t = s at hn h
  unfold startTag at h
  dsimp only at h
  have h1 := dropSymbol_subset s
  have hno : ∀ a ∈ ([] : List (Str × Str)), XmlName a.1 ∧ '\x00' ∉ a.2 := by simp
  split at h
  · cases h
  · rename_i d u e
    have h2 := subset_of_eq e h1
    split at h
    · cases h
      exact ⟨hst.push hn hno, h2⟩
    · split at h
      · split at h
        · cases h
        · rename_i as closed r' ha
          cases h
          obtain ⟨h3, h4⟩ := attributes_good _ _ ha
          refine ⟨?_, List.Subset.trans h4 h2⟩
          cases closed with
          | true => exact hst.add (n := .element _ as []) ⟨hn, h3, trivial⟩ (fun _ => rfl)
          | false => exact hst.push hn h3
      · split at h
        · split at h
          · cases h
            exact ⟨hst.add (n := .element _ [] []) ⟨hn, hno, trivial⟩ (fun _ => rfl), subset_of_eq rfl h2⟩
          · cases h
        · cases h

theorem tag_sound {st st' : Parsing} (hst : SoundState st) {s r : Str} (hz : '\x00' ∉ s) (h : tag st s = .ok (st', r)) : SoundState st' ∧ r ⊆ s := by
  unfold tag at h
  split at h
  · cases h
  · rename_i c t
    split at h
    · rename_i hc
      exact startTag_sound hst hc h
    · split at h
      · obtain ⟨h1, h2⟩ := endTag_sound hst h
        exact ⟨h1, List.subset_cons_of_subset _ h2⟩
      · split at h
        · cases hq : question t with
          | error e => rw [hq] at h; cases h
          | ok x =>
            rw [hq] at h
            cases h
            exact ⟨hst, List.subset_cons_of_subset _ (question_subset hq)⟩
        · split at h
          · obtain ⟨h1, h2⟩ := exclamation_sound hst (fun hm => hz (List.mem_cons_of_mem _ hm)) h
            exact ⟨h1, List.subset_cons_of_subset _ h2⟩
          · cases h

theorem turn_sound {st st' : Parsing} (hst : SoundState st) {s r : Str} (hz : '\x00' ∉ s) (h : turn st s = .ok (st', r)) : SoundState st' ∧ '\x00' ∉ r := by
  unfold turn at h
  split at h
  · obtain ⟨h1, h2⟩ := tag_sound hst (fun hm => hz (List.mem_cons_of_mem _ hm)) h
    exact ⟨h1, fun hm => hz (List.mem_cons_of_mem _ (h2 hm))⟩
  · split at h
    · cases h
      exact ⟨hst, by simp⟩
    · rename_i e
      cases h
      rw [← e]
      exact ⟨hst, not_zero (skipWs_subset s) hz⟩
    · split at h
      · cases h
        exact ⟨hst, not_zero (List.dropWhile_sublist _).subset hz⟩
      · rename_i ho
        cases hp : pcdata 0 s with
        | error e => rw [hp] at h; cases h
        | ok y =>
          obtain ⟨v, r'⟩ := y
          rw [hp] at h
          cases h
          refine ⟨hst.add (zeroTerminated_zero v) (fun e => ?_), not_zero (pcdata_subset 0 s hp) hz⟩
          rw [e] at ho
          exact absurd rfl ho

theorem parseTree_sound : ∀ (k : Nat) {st st' : Parsing} {s : Str}, SoundState st → '\x00' ∉ s → parseTree k st s = .ok st' → SoundState st'
  | k, st, st', [], hst, _, h => by
    rw [parseTree.eq_def] at h
    dsimp only at h
    split at h
    · cases h
      exact hst
    · cases h
  | 0, st, st', c :: s, _, _, h => by
    rw [parseTree] at h
    · cases h
    · simp
  | k + 1, st, st', c :: s, hst, hz, h => by
    rw [parseTree] at h
    split at h
    · cases h
    · rename_i ht
      obtain ⟨h1, h2⟩ := turn_sound hst hz ht
      exact parseTree_sound k h1 h2 h

theorem loadXml_sound {b : List UInt8} {doc : List Node} (h : loadXml b = .ok doc) : DocumentNodes doc ∧ AllSound doc := by
  unfold loadXml at h
  split at h
  · cases h
  · split at h
    · cases h
    · unfold parseText at h
      dsimp only at h
      split at h
      · cases h
      · rename_i st hp
        split at h
        · rename_i ha
          cases h
          obtain ⟨h1, h2, _⟩ := parseTree_sound _ (st := ⟨[], []⟩) ⟨by simp, trivial, by simp⟩ (zeroTerminated_zero _) hp
          exact ⟨⟨h1, List.any_eq_true.1 ha⟩, h2⟩
        · cases h

mutual
theorem sound_apart : ∀ (n : Node), Sound n → Separated n → Writable n
  | .text false v, h, _ => h
  | .text true v, h, _ => h
  | .element n as cs, h, ha => by
    rw [Sound] at h
    rw [Separated] at ha
    rw [Writable]
    exact ⟨h.1, h.2.1, ha.1, allSound_apart cs h.2.2 ha.2⟩

theorem allSound_apart : ∀ (cs : List Node), AllSound cs → AllSeparated cs → AllWritable cs
  | [], _, _ => trivial
  | c :: cs, h, ha => by
    rw [AllSound] at h
    rw [AllSeparated] at ha
    exact ⟨sound_apart c h.1 ha.1, allSound_apart cs h.2 ha.2⟩
end

/-! ## Saving and loading once more changes nothing -/

theorem eol_no_return (v : Str) : '\r' ∉ eol v := by
  induction v using eol.induct with
  | case1 => simp [eol]
  | case2 s ih =>
    rw [eol]
    exact not_mem_cons (by decide) ih
  | case3 c s hs ih =>
    rw [eol.eq_3 c s hs]
    refine not_mem_cons ?_ ih
    split
    · decide
    · rename_i h
      exact fun e => h e.symm

theorem eol_blank (v : Str) : (eol v).all isPugiSpace = v.all isPugiSpace := by
  induction v using eol.induct with
  | case1 => rfl
  | case2 s ih =>
    rw [eol, List.all_cons, List.all_cons, List.all_cons, ih]
    rfl
  | case3 c s hs ih =>
    rw [eol.eq_3 c s hs, List.all_cons, List.all_cons, ih]
    split
    · rename_i h
      rw [h]
      rfl
    · rfl

/-- After a text that stays, and before one. -/
theorem reloadAll_head {cs : List Node} (h : ∀ c ∈ cs.head?, c.isPcdata = false) : ∀ c ∈ (reloadAll cs).head?, c.isPcdata = false := by
  cases cs with
  | nil => simp [reloadAll]
  | cons c cs =>
    have hc := h c rfl
    rw [reloadAll_step, reloadAll_single hc]
    intro x hx
    cases hx
    cases c with
    | element _ _ _ => rfl
    | text cd v => cases cd with
      | true => rfl
      | false => cases hc

theorem textsApart_tail {c : Node} {cs : List Node} (h : TextsApart (c :: cs)) : TextsApart cs := by
  cases cs with
  | nil => trivial
  | cons d cs => exact h.2

theorem textsApart_head {c : Node} {cs : List Node} (h : TextsApart (c :: cs)) (hc : c.isPcdata = true) : ∀ x ∈ cs.head?, x.isPcdata = false := by
  cases cs with
  | nil => simp
  | cons d cs =>
    intro x hx
    cases hx
    exact h.1 hc

theorem textsApart_cons {c : Node} {cs : List Node} (h1 : c.isPcdata = true → ∀ x ∈ cs.head?, x.isPcdata = false) (h2 : TextsApart cs) : TextsApart (c :: cs) := by
  cases cs with
  | nil => trivial
  | cons d cs => exact ⟨fun hc => h1 hc d rfl, h2⟩

theorem reload_isPcdata (c : Node) : (reload c).isPcdata = c.isPcdata := by
  cases c <;> rfl

theorem reloadAll_apart : ∀ (cs : List Node), TextsApart cs → TextsApart (reloadAll cs)
  | [], _ => trivial
  | c :: cs, h => by
    have ih := reloadAll_apart cs (textsApart_tail h)
    rw [reloadAll_step]
    match c with
    | .text false v =>
      rw [reloadAll]
      split
      · exact ih
      · exact textsApart_cons (fun _ => reloadAll_head (textsApart_head h rfl)) ih
    | .text true v => exact textsApart_cons (fun e => by cases e) ih
    | .element n as ds => exact textsApart_cons (fun e => by cases e) ih

mutual
theorem reload_writable : ∀ (n : Node), Writable n → Writable (reload n)
  | .text c v, h => by
    rw [reload]
    exact h
  | .element n as cs, h => by
    rw [Writable] at h
    rw [reload, Writable]
    exact ⟨h.1, h.2.1, reloadAll_apart cs h.2.2.1, reloadAll_writable cs h.2.2.2⟩

theorem reloadAll_writable : ∀ (cs : List Node), AllWritable cs → AllWritable (reloadAll cs)
  | [], _ => by
    rw [reloadAll]
    trivial
  | .text false v :: cs, h => by
    rw [AllWritable] at h
    rw [reloadAll]
    split
    · exact reloadAll_writable cs h.2
    · refine ⟨?_, reloadAll_writable cs h.2⟩
      have h1 := h.1
      rw [Writable] at h1
      exact eol_zero h1
  | .text true v :: cs, h => by
    rw [AllWritable] at h
    exact ⟨h.1, reloadAll_writable cs h.2⟩
  | .element n as ds :: cs, h => by
    rw [AllWritable] at h
    exact ⟨reload_writable (.element n as ds) h.1, reloadAll_writable cs h.2⟩
end

mutual
theorem reload_reload : ∀ (n : Node), reload (reload n) = reload n
  | .text c v => by rw [reload, reload]
  | .element n as cs => by rw [reload, reload, reloadAll_reloadAll cs]

theorem reloadAll_reloadAll : ∀ (cs : List Node), reloadAll (reloadAll cs) = reloadAll cs
  | [] => by rw [reloadAll, reloadAll]
  | .text false v :: cs => by
    have ih := reloadAll_reloadAll cs
    rw [reloadAll]
    split
    · exact ih
    · rename_i h
      rw [reloadAll, eol_blank, if_neg h, eol_eq (eol_no_return v), ih]
  | .text true v :: cs => by
    have ih := reloadAll_reloadAll cs
    rw [reloadAll_step, reloadAll_single rfl, List.singleton_append, reload, reloadAll_step, reloadAll_single rfl, ih, reload]
    rfl
  | .element n as ds :: cs => by
    have ih := reloadAll_reloadAll cs
    have ih2 := reload_reload (.element n as ds)
    rw [reloadAll_step, reloadAll_single rfl, List.singleton_append, reloadAll_step, reloadAll_single (by rw [reload_isPcdata]; rfl), ih, ih2]
    rfl
end

theorem reloadAll_documentNodes {doc : List Node} (h : DocumentNodes doc) : DocumentNodes (reloadAll doc) := by
  refine ⟨?_, List.any_eq_true.1 (reloadAll_any h)⟩
  have h1 := h.1
  clear h
  induction doc with
  | nil => simp [reloadAll]
  | cons c cs ih =>
    have hc := h1 c (List.mem_cons_self ..)
    rw [reloadAll_step, reloadAll_single hc]
    intro x hx
    rcases List.mem_cons.1 hx with rfl | hx
    · rw [reload_isPcdata]
      exact hc
    · exact ih (fun y hy => h1 y (List.mem_cons_of_mem _ hy)) x hx

end Verif.Xml
