import Verif.Proof.XmlGrammar

/-!
# The parser on a text that goes on

What the parser does on a text, it does on a longer one, unless it came to the end of the text.
-/

namespace Verif.Xml
open Spec

/-! ## Tokens -/

theorem cut_append {p : Char → Bool} {c : Char} {t : Str} (q : Str) : ∀ (s : Str), s.dropWhile p = c :: t →
    (s ++ q).dropWhile p = c :: (t ++ q) ∧ (s ++ q).takeWhile p = s.takeWhile p
  | [], h => by cases h
  | d :: s, h => by
    cases hd : p d with
    | true =>
      rw [List.dropWhile_cons_of_pos hd] at h
      have := cut_append q s h
      rw [List.cons_append, List.dropWhile_cons_of_pos hd, List.takeWhile_cons_of_pos hd, List.takeWhile_cons_of_pos hd, this.1, this.2]
      exact ⟨rfl, rfl⟩
    | false =>
      have hd' : ¬ p d = true := by rw [hd]; decide
      rw [List.dropWhile_cons_of_neg hd'] at h
      cases h
      rw [List.cons_append, List.dropWhile_cons_of_neg hd', List.takeWhile_cons_of_neg hd', List.takeWhile_cons_of_neg hd']
      exact ⟨rfl, rfl⟩

theorem skipWs_append {s t : Str} {c : Char} (h : skipWs s = c :: t) (q : Str) : skipWs (s ++ q) = c :: (t ++ q) := (cut_append q s h).1

theorem behind_size {pat : Str} : ∀ {s r : Str}, behind pat s = some r → pat.length ≤ s.length
  | [], r, h => by simp [behind] at h
  | c :: s, r, h => by
    rw [behind] at h
    split at h
    · rename_i hp
      exact (List.isPrefixOf_iff_prefix.1 hp).length_le
    · have := behind_size h
      rw [List.length_cons]
      omega

theorem prefix_append {pat s : Str} (q : Str) (h : pat.length ≤ s.length) : pat.isPrefixOf (s ++ q) = pat.isPrefixOf s := by
  rw [Bool.eq_iff_iff, List.isPrefixOf_iff_prefix, List.isPrefixOf_iff_prefix]
  exact ⟨fun hp => List.prefix_of_prefix_length_le hp (List.prefix_append s q) h, fun hp => hp.trans (List.prefix_append s q)⟩

theorem behind_append {pat : Str} (q : Str) : ∀ {s r : Str}, behind pat s = some r → behind pat (s ++ q) = some (r ++ q)
  | [], r, h => by simp [behind] at h
  | c :: s, r, h => by
    have hl := behind_size h
    rw [behind] at h
    rw [List.cons_append, behind, ← List.cons_append, prefix_append q hl]
    split at h
    · rename_i hp
      rw [if_pos hp]
      cases h
      rw [List.drop_append_of_le_length hl]
    · rename_i hp
      rw [if_neg hp]
      exact behind_append q h

/-- The characters of a reference. -/
def RefChar (c : Char) : Prop := c ∉ ['"', '\'', '<']

theorem numberRef_take {f : Char → Option Nat} (hs : f ';' = none) {base : Nat} {s : Str} {n k : Nat} (h : numberRef f base s = some (n, k)) :
    ∃ d r, s = d ++ ';' :: r ∧ k = d.length + 1 ∧ (∀ c ∈ d, (f c).isSome = true) ∧ ∀ q, numberRef f base (d ++ ';' :: q) = some (n, k) := by
  unfold numberRef at h
  dsimp only at h
  generalize e : s.takeWhile (fun c => (f c).isSome) = d at h
  have hd : ∀ c ∈ d, (f c).isSome = true := by
    intro c hc
    rw [← e] at hc
    exact List.all_eq_true.1 List.all_takeWhile c hc
  split at h
  · cases h
  · rename_i hne
    split at h
    · rename_i r er
      cases h
      refine ⟨d, r, ?_, rfl, hd, ?_⟩
      · rw [← er]
        have : s.take d.length = d := by
          rw [← e]
          exact (List.prefix_iff_eq_take.1 (List.takeWhile_prefix _)).symm
        conv => lhs; rw [← List.take_append_drop d.length s, this]
      · intro q
        have ht : (d ++ ';' :: q).takeWhile (fun c => (f c).isSome) = d := by
          rw [List.takeWhile_append_of_pos hd, List.takeWhile_cons_of_neg (by simp [hs]), List.append_nil]
        unfold numberRef
        dsimp only
        rw [ht, if_neg hne, List.drop_left]
        rfl
    · cases h

theorem decDigit_char {c : Char} (h : (decDigit c).isSome = true) : RefChar c := by
  intro hc
  simp only [List.mem_cons, List.not_mem_nil, or_false] at hc
  rcases hc with rfl | rfl | rfl <;> revert h <;> decide

theorem hexDigit_char {c : Char} (h : (hexDigit c).isSome = true) : RefChar c := by
  intro hc
  simp only [List.mem_cons, List.not_mem_nil, or_false] at hc
  rcases hc with rfl | rfl | rfl <;> revert h <;> decide

theorem numberRef_ne {f : Char → Option Nat} {base : Nat} {c : Char} {t : Str} (hc : f c = none) : numberRef f base (c :: t) = none := by
  unfold numberRef
  dsimp only
  rw [List.takeWhile_cons_of_neg (by simp [hc])]
  rfl

theorem reference_take {s : Str} {n k : Nat} (h : reference s = some (n, k)) :
    ∃ d r, s = d ++ r ∧ d.length = k ∧ (∀ c ∈ d, RefChar c) ∧ ∀ q, reference (d ++ q) = some (n, k) := by
  unfold reference at h
  split at h
  · rename_i t
    obtain ⟨⟨a, b⟩, hx, e⟩ := Option.map_eq_some_iff.1 h
    cases e
    obtain ⟨d, r, rfl, rfl, hd, hq⟩ := numberRef_take (by decide) hx
    refine ⟨'#' :: 'x' :: (d ++ [';']), r, by simp, by simp, ?_, ?_⟩
    · intro c hc
      simp only [List.mem_cons, List.mem_append, List.not_mem_nil, or_false] at hc
      rcases hc with rfl | rfl | hc | rfl
      · unfold RefChar; decide
      · unfold RefChar; decide
      · exact hexDigit_char (hd c hc)
      · unfold RefChar; decide
    · intro q
      rw [List.cons_append, List.cons_append, List.append_assoc, reference_hex, List.cons_append, List.nil_append, hq q]
      rfl
  · rename_i t hne
    obtain ⟨⟨a, b⟩, hx, e⟩ := Option.map_eq_some_iff.1 h
    cases e
    obtain ⟨d, r, rfl, rfl, hd, hq⟩ := numberRef_take (by decide) hx
    refine ⟨'#' :: (d ++ [';']), r, by simp, by simp, ?_, ?_⟩
    · intro c hc
      simp only [List.mem_cons, List.mem_append, List.not_mem_nil, or_false] at hc
      rcases hc with rfl | hc | rfl
      · unfold RefChar; decide
      · exact decDigit_char (hd c hc)
      · unfold RefChar; decide
    · intro q
      have hq' := hq q
      rw [List.cons_append, List.append_assoc, List.cons_append, List.nil_append]
      cases d with
      | nil => rw [List.nil_append, numberRef_ne (by decide)] at hq'; cases hq'
      | cons c d =>
        rw [List.cons_append] at hq' ⊢
        rw [reference_dec, hq']
        · rfl
        · rintro rfl
          exact hne _ rfl
  · cases h
    exact ⟨['a', 'm', 'p', ';'], _, rfl, rfl, by unfold RefChar; decide, fun _ => rfl⟩
  · cases h
    exact ⟨['a', 'p', 'o', 's', ';'], _, rfl, rfl, by unfold RefChar; decide, fun _ => rfl⟩
  · cases h
    exact ⟨['g', 't', ';'], _, rfl, rfl, by unfold RefChar; decide, fun _ => rfl⟩
  · cases h
    exact ⟨['l', 't', ';'], _, rfl, rfl, by unfold RefChar; decide, fun _ => rfl⟩
  · cases h
    exact ⟨['q', 'u', 'o', 't', ';'], _, rfl, rfl, by unfold RefChar; decide, fun _ => rfl⟩
  · cases h

theorem reference_append {s : Str} {x : Nat × Nat} (h : reference s = some x) (q : Str) : reference (s ++ q) = some x := by
  obtain ⟨n, k⟩ := x
  obtain ⟨d, r, rfl, _, _, hq⟩ := reference_take h
  rw [List.append_assoc, hq]

/-- A reference that is not complete: only characters of a reference. -/
theorem reference_partial {s q : Str} {x : Nat × Nat} (h0 : reference s = none) (h : reference (s ++ q) = some x) : ∀ c ∈ s, RefChar c := by
  obtain ⟨n, k⟩ := x
  obtain ⟨d, r, e, _, hd, hq⟩ := reference_take h
  rcases List.append_eq_append_iff.1 e with ⟨a, rfl, _⟩ | ⟨a, rfl, _⟩
  · intro c hc
    exact hd c (List.mem_append_left _ hc)
  · rw [hq] at h0
    cases h0

theorem head_append' {s : Str} (hs : s ≠ []) (q : Str) : (s ++ q).head? = s.head? := by
  cases s with
  | nil => exact absurd rfl hs
  | cons c s => rfl

theorem attrString_mem {q : Char} : ∀ (k : Nat) (s : Str) {v r : Str}, attrString q k s = .ok (v, r) → q ∈ s
  | k, [], v, r, h => by
    cases k <;> (rw [attrString] at h; cases h)
  | k + 1, c :: s, v, r, h => by
    rw [attrString] at h
    exact List.mem_cons_of_mem _ (attrString_mem k s h)
  | 0, c :: s, v, r, h => by
    have step : ∀ (k : Nat) (d : Char), before d (attrString q k s) = .ok (v, r) → q ∈ c :: s := by
      intro k d hd
      obtain ⟨w, hw⟩ := before_inv hd
      exact List.mem_cons_of_mem _ (attrString_mem k s hw)
    rw [attrString] at h
    split at h
    · rename_i e
      rw [e]
      exact List.mem_cons_self
    · split at h
      · exact step _ _ h
      · split at h
        · exact step _ _ h
        · split at h
          · split at h
            · exact step _ _ h
            · split at h
              · cases h
              · exact step _ _ h
          · exact step _ _ h

theorem before_cut {α : Type} {c : Char} {x y : Except XErr (Str × α)} {v : Str} {a b : α} (h : before c x = .ok (v, a))
    (hy : ∀ w, x = .ok (w, a) → y = .ok (w, b)) : before c y = .ok (v, b) := by
  cases x with
  | error e => cases h
  | ok z =>
    obtain ⟨w, a'⟩ := z
    rw [before_ok] at h
    cases h
    rw [hy w rfl, before_ok]

theorem attrString_append {c0 : Char} (hc0 : c0 ∈ ['"', '\'']) (q : Str) : ∀ (k : Nat) (s : Str) {v r : Str}, attrString c0 k s = .ok (v, r) →
    attrString c0 k (s ++ q) = .ok (v, r ++ q)
  | k, [], v, r, h => by
    cases k <;> (rw [attrString] at h; cases h)
  | k + 1, c :: s, v, r, h => by
    rw [attrString] at h
    rw [List.cons_append, attrString]
    exact attrString_append hc0 q k s h
  | 0, c :: s, v, r, h => by
    have step : ∀ (k : Nat) (d : Char), before d (attrString c0 k s) = .ok (v, r) → before d (attrString c0 k (s ++ q)) = .ok (v, r ++ q) :=
      fun k d hd => before_cut hd fun w hw => attrString_append hc0 q k s hw
    have hne : ∀ (k : Nat) (d : Char), before d (attrString c0 k s) = .ok (v, r) → s ≠ [] := by
      rintro k d hd rfl
      obtain ⟨w, hw⟩ := before_inv hd
      have := attrString_mem k [] hw
      cases this
    rw [attrString] at h
    rw [List.cons_append, attrString]
    split at h
    · rename_i e
      cases h
      rw [if_pos e]
    · rename_i h1
      rw [if_neg h1]
      split at h
      · rename_i h2
        rw [if_pos h2, head_append' (hne _ _ h)]
        exact step _ _ h
      · rename_i h2
        rw [if_neg h2]
        split at h
        · rename_i h3
          rw [if_pos h3]
          exact step _ _ h
        · rename_i h3
          rw [if_neg h3]
          split at h
          · rename_i h4
            rw [if_pos h4]
            cases hr : reference s with
            | none =>
              rw [hr] at h
              dsimp only at h
              cases hr' : reference (s ++ q) with
              | none => exact step _ _ h
              | some x =>
                obtain ⟨w, hw⟩ := before_inv h
                have := reference_partial hr hr' c0 (attrString_mem _ _ hw)
                refine (this ?_).elim
                simp only [List.mem_cons, List.not_mem_nil, or_false] at hc0 ⊢
                rcases hc0 with h | h
                · exact Or.inl h
                · exact Or.inr (Or.inl h)
            | some x =>
              obtain ⟨n, j⟩ := x
              rw [reference_append hr q]
              rw [hr] at h
              dsimp only at h ⊢
              split at h
              · cases h
              · exact step _ _ h
          · rename_i h4
            rw [if_neg h4]
            exact step _ _ h

theorem pcdata_mem : ∀ (k : Nat) (s : Str) {v r : Str}, pcdata k s = .ok (v, r) → r ≠ [] → '<' ∈ s
  | k, [], v, r, h, hr => by
    cases k <;> (rw [pcdata] at h; cases h; exact absurd rfl hr)
  | k + 1, c :: s, v, r, h, hr => by
    rw [pcdata] at h
    exact List.mem_cons_of_mem _ (pcdata_mem k s h hr)
  | 0, c :: s, v, r, h, hr => by
    have step : ∀ (k : Nat) (d : Char), before d (pcdata k s) = .ok (v, r) → '<' ∈ c :: s := by
      intro k d hd
      obtain ⟨w, hw⟩ := before_inv hd
      exact List.mem_cons_of_mem _ (pcdata_mem k s hw hr)
    rw [pcdata] at h
    split at h
    · rename_i e
      rw [e]
      exact List.mem_cons_self
    · split at h
      · exact step _ _ h
      · split at h
        · split at h
          · exact step _ _ h
          · split at h
            · cases h
            · exact step _ _ h
        · exact step _ _ h

theorem pcdata_append (q : Str) : ∀ (k : Nat) (s : Str) {v r : Str}, pcdata k s = .ok (v, r) → r ≠ [] → pcdata k (s ++ q) = .ok (v, r ++ q)
  | k, [], v, r, h, hr => by
    cases k <;> (rw [pcdata] at h; cases h; exact absurd rfl hr)
  | k + 1, c :: s, v, r, h, hr => by
    rw [pcdata] at h
    rw [List.cons_append, pcdata]
    exact pcdata_append q k s h hr
  | 0, c :: s, v, r, h, hr => by
    have step : ∀ (k : Nat) (d : Char), before d (pcdata k s) = .ok (v, r) → before d (pcdata k (s ++ q)) = .ok (v, r ++ q) :=
      fun k d hd => before_cut hd fun w hw => pcdata_append q k s hw hr
    have hne : ∀ (k : Nat) (d : Char), before d (pcdata k s) = .ok (v, r) → s ≠ [] := by
      rintro k d hd rfl
      obtain ⟨w, hw⟩ := before_inv hd
      have := pcdata_mem k [] hw hr
      cases this
    rw [pcdata] at h
    rw [List.cons_append, pcdata]
    split at h
    · rename_i e
      cases h
      rw [if_pos e, List.cons_append]
    · rename_i h1
      rw [if_neg h1]
      split at h
      · rename_i h2
        rw [if_pos h2, head_append' (hne _ _ h)]
        exact step _ _ h
      · rename_i h2
        rw [if_neg h2]
        split at h
        · rename_i h4
          rw [if_pos h4]
          cases hx : reference s with
          | none =>
            rw [hx] at h
            dsimp only at h
            cases hx' : reference (s ++ q) with
            | none => exact step _ _ h
            | some x =>
              obtain ⟨w, hw⟩ := before_inv h
              have := reference_partial hx hx' '<' (pcdata_mem _ _ hw hr)
              exact absurd (by decide) this
          | some x =>
            obtain ⟨n, j⟩ := x
            rw [reference_append hx q]
            rw [hx] at h
            dsimp only at h ⊢
            split at h
            · cases h
            · exact step _ _ h
        · rename_i h4
          rw [if_neg h4]
          exact step _ _ h

theorem cdata_size : ∀ (s : Str) {v r : Str}, cdata s = .ok (v, r) → 3 ≤ s.length
  | [], v, r, h => by simp [cdata] at h
  | c :: s, v, r, h => by
    have step : ∀ {w}, cdata s = .ok (w, r) → 3 ≤ (c :: s).length := by
      intro w hw
      have := cdata_size s hw
      rw [List.length_cons]
      omega
    rw [cdata.eq_def] at h
    dsimp only at h
    split at h
    · split at h
      · exact step h
      · obtain ⟨w, hw⟩ := before_inv h
        exact step hw
    · split at h
      · cases h
        simp only [List.length_cons]
        omega
      · obtain ⟨w, hw⟩ := before_inv h
        exact step hw

theorem cdata_append (q : Str) : ∀ (s : Str) {v r : Str}, cdata s = .ok (v, r) → cdata (s ++ q) = .ok (v, r ++ q)
  | [], v, r, h => by simp [cdata] at h
  | c :: s, v, r, h => by
    have hl := cdata_size _ h
    obtain ⟨a, b, u, rfl⟩ : ∃ a b u, s = a :: b :: u := by
      match s, hl with
      | a :: b :: u, _ => exact ⟨a, b, u, rfl⟩
    have step : ∀ (d : Char), before d (cdata (a :: b :: u)) = .ok (v, r) → before d (cdata (a :: b :: u ++ q)) = .ok (v, r ++ q) :=
      fun d hd => before_cut hd fun w hw => cdata_append q _ hw
    rw [cdata.eq_def] at h
    rw [List.cons_append, cdata.eq_def]
    dsimp only at h ⊢
    split at h
    · rename_i h1
      rw [if_pos h1]
      split at h
      · rename_i t e
        cases e
        exact cdata_append q _ h
      · rename_i h2
        split
        · rename_i t e
          rw [List.cons_append] at e
          cases e
          exact absurd rfl (h2 _)
        · exact step _ h
    · rename_i h1
      rw [if_neg h1]
      split at h
      · rename_i t e
        cases e
        cases h
        rfl
      · rename_i h2
        split
        · rename_i t e
          simp only [List.cons_append] at e
          cases e
          exact (h2 _ rfl rfl).elim
        · exact step _ h

theorem doctypeIgnore_size : ∀ (k d : Nat) (s : Str) {r : Str}, doctypeIgnore k d s = some r → k + 3 ≤ s.length
  | k, d, [], r, h => by cases k <;> simp [doctypeIgnore] at h
  | k + 1, d, c :: s, r, h => by
    rw [doctypeIgnore] at h
    have := doctypeIgnore_size k d s h
    rw [List.length_cons]
    omega
  | 0, d, c :: s, r, h => by
    rw [doctypeIgnore] at h
    split at h
    · have := doctypeIgnore_size _ _ s h
      rw [List.length_cons]
      omega
    · split at h
      · rename_i hp
        have := (List.isPrefixOf_iff_prefix.1 hp).length_le
        simp only [List.length_cons, List.length_nil] at *
        omega
      · have := doctypeIgnore_size _ _ s h
        rw [List.length_cons]
        omega

theorem doctypeIgnore_append (q : Str) : ∀ (k d : Nat) (s : Str) {r : Str}, doctypeIgnore k d s = some r → doctypeIgnore k d (s ++ q) = some (r ++ q)
  | k, d, [], r, h => by cases k <;> simp [doctypeIgnore] at h
  | k + 1, d, c :: s, r, h => by
    rw [doctypeIgnore] at h
    rw [List.cons_append, doctypeIgnore]
    exact doctypeIgnore_append q k d s h
  | 0, d, c :: s, r, h => by
    have hl := doctypeIgnore_size _ _ _ h
    rw [doctypeIgnore] at h
    rw [List.cons_append, doctypeIgnore, ← List.cons_append, prefix_append q (by simpa using hl), prefix_append q (by simpa using hl)]
    split at h
    · rename_i h1
      rw [if_pos h1]
      exact doctypeIgnore_append q _ _ s h
    · rename_i h1
      rw [if_neg h1]
      split at h
      · rename_i h2
        rw [if_pos h2]
        split at h
        · rename_i h3
          rw [if_pos h3]
          cases h
          rw [List.drop_append_of_le_length (by rw [List.length_cons] at hl; omega)]
        · rename_i h3
          rw [if_neg h3]
          exact doctypeIgnore_append q _ _ s h
      · rename_i h2
        rw [if_neg h2]
        exact doctypeIgnore_append q _ _ s h

theorem doctypePrimitive_append {s r : Str} (h : doctypePrimitive s = some r) (q : Str) : doctypePrimitive (s ++ q) = some (r ++ q) := by
  unfold doctypePrimitive at h
  split at h
  · exact behind_append q h
  · exact behind_append q h
  · exact behind_append q h
  · exact behind_append q h
  · cases h

theorem doctypeGroup_append (q : Str) : ∀ (k d : Nat) (s : Str) {r : Str}, doctypeGroup k d s = some r → ∀ j, k ≤ j → doctypeGroup j d (s ++ q) = some (r ++ q)
  | 0, d, s, r, h, _, _ => by simp [doctypeGroup] at h
  | k + 1, d, [], r, h, _, _ => by simp [doctypeGroup] at h
  | k + 1, d, c :: s, r, h, 0, hj => by omega
  | k + 1, d, c :: s, r, h, j + 1, hj => by
    have ih := fun d s r (h : doctypeGroup k d s = some r) => doctypeGroup_append q k d s h j (by omega)
    have hempty : ∀ d, doctypeGroup k d [] = none := by
      intro d
      cases k <;> rfl
    rw [List.cons_append]
    rw [doctypeGroup] at h ⊢
    by_cases h1 : ['<', '!'].isPrefixOf (c :: s) ∧ (s.drop 1).head? ≠ some '-'
    · rw [if_pos h1] at h
      obtain ⟨t, ht⟩ := List.isPrefixOf_iff_prefix.1 h1.1
      obtain ⟨rfl, rfl⟩ : '<' = c ∧ '!' :: t = s := by
        simp only [List.cons_append, List.nil_append] at ht
        injection ht with a b
        exact ⟨a, b⟩
      have hd : ('!' :: t).drop 1 = t := rfl
      have hd2 : ('!' :: t ++ q).drop 1 = t ++ q := rfl
      have hd3 : ('!' :: t ++ q).drop 2 = (t ++ q).drop 1 := rfl
      have hd4 : ('!' :: t).drop 2 = t.drop 1 := rfl
      rw [hd, hd4] at h
      cases t with
      | nil =>
        rw [if_neg (by simp), hempty] at h
        cases h
      | cons x u =>
        rw [hd2, hd3, if_pos (by
          refine ⟨rfl, ?_⟩
          have := h1.2
          rw [hd] at this
          simpa using this)]
        by_cases hx : (x :: u).head? = some '['
        · rw [if_pos hx] at h
          rw [if_pos (by simpa using hx)]
          obtain ⟨t', ht', h'⟩ := Option.bind_eq_some_iff.1 h
          rw [show (x :: u ++ q).drop 1 = u ++ q from rfl, doctypeIgnore_append q 0 0 u ht', Option.bind_some]
          exact ih _ _ _ h'
        · rw [if_neg hx] at h
          rw [if_neg (by simpa using hx)]
          exact ih _ _ _ h
    · rw [if_neg h1] at h
      by_cases h2 : c = '<' ∨ c = '"' ∨ c = '\''
      · rw [if_pos h2] at h
        obtain ⟨t', ht', h'⟩ := Option.bind_eq_some_iff.1 h
        have : ¬ (['<', '!'].isPrefixOf (c :: (s ++ q)) ∧ ((s ++ q).drop 1).head? ≠ some '-') := by
          rintro ⟨a, b⟩
          apply h1
          match s, ht' with
          | [], ht' =>
            rcases h2 with rfl | rfl | rfl <;> cases ht'
          | [x], ht' =>
            have hc : c = '<' := by
              have := List.isPrefixOf_iff_prefix.1 a
              obtain ⟨_, e⟩ := this
              injection e with e _
              exact e.symm
            have hx : x = '!' := by
              obtain ⟨_, e⟩ := List.isPrefixOf_iff_prefix.1 a
              injection e with _ e
              injection e with e _
              exact e.symm
            subst hc hx
            cases ht'
          | x :: y :: u, ht' =>
            refine ⟨?_, by simpa using b⟩
            rw [← List.cons_append, prefix_append q (by simp)] at a
            exact a
        rw [if_neg this, if_pos h2, ← List.cons_append, doctypePrimitive_append ht' q, Option.bind_some]
        exact ih _ _ _ h'
      · rw [if_neg h2] at h
        have : ¬ (['<', '!'].isPrefixOf (c :: (s ++ q)) ∧ ((s ++ q).drop 1).head? ≠ some '-') := by
          rintro ⟨a, _⟩
          obtain ⟨_, e⟩ := List.isPrefixOf_iff_prefix.1 a
          injection e with e _
          exact h2 (Or.inl e.symm)
        rw [if_neg this, if_neg h2]
        by_cases h3 : c = '>'
        · rw [if_pos h3] at h ⊢
          split at h
          · rename_i h4
            cases h
            rw [if_pos h4]
          · rename_i h4
            rw [if_neg h4]
            exact ih _ _ _ h
        · rw [if_neg h3] at h ⊢
          exact ih _ _ _ h

/-! ## Tags -/

theorem oneAttr_append {s : Str} {a : Str × Str} {r : Str} (h : oneAttr s = .ok (a, r)) (hr : r ≠ []) (q : Str) : oneAttr (s ++ q) = .ok (a, r ++ q) := by
  unfold oneAttr at h
  dsimp only at h
  split at h
  · rename_i t et
    obtain ⟨c, w, hw⟩ : ∃ c w, s.dropWhile isSymbol = c :: w := by
      cases e : s.dropWhile isSymbol with
      | nil => rw [e] at et; cases et
      | cons c w => exact ⟨c, w, rfl⟩
    have h1 := cut_append q s hw
    have h2 : skipWs ((s ++ q).dropWhile isSymbol) = '=' :: (t ++ q) := by
      rw [h1.1, ← List.cons_append]
      rw [hw] at et
      exact skipWs_append et q
    unfold oneAttr
    dsimp only
    rw [h2, h1.2]
    split
    · rename_i t' e
      injection e with _ e
      subst e
      split at h
      · rename_i c0 u eu
        rw [skipWs_append eu q]
        dsimp only
        split at h
        · rename_i hc0
          rw [if_pos hc0]
          cases hs : attrString c0 0 u with
          | error e => rw [hs] at h; cases h
          | ok y =>
            obtain ⟨v, r'⟩ := y
            rw [hs] at h
            rw [attrString_append (by simpa using hc0) q 0 u hs]
            dsimp only at h ⊢
            split at h
            · cases h
            · rename_i hh
              cases h
              rw [head_append' hr, if_neg hh]
        · cases h
      · cases h
    · rename_i hne
      exact absurd rfl (hne _)
  · cases h

theorem attributes_append (q : Str) : ∀ (k : Nat) (s : Str) {as : List (Str × Str)} {c : Bool} {r : Str}, attributes k s = .ok (as, c, r) →
    ∀ j, k ≤ j → attributes j (s ++ q) = .ok (as, c, r ++ q)
  | 0, s, as, c, r, h, _, _ => by simp [attributes] at h
  | k + 1, s, as, c, r, h, 0, hj => by omega
  | k + 1, s, as, c, r, h, j + 1, hj => by
    rw [attributes] at h ⊢
    split at h
    · cases h
    · rename_i d t et
      rw [skipWs_append et q]
      dsimp only
      split at h
      · rename_i hd
        rw [if_pos hd]
        cases ha : oneAttr (d :: t) with
        | error e => rw [ha] at h; cases h
        | ok y =>
          obtain ⟨a, r'⟩ := y
          rw [ha] at h
          dsimp only at h
          cases hx : attributes k r' with
          | error e => rw [hx] at h; cases h
          | ok y =>
            obtain ⟨as', c', r''⟩ := y
            rw [hx] at h
            cases h
            have hr : r' ≠ [] := by
              rintro rfl
              cases k <;> cases hx
            rw [← List.cons_append, oneAttr_append ha hr q]
            dsimp only
            rw [attributes_append q k r' hx j (by omega)]
            rfl
      · rename_i hd
        rw [if_neg hd]
        split at h
        · rename_i hs
          rw [if_pos hs]
          split at h
          · cases h
            rfl
          · cases h
        · rename_i hs
          rw [if_neg hs]
          split at h
          · rename_i hg
            rw [if_pos hg]
            cases h
            rfl
          · cases h

theorem exclamation_append {st st' : Parsing} {s r : Str} (h : exclamation st s = .ok (st', r)) (q : Str) : exclamation st (s ++ q) = .ok (st', r ++ q) := by
  unfold exclamation at h
  split at h
  · rename_i t
    show (match behind ['-', '-', '>'] (t ++ q) with | none => _ | some r => _) = _
    split at h
    · cases h
    · rename_i r' hr
      cases h
      rw [behind_append q hr]
  · cases h
  · rename_i t
    split at h
    · rename_i hp
      obtain ⟨u, rfl⟩ := List.isPrefixOf_iff_prefix.1 hp
      have e1 : ("CDATA[".toList ++ u).drop 6 = u := rfl
      rw [e1] at h
      have e0 : ∀ x, exclamation st ('[' :: x) = (if "CDATA[".toList.isPrefixOf x then match cdata (x.drop 6) with
          | .error e => .error e
          | .ok (v, r) => .ok (st.add (.text true v), r)
        else .error .badCdata) := fun _ => rfl
      rw [List.cons_append, e0, List.append_assoc, if_pos (List.isPrefixOf_iff_prefix.2 (List.prefix_append _ _))]
      have e2 : ("CDATA[".toList ++ (u ++ q)).drop 6 = u ++ q := rfl
      rw [e2]
      cases hc : cdata u with
      | error e => rw [hc] at h; cases h
      | ok y =>
        obtain ⟨v, r'⟩ := y
        rw [hc] at h
        cases h
        rw [cdata_append q u hc]
    · cases h
  · split at h
    · rename_i hp
      obtain ⟨u, rfl⟩ := List.isPrefixOf_iff_prefix.1 hp
      split at h
      · cases h
      · rename_i ho
        cases hg : doctypeGroup (("DOCTYPE".toList ++ u).length + 1) 0 ("DOCTYPE".toList ++ u) with
        | none => rw [hg] at h; cases h
        | some r' =>
          rw [hg] at h
          cases h
          have := doctypeGroup_append q _ _ _ hg (("DOCTYPE".toList ++ u ++ q).length + 1) (by simp only [List.length_append]; omega)
          have e0 : ∀ x, exclamation st ("DOCTYPE".toList ++ x) = (if "DOCTYPE".toList.isPrefixOf ("DOCTYPE".toList ++ x) then
              (if st.opened.isEmpty = false then .error .badDoctype
               else match doctypeGroup (("DOCTYPE".toList ++ x).length + 1) 0 ("DOCTYPE".toList ++ x) with
                | none => .error .badDoctype
                | some r => .ok (st, r))
            else .error .unrecognizedTag) := fun _ => rfl
          rw [List.append_assoc, e0, ← List.append_assoc] 
          rw [List.append_assoc, if_pos (List.isPrefixOf_iff_prefix.2 (List.prefix_append _ _)), if_neg ho, ← List.append_assoc, this]
    · cases h

theorem question_append {s r : Str} (h : question s = .ok r) (q : Str) : question (s ++ q) = .ok (r ++ q) := by
  unfold question at h ⊢
  split at h
  · rename_i hh
    have hs : s ≠ [] := by
      rintro rfl
      cases hh
    rw [head_append' hs, if_pos hh]
    cases hb : behind ['?', '>'] (s.dropWhile isSymbol) with
    | none => rw [hb] at h; cases h
    | some r' =>
      rw [hb] at h
      cases h
      cases hw : s.dropWhile isSymbol with
      | nil => rw [hw] at hb; cases hb
      | cons c w =>
        rw [hw] at hb
        rw [(cut_append q s hw).1, ← List.cons_append, behind_append q hb]
  · cases h

theorem endTag_append {st st' : Parsing} {s r : Str} (h : endTag st s = .ok (st', r)) (q : Str) : endTag st (s ++ q) = .ok (st', r ++ q) := by
  unfold endTag at h ⊢
  split at h
  · cases h
  · split at h
    · rename_i hn
      split at h
      · rename_i t et
        cases h
        obtain ⟨c, w, hw⟩ : ∃ c w, s.dropWhile isSymbol = c :: w := by
          cases e : s.dropWhile isSymbol with
          | nil => rw [e] at et; cases et
          | cons c w => exact ⟨c, w, rfl⟩
        have h1 := cut_append q s hw
        rw [hw] at et
        rw [h1.2, if_pos hn, h1.1, ← List.cons_append, skipWs_append et q]
        rfl
      · cases h
    · cases h

theorem startTag_append {st st' : Parsing} {s r : Str} (h : startTag st s = .ok (st', r)) (q : Str) : startTag st (s ++ q) = .ok (st', r ++ q) := by
  unfold startTag at h ⊢
  dsimp only at h ⊢
  cases hw : s.dropWhile isSymbol with
  | nil => rw [hw] at h; cases h
  | cons c t =>
    rw [hw] at h
    have h1 := cut_append q s hw
    rw [h1.1, h1.2]
    dsimp only at h ⊢
    split at h
    · rename_i hc
      rw [if_pos hc]
      cases h
      rfl
    · rename_i hc
      rw [if_neg hc]
      split at h
      · rename_i hs
        rw [if_pos hs]
        cases ha : attributes (t.length + 1) t with
        | error e => rw [ha] at h; cases h
        | ok y =>
          obtain ⟨as, cl, r'⟩ := y
          rw [ha] at h
          cases h
          rw [attributes_append q _ _ ha ((t ++ q).length + 1) (by rw [List.length_append]; omega)]
      · rename_i hs
        rw [if_neg hs]
        split at h
        · rename_i hd
          rw [if_pos hd]
          split at h
          · cases h
            rfl
          · cases h
        · cases h

theorem tag_append {st st' : Parsing} {s r : Str} (h : tag st s = .ok (st', r)) (q : Str) : tag st (s ++ q) = .ok (st', r ++ q) := by
  cases s with
  | nil => cases h
  | cons c t =>
    rw [List.cons_append]
    unfold tag at h ⊢
    dsimp only at h ⊢
    split at h
    · rename_i h1
      rw [if_pos h1]
      exact startTag_append h q
    · rename_i h1
      rw [if_neg h1]
      split at h
      · rename_i h2
        rw [if_pos h2]
        exact endTag_append h q
      · rename_i h2
        rw [if_neg h2]
        split at h
        · rename_i h3
          rw [if_pos h3]
          cases hx : question t with
          | error e => rw [hx] at h; cases h
          | ok r' =>
            rw [hx] at h
            cases h
            rw [question_append hx q]
            rfl
        · rename_i h3
          rw [if_neg h3]
          split at h
          · rename_i h4
            rw [if_pos h4]
            exact exclamation_append h q
          · cases h

/-! ## Turns -/

theorem add_top_opened {st : Parsing} (h : st.opened ≠ []) (n : Node) : (st.add n).top = st.top := by
  obtain ⟨os, top⟩ := st
  cases os with
  | nil => exact absurd rfl h
  | cons e es => rfl

theorem turn_append {st st' : Parsing} {s r : Str} (hs : s ≠ []) (h : turn st s = .ok (st', r)) (q : Str) :
    turn st (s ++ q) = .ok (st', r ++ q) ∨ (r = [] ∧ (st' = st ∨ st'.opened ≠ [])) := by
  obtain ⟨c, u, rfl⟩ : ∃ c u, s = c :: u := by
    cases s with
    | nil => exact absurd rfl hs
    | cons c u => exact ⟨c, u, rfl⟩
  by_cases hc : c = '<'
  · subst hc
    exact Or.inl (tag_append h q)
  · have hm0 : ∀ (v : Str), skipWs (c :: v) = [] → turn st (c :: v) = .ok (st, []) := by
      intro v hv
      unfold turn
      split
      · rename_i e
        injection e with e _
        exact absurd e hc
      · rw [hv]
    have hm1 : ∀ (v t : Str), skipWs (c :: v) = '<' :: t → turn st (c :: v) = .ok (st, '<' :: t) := by
      intro v t hv
      unfold turn
      split
      · rename_i e
        injection e with e _
        exact absurd e hc
      · rw [hv]
        rfl
    have hm2 : ∀ (v t : Str) (d : Char), skipWs (c :: v) = d :: t → d ≠ '<' → turn st (c :: v) = if st.opened.isEmpty then .ok (st, (c :: v).dropWhile (· ≠ '<'))
        else (pcdata 0 (c :: v)).map fun r => (st.add (.text false (zeroTerminated r.1)), r.2) := by
      intro v t d hv hd
      unfold turn
      split
      · rename_i e
        injection e with e _
        exact absurd e hc
      · rw [hv]
        split
        · rename_i e
          cases e
        · rename_i e
          injection e with e _
          exact absurd e hd
        · rfl
    cases hw : skipWs (c :: u) with
    | nil =>
      rw [hm0 u hw] at h
      cases h
      exact Or.inr ⟨rfl, Or.inl rfl⟩
    | cons d t =>
      have hw' := skipWs_append hw q
      rw [List.cons_append] at hw' ⊢
      by_cases hd : d = '<'
      · subst hd
        rw [hm1 u t hw] at h
        cases h
        exact Or.inl (hm1 _ _ hw')
      · rw [hm2 u t d hw hd] at h
        rw [hm2 _ _ d hw' hd, ← List.cons_append]
        split at h
        · rename_i ho
          cases hx : (c :: u).dropWhile (· ≠ '<') with
          | nil =>
            rw [hx] at h
            cases h
            exact Or.inr ⟨rfl, Or.inl rfl⟩
          | cons y z =>
            rw [hx] at h
            cases h
            rw [if_pos ho, (cut_append q _ hx).1]
            exact Or.inl rfl
        · rename_i ho
          cases hp : pcdata 0 (c :: u) with
          | error e => rw [hp] at h; cases h
          | ok y =>
            obtain ⟨v, r'⟩ := y
            rw [hp] at h
            cases h
            by_cases hr : r' = []
            · refine Or.inr ⟨hr, Or.inr (add_opened _ _ ?_)⟩
              rintro e
              rw [e] at ho
              exact ho rfl
            · rw [if_neg ho, pcdata_append q 0 _ hp hr]
              exact Or.inl rfl

theorem add_top (st : Parsing) (n : Node) : st.top <+: (st.add n).top := by
  obtain ⟨os, top⟩ := st
  cases os with
  | nil => exact List.prefix_append _ _
  | cons e es => exact List.prefix_refl _

theorem tag_top {st st' : Parsing} {s r : Str} (h : tag st s = .ok (st', r)) : st.top <+: st'.top := by
  cases s with
  | nil => cases h
  | cons c t =>
    unfold tag at h
    dsimp only at h
    split at h
    · unfold startTag at h
      dsimp only at h
      split at h
      · cases h
      · split at h
        · cases h
          exact List.prefix_refl _
        · split at h
          · split at h
            · cases h
            · cases h
              split
              · exact add_top _ _
              · exact List.prefix_refl _
          · split at h
            · split at h
              · cases h
                exact add_top _ _
              · cases h
            · cases h
    · split at h
      · unfold endTag at h
        split at h
        · cases h
        · split at h
          · split at h
            · cases h
              refine List.IsPrefix.trans ?_ (add_top _ _)
              exact List.prefix_refl _
            · cases h
          · cases h
      · split at h
        · cases hq : question t with
          | error e => rw [hq] at h; cases h
          | ok y =>
            rw [hq] at h
            cases h
            exact List.prefix_refl _
        · split at h
          · unfold exclamation at h
            split at h
            · split at h
              · cases h
              · cases h
                exact List.prefix_refl _
            · cases h
            · split at h
              · split at h
                · cases h
                · cases h
                  exact add_top _ _
              · cases h
            · split at h
              · split at h
                · cases h
                · split at h
                  · cases h
                  · cases h
                    exact List.prefix_refl _
              · cases h
          · cases h

theorem turn_top {st st' : Parsing} {s r : Str} (h : turn st s = .ok (st', r)) : st.top <+: st'.top := by
  unfold turn at h
  split at h
  · exact tag_top h
  · split at h
    · cases h
      exact List.prefix_refl _
    · cases h
      exact List.prefix_refl _
    · split at h
      · cases h
        exact List.prefix_refl _
      · cases hp : pcdata 0 s with
        | error e => rw [hp] at h; cases h
        | ok y =>
          rw [hp] at h
          cases h
          exact add_top _ _

theorem parseTree_nil (k : Nat) (st : Parsing) : parseTree k st [] = if st.opened.isEmpty then .ok st else .error .endElementMismatch := by
  cases k <;> rfl

theorem parseTree_top : ∀ (k : Nat) {st st' : Parsing} {s : Str}, parseTree k st s = .ok st' → st.top <+: st'.top
  | k, st, st', [], h => by
    rw [parseTree_nil] at h
    split at h
    · cases h
      exact List.prefix_refl _
    · cases h
  | 0, st, st', c :: s, h => by cases h
  | k + 1, st, st', c :: s, h => by
    rw [parseTree] at h
    split at h
    · cases h
    · rename_i st1 r ht
      exact (turn_top ht).trans (parseTree_top k h)

/-- If a text and a longer one are both accepted, the nodes of the shorter one are the first ones of the longer one. -/
theorem parseTree_prefix (q : Str) : ∀ (k : Nat) {st sp : Parsing} {p : Str}, parseTree k st p = .ok sp → ∀ (j : Nat) {s2 : Parsing}, parseTree j st (p ++ q) = .ok s2 → sp.top <+: s2.top
  | k, st, sp, [], h, j, s2, h2 => by
    rw [parseTree_nil] at h
    split at h
    · cases h
      exact parseTree_top j h2
    · cases h
  | 0, st, sp, c :: p, h, _, _, _ => by cases h
  | k + 1, st, sp, c :: p, h, 0, s2, h2 => by cases h2
  | k + 1, st, sp, c :: p, h, j + 1, s2, h2 => by
    rw [parseTree] at h
    split at h
    · cases h
    · rename_i st1 r ht
      rcases turn_append (by simp) ht q with ha | ⟨rfl, hb⟩
      · rw [List.cons_append, parseTree, ← List.cons_append, ha] at h2
        exact parseTree_prefix q k h j h2
      · rw [parseTree_nil] at h
        split at h
        · rename_i ho
          cases h
          rcases hb with rfl | hb
          · exact parseTree_top _ h2
          · exact absurd (List.isEmpty_iff.1 ho) hb
        · cases h

/-! ## Bytes -/

theorem zeroTerminated_append (p q : Str) : ∃ r, zeroTerminated (p ++ q) = zeroTerminated p ++ r := by
  unfold zeroTerminated
  rw [List.takeWhile_append]
  split
  · rename_i h
    have : p.takeWhile (fun x => decide (x ≠ '\x00')) = p := (List.takeWhile_prefix _).eq_of_length h
    rw [this]
    exact ⟨_, rfl⟩
  · exact ⟨[], by rw [List.append_nil]⟩

/-- `parseText` without the byte order mark. -/
private def parseRest (u : Str) : Except XErr (List Node) :=
  match parseTree (u.length + 1) ⟨[], []⟩ u with
  | .error e => .error e
  | .ok st => if st.top.any Node.isElement then .ok st.top else .error .noDocumentElement

private theorem parseText_bom (p : Str) : parseText ('\ufeff' :: p) = parseRest (zeroTerminated p) := rfl

private theorem parseText_other {c : Char} (hc : c ≠ '\ufeff') (p : Str) : parseText (c :: p) = parseRest (zeroTerminated (c :: p)) := by
  have e : parseText (c :: p) = parseRest (zeroTerminated (match c :: p with | '\ufeff' :: r => r | _ => c :: p)) := rfl
  rw [e]
  split
  · rename_i e
    injection e with e _
    exact absurd e hc
  · rfl

private theorem parseRest_prefix {u v : Str} {x y : List Node} (h1 : parseRest u = .ok x) (h2 : parseRest (u ++ v) = .ok y) : x <+: y ∧ x.any Node.isElement = true := by
  unfold parseRest at h1 h2
  split at h1
  · cases h1
  · rename_i s1 e1
    split at h2
    · cases h2
    · rename_i s2 e2
      split at h1
      · rename_i ha
        cases h1
        split at h2
        · cases h2
          exact ⟨parseTree_prefix v _ e1 _ e2, ha⟩
        · cases h2
      · cases h1

theorem parseText_prefix {p q : Str} {a b : List Node} (hp : parseText p = .ok a) (h : parseText (p ++ q) = .ok b) : a <+: b ∧ a.any Node.isElement = true := by
  cases p with
  | nil => cases hp
  | cons c p =>
    by_cases hc : c = '\ufeff'
    · subst hc
      obtain ⟨r, hr⟩ := zeroTerminated_append p q
      rw [List.cons_append, parseText_bom, hr] at h
      rw [parseText_bom] at hp
      exact parseRest_prefix hp h
    · obtain ⟨r, hr⟩ := zeroTerminated_append (c :: p) q
      rw [List.cons_append, parseText_other hc, ← List.cons_append, hr] at h
      rw [parseText_other hc] at hp
      exact parseRest_prefix hp h

theorem isTail_ge {b : UInt8} (h : isTail b = true) : ¬ b.toNat < 0x80 ∧ ¬ 0xC0 ≤ b.toNat := by
  unfold isTail at h
  rw [Bool.and_eq_true, decide_eq_true_eq, decide_eq_true_eq] at h
  omega

theorem decode_tail {b : UInt8} (h : isTail b = true) (s : List UInt8) : decodeFrom 0 (b :: s) = decodeFrom 0 s := by
  have hb := isTail_ge h
  have h1 : ¬ 0xE0 ≤ b.toNat := by omega
  have h2 : ¬ 0xF0 ≤ b.toNat := by omega
  rw [decodeFrom.eq_def]
  dsimp only
  rw [if_neg hb.1]
  split
  · rw [if_neg (fun x => hb.2 x.1)]
    split
    · rw [if_neg (fun x => h1 x.1)]
      split
      · rw [if_neg (fun x => h2 x.1)]
      · rfl
    · rfl
  · rfl

theorem decode_append (q : List UInt8) : ∀ (k : Nat) (p : List UInt8), ∃ l, decodeFrom k (p ++ q) = decodeFrom k p ++ l
  | k, [] => ⟨decodeFrom k q, by cases k <;> simp [decodeFrom]⟩
  | k + 1, a :: s => by
    rw [List.cons_append, decodeFrom, decodeFrom]
    exact decode_append q k s
  | 0, a :: s => by
    have hall : decodeFrom 0 (a :: s) = [] → ∃ l, decodeFrom 0 (a :: s ++ q) = decodeFrom 0 (a :: s) ++ l := by
      intro h
      rw [h]
      exact ⟨_, rfl⟩
    have hcons : ∀ (k n : Nat), ∃ l, n :: decodeFrom k (s ++ q) = n :: decodeFrom k s ++ l := by
      intro k n
      obtain ⟨l, hl⟩ := decode_append q k s
      exact ⟨l, by rw [hl, List.cons_append]⟩
    have hskip := decode_append q 0 s
    by_cases h0 : a.toNat < 0x80
    · have e : ∀ t, decodeFrom 0 (a :: t) = a.toNat :: decodeFrom 0 t := by
        intro t
        rw [decodeFrom.eq_def]
        dsimp only
        rw [if_pos h0]
      rw [List.cons_append, e, e]
      exact hcons 0 _
    · have e : ∀ t, decodeFrom 0 (a :: t) = (match t with
          | b :: t' =>
            if 0xC0 ≤ a.toNat ∧ a.toNat < 0xE0 ∧ isTail b = true then ((a.toNat - 0xC0) * 64 + b.toNat % 64) :: decodeFrom 1 t
            else match t' with
              | c :: u =>
                if 0xE0 ≤ a.toNat ∧ a.toNat < 0xF0 ∧ isTail b = true ∧ isTail c = true then ((a.toNat - 0xE0) * 4096 + b.toNat % 64 * 64 + c.toNat % 64) :: decodeFrom 2 t
                else match u with
                  | d :: _ =>
                    if 0xF0 ≤ a.toNat ∧ a.toNat < 0xF8 ∧ isTail b = true ∧ isTail c = true ∧ isTail d = true then
                      ((a.toNat - 0xF0) * 262144 + b.toNat % 64 * 4096 + c.toNat % 64 * 64 + d.toNat % 64) :: decodeFrom 3 t
                    else decodeFrom 0 t
                  | [] => decodeFrom 0 t
              | [] => decodeFrom 0 t
          | [] => decodeFrom 0 t) := by
        intro t
        rw [decodeFrom.eq_def]
        dsimp only
        rw [if_neg h0]
        match t with
        | [] => rfl
        | [b] => rfl
        | [b, c] => rfl
        | b :: c :: d :: w => rfl
      match s, hall, hcons, hskip with
      | [], hall, _, _ =>
        apply hall
        rw [e]
        rfl
      | [b], hall, hcons, hskip =>
        by_cases h1 : 0xC0 ≤ a.toNat ∧ a.toNat < 0xE0 ∧ isTail b = true
        · rw [List.cons_append, e, e]
          dsimp only [List.cons_append]
          rw [if_pos h1, if_pos h1]
          exact hcons 1 _
        · by_cases hb : isTail b = true
          · apply hall
            rw [e]
            dsimp only
            rw [if_neg h1, decode_tail hb]
            rfl
          · rw [List.cons_append, e, e]
            dsimp only [List.cons_append]
            rw [if_neg h1, if_neg h1]
            match q, hskip with
            | [], hskip => exact hskip
            | c :: u, hskip =>
              dsimp only [List.nil_append]
              rw [if_neg (fun x => hb x.2.2.1)]
              match u, hskip with
              | [], hskip => exact hskip
              | d :: w, hskip =>
                dsimp only
                rw [if_neg (fun x => hb x.2.2.1)]
                exact hskip
      | [b, c], hall, hcons, hskip =>
        by_cases h1 : 0xC0 ≤ a.toNat ∧ a.toNat < 0xE0 ∧ isTail b = true
        · rw [List.cons_append, e, e]
          dsimp only [List.cons_append]
          rw [if_pos h1, if_pos h1]
          exact hcons 1 _
        · by_cases h2 : 0xE0 ≤ a.toNat ∧ a.toNat < 0xF0 ∧ isTail b = true ∧ isTail c = true
          · rw [List.cons_append, e, e]
            dsimp only [List.cons_append]
            rw [if_neg h1, if_neg h1, if_pos h2, if_pos h2]
            exact hcons 2 _
          · by_cases hb : isTail b = true ∧ isTail c = true
            · apply hall
              rw [e]
              dsimp only
              rw [if_neg h1, if_neg h2, decode_tail hb.1, decode_tail hb.2]
              rfl
            · rw [List.cons_append, e, e]
              dsimp only [List.cons_append]
              rw [if_neg h1, if_neg h1, if_neg h2, if_neg h2]
              match q, hskip with
              | [], hskip => exact hskip
              | d :: u, hskip =>
                dsimp only [List.nil_append]
                rw [if_neg (fun x => hb ⟨x.2.2.1, x.2.2.2.1⟩)]
                exact hskip
      | b :: c :: d :: w, hall, hcons, hskip =>
        rw [List.cons_append, e, e]
        dsimp only [List.cons_append]
        split
        · exact hcons 1 _
        · split
          · exact hcons 2 _
          · split
            · exact hcons 3 _
            · exact hskip

/-- If bytes and a longer sequence are both accepted, the nodes of the shorter one are the first ones of the longer one. -/
theorem load_prefix {p q : List UInt8} {a b : List Node} (hp : loadXml p = .ok a) (h : loadXml (p ++ q) = .ok b) : a <+: b ∧ a.any Node.isElement = true := by
  unfold loadXml at hp h
  split at hp
  · cases hp
  · split at h
    · cases h
    · obtain ⟨l, hl⟩ := decode_append q 0 p
      rw [hl, List.mapM_append] at h
      cases h1 : (decodeFrom 0 p).mapM charOf with
      | none => rw [h1] at hp; cases hp
      | some s =>
        rw [h1] at hp h
        cases h2 : l.mapM charOf with
        | none => rw [h2] at h; cases h
        | some t =>
          rw [h2] at h
          exact parseText_prefix hp h

end Verif.Xml
