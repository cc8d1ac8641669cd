import Verif.Proof.Text

/-!
# Lemmas about index sets
-/

namespace Verif.Text
open Spec

theorem digits_takeWhile {ds : List Char} (h : ∀ c ∈ ds, IsDigit c) : ds.takeWhile Char.isDigit = ds := by
  have := (takeWhile_all (p := Char.isDigit) (fun c hc => (isDigit_iff c).2 (h c hc)) [] (by intro c cs hh; cases hh)).1
  rwa [List.append_nil] at this

/-- A sign (or none) and digits, as `num1` and `num2` collect them. -/
theorem value_signed (sg : Option Char) (hs : sg = none ∨ sg = some '+' ∨ sg = some '-') (ds : List Char) (h : ∀ c ∈ ds, IsDigit c) (v : Int) :
    valueFromNumString (sg.toList ++ ds) = some v ↔ v = signed (sg == some '-') ds ∧ IsInt32 v := by
  have hi : ∀ r, ds ≠ 'i' :: r := by
    rintro r rfl
    have := h 'i' (List.mem_cons_self ..)
    simp [IsDigit] at this
  have e : strtoll (sg.toList ++ ds) = saturate (signed (sg == some '-') ds) := by
    rcases hs with rfl | rfl | rfl
    · exact strtoll_signed false ds h
    · show saturate (natOf (ds.takeWhile Char.isDigit) : Int) = _
      rw [digits_takeWhile h, natOf_eq]
      rfl
    · exact strtoll_signed true ds h
  unfold valueFromNumString
  rw [if_neg, if_neg, e]
  · have hr := saturate_range (signed (sg == some '-') ds)
    by_cases h32 : IsInt32 (signed (sg == some '-') ds)
    · rw [if_neg (fun hh => hr.1 hh h32), saturate_eq h32]
      constructor
      · intro e; cases e; exact ⟨rfl, h32⟩
      · rintro ⟨rfl, _⟩; rfl
    · rw [if_pos (hr.2 h32)]
      constructor
      · intro e; cases e
      · rintro ⟨rfl, hh⟩; exact absurd hh h32
  · rcases hs with rfl | rfl | rfl
    · rintro (hh | hh)
      · have := h '+' (by rw [show ds = _ from hh]; simp)
        simp [IsDigit] at this
      · exact hi _ hh
    · rintro (hh | hh)
      · injection hh with _ hh
        exact hi _ hh
      · injection hh with hh _
        exact absurd hh (by decide)
    · rintro (hh | hh) <;> injection hh with hh _ <;> exact absurd hh (by decide)
  · rcases hs with rfl | rfl | rfl
    · intro hh
      have := h '-' (by rw [show ds = _ from hh]; simp)
      simp [IsDigit] at this
    · intro hh
      injection hh with hh _
      exact absurd hh (by decide)
    · intro hh
      injection hh with _ hh
      exact hi _ hh

theorem white_iff (w : List Char) : White w ↔ ∀ c ∈ w, isSpace c = true :=
  ⟨fun h c hc => (isSpace_iff c).2 (h c hc), fun h c hc => (isSpace_iff c).1 (h c hc)⟩

/-- The part of `scanNum` after a sign. -/
theorem scanNum_sign (c : Char) (hc : c = '-' ∨ c = '+') (s : List Char) :
    scanNum (c :: s) = (match s.dropWhile isSpace with
      | 'i' :: 'n' :: 'f' :: r => some ([c, 'i', 'n', 'f'], r)
      | r => some (c :: r.takeWhile Char.isDigit, r.dropWhile Char.isDigit)) := by
  rw [scanNum, if_pos hc]
  rfl

theorem scanNum_sign_inf (c : Char) (hc : c = '-' ∨ c = '+') (w r : List Char) (hw : White w) :
    scanNum (c :: (w ++ 'i' :: 'n' :: 'f' :: r)) = some ([c, 'i', 'n', 'f'], r) := by
  rw [scanNum_sign c hc, dropWhile_append ((white_iff w).1 hw), List.dropWhile_cons, if_neg (by decide)]
  rfl

theorem scanNum_sign_digits (c : Char) (hc : c = '-' ∨ c = '+') (w ds r : List Char) (hw : White w) (hd : ∀ c ∈ ds, IsDigit c)
    (hr : ∀ c cs, r = c :: cs → c.isDigit = false ∧ c ≠ 'i' ∧ (ds = [] → isSpace c = false)) :
    scanNum (c :: (w ++ (ds ++ r))) = some (c :: ds, r) := by
  have hh : (ds ++ r).dropWhile isSpace = ds ++ r := by
    cases hds : ds with
    | nil =>
      cases hr2 : r with
      | nil => rfl
      | cons x xs => rw [List.nil_append, List.dropWhile_cons, if_neg (by simp [(hr x xs hr2).2.2 hds])]
    | cons x xs =>
      have := (digit_not (hd x (by rw [hds]; exact List.mem_cons_self ..))).2.2.2.2
      rw [List.cons_append, List.dropWhile_cons, if_neg (by simp [this])]
  have ht := takeWhile_all (p := Char.isDigit) (fun c hc => (isDigit_iff c).2 (hd c hc)) r (fun c cs h => (hr c cs h).1)
  rw [scanNum_sign c hc, dropWhile_append ((white_iff w).1 hw), hh]
  split
  · rename_i q heq
    exfalso
    cases hds : ds with
    | nil =>
      rw [hds, List.nil_append] at heq
      exact (hr _ _ heq).2.1 rfl
    | cons x xs =>
      have hx := hd x (by rw [hds]; exact List.mem_cons_self ..)
      rw [hds, List.cons_append] at heq
      injection heq with heq _
      subst heq
      simp [IsDigit] at hx
  · rw [ht.1, ht.2]

theorem scanNum_digits (ds r : List Char) (hd : Digits ds) (hr : ∀ c cs, r = c :: cs → c.isDigit = false) : scanNum (ds ++ r) = some (ds, r) := by
  cases hds : ds with
  | nil => exact absurd hds hd.1
  | cons x xs =>
    have hx := hd.2 x (by rw [hds]; exact List.mem_cons_self ..)
    have hn := digit_not hx
    have ht := takeWhile_all (p := Char.isDigit) (a := xs) (fun c hc => (isDigit_iff c).2 (hd.2 c (by rw [hds]; exact List.mem_cons_of_mem _ hc))) r hr
    rw [List.cons_append, scanNum, if_neg (fun h => h.elim hn.2.2.2.1 hn.2.2.1), if_pos ((isDigit_iff x).2 hx), ht.1, ht.2]

theorem scanNum_inf (r : List Char) : scanNum ('i' :: 'n' :: 'f' :: r) = some (['i', 'n', 'f'], r) := by
  rw [scanNum, if_neg (by decide), if_neg (by decide)]
  rfl

/-- What follows a number in an item: white space, then the end or `-`. -/
theorem scanNum_complete {t : List Char} {v : Int} (h : LooseNumber t v) (h32 : IsInt32 v) (w r : List Char) (hw : White w) (hr : r = [] ∨ ∃ u, r = '-' :: u) :
    ∃ n r2, scanNum (t ++ (w ++ r)) = some (n, r2) ∧ r2.dropWhile isSpace = r ∧ (w = [] → r2 = r) ∧ valueFromNumString n = some v := by
  have hd0 : r.dropWhile isSpace = r := by
    rcases hr with rfl | ⟨u, rfl⟩
    · rfl
    · rw [List.dropWhile_cons, if_neg (by decide)]
  have hdw : (w ++ r).dropWhile isSpace = r := by rw [dropWhile_append ((white_iff w).1 hw), hd0]
  have hhead : ∀ c cs, w ++ r = c :: cs → c.isDigit = false ∧ c ≠ 'i' := by
    intro c cs e
    cases hw2 : w with
    | nil =>
      rw [hw2, List.nil_append] at e
      rcases hr with rfl | ⟨u, rfl⟩
      · cases e
      · injection e with e _
        subst e
        decide
    | cons x xs =>
      rw [hw2, List.cons_append] at e
      injection e with e _
      subst e
      have := hw x (by rw [hw2]; exact List.mem_cons_self ..)
      simp only [List.mem_cons, List.not_mem_nil, or_false] at this
      rcases this with rfl | rfl | rfl | rfl | rfl | rfl <;> decide
  rcases h with h | ⟨⟨c, w0, hc, hw0⟩, rfl⟩
  · cases h with
    | plain ds hds =>
      exact ⟨t, w ++ r, scanNum_digits _ _ hds (fun c cs e => (hhead c cs e).1), hdw, by rintro rfl; rfl,
        (value_signed none (.inl rfl) t hds.2 _).2 ⟨rfl, h32⟩⟩
    | plus w0 ds hw0 hds =>
      refine ⟨'+' :: ds, w ++ r, ?_, hdw, by rintro rfl; rfl, (value_signed (some '+') (.inr (.inl rfl)) ds hds.2 _).2 ⟨rfl, h32⟩⟩
      rw [List.cons_append, List.append_assoc]
      exact scanNum_sign_digits _ (.inr rfl) _ _ _ hw0 hds.2 (fun c cs e => ⟨(hhead c cs e).1, (hhead c cs e).2, fun hh => absurd hh hds.1⟩)
    | minus w0 ds hw0 hds =>
      refine ⟨'-' :: ds, w ++ r, ?_, hdw, by rintro rfl; rfl, (value_signed (some '-') (.inr (.inr rfl)) ds hds.2 _).2 ⟨rfl, h32⟩⟩
      rw [List.cons_append, List.append_assoc]
      exact scanNum_sign_digits _ (.inl rfl) _ _ _ hw0 hds.2 (fun c cs e => ⟨(hhead c cs e).1, (hhead c cs e).2, fun hh => absurd hh hds.1⟩)
    | inf => exact ⟨_, w ++ r, scanNum_inf _, hdw, by rintro rfl; rfl, by decide⟩
    | plusInf w0 hw0 =>
      refine ⟨_, w ++ r, ?_, hdw, by rintro rfl; rfl, (by decide : valueFromNumString ['+', 'i', 'n', 'f'] = _)⟩
      rw [List.cons_append, List.append_assoc]
      exact scanNum_sign_inf _ (.inr rfl) _ _ hw0
    | minusInf w0 hw0 =>
      refine ⟨_, w ++ r, ?_, hdw, by rintro rfl; rfl, (by decide : valueFromNumString ['-', 'i', 'n', 'f'] = _)⟩
      rw [List.cons_append, List.append_assoc]
      exact scanNum_sign_inf _ (.inl rfl) _ _ hw0
  · refine ⟨[c], r, ?_, hd0, fun _ => rfl, ?_⟩
    · have hww : White (w0 ++ w) := by
        intro x hx
        rw [List.mem_append] at hx
        exact hx.elim (hw0 x) (hw x)
      have := scanNum_sign_digits c hc.symm (w0 ++ w) [] r hww (by simp) (by
        intro x xs e
        rcases hr with rfl | ⟨u, rfl⟩
        · cases e
        · injection e with e _
          subst e
          decide)
      rw [List.nil_append] at this
      rw [List.cons_append, ← List.append_assoc]
      exact this
    · rcases hc with rfl | rfl
      · exact (value_signed (some '+') (.inr (.inl rfl)) [] (by simp) 0).2 ⟨rfl, h32⟩
      · exact (value_signed (some '-') (.inr (.inr rfl)) [] (by simp) 0).2 ⟨rfl, h32⟩

theorem scanNum_sound {s n r : List Char} (h : scanNum s = some (n, r)) :
    ∃ t, s = t ++ r ∧ ∀ v, valueFromNumString n = some v → LooseNumber t v ∧ IsInt32 v := by
  have hmin : IsInt32 intMin := by unfold IsInt32 intMin; omega
  have hmax : IsInt32 intMax := by unfold IsInt32 intMax; omega
  cases s with
  | nil => cases h
  | cons c s =>
    by_cases hc : c = '-' ∨ c = '+'
    · rw [scanNum_sign c hc] at h
      obtain ⟨e, hw, _⟩ := span_eq isSpace s
      have hw' : White (s.takeWhile isSpace) := (white_iff _).2 hw
      split at h
      · rename_i q heq
        injection h with h
        injection h with h1 h2
        subst h1 h2
        refine ⟨c :: (s.takeWhile isSpace ++ ['i', 'n', 'f']), ?_, ?_⟩
        · rw [List.cons_append, List.append_assoc]
          show c :: s = c :: (s.takeWhile isSpace ++ 'i' :: 'n' :: 'f' :: q)
          rw [← heq, ← e]
        · intro v hv
          rcases hc with rfl | rfl
          · have : some intMin = some v := hv
            cases this
            exact ⟨.inl (.minusInf _ hw'), hmin⟩
          · have : some intMax = some v := hv
            cases this
            exact ⟨.inl (.plusInf _ hw'), hmax⟩
      · rename_i q _
        injection h with h
        injection h with h1 h2
        subst h1 h2
        obtain ⟨e2, hd, _⟩ := span_eq Char.isDigit (s.dropWhile isSpace)
        have hd' : ∀ x ∈ (s.dropWhile isSpace).takeWhile Char.isDigit, IsDigit x := fun x hx => (isDigit_iff x).1 (hd x hx)
        refine ⟨c :: (s.takeWhile isSpace ++ (s.dropWhile isSpace).takeWhile Char.isDigit), ?_, ?_⟩
        · rw [List.cons_append, List.append_assoc, ← e2, ← e]
        · intro v hv
          by_cases hne : (s.dropWhile isSpace).takeWhile Char.isDigit = []
          · rw [hne] at hv ⊢
            rw [List.append_nil]
            have : v = 0 ∧ IsInt32 v := by
              rcases hc with rfl | rfl
              · exact (value_signed (some '-') (.inr (.inr rfl)) [] (by simp) v).1 hv
              · exact (value_signed (some '+') (.inr (.inl rfl)) [] (by simp) v).1 hv
            exact ⟨.inr ⟨⟨c, _, hc.symm, hw'⟩, this.1⟩, this.2⟩
          · rcases hc with rfl | rfl
            · obtain ⟨rfl, h32⟩ := (value_signed (some '-') (.inr (.inr rfl)) _ hd' v).1 hv
              exact ⟨.inl (.minus _ _ hw' ⟨hne, hd'⟩), h32⟩
            · obtain ⟨rfl, h32⟩ := (value_signed (some '+') (.inr (.inl rfl)) _ hd' v).1 hv
              exact ⟨.inl (.plus _ _ hw' ⟨hne, hd'⟩), h32⟩
    · rw [scanNum, if_neg hc] at h
      split at h
      · rename_i hdg
        injection h with h
        injection h with h1 h2
        subst h1 h2
        obtain ⟨e2, hd, _⟩ := span_eq Char.isDigit s
        have hd' : ∀ x ∈ c :: s.takeWhile Char.isDigit, IsDigit x := by
          intro x hx
          rw [List.mem_cons] at hx
          rcases hx with rfl | hx
          · exact (isDigit_iff x).1 hdg
          · exact (isDigit_iff x).1 (hd x hx)
        refine ⟨c :: s.takeWhile Char.isDigit, by rw [List.cons_append, ← e2], ?_⟩
        intro v hv
        obtain ⟨rfl, h32⟩ := (value_signed none (.inl rfl) _ hd' v).1 hv
        exact ⟨.inl (.plain _ ⟨by simp, hd'⟩), h32⟩
      · split at h
        · rename_i q heq
          injection h with h
          injection h with h1 h2
          subst h1 h2
          refine ⟨['i', 'n', 'f'], heq, ?_⟩
          intro v hv
          have : some intMax = some v := hv
          cases this
          exact ⟨.inl .inf, hmax⟩
        · cases h

theorem parsePart_iff (t : List Char) (a b : Int) : parsePart t = some (a, b) ↔ IndexItem LooseNumber t a b := by
  constructor
  · intro h
    unfold parsePart at h
    split at h
    · cases h
    · rename_i n1 r hs
      obtain ⟨t1, e1, hv1⟩ := scanNum_sound hs
      obtain ⟨e2, hw, _⟩ := span_eq isSpace r
      have hw' : White (r.takeWhile isSpace) := (white_iff _).2 hw
      split at h
      · rename_i hnil
        cases hv : valueFromNumString n1 with
        | none => rw [hv] at h; cases h
        | some v =>
          rw [hv] at h
          injection h with h
          injection h with ha hb
          subst ha hb
          rw [hnil, List.append_nil] at e2
          rw [e1, e2]
          exact .single _ _ _ (hv1 v hv).1 (hv1 v hv).2 hw'
      · rename_i c r2 hcons
        split at h
        · cases h
        · rename_i hc
          have hc : c = '-' := Classical.not_not.1 hc
          subst hc
          split at h
          · cases h
          · rename_i n2 r3 hs2
            obtain ⟨t2, e3, hv2⟩ := scanNum_sound hs2
            split at h
            · cases h
            · rename_i hr3
              have hr3 : r3 = [] := Classical.not_not.1 hr3
              split at h
              · rename_i va vb hva hvb
                injection h with h
                injection h with ha hb
                subst ha hb
                rw [e1, e2, hcons, e3, hr3, List.append_nil, ← List.append_assoc]
                exact .interval _ _ _ _ _ (hv1 _ hva).1 hw' (hv2 _ hvb).1 (hv1 _ hva).2 (hv2 _ hvb).2
              · cases h
  · intro h
    cases h with
    | single t w v ht h32 hw =>
      obtain ⟨n, r2, g1, g2, _, g3⟩ := scanNum_complete ht h32 w [] hw (.inl rfl)
      rw [List.append_nil] at g1
      unfold parsePart
      rw [g1]
      dsimp only
      rw [g2]
      dsimp only
      rw [g3]
      rfl
    | interval t w u a b ht hw hu h1 h2 =>
      obtain ⟨n, r2, g1, g2, _, g3⟩ := scanNum_complete ht h1 w ('-' :: u) hw (.inr ⟨u, rfl⟩)
      obtain ⟨n', r2', g1', g2', g4', g3'⟩ := scanNum_complete hu h2 [] [] (by intro c hc; cases hc) (.inl rfl)
      rw [List.append_nil, List.append_nil] at g1'
      have := g4' rfl
      subst this
      unfold parsePart
      rw [List.append_assoc, g1]
      dsimp only
      rw [g2]
      dsimp only
      rw [if_neg (by simp), g1']
      dsimp only
      rw [if_neg (by simp), g3, g3']

/-! ## Splitting and trimming -/

theorem isTrim_iff (c : Char) : isTrim c = true ↔ c ∈ ['\t', ' '] := by
  simp [isTrim, or_comm]

theorem trim_padded (p : List Char) : Padded (trim p) p := by
  obtain ⟨e1, h1, h1'⟩ := span_eq isTrim p
  obtain ⟨e2, h2, h2'⟩ := span_eq isTrim (p.dropWhile isTrim).reverse
  refine ⟨p.takeWhile isTrim, ((p.dropWhile isTrim).reverse.takeWhile isTrim).reverse, ?_, ?_, ?_, ?_, ?_⟩
  · unfold trim
    rw [List.append_assoc, ← List.reverse_append, ← e2, List.reverse_reverse]
    exact e1
  · exact fun c hc => (isTrim_iff c).1 (h1 c hc)
  · exact fun c hc => (isTrim_iff c).1 (h2 c (List.mem_reverse.1 hc))
  · intro c hc
    have : p.dropWhile isTrim = trim p ++ ((p.dropWhile isTrim).reverse.takeWhile isTrim).reverse := by
      unfold trim
      rw [← List.reverse_append, ← e2, List.reverse_reverse]
    cases ht : trim p with
    | nil => rw [ht] at hc; cases hc
    | cons x xs =>
      rw [ht] at hc this
      cases hc
      rw [← isTrim_iff]
      have := h1' c _ this
      simp [this]
  · intro c hc
    unfold trim at hc
    rw [List.getLast?_reverse] at hc
    cases ht : (p.dropWhile isTrim).reverse.dropWhile isTrim with
    | nil => rw [ht] at hc; cases hc
    | cons x xs =>
      rw [ht] at hc
      cases hc
      rw [← isTrim_iff]
      have := h2' c _ ht
      simp [this]

theorem trim_unique {t p : List Char} (h : Padded t p) : trim p = t := by
  obtain ⟨b, a, rfl, hb, ha, h1, h2⟩ := h
  have hb' : ∀ c ∈ b, isTrim c = true := fun c hc => (isTrim_iff c).2 (hb c hc)
  have ha' : ∀ c ∈ a.reverse, isTrim c = true := fun c hc => (isTrim_iff c).2 (ha c (List.mem_reverse.1 hc))
  unfold trim
  rw [List.append_assoc, dropWhile_append hb']
  cases ht : t with
  | nil =>
    rw [List.nil_append]
    have : a.dropWhile isTrim = [] := by
      have := dropWhile_append (p := isTrim) (a := a) (fun c hc => (isTrim_iff c).2 (ha c hc)) []
      rw [List.append_nil] at this
      rw [this]
      rfl
    rw [this]
    rfl
  | cons x xs =>
    have hx : isTrim x = false := by
      have := h1 x (by rw [ht]; rfl)
      rw [← isTrim_iff] at this
      simpa using this
    rw [List.cons_append, List.dropWhile_cons, if_neg (by simp [hx]), ← List.cons_append, ← ht, List.reverse_append, dropWhile_append ha']
    cases hr : t.reverse with
    | nil =>
      rw [List.reverse_eq_nil_iff] at hr
      rw [hr] at ht
      cases ht
    | cons y ys =>
      have hy : isTrim y = false := by
        have := h2 y (by rw [← List.reverse_reverse t, hr, List.getLast?_reverse]; rfl)
        rw [← isTrim_iff] at this
        simpa using this
      rw [List.dropWhile_cons, if_neg (by simp [hy]), ← hr, List.reverse_reverse]

/-- Splitting the text made of `parts`. -/
theorem splitAt_join (parts : List (List Char)) (h0 : parts ≠ []) (h : ∀ p ∈ parts, ',' ∉ p) : splitAt ',' [] (joinComma parts) = parts.filter (fun p => p ≠ []) := by
  have key : ∀ (p cur s : List Char), ',' ∉ p → splitAt ',' cur (p ++ s) = splitAt ',' (cur ++ p) s := by
    intro p
    induction p with
    | nil => intro cur s _; rw [List.nil_append, List.append_nil]
    | cons c cs ih =>
      intro cur s hc
      rw [List.mem_cons, not_or] at hc
      rw [List.cons_append, splitAt, if_neg (fun h => hc.1 h.symm), ih _ _ hc.2, List.append_assoc]
      rfl
  induction parts with
  | nil => exact absurd rfl h0
  | cons p ps ih =>
    have hp := h p (List.mem_cons_self ..)
    cases ps with
    | nil =>
      have := key p [] [] hp
      rw [List.append_nil, List.nil_append] at this
      rw [joinComma, this, splitAt]
      by_cases hn : p = []
      · simp [hn]
      · simp [hn]
    | cons q qs =>
      rw [joinComma, key p [] _ hp, List.nil_append, splitAt, if_pos rfl, ih (by simp) (fun r hr => h r (List.mem_cons_of_mem _ hr))]
      · by_cases hn : p = []
        · rw [if_pos hn, List.filter_cons (x := p), if_neg (by simp [hn])]
        · rw [if_neg hn, List.filter_cons (x := p), if_pos (by simp [hn])]
      · intro hh; cases hh

/-- Every text is made of parts. -/
theorem exists_parts (s : List Char) : ∃ parts : List (List Char), parts ≠ [] ∧ s = joinComma parts ∧ ∀ p ∈ parts, ',' ∉ p := by
  induction s with
  | nil => exact ⟨[[]], by simp, rfl, by simp⟩
  | cons c s ih =>
    obtain ⟨parts, h0, h1, h2⟩ := ih
    by_cases hc : c = ','
    · subst hc
      refine ⟨[] :: parts, by simp, ?_, ?_⟩
      · cases parts with
        | nil => exact absurd rfl h0
        | cons q qs =>
          rw [joinComma, ← h1, List.nil_append]
          intro hh; cases hh
      · intro p hp
        rw [List.mem_cons] at hp
        rcases hp with rfl | hp
        · simp
        · exact h2 p hp
    · cases parts with
      | nil => exact absurd rfl h0
      | cons q qs =>
        refine ⟨(c :: q) :: qs, by simp, ?_, ?_⟩
        · rw [h1]
          cases qs <;> rfl
        · intro p hp
          rw [List.mem_cons] at hp
          rcases hp with rfl | hp
          · rw [List.mem_cons, not_or]
            exact ⟨fun h => hc h.symm, h2 q (List.mem_cons_self ..)⟩
          · exact h2 p (List.mem_cons_of_mem _ hp)

theorem addParts_iff (ps : List (List Char)) (l : List (Int × Int)) :
    addParts ps = .ok l ↔ Each (fun p (iv : Int × Int) => ∃ t, Padded t p ∧ IndexItem LooseNumber t iv.1 iv.2 ∧ iv.1 ≤ iv.2) ps l := by
  induction ps generalizing l with
  | nil =>
    rw [addParts]
    constructor
    · intro h; cases h; exact .nil
    · intro h; cases h; rfl
  | cons p ps ih =>
    rw [addParts]
    constructor
    · intro h
      split at h
      · cases h
      · rename_i a b hp
        split at h
        · cases h
        · rename_i hab
          split at h
          · cases h
          · rename_i l' hl'
            cases h
            exact .cons ⟨trim p, trim_padded p, (parsePart_iff _ _ _).1 hp, by dsimp only; omega⟩ ((ih l').1 hl')
    · intro h
      cases h with
      | cons h1 h2 =>
        rename_i iv l'
        obtain ⟨t, ht, hi, hle⟩ := h1
        rw [trim_unique ht, (parsePart_iff t iv.1 iv.2).2 hi]
        dsimp only
        rw [if_neg (by omega), (ih l').2 h2]

end Verif.Text
