import Verif.Proof.IndexSet

/-!
# C43: connection strings made of key-value pairs
-/

namespace Verif
open Spec Text

private def pushAll (t : TokState) (w : List Char) : TokState :=
  if t.inValue then { t with value := t.value ++ w } else { t with key := t.key ++ w }

private theorem pushAll_nil (t : TokState) : pushAll t [] = t := by
  unfold pushAll
  split <;> simp

private theorem pushAll_push (t : TokState) (c : Char) (w : List Char) : pushAll (t.push c) w = pushAll t (c :: w) := by
  unfold pushAll TokState.push
  cases h : t.inValue <;> simp [h]

private theorem loop_plain {c : Char} (h1 : c ≠ '\\') (h2 : c ≠ ';') (h3 : c ≠ '=') (s : List Char) (t : TokState) : tokLoop (c :: s) t = tokLoop s (t.push c) := by
  have hc : tokChar t c = some (t.push c) := by
    unfold tokChar
    rw [if_neg (fun h => h3 h.1), if_neg (fun h => h2 h.1)]
  cases s with
  | nil => rw [tokLoop, tokLoop, hc]
  | cons d s => rw [tokLoop, if_neg h1, hc]

private theorem loop_escaped {d : Char} (h : d = ';' ∨ d = '=') (s : List Char) (t : TokState) : tokLoop ('\\' :: d :: s) t = tokLoop s (t.push d) := by
  rw [tokLoop, if_pos rfl, if_pos h]

private theorem loop_backslash {d : Char} (h : ¬ (d = ';' ∨ d = '=')) (s : List Char) (t : TokState) : tokLoop ('\\' :: d :: s) t = tokLoop (d :: s) (t.push '\\') := by
  rw [tokLoop, if_pos rfl, if_neg h]

private theorem loop_backslash_end (t : TokState) : tokLoop ['\\'] t = tokLoop [] (t.push '\\') := by
  rw [tokLoop, tokLoop]
  unfold tokChar
  rw [if_neg (fun h => absurd h.1 (by decide)), if_neg (fun h => absurd h.1 (by decide))]

private theorem loop_escape (w rest : List Char) (t : TokState) (h : rest = [] ∨ NoTrailingBackslash w) : tokLoop (escape w ++ rest) t = tokLoop rest (pushAll t w) := by
  induction w generalizing t with
  | nil => rw [pushAll_nil]; rfl
  | cons c w ih =>
    have hw : rest = [] ∨ NoTrailingBackslash w := by
      refine h.imp_right (fun h => ?_)
      cases w with
      | nil => simp [NoTrailingBackslash]
      | cons d w => simpa [NoTrailingBackslash, List.getLast?_cons_cons] using h
    rw [escape]
    by_cases hs : c = ';' ∨ c = '='
    · rw [if_pos hs, List.cons_append, List.cons_append, loop_escaped hs, ih _ hw, pushAll_push]
    · rw [if_neg hs, List.cons_append, ← pushAll_push, ← ih _ hw]
      by_cases hb : c = '\\'
      · subst hb
        cases w with
        | nil =>
          rcases h with h | h
          · subst h; exact loop_backslash_end t
          · simp [NoTrailingBackslash] at h
        | cons d w =>
          rw [escape]
          by_cases hd : d = ';' ∨ d = '='
          · rw [if_pos hd]
            exact loop_backslash (by decide) _ _
          · rw [if_neg hd]
            exact loop_backslash hd _ _
      · exact loop_plain hb (fun e => hs (.inl e)) (fun e => hs (.inr e)) _ _

private theorem loop_equals (s : List Char) (t : TokState) (h : t.inValue = false) : tokLoop ('=' :: s) t = tokLoop s { t with inValue := true, foundEquals := true } := by
  have hc : tokChar t '=' = some { t with inValue := true, foundEquals := true } := by
    unfold tokChar
    rw [if_pos ⟨rfl, h⟩]
  cases s with
  | nil => rw [tokLoop, tokLoop, hc]
  | cons d s => rw [tokLoop, if_neg (by decide), hc]

private theorem loop_semi (s : List Char) (t : TokState) (h : t.inValue = true) (hk : t.key ≠ []) :
    tokLoop (';' :: s) t = tokLoop s ⟨mapAssign t.tokens t.key t.value, [], [], false, false⟩ := by
  have hc : tokChar t ';' = some ⟨mapAssign t.tokens t.key t.value, [], [], false, false⟩ := by
    unfold tokChar
    rw [if_neg (fun e => absurd e.1 (by decide)), if_pos ⟨rfl, h⟩, if_neg hk]
  cases s with
  | nil => rw [tokLoop, tokLoop, hc]
  | cons d s => rw [tokLoop, if_neg (by decide), hc]

/-- The pairs which survive composing and tokenising: keys are not empty and do not end with a backslash, only the last value may end with a backslash, and the last value is not empty. -/
def PairsOk : List (List Char × List Char) → Prop
  | [] => False
  | [p] => p.1 ≠ [] ∧ NoTrailingBackslash p.1 ∧ p.2 ≠ []
  | p :: ps => p.1 ≠ [] ∧ NoTrailingBackslash p.1 ∧ NoTrailingBackslash p.2 ∧ PairsOk ps

private theorem loop_pairs (ps : List (List Char × List Char)) (m : List (List Char × List Char)) (fe : Bool) (h : PairsOk ps) :
    ∃ k v m', tokLoop (composePairs ps) ⟨m, [], [], false, fe⟩ = some ⟨m', k, v, true, true⟩ ∧ k ≠ [] ∧ v ≠ [] ∧
      mapAssign m' k v = ps.foldl (fun m p => mapAssign m p.1 p.2) m := by
  induction ps generalizing m fe with
  | nil => cases h
  | cons p ps ih =>
    cases ps with
    | nil =>
      obtain ⟨h1, h2, h3⟩ := h
      refine ⟨p.1, p.2, m, ?_, h1, h3, rfl⟩
      rw [composePairs, loop_escape _ _ _ (.inr h2), loop_equals _ _ (by simp [pushAll])]
      have := loop_escape p.2 [] { pushAll ⟨m, [], [], false, fe⟩ p.1 with inValue := true, foundEquals := true } (.inl rfl)
      rw [List.append_nil] at this
      rw [this, tokLoop]
      simp [pushAll]
    | cons q qs =>
      obtain ⟨h1, h2, h3, h4⟩ := h
      obtain ⟨k, v, m', e1, e2, e3, e4⟩ := ih (mapAssign m p.1 p.2) false h4
      refine ⟨k, v, m', ?_, e2, e3, e4⟩
      have hc : composePairs (p :: q :: qs) = escape p.1 ++ '=' :: (escape p.2 ++ ';' :: composePairs (q :: qs)) := by
        rw [composePairs]
        · simp
        · intro hh; cases hh
      rw [hc, loop_escape _ _ _ (.inr h2), loop_equals _ _ (by simp [pushAll]), loop_escape _ _ _ (.inr h3), loop_semi _ _ (by simp [pushAll]) (by simpa [pushAll] using h1), ← e1]
      simp [pushAll]

private theorem mem_assign (m : List (List Char × List Char)) (k v : List Char) (p : List Char × List Char) :
    p ∈ mapAssign m k v ↔ p = (k, v) ∨ (p.1 ≠ k ∧ p ∈ m) := by
  simp only [mapAssign, List.mem_append, List.mem_filter, List.mem_singleton, decide_eq_true_eq]
  constructor
  · rintro (⟨a, b⟩ | a)
    · exact .inr ⟨b, a⟩
    · exact .inl a
  · rintro (a | ⟨a, b⟩)
    · exact .inr a
    · exact .inl ⟨b, a⟩

private theorem mem_assign_all (ps m : List (List Char × List Char)) (k v : List Char) :
    (k, v) ∈ ps.foldl (fun m p => mapAssign m p.1 p.2) m ↔
      (∃ before after, ps = before ++ (k, v) :: after ∧ ∀ p ∈ after, p.1 ≠ k) ∨ ((∀ p ∈ ps, p.1 ≠ k) ∧ (k, v) ∈ m) := by
  induction ps generalizing m with
  | nil => simp
  | cons p ps ih =>
    rw [List.foldl_cons, ih, mem_assign]
    constructor
    · rintro (⟨b, a, e, h⟩ | ⟨h, e | ⟨e, e'⟩⟩)
      · exact .inl ⟨p :: b, a, by rw [e]; rfl, h⟩
      · refine .inl ⟨[], ps, ?_, h⟩
        rw [e]; rfl
      · refine .inr ⟨?_, e'⟩
        intro q hq
        rcases List.mem_cons.1 hq with rfl | hq
        · exact fun h => e h.symm
        · exact h q hq
    · rintro (⟨b, a, e, h⟩ | ⟨h, e⟩)
      · cases b with
        | nil =>
          cases e
          exact .inr ⟨h, .inl rfl⟩
        | cons x b =>
          cases e
          exact .inl ⟨b, a, rfl, h⟩
      · exact .inr ⟨fun q hq => h q (List.mem_cons_of_mem _ hq), .inr ⟨fun h' => h p List.mem_cons_self h'.symm, e⟩⟩

private theorem nodup_assign (ps m : List (List Char × List Char)) (h : (m.map (·.1)).Nodup) : ((ps.foldl (fun m p => mapAssign m p.1 p.2) m).map (·.1)).Nodup := by
  induction ps generalizing m with
  | nil => exact h
  | cons p ps ih =>
    refine ih _ ?_
    show ((m.filter (fun q => q.1 ≠ p.1) ++ [(p.1, p.2)]).map (·.1)).Nodup
    rw [List.map_append, List.nodup_append]
    refine ⟨(List.filter_sublist.map _).nodup h, by simp, ?_⟩
    intro a ha b hb
    simp only [List.mem_map, List.mem_filter, decide_eq_true_eq] at ha
    obtain ⟨q, ⟨_, hq⟩, rfl⟩ := ha
    simp only [List.map_cons, List.map_nil, List.mem_singleton] at hb
    rw [hb]
    exact hq

/-- **C43 (composing, then tokenising).** Tokenising the text of a list of pairs yields a map with exactly the given keys, each with the last value given for it, provided that keys are not empty, no key
and no value but the last ends with a backslash, and the last value is not empty. -/
theorem C43_round_trip_partial (ps : List (List Char × List Char)) (h : PairsOk ps) :
    ∃ m, tokenize (composePairs ps) = some m ∧ (m.map (·.1)).Nodup ∧
      ∀ k v, (k, v) ∈ m ↔ ∃ before after, ps = before ++ (k, v) :: after ∧ ∀ p ∈ after, p.1 ≠ k := by
  obtain ⟨k, v, m', e1, e2, e3, e4⟩ := loop_pairs ps [] false h
  refine ⟨mapAssign m' k v, ?_, ?_, ?_⟩
  · unfold tokenize
    rw [e1]
    dsimp only
    rw [if_neg (by simp), if_neg (fun hh => e3 hh.2.1), if_pos e2, if_neg (by simp [mapAssign])]
  · rw [e4]; exact nodup_assign _ _ (by simp)
  · intro k' v'
    rw [e4, mem_assign_all]
    simp

/-- **C43 (maps).** For a list of pairs with distinct keys, the map has exactly these pairs. -/
theorem C43_map_round_trip_partial (ps : List (List Char × List Char)) (h : PairsOk ps) (hd : (ps.map (·.1)).Nodup) :
    ∃ m, tokenize (composePairs ps) = some m ∧ m.Nodup ∧ ∀ p, p ∈ m ↔ p ∈ ps := by
  obtain ⟨m, e1, e2, e3⟩ := C43_round_trip_partial ps h
  refine ⟨m, e1, List.Pairwise.of_map (fun x : List Char × List Char => x.1) (fun a b hab e => hab (by rw [e])) e2, ?_⟩
  rintro ⟨k, v⟩
  rw [e3]
  constructor
  · rintro ⟨b, a, e, _⟩
    rw [e]
    simp
  · intro hp
    obtain ⟨b, a, e⟩ := List.append_of_mem hp
    refine ⟨b, a, e, ?_⟩
    rw [e, List.map_append, List.map_cons, List.nodup_append] at hd
    intro p hpa hk
    have := (List.nodup_cons.1 hd.2.1).1
    exact this (List.mem_map.2 ⟨p, hpa, hk⟩)

example : PairsOk [("a=;b".toList, "x;y".toList), ("key".toList, [] ++ "v\\".toList)] ∧
    (([("a=;b".toList, "x;y".toList), ("key".toList, "v\\".toList)] : List (List Char × List Char)).map (·.1)).Nodup := by
  refine ⟨⟨by simp, by unfold NoTrailingBackslash; decide, by unfold NoTrailingBackslash; decide, by simp, by unfold NoTrailingBackslash; decide, by simp⟩, by decide +kernel⟩

private theorem push_found (t : TokState) (c : Char) : (t.push c).foundEquals = t.foundEquals ∧ (t.push c).inValue = t.inValue ∧ (t.push c).tokens = t.tokens := by
  unfold TokState.push
  split <;> exact ⟨rfl, rfl, rfl⟩

private theorem loop_no_equals (s : List Char) (t t' : TokState) (h : '=' ∉ s) (ht : t.foundEquals = false) (hi : t.inValue = false) (he : tokLoop s t = some t') :
    t'.foundEquals = false := by
  have hchar : ∀ c (t t' : TokState), c ≠ '=' → t.foundEquals = false → t.inValue = false → tokChar t c = some t' → t'.foundEquals = false ∧ t'.inValue = false := by
    intro c t t' hc ht hi he
    unfold tokChar at he
    rw [if_neg (fun hh => hc hh.1), if_neg (fun hh => by rw [hi] at hh; exact absurd hh.2 (by decide))] at he
    cases he
    exact ⟨(push_found t c).1.trans ht, (push_found t c).2.1.trans hi⟩
  fun_induction tokLoop s t with
  | case1 t => cases he; exact ht
  | case2 c t => exact (hchar c t t' (fun e => h (by simp [e])) ht hi he).1
  | case3 t c s hd ih =>
    simp only [List.mem_cons, not_or] at h
    exact ih h.2.2 ((push_found _ _).1.trans ht) ((push_found _ _).2.1.trans hi) he
  | case4 t d s hd ih =>
    simp only [List.mem_cons, not_or] at h
    exact ih (by simp [h.2]) ((push_found _ _).1.trans ht) ((push_found _ _).2.1.trans hi) he
  | case5 => cases he
  | case6 c d s t hc t1 e ih =>
    simp only [List.mem_cons, not_or] at h
    obtain ⟨a, b⟩ := hchar c t t1 (fun e => h.1 e.symm) ht hi e
    exact ih (by simp [h.2]) a b he

private theorem loop_keys (s : List Char) (t t' : TokState) (h : ∀ p ∈ t.tokens, p.1 ≠ []) (he : tokLoop s t = some t') : ∀ p ∈ t'.tokens, p.1 ≠ [] := by
  have hchar : ∀ c (t t' : TokState), (∀ p ∈ t.tokens, p.1 ≠ []) → tokChar t c = some t' → ∀ p ∈ t'.tokens, p.1 ≠ [] := by
    intro c t t' h he
    unfold tokChar at he
    split at he
    · cases he; exact h
    · split at he
      · split at he
        · cases he
        · rename_i hk
          cases he
          intro p hp
          rcases (mem_assign _ _ _ p).1 hp with rfl | ⟨_, hp⟩
          · exact hk
          · exact h p hp
      · cases he
        rw [(push_found t c).2.2]
        exact h
  fun_induction tokLoop s t with
  | case1 t => cases he; exact h
  | case2 c t => exact hchar c t t' h he
  | case3 t c s hd ih => exact ih (by rw [(push_found _ _).2.2]; exact h) he
  | case4 t d s hd ih => exact ih (by rw [(push_found _ _).2.2]; exact h) he
  | case5 => cases he
  | case6 c d s t hc t1 e ih => exact ih (hchar c t t1 h e) he

/-- **C43 (malformed texts).** A text without `=` is rejected; whatever is accepted yields at least one pair and no empty key. -/
theorem C43_malformed_rejected (s : List Char) : ('=' ∉ s → tokenize s = none) ∧ ∀ m, tokenize s = some m → m ≠ [] ∧ ∀ p ∈ m, p.1 ≠ [] := by
  constructor
  · intro h
    unfold tokenize
    cases e : tokLoop s ⟨[], [], [], false, false⟩ with
    | none => rfl
    | some t => dsimp only; rw [if_pos (loop_no_equals s _ t h rfl rfl e)]
  · intro m h
    unfold tokenize at h
    cases e : tokLoop s ⟨[], [], [], false, false⟩ with
    | none => rw [e] at h; cases h
    | some t =>
      rw [e] at h
      dsimp only at h
      have hk := loop_keys s _ t (by simp) e
      by_cases h1 : t.foundEquals = false
      · rw [if_pos h1] at h; cases h
      rw [if_neg h1] at h
      by_cases h2 : t.key ≠ [] ∧ t.value = [] ∧ t.inValue = true
      · rw [if_pos h2] at h; cases h
      rw [if_neg h2] at h
      by_cases h3 : (if t.key ≠ [] then mapAssign t.tokens t.key t.value else t.tokens) = []
      · rw [if_pos h3] at h; cases h
      · rw [if_neg h3] at h
        have hm := Option.some.inj h
        refine ⟨hm ▸ h3, ?_⟩
        intro p hp
        rw [← hm] at hp
        split at hp
        · rename_i hkey
          rcases (mem_assign _ _ _ p).1 hp with rfl | ⟨_, hp⟩
          · exact hkey
          · exact hk p hp
        · exact hk p hp

/-- **C43 violated by trailing backslashes and empty values.** A key ending in a backslash swallows the `=`, a value ending in a backslash swallows the following pair, an empty value is accepted
everywhere but in the last place, and a value without a key is dropped silently in the last place. -/
theorem C43_escape_ambiguous :
    tokenize (composePairs [("a\\".toList, "b".toList)]) = none ∧
    tokenize (composePairs [("a".toList, "b\\".toList), ("c".toList, "d".toList)]) = some [("a".toList, "b;c=d".toList)] ∧
    tokenize (composePairs [("a".toList, "".toList), ("b".toList, "c".toList)]) = some [("a".toList, "".toList), ("b".toList, "c".toList)] ∧
    tokenize (composePairs [("b".toList, "c".toList), ("a".toList, "".toList)]) = none ∧
    tokenize "a=b;=c".toList = some [("a".toList, "b".toList)] := by
  refine ⟨by decide +kernel, by decide +kernel, by decide +kernel, by decide +kernel, by decide +kernel⟩

end Verif
