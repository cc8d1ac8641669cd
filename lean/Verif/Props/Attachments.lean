import Verif.Model.Attachments
import Verif.Spec.SubBlock

/-!
# C20: the attachment filter
-/

namespace Verif
open Spec Czi

namespace Spec

/-- The attachment has the given type and name (`none` = any). -/
def AttMatches (type name : Option (List UInt8)) (i : AttInfo) : Prop :=
  (∀ t, type = some t → i.contentFileType = t) ∧ (∀ n, name = some n → i.name = n)

/-- A C string has no zero byte. -/
def CString (s : List UInt8) : Prop := (0 : UInt8) ∉ s

end Spec

theorem strcmp_spec (t m : List UInt8) (ht : CString t) (hm : (0 : UInt8) ∈ m) : strcmpEq t m = some (decide (Czi.cstr m = t)) := by
  induction m generalizing t with
  | nil => cases hm
  | cons b bs ih =>
    cases t with
    | nil =>
      rw [strcmpEq, Czi.cstr]
      by_cases hb : b = 0 <;> simp [hb]
    | cons a as =>
      have ha : a ≠ 0 := fun e => ht (by simp [e])
      have has : CString as := fun e => ht (List.mem_cons_of_mem _ e)
      rw [strcmpEq, Czi.cstr]
      by_cases hab : a = b
      · subst hab
        have hm' : (0 : UInt8) ∈ bs := by
          rcases List.mem_cons.1 hm with h | h
          · exact absurd h.symm ha
          · exact h
        rw [if_pos (by simp), ih as has hm']
        simp [ha, Czi.cstr]
      · rw [if_neg (by simpa using hab)]
        by_cases hb : b = 0
        · simp [hb]
        · have : ¬ b = a := fun e => hab e.symm
          simp [hb, this]

theorem cstr_append (a b : List UInt8) (h : (0 : UInt8) ∈ a) : Czi.cstr (a ++ b) = Czi.cstr a := by
  induction a with
  | nil => cases h
  | cons x xs ih =>
    by_cases hx : x = 0
    · simp [Czi.cstr, hx]
    · have : (0 : UInt8) ∈ xs := by
        rcases List.mem_cons.1 h with h | h
        · exact absurd h.symm hx
        · exact h
      have ih := ih this
      unfold Czi.cstr at ih ⊢
      rw [List.cons_append, List.takeWhile_cons, List.takeWhile_cons, ih]

theorem cstr_no_zero (l : List UInt8) : (0 : UInt8) ∉ Czi.cstr l := by
  induction l with
  | nil => simp [Czi.cstr]
  | cons x xs ih =>
    unfold Czi.cstr at *
    rw [List.takeWhile_cons]
    split
    · rename_i hx
      simp only [List.mem_cons, not_or]
      exact ⟨fun e => by simp [← e] at hx, ih⟩
    · simp

theorem cstr_full (l : List UInt8) (h : (0 : UInt8) ∉ l) : Czi.cstr l = l := by
  induction l with
  | nil => rfl
  | cons x xs ih =>
    simp only [List.mem_cons, not_or] at h
    rw [Czi.cstr, List.takeWhile_cons_of_pos (by simpa using fun e => h.1 e.symm)]
    exact congrArg _ (ih h.2)

open Classical in
theorem matches_spec (type name : Option (List UInt8)) (ht : ∀ t, type = some t → CString t) (hn : ∀ n, name = some n → CString n) (e : AttEntry)
    (hc : (0 : UInt8) ∈ e.contentFileType.toList) (hz : (0 : UInt8) ∈ e.name.toList) : attMatches type name e = some (decide (AttMatches type name e.info)) := by
  unfold attMatches attTypeMatches AttMatches AttEntry.info
  cases type with
  | none =>
    cases name with
    | none => simp
    | some n =>
      dsimp only
      rw [strcmp_spec n _ (hn n rfl) hz]
      simp
  | some t =>
    dsimp only
    rw [strcmp_spec t _ (ht t rfl) (List.mem_append_left _ hc), cstr_append _ _ hc]
    by_cases h : Czi.cstr e.contentFileType.toList = t
    · cases name with
      | none => simp [h]
      | some n =>
        simp only [h, decide_true]
        rw [strcmp_spec n _ (hn n rfl) hz]
        simp
    · simp [h]

open Classical in
/-- **C20 (types of at most seven characters).** If no attachment has a content-file-type of eight characters, the enumeration presents exactly the attachments with the given type and name, with their
index, in directory order, until the callback returns false. -/
theorem C20_filter_exact_partial {σ : Type} (es : List (Int × AttEntry)) (type name : Option (List UInt8)) (ht : ∀ t, type = some t → CString t) (hn : ∀ n, name = some n → CString n)
    (hc : ∀ p ∈ es, (0 : UInt8) ∈ p.2.contentFileType.toList) (hz : ∀ p ∈ es, (0 : UInt8) ∈ p.2.name.toList) (f : σ → Int → AttInfo → Bool × σ) (st : σ) :
    attSubset type name f es st = some (presentItems f ((es.map (fun p => (p.1, p.2.info))).filter (fun p => AttMatches type name p.2)) st) := by
  induction es generalizing st with
  | nil => rfl
  | cons p es ih =>
    obtain ⟨i, e⟩ := p
    have ih := fun st => ih (fun p hp => hc p (List.mem_cons_of_mem _ hp)) (fun p hp => hz p (List.mem_cons_of_mem _ hp)) st
    rw [attSubset, matches_spec type name ht hn e (hc _ List.mem_cons_self) (hz _ List.mem_cons_self)]
    by_cases hm : AttMatches type name e.info
    · simp only [hm, decide_true, List.map_cons]
      rw [List.filter_cons_of_pos (by simpa using hm), presentItems, ih]
      split <;> rfl
    · simp only [hm, decide_false, List.map_cons]
      rw [List.filter_cons_of_neg (by simpa using hm), ih]

/-- **C20 (memory safety).** The comparison never leaves the entry, as the parser terminates every name with a zero. -/
theorem C20_filter_defined {σ : Type} (es : List (Int × AttEntry)) (type name : Option (List UInt8)) (ht : ∀ t, type = some t → CString t) (hn : ∀ n, name = some n → CString n)
    (hz : ∀ p ∈ es, (0 : UInt8) ∈ p.2.name.toList) (f : σ → Int → AttInfo → Bool × σ) (st : σ) : attSubset type name f es st ≠ none := by
  induction es generalizing st with
  | nil => simp [attSubset]
  | cons p es ih =>
    obtain ⟨i, e⟩ := p
    have ih := fun st => ih (fun p hp => hz p (List.mem_cons_of_mem _ hp)) st
    have hz0 := hz _ List.mem_cons_self
    have hm : attMatches type name e ≠ none := by
      unfold attMatches
      have h1 : ∃ b, attTypeMatches type e = some b := by
        cases type with
        | none => exact ⟨_, rfl⟩
        | some t => exact ⟨_, strcmp_spec t _ (ht t rfl) (List.mem_append_right _ hz0)⟩
      obtain ⟨b, hb⟩ := h1
      rw [hb]
      cases b with
      | false => simp
      | true =>
        cases name with
        | none => simp
        | some n =>
          dsimp only
          rw [strcmp_spec n _ (hn n rfl) hz0]
          simp
    rw [attSubset]
    cases hb : attMatches type name e with
    | none => exact absurd hb hm
    | some b =>
      cases b with
      | false => exact ih st
      | true =>
        dsimp only
        split
        · exact ih _
        · simp

/-- **C20 violated for types of eight characters.** An attachment whose content-file-type has eight characters and whose name is not empty is never found under its own type; it is found under the text
made of its type and its name. -/
theorem C20_eight_character_type_missed (e : AttEntry) (hc : (0 : UInt8) ∉ e.contentFileType.toList) (hz : (0 : UInt8) ∈ e.name.toList) (hn : e.info.name ≠ []) :
    AttMatches (some e.contentFileType.toList) none e.info ∧ attMatches (some e.contentFileType.toList) none e = some false ∧
      ¬ AttMatches (some (e.contentFileType.toList ++ e.info.name)) none e.info ∧ attMatches (some (e.contentFileType.toList ++ e.info.name)) none e = some true := by
  have pre : Czi.cstr (e.contentFileType.toList ++ e.name.toList) = e.contentFileType.toList ++ e.info.name := by
    show List.takeWhile _ _ = _
    rw [List.takeWhile_append_of_pos]
    · rfl
    · intro x hx
      simp only [ne_eq, decide_not, Bool.not_eq_eq_eq_not, Bool.not_true, decide_eq_false_iff_not]
      exact fun e => hc (e ▸ hx)
  have hi : e.info.contentFileType = e.contentFileType.toList := cstr_full _ hc
  have hcs : CString (e.contentFileType.toList ++ e.info.name) := by
    intro h
    rcases List.mem_append.1 h with h | h
    · exact hc h
    · exact cstr_no_zero _ h
  refine ⟨⟨fun t h => ?_, fun n h => by cases h⟩, ?_, fun h => ?_, ?_⟩
  · cases h; exact hi
  · unfold attMatches attTypeMatches
    dsimp only
    rw [strcmp_spec _ _ hc (List.mem_append_right _ hz), pre, decide_eq_false (by simpa using hn)]
  · have := h.1 _ rfl
    rw [hi] at this
    exact hn (by simpa using this.symm)
  · unfold attMatches attTypeMatches
    dsimp only
    rw [strcmp_spec _ _ hcs (List.mem_append_right _ hz), pre, decide_eq_true rfl]

theorem parsed_names (b : List UInt8) (n : Nat) : ∀ e ∈ attEntriesOf b n, (0 : UInt8) ∈ e.name.toList := by
  induction n generalizing b with
  | zero => simp [attEntriesOf]
  | succ n ih =>
    intro e he
    rw [attEntriesOf, List.mem_append] at he
    rcases he with he | he
    · unfold attEntryOf at he
      split at he
      · simp only [Option.toList_some, List.mem_singleton] at he
        subst he
        show (0 : UInt8) ∈ (vecOf 80 (field b 48 79)).toList
        have hl : (field b 48 79).length ≤ 79 := by simp [field]
        have : (vecOf 80 (field b 48 79)).toList[79]'(by simp) = 0 := by
          simp only [vecOf, Vector.getElem_toList, Vector.getElem_ofFn]
          rw [List.getD_eq_getElem?_getD, List.getElem?_eq_none (by omega)]
          rfl
        rw [← this]
        exact List.getElem_mem _
      · simp at he
    · exact ih _ e he

/-- Every name in a directory read from a file is terminated. -/
theorem attachment_names_terminated (alloc : Alloc) (s : Stream) (off : Nat) (es : List AttEntry) (n : Int) (h : readAttDir alloc s off = .ok (es, n)) :
    ∀ p ∈ indexed es, (0 : UInt8) ∈ p.2.name.toList := by
  have key : ∀ e ∈ es, (0 : UInt8) ∈ e.name.toList := by
    unfold readAttDir at h
    cases h1 : readExact s off 288 with
    | error e => rw [h1] at h; cases h
    | ok b =>
      rw [h1] at h
      simp only [bind, Except.bind] at h
      split at h
      · cases h
      · split at h
        · cases h2 : readMalloc alloc s (u64 (off + 288)) ((fieldInt b 32 4).toNat * 128) with
          | error e => rw [h2] at h; cases h
          | ok buf =>
            rw [h2] at h
            dsimp only at h
            cases h
            exact parsed_names _ _
        · cases h
          simp
  intro p hp
  unfold indexed at hp
  rw [List.mem_map] at hp
  obtain ⟨⟨a, k⟩, hm, rfl⟩ := hp
  exact key a ((List.mem_zipIdx' hm).2 ▸ List.getElem_mem _)

open Classical in
/-- **C20 for a document read from a file.** The directory which the parser delivers, with the indices under which the attachments are read: the comparison never leaves an entry, and if no type has eight
characters, exactly the attachments with the given type and name are presented. -/
theorem C20_document_filter_partial {σ : Type} (alloc : Alloc) (s : Stream) (off : Nat) (es : List AttEntry) (n : Int) (h : readAttDir alloc s off = .ok (es, n))
    (type name : Option (List UInt8)) (ht : ∀ t, type = some t → CString t) (hn : ∀ n, name = some n → CString n) (f : σ → Int → AttInfo → Bool × σ) (st : σ) :
    attSubset type name f (indexed es) st ≠ none ∧ ((∀ p ∈ indexed es, p.2.info.contentFileType.length < 8) →
      attSubset type name f (indexed es) st = some (presentItems f (((indexed es).map (fun p => (p.1, p.2.info))).filter (fun p => AttMatches type name p.2)) st)) := by
  have hz := attachment_names_terminated alloc s off es n h
  refine ⟨C20_filter_defined _ type name ht hn hz f st, fun h8 => C20_filter_exact_partial _ type name ht hn ?_ hz f st⟩
  intro p hp
  have h8 := h8 p hp
  apply Classical.byContradiction
  intro h0
  have : p.2.info.contentFileType = p.2.contentFileType.toList := cstr_full _ h0
  rw [this] at h8
  simp at h8

/-- An entry with the given type and name, padded with zeros. -/
def exAttEntry (type : List UInt8) (name : List UInt8) : AttEntry :=
  ⟨0, ⟨0, 0, 0, Vector.replicate 8 0⟩, Vector.ofFn (fun i => type[i.val]?.getD 0), Vector.ofFn (fun i => name[i.val]?.getD 0)⟩

example : (0 : UInt8) ∈ (exAttEntry [67, 90, 73] [65]).contentFileType.toList ∧ (0 : UInt8) ∈ (exAttEntry [67, 90, 73] [65]).name.toList ∧ CString [67, 90, 73] := by
  refine ⟨by decide +kernel, by decide +kernel, by unfold CString; decide⟩

example : (0 : UInt8) ∉ (exAttEntry [67, 90, 73, 49, 50, 51, 52, 53] [65]).contentFileType.toList ∧ (0 : UInt8) ∈ (exAttEntry [67, 90, 73, 49, 50, 51, 52, 53] [65]).name.toList ∧
    (exAttEntry [67, 90, 73, 49, 50, 51, 52, 53] [65]).info.name ≠ [] := by
  refine ⟨by decide +kernel, by decide +kernel, by decide +kernel⟩

example : attSubset (some [67, 90, 73]) none (fun (l : List Int) i _ => (true, l ++ [i])) [(0, exAttEntry [67, 90, 73] [65]), (1, exAttEntry [67, 90] [65]), (2, exAttEntry [67, 90, 73] [66])] [] = some [0, 2] := by
  decide +kernel

end Verif
