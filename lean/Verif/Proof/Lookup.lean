import Verif.Spec.Lookup
import Verif.Proof.EditDone
import Verif.Props.Attachments

/-! Lemmas about looking things up by index: the invariant of a reader-writer under all calls, and the enumerations. -/

namespace Verif.Czi

open Spec

/-! ## The text in a field -/

theorem cstr_split (m : List UInt8) (h : (0 : UInt8) ∈ m) : ∃ rest, m = cstr m ++ 0 :: rest := by
  induction m with
  | nil => cases h
  | cons x xs ih =>
    by_cases hx : x = 0
    · exact ⟨xs, by simp [cstr, hx]⟩
    · obtain ⟨rest, hr⟩ := ih (by
        rcases List.mem_cons.1 h with h | h
        · exact absurd h.symm hx
        · exact h)
      refine ⟨rest, ?_⟩
      conv => lhs; rw [hr]
      simp [cstr, hx]

theorem fieldText_cstr (m : List UInt8) : FieldText m (cstr m) := by
  refine ⟨cstr_no_zero m, ?_⟩
  by_cases h : (0 : UInt8) ∈ m
  · exact Or.inr (cstr_split m h)
  · exact Or.inl (cstr_full m h).symm

theorem textAt_cstr (m : List UInt8) (last : UInt8) (h : (0 : UInt8) ∈ m ∨ last = 0) : TextAt (m ++ [last]) (cstr m) := by
  refine ⟨cstr_no_zero m, ?_⟩
  by_cases hm : (0 : UInt8) ∈ m
  · obtain ⟨rest, hr⟩ := cstr_split m hm
    refine ⟨rest ++ [last], ?_⟩
    conv => lhs; rw [hr]
    simp
  · rcases h with h | h
    · exact absurd h hm
    · exact ⟨[], by rw [cstr_full m hm, h]⟩

theorem textAt_unique {m t t' : List UInt8} (h : TextAt m t) (h' : TextAt m t') : t = t' := by
  have key : ∀ m t, TextAt m t → cstr m = t := by
    intro m t ⟨h1, rest, h2⟩
    subst h2
    induction t with
    | nil => simp [cstr]
    | cons x xs ih =>
      have hx : x ≠ 0 := fun e => h1 (by simp [e])
      have := ih (fun e => h1 (List.mem_cons_of_mem _ e))
      unfold cstr at this ⊢
      rw [List.cons_append, List.takeWhile_cons, if_pos (by simpa using hx), this]
  rw [← key m t h, key m t' h']

/-- The information that is made of an entry whose name ends within its field. -/
def AttEntry.told (e : AttEntry) (last : UInt8) : RawAttInfo := ⟨e.guid, e.contentFileType.toList ++ [last], cstr e.name.toList⟩

theorem rawInfo_eq (e : AttEntry) (last : UInt8) (h : (0 : UInt8) ∈ e.name.toList) : e.rawInfo last = .ok (e.told last) := by
  unfold AttEntry.rawInfo stdString
  rw [if_pos h]
  rfl

theorem told_describes (e : AttEntry) : DescribesAtt (e.told 0) e :=
  ⟨rfl, ⟨_, fieldText_cstr _, textAt_cstr _ _ (Or.inr rfl)⟩, fieldText_cstr _⟩

/-! ## Enumerations -/

theorem enumAtts_eq {σ : Type} (f : σ → Int → RawAttInfo → Bool × σ) (last : Int → UInt8) (es : List (Int × AttEntry))
    (h : ∀ p ∈ es, (0 : UInt8) ∈ p.2.name.toList) (st : σ) :
    enumAtts f last es st = .ok (presentItems f (es.map fun p => (p.1, p.2.told (last p.1))) st) := by
  induction es generalizing st with
  | nil => rfl
  | cons p es ih =>
    obtain ⟨i, e⟩ := p
    have ih := fun st => ih (fun p hp => h p (List.mem_cons_of_mem _ hp)) st
    rw [enumAtts, rawInfo_eq e _ (h _ List.mem_cons_self)]
    simp only [Outcome.bind, List.map_cons, presentItems, ih]
    split <;> rfl

theorem enumAttSubset_all {σ : Type} (f : σ → Int → RawAttInfo → Bool × σ) (es : List (Int × AttEntry))
    (h : ∀ p ∈ es, (0 : UInt8) ∈ p.2.name.toList) (st : σ) :
    enumAttSubset none none f es st = .ok (presentItems f (es.map fun p => (p.1, p.2.told 0)) st) := by
  induction es generalizing st with
  | nil => rfl
  | cons p es ih =>
    obtain ⟨i, e⟩ := p
    have ih := fun st => ih (fun p hp => h p (List.mem_cons_of_mem _ hp)) st
    have hm : attMatches none none e = some true := rfl
    rw [enumAttSubset, hm]
    simp only [rawInfo_eq e _ (h _ List.mem_cons_self), Outcome.bind, List.map_cons, presentItems, ih]
    split <;> rfl

theorem toldMatches_iff (type name : Option (List UInt8)) (e : AttEntry) : HasTypeAndName type name (e.told 0) ↔ AttMatches type name e.info := by
  unfold HasTypeAndName AttMatches AttEntry.info AttEntry.told
  have ht := textAt_cstr e.contentFileType.toList 0 (Or.inr rfl)
  constructor
  · intro ⟨h1, h2⟩
    exact ⟨fun t h => textAt_unique ht (h1 t h), h2⟩
  · intro ⟨h1, h2⟩
    exact ⟨fun t h => by rw [← h1 t h]; exact ht, h2⟩

open Classical in
theorem enumAttSubset_eq {σ : Type} (f : σ → Int → RawAttInfo → Bool × σ) (es : List (Int × AttEntry)) (type name : Option (List UInt8))
    (ht : ∀ t, type = some t → CString t) (hn : ∀ n, name = some n → CString n)
    (hc : ∀ p ∈ es, (0 : UInt8) ∈ p.2.contentFileType.toList) (h : ∀ p ∈ es, (0 : UInt8) ∈ p.2.name.toList) (st : σ) :
    enumAttSubset type name f es st =
      .ok (presentItems f ((es.map fun p => (p.1, p.2.told 0)).filter (fun p => HasTypeAndName type name p.2)) st) := by
  induction es generalizing st with
  | nil => rfl
  | cons p es ih =>
    obtain ⟨i, e⟩ := p
    have ih := fun st => ih (fun p hp => hc p (List.mem_cons_of_mem _ hp)) (fun p hp => h p (List.mem_cons_of_mem _ hp)) st
    rw [enumAttSubset, matches_spec type name ht hn e (hc _ List.mem_cons_self) (h _ List.mem_cons_self)]
    by_cases hm : AttMatches type name e.info
    · simp only [hm, decide_true, List.map_cons]
      rw [List.filter_cons_of_pos (by simpa using (toldMatches_iff type name e).2 hm), presentItems, rawInfo_eq e _ (h _ List.mem_cons_self)]
      simp only [Outcome.bind, ih]
      split <;> rfl
    · simp only [hm, decide_false, List.map_cons]
      rw [List.filter_cons_of_neg (by simpa using fun x => hm ((toldMatches_iff type name e).1 x)), ih]

theorem enumerate_map {σ α β : Type} (g : α → β) (f : σ → Int → β → Bool × σ) (l : List (Int × α)) (st : σ) :
    enumerate (fun st i a => f st i (g a)) l st = presentItems f (l.map fun p => (p.1, g p.2)) st := by
  rw [enumerate_eq]
  induction l generalizing st with
  | nil => rfl
  | cons p l ih =>
    simp only [List.map_cons, presentItems, ih]

theorem presentItems_map {σ α β : Type} (g : α → β) (f : σ → Int → β → Bool × σ) (l : List (Int × α)) (st : σ) :
    presentItems (fun st i a => f st i (g a)) l st = presentItems f (l.map fun p => (p.1, g p.2)) st := by
  induction l generalizing st with
  | nil => rfl
  | cons p l ih => simp only [List.map_cons, presentItems, ih]

/-! ## The indices of a vector -/

theorem indexed_getElem? {α : Type} (l : List α) (i : Nat) : (indexed l)[i]? = l[i]?.map (fun a => ((i : Int), a)) := by
  unfold indexed
  rw [List.getElem?_map, List.getElem?_zipIdx]
  cases l[i]? <;> simp

theorem indexed_length {α : Type} (l : List α) : (indexed l).length = l.length := by simp [indexed]

theorem indexed_mem {α : Type} (l : List α) (k : Int) (a : α) : (k, a) ∈ indexed l ↔ 0 ≤ k ∧ l[k.toNat]? = some a := by
  rw [List.mem_iff_getElem?]
  constructor
  · intro ⟨i, hi⟩
    rw [indexed_getElem?] at hi
    cases h : l[i]? with
    | none => rw [h] at hi; cases hi
    | some b =>
      rw [h] at hi
      injection hi with hi
      injection hi with h1 h2
      subst h1 h2
      exact ⟨by omega, by simpa using h⟩
  · intro ⟨h1, h2⟩
    refine ⟨k.toNat, ?_⟩
    rw [indexed_getElem?, h2]
    simp [h1]

theorem indexed_ascending {α : Type} (l : List α) : ((indexed l).map Prod.fst).Pairwise (· < ·) := by
  have : (indexed l).map Prod.fst = (List.range l.length).map (fun i : Nat => (i : Int)) := by
    unfold indexed
    apply List.ext_getElem
    · simp
    · intro i h1 h2
      simp
  rw [this, List.pairwise_map]
  exact List.pairwise_lt_range.imp (by intro a b h; omega)

theorem vectorTryGet_nonneg {α : Type} (l : List α) {k : Int} (h : 0 ≤ k) : vectorTryGet l k = .ok l[k.toNat]? := by
  unfold vectorTryGet
  by_cases hk : k < l.length
  · rw [if_pos hk, if_neg (by omega)]
    have : k.toNat < l.length := by omega
    rw [List.getElem?_eq_getElem this]
  · rw [if_neg hk, List.getElem?_eq_none (by omega)]

theorem vectorTryGet_neg {α : Type} (l : List α) {k : Int} (h : k < 0) : vectorTryGet l k = .throws := by
  unfold vectorTryGet
  rw [if_pos (by omega), if_pos h]

/-! ## The reader-writer under all calls -/

theorem mapInsert_keys' {α : Type} (m : List (Int × α)) (k : Int) (v : α) : ∀ p ∈ mapInsert m k v, p = (k, v) ∨ p ∈ m := by
  induction m with
  | nil => intro p hp; simpa [mapInsert] using hp
  | cons x r ih =>
    obtain ⟨k', v'⟩ := x
    intro p hp
    unfold mapInsert at hp
    split at hp
    · simpa using hp
    · split at hp
      · exact Or.inr hp
      · rcases List.mem_cons.1 hp with h | h
        · exact Or.inr (by simp [h])
        · rcases ih p h with h | h
          · exact Or.inl h
          · exact Or.inr (List.mem_cons_of_mem _ h)

/-- What holds of the directories of a reader-writer after any calls; of the names only if `q`. -/
structure EditInv (q : Prop) (b : Bool) (w : RWState) : Prop where
  dirOk : RWInv w.dir
  attOk : AttInv w.att
  names : q → ∀ p ∈ w.att.atts, (0 : UInt8) ∈ p.2.name.toList
  flag : w.operational = b

theorem EditInv.congr {q : Prop} {b b' : Bool} {w w' : RWState} (h : EditInv q b w) (hd : w'.dir = w.dir) (ha : w'.att = w.att) (ho : w'.operational = b') :
    EditInv q b' w' :=
  ⟨hd ▸ h.dirOk, ha ▸ h.attOk, ha ▸ h.names, ho⟩

theorem exec_state {α : Type} {P : RWState → Prop} (s : RW) (p : Plan α) (k : RW → α → RW × Option WErr) (h : P s.w)
    (hk : ∀ s' a, s'.w = s.w → P (k s' a).1.w) : P (RW.exec s p k).1.w := by
  unfold RW.exec
  dsimp only
  split
  · exact h
  · exact hk _ _ rfl

theorem ensureNext_state {s s' : RW} {n : Nat} (h : s.ensureNext = .ok (s', n)) : s'.w.dir = s.w.dir ∧ s'.w.att = s.w.att ∧ s'.w.operational = s.w.operational := by
  unfold RW.ensureNext at h
  split at h
  · injection h with h
    injection h with h _
    subst h
    exact ⟨rfl, rfl, rfl⟩
  · split at h
    · cases h
    · injection h with h
      injection h with h _
      subst h
      exact ⟨rfl, rfl, rfl⟩

theorem EditInv.ensure {q : Prop} {b : Bool} {s s' : RW} {n : Nat} (h : EditInv q b s.w) (hn : s.ensureNext = .ok (s', n)) : EditInv q b s'.w :=
  h.congr (ensureNext_state hn).1 (ensureNext_state hn).2.1 ((ensureNext_state hn).2.2.trans h.flag)

theorem tryModify_names {d : RWAtts} {k : Int} {e : AttEntry} (h : ∀ p ∈ d.atts, (0 : UInt8) ∈ p.2.name.toList) (he : (0 : UInt8) ∈ e.name.toList) :
    ∀ p ∈ (d.tryModify k e).atts, (0 : UInt8) ∈ p.2.name.toList := by
  unfold RWAtts.tryModify
  split
  · exact h
  · intro p hp
    dsimp only [mapSet] at hp
    rw [List.mem_map] at hp
    obtain ⟨p', hp', rfl⟩ := hp
    split
    · exact he
    · exact h _ hp'

theorem editInv_modifyAtt {q : Prop} {b : Bool} {w : RWState} (h : EditInv q b w) {k : Int} {e0 : AttEntry} (hk : w.att.tryGet k = some e0) (e : AttEntry)
    (he : q → (0 : UInt8) ∈ e.name.toList) : EditInv q b { w with att := w.att.tryModify k e } :=
  ⟨h.dirOk, (rwatt_modify h.attOk hk e).1, fun hq => tryModify_names (h.names hq) (he hq), h.flag⟩

theorem editInv_replaceAttachment {q : Prop} {b : Bool} (s : RW) (h : EditInv q b s.w) (k : Int) (a : AddAtt) (ha : q → (0 : UInt8) ∈ a.name.toList) :
    EditInv q b (rwReplaceAttachment s k a).1.w := by
  unfold rwReplaceAttachment
  split
  · exact h
  · rename_i e he
    split
    · exact h
    · split
      · unfold rwReplaceAttachmentAtEnd
        split
        · exact h
        · rename_i s' n hn
          have hd := ensureNext_state hn
          refine exec_state (P := EditInv q b) _ _ _ (h.ensure hn) ?_
          intro s'' _ hw
          show EditInv q b { s''.w with att := s''.w.att.tryModify k (a.entry n) }
          rw [hw]
          exact editInv_modifyAtt (h.ensure hn) (by rw [hd.2.1]; exact he) _ ha
      · unfold rwReplaceAttachmentInPlace
        refine exec_state (P := EditInv q b) _ _ _ h ?_
        intro s'' _ hw
        show EditInv q b { s''.w with att := s''.w.att.tryModify k (a.entry _) }
        rw [hw]
        exact editInv_modifyAtt h he _ ha

theorem editInv_modifyDir {q : Prop} {b : Bool} {w : RWState} (h : EditInv q b w) {k : Int} {e0 : Entry} (hk : w.dir.tryGet k = some e0) (e : Entry) (n : Option Nat) :
    EditInv q b { w with dir := (w.dir.tryModify k e).1, next := n } :=
  ⟨(rwdir_modify h.dirOk hk e).1, h.attOk, h.names, h.flag⟩

theorem editInv_replaceSubBlock {q : Prop} {b : Bool} (s : RW) (h : EditInv q b s.w) (k : Int) (a : AddInfo) : EditInv q b (rwReplaceSubBlock s k a).1.w := by
  unfold rwReplaceSubBlock
  split
  · exact h
  · rename_i e he
    split
    · exact h
    · split
      · unfold rwReplaceSubBlockAtEnd
        split
        · exact h
        · rename_i s' n hn
          have hd := ensureNext_state hn
          refine exec_state (P := EditInv q b) _ _ _ (h.ensure hn) ?_
          intro s'' z hw
          show EditInv q b { s''.w with dir := (s''.w.dir.tryModify k (a.entry n)).1, next := some (n + z + 32) }
          rw [hw]
          exact editInv_modifyDir (h.ensure hn) (by rw [hd.1]; exact he) _ _
      · unfold rwReplaceSubBlockInPlace
        refine exec_state (P := EditInv q b) _ _ _ h ?_
        intro s'' _ hw
        show EditInv q b { s''.w with dir := (s''.w.dir.tryModify k (a.entry _)).1 }
        rw [hw]
        exact editInv_modifyDir h he _ s.w.next

theorem editInv_addAttachment {q : Prop} {b : Bool} (s : RW) (h : EditInv q b s.w) (a : AddAtt) (ha : q → (0 : UInt8) ∈ a.name.toList) :
    EditInv q b (rwAddAttachment s a).1.w := by
  unfold rwAddAttachment
  split
  · exact h
  · split
    · exact h
    · rename_i s' n hn
      have h' := h.ensure hn
      split
      · exact h'
      · rename_i att hatt
        have hi : EditInv q b { s'.w with att := att } := by
          rcases rwatt_tryAdd h'.attOk (a.entry n) with h1 | ⟨d', h1, h2, _⟩
          · rw [h1] at hatt; cases hatt
          · rw [h1] at hatt
            injection hatt with hatt
            subst hatt
            refine ⟨h'.dirOk, h2, fun hq p hp => ?_, h'.flag⟩
            unfold RWAtts.tryAdd at h1
            split at h1
            · cases h1
            · injection h1 with h1
              subst h1
              rcases mapInsert_keys' _ _ _ p hp with e | e
              · rw [e]; exact ha hq
              · exact h'.names hq p e
        refine exec_state (P := EditInv q b) _ _ _ hi ?_
        intro s'' _ hw
        have hs : EditInv q b s''.w := by rw [hw]; exact hi
        exact hs.congr rfl rfl hs.flag

theorem editInv_addSubBlock {q : Prop} {b : Bool} (s : RW) (h : EditInv q b s.w) (a : AddInfo) : EditInv q b (rwAddSubBlock s a).1.w := by
  unfold rwAddSubBlock
  split
  · exact h
  · split
    · exact h
    · rename_i s' n hn
      have h' := h.ensure hn
      split
      · exact h'
      · rename_i dir x hdir
        have hi : EditInv q b { s'.w with dir := dir } := by
          rcases rwdir_tryAdd h'.dirOk (a.entry n) with h1 | ⟨d', h1, h2, _⟩
          · rw [h1] at hdir; cases hdir
          · rw [h1] at hdir
            injection hdir with hdir _
            subst hdir
            exact ⟨h2, h'.attOk, h'.names, h'.flag⟩
        refine exec_state (P := EditInv q b) _ _ _ hi ?_
        intro s'' _ hw
        have hs : EditInv q b s''.w := by rw [hw]; exact hi
        exact hs.congr rfl rfl hs.flag

theorem editInv_removeSubBlock {q : Prop} {b : Bool} (s : RW) (h : EditInv q b s.w) (k : Int) : EditInv q b (rwRemoveSubBlock s k).1.w := by
  unfold rwRemoveSubBlock
  split
  · exact h
  · rename_i dir e hdir
    have hi : EditInv q b { s.w with dir := dir } := by
      cases hk : s.w.dir.tryGet k with
      | none =>
        unfold RWDir.tryRemove at hdir
        rw [show mapFind s.w.dir.subBlks k = none from hk] at hdir
        cases hdir
      | some e0 =>
        obtain ⟨d', h1, h2, _⟩ := rwdir_remove h.dirOk hk
        rw [h1] at hdir
        injection hdir with hdir _
        subst hdir
        exact ⟨h2, h.attOk, h.names, h.flag⟩
    refine exec_state (P := EditInv q b) _ _ _ hi ?_
    intro s'' _ hw
    show EditInv q b s''.w
    rw [hw]
    exact hi

theorem editInv_removeAttachment {q : Prop} {b : Bool} (s : RW) (h : EditInv q b s.w) (k : Int) : EditInv q b (rwRemoveAttachment s k).1.w := by
  unfold rwRemoveAttachment
  split
  · exact h
  · rename_i att e hatt
    have hi : EditInv q b { s.w with att := att } := by
      cases hk : s.w.att.tryGet k with
      | none =>
        unfold RWAtts.tryRemove at hatt
        rw [show mapFind s.w.att.atts k = none from hk] at hatt
        cases hatt
      | some e0 =>
        obtain ⟨d', h1, h2, _⟩ := rwatt_remove h.attOk hk
        have h1' := h1
        rw [h1] at hatt
        injection hatt with hatt _
        subst hatt
        refine ⟨h.dirOk, h2, fun hq p hp => h.names hq p ?_, h.flag⟩
        unfold RWAtts.tryRemove at h1'
        rw [show mapFind s.w.att.atts k = some e0 from hk] at h1'
        injection h1' with h1' _
        subst h1'
        exact List.mem_of_mem_filter hp
    refine exec_state (P := EditInv q b) _ _ _ hi ?_
    intro s'' _ hw
    show EditInv q b s''.w
    rw [hw]
    exact hi

theorem editInv_writeMetadata {q : Prop} {b : Bool} (s : RW) (h : EditInv q b s.w) (m : MetaInfo) : EditInv q b (rwWriteMetadata s m).1.w := by
  unfold rwWriteMetadata
  split
  · exact h
  · split
    · exact h
    · rename_i s' n hn
      refine exec_state (P := EditInv q b) _ _ _ (h.ensure hn) ?_
      intro s'' r hw
      have : EditInv q b s''.w := by rw [hw]; exact h.ensure hn
      dsimp only
      split
      · exact EditInv.congr this rfl rfl this.flag
      · exact this

theorem editInv_close {q : Prop} {b : Bool} (s : RW) (h : EditInv q b s.w) : EditInv q b (rwClose s).1.w := by
  have h1 : ∀ s : RW, EditInv q b s.w → EditInv q b (rwCloseSubDir s).1.w := by
    intro s h
    unfold rwCloseSubDir
    split
    · split
      · exact h
      · rename_i s' n hn
        refine exec_state (P := EditInv q b) _ _ _ (h.ensure hn) ?_
        intro s'' r hw
        have hs : EditInv q b s''.w := by rw [hw]; exact h.ensure hn
        exact hs.congr rfl rfl hs.flag
    · exact h
  have h2 : ∀ s : RW, EditInv q b s.w → EditInv q b (rwCloseAttDir s).1.w := by
    intro s h
    unfold rwCloseAttDir
    split
    · split
      · exact h
      · rename_i s' n hn
        refine exec_state (P := EditInv q b) _ _ _ (h.ensure hn) ?_
        intro s'' r hw
        have hs : EditInv q b s''.w := by rw [hw]; exact h.ensure hn
        exact hs.congr rfl rfl hs.flag
    · exact h
  have h3 : ∀ s : RW, EditInv q b s.w → EditInv q b (rwCloseHeader s).1.w := by
    intro s h
    unfold rwCloseHeader
    split
    · refine exec_state (P := EditInv q b) _ _ _ h ?_
      intro s'' r hw
      show EditInv q b s''.w
      rw [hw]; exact h
    · exact h
  have h4 : ∀ (r : RW × Option WErr) (f : RW → RW × Option WErr), EditInv q b r.1.w → (∀ s, EditInv q b s.w → EditInv q b (f s).1.w) → EditInv q b (andThen r f).1.w := by
    intro r f hr hf
    unfold andThen
    split
    · exact hr
    · exact hf _ hr
  exact h4 _ _ (h4 _ _ (h1 s h) h2) h3

theorem editInv_step {q : Prop} {b : Bool} (s : RW) (h : EditInv q b s.w) (op : EditOp) (ho : q → NameEnds op) : EditInv q b (editStep s op).1.w := by
  unfold editStep
  split
  · exact h
  · cases op with
    | addSubBlock a => exact editInv_addSubBlock s h a
    | addAttachment a => exact editInv_addAttachment s h a ho
    | replaceSubBlock k a => exact editInv_replaceSubBlock s h k a
    | replaceAttachment k a => exact editInv_replaceAttachment s h k a ho
    | removeSubBlock k => exact editInv_removeSubBlock s h k
    | removeAttachment k => exact editInv_removeAttachment s h k
    | writeMetadata m => exact editInv_writeMetadata s h m
    | close => exact editInv_close s h

theorem editInv_calls {q : Prop} {b : Bool} (ops : List EditOp) : ∀ (s : RW), EditInv q b s.w → (q → ∀ op ∈ ops, NameEnds op) → EditInv q b (rwCalls s ops).w := by
  induction ops with
  | nil => exact fun s h _ => h
  | cons op ops ih =>
    intro s h ho
    exact ih _ (editInv_step s h op fun hq => ho hq op List.mem_cons_self) (fun hq op' h' => ho hq op' (List.mem_cons_of_mem _ h'))

/-! ### Opening -/

theorem addAll_dir (es : List Entry) : ∀ d : RWDir, RWInv d → RWInv (d.addAll es) := by
  have : ∀ (es : List Entry) (d : RWDir), RWInv d → RWInv (es.foldl (fun d e => (d.add e).1) d) := by
    intro es
    induction es with
    | nil => exact fun d h => h
    | cons e es ih => exact fun d h => ih _ (rwInv_add h e)
  intro d h
  exact ⟨(this es d h).sorted, (this es d h).below⟩

theorem lookupAddAll_att (es : List AttEntry) : ∀ d : RWAtts, AttInv d → AttInv (d.addAll es) := by
  have : ∀ (es : List AttEntry) (d : RWAtts), AttInv d → AttInv (es.foldl RWAtts.add d) := by
    intro es
    induction es with
    | nil => exact fun d h => h
    | cons e es ih => exact fun d h => ih _ (attInv_add h e).1
  intro d h
  exact ⟨(this es d h).sorted, (this es d h).below⟩

theorem addAll_names (es : List AttEntry) (he : ∀ e ∈ es, (0 : UInt8) ∈ e.name.toList) : ∀ d : RWAtts, (∀ p ∈ d.atts, (0 : UInt8) ∈ p.2.name.toList) →
    ∀ p ∈ (d.addAll es).atts, (0 : UInt8) ∈ p.2.name.toList := by
  have : ∀ (es : List AttEntry) (d : RWAtts), (∀ e ∈ es, (0 : UInt8) ∈ e.name.toList) → (∀ p ∈ d.atts, (0 : UInt8) ∈ p.2.name.toList) →
      ∀ p ∈ (es.foldl RWAtts.add d).atts, (0 : UInt8) ∈ p.2.name.toList := by
    intro es
    induction es with
    | nil => exact fun d _ h => h
    | cons e es ih =>
      intro d he h
      refine ih _ (fun e' h' => he e' (List.mem_cons_of_mem _ h')) ?_
      intro p hp
      rcases mapInsert_keys' _ _ _ p hp with x | x
      · rw [x]; exact he e List.mem_cons_self
      · exact h p x
  exact fun d h => this es d he h

theorem editInv_create (al : Alloc) (d : Disk) (info : RWInfo) (s : RW) (h : rwCreate al ⟨RWState.init, d⟩ info = (s, none)) :
    EditInv True true s.w := by
  have hmeta : ∀ (w w' : RWState) (d : Disk), EditInv True false w → rwOpenMeta w d = (w', none) → EditInv True false w' := by
    intro w w' d hw h
    unfold rwOpenMeta at h
    split at h
    · split at h
      · cases h
      · injection h with h _
        subst h
        exact hw.congr rfl rfl hw.flag
    · injection h with h _
      subst h
      exact hw
  have hatt : ∀ (w w' : RWState) (d : Disk), EditInv True false w → rwOpenAtt al w d = (w', none) → EditInv True false w' := by
    intro w w' d hw h
    unfold rwOpenAtt at h
    split at h
    · split at h
      · cases h
      · rename_i es alc hr
        refine hmeta _ _ d ?_ h
        have hz := attachment_names_terminated _ _ _ _ _ hr
        refine ⟨hw.dirOk, lookupAddAll_att es _ hw.attOk, fun _ => addAll_names es ?_ _ (hw.names trivial), hw.flag⟩
        intro e he
        obtain ⟨i, hi, rfl⟩ := List.mem_iff_getElem.1 he
        exact hz ((i : Int), es[i]) ((indexed_mem _ _ _).2 ⟨by omega, by simp⟩)
    · exact hmeta _ _ d hw h
  have hdir : ∀ (w w' : RWState) (d : Disk), EditInv True false w → rwOpenDir al w d = (w', none) → EditInv True false w' := by
    intro w w' d hw h
    unfold rwOpenDir at h
    split at h
    · cases h
    · rename_i es alc hr
      refine hatt _ _ d ?_ h
      exact ⟨addAll_dir es _ hw.dirOk, hw.attOk, hw.names, hw.flag⟩
  have hinit : ∀ hd : Header, EditInv True false { RWState.init with header := hd } := by
    intro hd
    exact ⟨⟨List.Pairwise.nil, fun p hp => by cases hp⟩, ⟨List.Pairwise.nil, fun p hp => by cases hp⟩, fun _ p hp => (by cases hp), rfl⟩
  unfold rwCreate at h
  split at h
  · cases h
  · split at h
    · injection h with h _
      subst h
      exact (hinit ⟨1, 0, info.guid, 0, 0, 0⟩).congr rfl rfl rfl
    · cases h
    · dsimp only at h
      split at h
      · cases h
      · rename_i w hw
        injection h with h _
        subst h
        exact (hdir _ _ _ (hinit _) hw).congr rfl rfl rfl

theorem EditInv.weaken {q : Prop} {b : Bool} {w : RWState} (h : EditInv True b w) : EditInv q b w := ⟨h.dirOk, h.attOk, fun _ => h.names trivial, h.flag⟩

end Verif.Czi
