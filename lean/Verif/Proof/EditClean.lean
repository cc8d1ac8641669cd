import Verif.Proof.EditBreak
import Verif.Proof.Cache

/-! Sequences of calls that meet none of the defects, and items that are not touched. -/

namespace Verif.Czi

open Spec

/-! ## Parts of the state that a call does not change -/

theorem exec_keeps {α : Type} {P : RWState → Prop} {s : RW} {p : Plan α} {k : RW → α → RW × Option WErr} (h : P s.w)
    (hk : ∀ (t : RW) x, t.w = s.w → P (k t x).1.w) : P (RW.exec s p k).1.w := by
  unfold RW.exec
  split
  · exact h
  · exact hk _ _ rfl

theorem ensureNext_keeps {s s' : RW} {n : Nat} (h : s.ensureNext = .ok (s', n)) : s'.w = { s.w with next := some n } ∧ s'.disk = s.disk := by
  unfold RW.ensureNext at h
  split at h
  · rename_i m hm
    injection h with h
    injection h with h1 h2
    subst h1 h2
    obtain ⟨⟨a, b, c, d, e, f, g, i, j⟩, dk⟩ := s
    dsimp only at hm
    subst hm
    exact ⟨rfl, rfl⟩
  · split at h
    · cases h
    · injection h with h
      injection h with h1 h2
      subst h1 h2
      exact ⟨rfl, rfl⟩

/-- The part of the state about attachments. -/
def AttsAre (A : RWAtts) (i : Option SegInfo) (w : RWState) : Prop := w.att = A ∧ w.attDirSeg = i

theorem AttsAre.of {A : RWAtts} {i : Option SegInfo} {w w' : RWState} (h : AttsAre A i w) (h1 : w'.att = w.att) (h2 : w'.attDirSeg = w.attDirSeg) :
    AttsAre A i w' := ⟨h1.trans h.1, h2.trans h.2⟩

theorem noAttachment_step {A : RWAtts} {i : Option SegInfo} {s : RW} {op : EditOp} (hop : NoAttachment op) (h : AttsAre A i s.w) :
    AttsAre A i (editStep s op).1.w := by
  unfold editStep
  split
  · exact h
  · cases op with
    | addSubBlock a =>
      dsimp only
      unfold rwAddSubBlock
      split
      · exact h
      · cases en : s.ensureNext with
        | error e => exact h
        | ok r =>
          obtain ⟨t, n⟩ := r
          obtain ⟨e1, e2⟩ := ensureNext_keeps en
          have ht : AttsAre A i t.w := by rw [e1]; exact h
          dsimp only
          split
          · exact ht
          · exact exec_keeps (P := AttsAre A i) ht (fun u x hu => by
              dsimp only
              rw [hu]
              exact ht)
    | replaceSubBlock k a =>
      dsimp only
      unfold rwReplaceSubBlock
      split
      · exact h
      · split
        · exact h
        · split
          · unfold rwReplaceSubBlockAtEnd
            cases en : s.ensureNext with
            | error e => exact h
            | ok r =>
              obtain ⟨t, n⟩ := r
              obtain ⟨e1, e2⟩ := ensureNext_keeps en
              have ht : AttsAre A i t.w := by rw [e1]; exact h
              exact exec_keeps (P := AttsAre A i) ht (fun u x hu => by
                dsimp only
                rw [hu]
                exact ht)
          · exact exec_keeps (P := AttsAre A i) h (fun u x hu => by
              dsimp only
              rw [hu]
              exact h)
    | removeSubBlock k =>
      dsimp only
      unfold rwRemoveSubBlock
      split
      · exact h
      · exact exec_keeps (P := AttsAre A i) h (fun u x hu => by
          dsimp only
          rw [hu]
          exact h)
    | writeMetadata m =>
      dsimp only
      unfold rwWriteMetadata
      split
      · exact h
      · cases en : s.ensureNext with
        | error e => exact h
        | ok r =>
          obtain ⟨t, n⟩ := r
          obtain ⟨e1, e2⟩ := ensureNext_keeps en
          have ht : AttsAre A i t.w := by rw [e1]; exact h
          exact exec_keeps (P := AttsAre A i) ht (fun u x hu => by
            dsimp only
            split
            · dsimp only
              rw [hu]
              exact ht
            · rw [hu]
              exact ht)
    | addAttachment a => exact absurd hop id
    | replaceAttachment k a => exact absurd hop id
    | removeAttachment k => exact absurd hop id
    | close => exact absurd hop id

theorem noAttachment_edit {A : RWAtts} {i : Option SegInfo} (ops : List EditOp) : ∀ (s : RW) (c : Content), (∀ op ∈ ops, NoAttachment op) → AttsAre A i s.w →
    AttsAre A i (edit s c ops).1.w := by
  induction ops with
  | nil => intro s c _ h; exact h
  | cons op ops ih =>
    intro s c ho h
    exact ih _ _ (fun x hx => ho x (List.mem_cons_of_mem _ hx)) (noAttachment_step (ho op (List.mem_cons_self ..)) h)

theorem tame_prefix {a b : List EditOp} : ∀ {g : Prop} {s : RW}, Tame g s (a ++ b) → Tame g s a := by
  induction a with
  | nil => intro g s _; trivial
  | cons op a ih => intro g s h; exact ⟨h.1, ih h.2⟩

/-- No attachment is replaced. -/
theorem tame_of (ops : List EditOp) : ∀ (s : RW) (g : Prop), ¬ g → (∀ s, ∀ op ∈ ops, ¬ GrowsAttachment s op) → Tame g s ops ∧ ¬ Grown g s ops := by
  induction ops with
  | nil => intro s g hg _; exact ⟨trivial, hg⟩
  | cons op ops ih =>
    intro s g hg ho
    have h1 : ¬ (g ∨ GrowsAttachment s op) := fun x => x.elim hg (ho s op (List.mem_cons_self ..))
    obtain ⟨h2, h3⟩ := ih (editStep s op).1 _ h1 (fun s x hx => ho s x (List.mem_cons_of_mem _ hx))
    exact ⟨⟨fun x => absurd x hg, h2⟩, h3⟩

/-- Only attachments are added: the sub-block directory is not modified, and the list of attachments does not get shorter. -/
structure OnlyAdded (m : Nat) (i : Option SegInfo) (w : RWState) : Prop where
  dir : w.dir.isModified = false
  len : m ≤ w.att.atts.length
  seg : w.attDirSeg = i

theorem mapInsert_length_ge {α : Type} (m : List (Int × α)) (k : Int) (v : α) : m.length ≤ (mapInsert m k v).length := by
  induction m with
  | nil => exact Nat.zero_le _
  | cons p r ih =>
    obtain ⟨k', v'⟩ := p
    unfold mapInsert
    split
    · simp
    · split
      · simp
      · simp only [List.length_cons]
        omega

theorem addsAttachment_step {m : Nat} {i : Option SegInfo} {s : RW} {op : EditOp} (hop : AddsAttachment op) (h : OnlyAdded m i s.w) :
    OnlyAdded m i (editStep s op).1.w := by
  unfold editStep
  split
  · exact h
  · cases op with
    | addAttachment a =>
      dsimp only
      unfold rwAddAttachment
      split
      · exact h
      · cases en : s.ensureNext with
        | error e => exact h
        | ok r =>
          obtain ⟨t, n⟩ := r
          obtain ⟨e1, e2⟩ := ensureNext_keeps en
          have ht : OnlyAdded m i t.w := by rw [e1]; exact ⟨h.dir, h.len, h.seg⟩
          dsimp only
          split
          · exact ht
          · rename_i att hatt
            have hlen : m ≤ att.atts.length := by
              unfold RWAtts.tryAdd at hatt
              split at hatt
              · cases hatt
              · injection hatt with hatt
                subst hatt
                exact Nat.le_trans ht.len (mapInsert_length_ge _ _ _)
            exact exec_keeps (P := OnlyAdded m i) ⟨ht.dir, hlen, ht.seg⟩ (fun u x hu => by
              dsimp only
              rw [hu]
              exact ⟨ht.dir, hlen, ht.seg⟩)
    | writeMetadata mi =>
      dsimp only
      unfold rwWriteMetadata
      split
      · exact h
      · cases en : s.ensureNext with
        | error e => exact h
        | ok r =>
          obtain ⟨t, n⟩ := r
          obtain ⟨e1, e2⟩ := ensureNext_keeps en
          have ht : OnlyAdded m i t.w := by rw [e1]; exact ⟨h.dir, h.len, h.seg⟩
          exact exec_keeps (P := OnlyAdded m i) ht (fun u x hu => by
            dsimp only
            split
            · dsimp only
              rw [hu]
              exact ⟨ht.dir, ht.len, ht.seg⟩
            · rw [hu]
              exact ht)
    | addSubBlock a => exact absurd hop id
    | replaceSubBlock k a => exact absurd hop id
    | removeSubBlock k => exact absurd hop id
    | replaceAttachment k a => exact absurd hop id
    | removeAttachment k => exact absurd hop id
    | close => exact absurd hop id

theorem addsAttachment_edit {m : Nat} {i : Option SegInfo} (ops : List EditOp) : ∀ (s : RW) (c : Content), (∀ op ∈ ops, AddsAttachment op) →
    OnlyAdded m i s.w → OnlyAdded m i (edit s c ops).1.w := by
  induction ops with
  | nil => intro s c _ h; exact h
  | cons op ops ih =>
    intro s c ho h
    exact ih _ _ (fun x hx => ho x (List.mem_cons_of_mem _ hx)) (addsAttachment_step (ho op (List.mem_cons_self ..)) h)

/-! ## Items that are not touched -/

theorem after_next (c : Content) (op : EditOp) : c.nextSub ≤ (c.after op).nextSub ∧ c.nextAtt ≤ (c.after op).nextAtt := by
  cases op <;> (unfold Content.after; dsimp only; omega)

theorem after_sub {c : Content} {op : EditOp} {k : Int} (hk : k < c.nextSub) (h : ¬ ChangesSub k op) : (c.after op).subs k = c.subs k := by
  cases op with
  | addSubBlock a => show setAt _ _ _ k = _; unfold setAt; rw [if_neg (by omega)]
  | replaceSubBlock j a => show setAt _ _ _ k = _; unfold setAt; rw [if_neg (fun x => h x.symm)]
  | removeSubBlock j => show setAt _ _ _ k = _; unfold setAt; rw [if_neg (fun x => h x.symm)]
  | _ => rfl

theorem after_att {c : Content} {op : EditOp} {k : Int} (hk : k < c.nextAtt) (h : ¬ ChangesAtt k op) : (c.after op).atts k = c.atts k := by
  cases op with
  | addAttachment a => show setAt _ _ _ k = _; unfold setAt; rw [if_neg (by omega)]
  | replaceAttachment j a => show setAt _ _ _ k = _; unfold setAt; rw [if_neg (fun x => h x.symm)]
  | removeAttachment j => show setAt _ _ _ k = _; unfold setAt; rw [if_neg (fun x => h x.symm)]
  | _ => rfl

theorem edit_sub {k : Int} (ops : List EditOp) : ∀ (s : RW) (c : Content), k < c.nextSub → (∀ op ∈ ops, ¬ ChangesSub k op) →
    (edit s c ops).2.subs k = c.subs k := by
  induction ops with
  | nil => intro s c _ _; rfl
  | cons op ops ih =>
    intro s c hk ho
    have h1 := ho op (List.mem_cons_self ..)
    unfold edit
    dsimp only
    split
    · rw [ih _ _ (Int.lt_of_lt_of_le hk (after_next c op).1) (fun x hx => ho x (List.mem_cons_of_mem _ hx)), after_sub hk h1]
    · exact ih _ _ hk (fun x hx => ho x (List.mem_cons_of_mem _ hx))

theorem edit_att {k : Int} (ops : List EditOp) : ∀ (s : RW) (c : Content), k < c.nextAtt → (∀ op ∈ ops, ¬ ChangesAtt k op) →
    (edit s c ops).2.atts k = c.atts k := by
  induction ops with
  | nil => intro s c _ _; rfl
  | cons op ops ih =>
    intro s c hk ho
    have h1 := ho op (List.mem_cons_self ..)
    unfold edit
    dsimp only
    split
    · rw [ih _ _ (Int.lt_of_lt_of_le hk (after_next c op).2) (fun x hx => ho x (List.mem_cons_of_mem _ hx)), after_att hk h1]
    · exact ih _ _ hk (fun x hx => ho x (List.mem_cons_of_mem _ hx))

theorem edit_append (a b : List EditOp) : ∀ (s : RW) (c : Content), edit s c (a ++ b) = edit (edit s c a).1 (edit s c a).2 b := by
  induction a with
  | nil => intro s c; rfl
  | cons op a ih =>
    intro s c
    show edit _ _ (a ++ b) = _
    rw [ih]
    rfl

/-! ## Sessions -/

/-- The contents of a sound document. -/
theorem contents_exist {al : Alloc} {d : Disk} {o : OpenOptions} {doc : Doc} (h : SoundDoc al d o doc) : ∃ c, Initially al d.stream doc c := by
  have hopt : doc.options = o := by
    obtain ⟨hd, es, x, as, hh, hsub, rfl, hatt⟩ := openDoc_inv h.opened
    rfl
  refine ⟨⟨fun k => if k < 0 then none else match doc.readSubBlock al d.stream k.toNat with
      | .ok r => r.map viewRead
      | .error _ => none, doc.entries.length, fun k => if k < 0 then none else match doc.readAttachment al d.stream k.toNat with
      | .ok r => r
      | .error _ => none, doc.attachments.length, match doc.readMetadata al d.stream with
      | .ok m => some m
      | .error _ => none⟩, rfl, ?_, ?_, rfl, ?_, ?_, ?_⟩
  · intro i
    dsimp only
    rw [if_neg (by omega), Int.toNat_natCast]
    unfold Doc.readSubBlock
    cases he : doc.entries[i]? with
    | none => rfl
    | some e =>
      obtain ⟨_, _, sb, sb', r, _, _⟩ := h.subBlocks e (List.mem_of_getElem? he)
      rw [hopt]
      dsimp only
      rw [r]
      rfl
  · intro k hk
    dsimp only
    rw [if_pos hk]
  · intro i
    dsimp only
    rw [if_neg (by omega), Int.toNat_natCast]
    unfold Doc.readAttachment
    cases he : doc.attachments[i]? with
    | none => rfl
    | some e =>
      obtain ⟨_, a, r⟩ := h.attachments e (List.mem_of_getElem? he)
      unfold rwReadAtt at r
      dsimp only
      cases hr : readAttachmentData al d.stream e.filePosition with
      | error x => rw [hr] at r; cases r
      | ok x => rfl
  · intro k hk
    dsimp only
    rw [if_pos hk]
  · have key : doc.readMetadata al d.stream = .error .notPresent ∨ ∃ m, doc.readMetadata al d.stream = .ok m := by
      unfold Doc.readMetadata
      split
      · exact Or.inl rfl
      · rename_i hne
        exact Or.inr ((h.metadata (fun x => hne (Or.inr x))).2)
    rcases key with e | ⟨m, e⟩ <;> (rw [e])

theorem opened_edit {al : Alloc} (hal : ∀ n, al n = true) {d : Disk} {o : OpenOptions} {doc : Doc} {c : Content} {m : Nat} {ops : List EditOp} (info : RWInfo)
    (h : SoundDoc al d o doc) (hi : Initially al d.stream doc c) (hm : EndsBy d doc m)
    (ho : EditsOk (max doc.entries.length doc.attachments.length) m ops) :
    ∃ s, rwCreate al ⟨RWState.init, d⟩ info = (s, none) ∧ EditorShows al s c ∧ s.w.att = RWAtts.init.addAll doc.attachments ∧
      s.w.dir = RWDir.init.addAll doc.entries ∧ s.w.attDirSeg = segAt d doc.header.attDirPos ∧
      (Tame False s ops → ∃ H top N, Ed al o (Spec.edit s c ops).1 (Spec.edit s c ops).2 (Grown False s ops) H top N ∧ N < 2 ^ 31 ∧
        top + 2 ^ 41 ≤ sizeAfter m ops ∧ top < 2 ^ 60 ∧ (Spec.edit s c ops).1.w.subDirSeg ≠ none) := by
  obtain ⟨s, H, top, h1, h2, ⟨p, hp, htop⟩, h3, h4, h5, h6, h7⟩ := create_ok (N := max doc.entries.length doc.attachments.length) info h hi
    (Nat.le_max_left ..) (Nat.le_max_right ..)
  refine ⟨s, h1, h2.shows, h5, h6, h7, fun ht => ?_⟩
  have hpm := hm p hp
  have hto := ho.total
  have hco := ho.count
  unfold sizeAfter at *
  obtain ⟨H', top', e1, e2, e3⟩ := h2.edit hal ops ho.each ht (by omega)
  exact ⟨H', top', _, e1, hco, by omega, by omega, by rw [e3]; exact h3⟩

theorem closes {al : Alloc} (hal : ∀ n, al n = true) {o : OpenOptions} {s : RW} {c : Content} {H : Slot → Option LSeg} {top N n : Nat} {grown : Prop}
    (h : Ed al o s c grown H top N) (hN : N < 2 ^ 31) (htop : top < 2 ^ 60) (hn : top + 2 ^ 41 ≤ n)
    (hne : s.w.subDirSeg ≠ none ∨ s.w.dir.isModified = true) (ht : TameClose grown s) : ClosesWith al o s c n := by
  obtain ⟨w, d, doc, e1, e2, e3, e4, e5, _⟩ := h.finish hal hN htop hne ht
  exact ⟨w, d, doc, e1, e2, e3, e4, fun p hp => Nat.le_trans (e5 p hp) hn⟩

theorem tameClose_noAtt {g : Prop} {s : RW} (hg : ¬ g) (h : s.w.att.isModified = false) : TameClose g s where
  notBoth := fun ⟨_, a, _⟩ => by rw [h] at a; cases a
  notGrown := fun x => absurd x hg
  exact := fun x => by rw [h] at x; cases x

theorem tameClose_onlyAtt {g : Prop} {s : RW} (hg : ¬ g) (h : s.w.dir.isModified = false)
    (hx : ∀ i, s.w.attDirSeg = some i → i.alloc ≤ 256 + 128 * s.w.att.atts.length) : TameClose g s where
  notBoth := fun ⟨⟨a, _⟩, _⟩ => by rw [h] at a; cases a
  notGrown := fun x => absurd x hg
  exact := fun _ => hx

/-- The sub-block directory is marked as modified when it is changed. -/
def DirMarked (D : RWDir) (w : RWState) : Prop := w.dir = D ∨ w.dir.isModified = true

theorem dirModify_marked {D d : RWDir} (h : d = D ∨ d.isModified = true) (k : Int) (e : Entry) : (d.tryModify k e).1 = D ∨ (d.tryModify k e).1.isModified = true := by
  unfold RWDir.tryModify
  split
  · exact h
  · exact Or.inr rfl

theorem dirMarked_step {D : RWDir} {s : RW} {op : EditOp} (h : DirMarked D s.w) (hop : EditOk op) : DirMarked D (editStep s op).1.w := by
  unfold editStep
  split
  · exact h
  · cases op with
    | addSubBlock a =>
      dsimp only
      unfold rwAddSubBlock
      split
      · exact h
      · cases en : s.ensureNext with
        | error e => exact h
        | ok r =>
          obtain ⟨t, n⟩ := r
          obtain ⟨e1, e2⟩ := ensureNext_keeps en
          have ht : DirMarked D t.w := by rw [e1]; exact h
          dsimp only
          cases hdir : t.w.dir.tryAdd (a.entry n) with
          | mk dir x =>
            cases x with
            | none => exact ht
            | some x =>
              have hd : dir.isModified = true := by
                unfold RWDir.tryAdd at hdir
                split at hdir
                · cases hdir
                · injection hdir with h1 h2
                  rw [← h1]
                  rfl
              exact exec_keeps (P := DirMarked D) (Or.inr hd) (fun u x hu => by
                dsimp only
                rw [hu]
                exact Or.inr hd)
    | replaceSubBlock k a =>
      dsimp only
      unfold rwReplaceSubBlock
      split
      · exact h
      · split
        · exact h
        · split
          · unfold rwReplaceSubBlockAtEnd
            cases en : s.ensureNext with
            | error e => exact h
            | ok r =>
              obtain ⟨t, n⟩ := r
              obtain ⟨e1, e2⟩ := ensureNext_keeps en
              have ht : DirMarked D t.w := by rw [e1]; exact h
              exact exec_keeps (P := DirMarked D) ht (fun u x hu => by
                dsimp only
                rw [hu]
                exact dirModify_marked ht _ _)
          · exact exec_keeps (P := DirMarked D) h (fun u x hu => by
              dsimp only
              rw [hu]
              exact dirModify_marked h _ _)
    | removeSubBlock k =>
      dsimp only
      unfold rwRemoveSubBlock
      cases hdir : s.w.dir.tryRemove k with
      | mk dir x =>
        cases x with
        | none => exact h
        | some x =>
          have hd : dir.isModified = true := by
            unfold RWDir.tryRemove at hdir
            split at hdir
            · cases hdir
            · injection hdir with h1 h2
              rw [← h1]
          exact exec_keeps (P := DirMarked D) (Or.inr hd) (fun u x hu => by
            dsimp only
            rw [hu]
            exact Or.inr hd)
    | writeMetadata m =>
      dsimp only
      unfold rwWriteMetadata
      split
      · exact h
      · cases en : s.ensureNext with
        | error e => exact h
        | ok r =>
          obtain ⟨t, n⟩ := r
          obtain ⟨e1, e2⟩ := ensureNext_keeps en
          have ht : DirMarked D t.w := by rw [e1]; exact h
          exact exec_keeps (P := DirMarked D) ht (fun u x hu => by
            dsimp only
            split
            · dsimp only
              rw [hu]
              exact ht
            · rw [hu]
              exact ht)
    | addAttachment a =>
      dsimp only
      unfold rwAddAttachment
      split
      · exact h
      · cases en : s.ensureNext with
        | error e => exact h
        | ok r =>
          obtain ⟨t, n⟩ := r
          obtain ⟨e1, e2⟩ := ensureNext_keeps en
          have ht : DirMarked D t.w := by rw [e1]; exact h
          dsimp only
          split
          · exact ht
          · exact exec_keeps (P := DirMarked D) ht (fun u x hu => by
              dsimp only
              rw [hu]
              exact ht)
    | replaceAttachment k a =>
      dsimp only
      unfold rwReplaceAttachment
      split
      · exact h
      · split
        · exact h
        · split
          · unfold rwReplaceAttachmentAtEnd
            cases en : s.ensureNext with
            | error e => exact h
            | ok r =>
              obtain ⟨t, n⟩ := r
              obtain ⟨e1, e2⟩ := ensureNext_keeps en
              have ht : DirMarked D t.w := by rw [e1]; exact h
              exact exec_keeps (P := DirMarked D) ht (fun u x hu => by
                dsimp only
                rw [hu]
                exact ht)
          · exact exec_keeps (P := DirMarked D) h (fun u x hu => by
              dsimp only
              rw [hu]
              exact h)
    | removeAttachment k =>
      dsimp only
      unfold rwRemoveAttachment
      split
      · exact h
      · exact exec_keeps (P := DirMarked D) h (fun u x hu => by
          dsimp only
          rw [hu]
          exact h)
    | close => exact absurd hop id

theorem dirMarked_edit {D : RWDir} (ops : List EditOp) : ∀ (s : RW) (c : Content), (∀ op ∈ ops, EditOk op) → DirMarked D s.w →
    DirMarked D (edit s c ops).1.w := by
  induction ops with
  | nil => intro s c _ h; exact h
  | cons op ops ih =>
    intro s c ho h
    exact ih _ _ (fun x hx => ho x (List.mem_cons_of_mem _ hx)) (dirMarked_step h (ho op (List.mem_cons_self ..)))

/-- The attachment directory is marked as modified when it is changed. -/
def AttMarked (D : RWAtts) (w : RWState) : Prop := w.att = D ∨ w.att.isModified = true

theorem attModify_marked {D d : RWAtts} (h : d = D ∨ d.isModified = true) (k : Int) (e : AttEntry) : (d.tryModify k e) = D ∨ (d.tryModify k e).isModified = true := by
  unfold RWAtts.tryModify
  split
  · exact h
  · exact Or.inr rfl

theorem attMarked_step {D : RWAtts} {s : RW} {op : EditOp} (h : AttMarked D s.w) (hop : EditOk op) : AttMarked D (editStep s op).1.w := by
  unfold editStep
  split
  · exact h
  · cases op with
    | addAttachment a =>
      dsimp only
      unfold rwAddAttachment
      split
      · exact h
      · cases en : s.ensureNext with
        | error e => exact h
        | ok r =>
          obtain ⟨t, n⟩ := r
          obtain ⟨e1, e2⟩ := ensureNext_keeps en
          have ht : AttMarked D t.w := by rw [e1]; exact h
          dsimp only
          cases hdir : t.w.att.tryAdd (a.entry n) with
            | none => exact ht
            | some dir =>
              have hd : dir.isModified = true := by
                unfold RWAtts.tryAdd at hdir
                split at hdir
                · cases hdir
                · injection hdir with h1
                  rw [← h1]
                  rfl
              exact exec_keeps (P := AttMarked D) (Or.inr hd) (fun u x hu => by
                dsimp only
                rw [hu]
                exact Or.inr hd)
    | replaceAttachment k a =>
      dsimp only
      unfold rwReplaceAttachment
      split
      · exact h
      · split
        · exact h
        · split
          · unfold rwReplaceAttachmentAtEnd
            cases en : s.ensureNext with
            | error e => exact h
            | ok r =>
              obtain ⟨t, n⟩ := r
              obtain ⟨e1, e2⟩ := ensureNext_keeps en
              have ht : AttMarked D t.w := by rw [e1]; exact h
              exact exec_keeps (P := AttMarked D) ht (fun u x hu => by
                dsimp only
                rw [hu]
                exact attModify_marked ht _ _)
          · exact exec_keeps (P := AttMarked D) h (fun u x hu => by
              dsimp only
              rw [hu]
              exact attModify_marked h _ _)
    | removeAttachment k =>
      dsimp only
      unfold rwRemoveAttachment
      cases hdir : s.w.att.tryRemove k with
      | mk dir x =>
        cases x with
        | none => exact h
        | some x =>
          have hd : dir.isModified = true := by
            unfold RWAtts.tryRemove at hdir
            split at hdir
            · cases hdir
            · injection hdir with h1 h2
              rw [← h1]
          exact exec_keeps (P := AttMarked D) (Or.inr hd) (fun u x hu => by
            dsimp only
            rw [hu]
            exact Or.inr hd)
    | writeMetadata m =>
      dsimp only
      unfold rwWriteMetadata
      split
      · exact h
      · cases en : s.ensureNext with
        | error e => exact h
        | ok r =>
          obtain ⟨t, n⟩ := r
          obtain ⟨e1, e2⟩ := ensureNext_keeps en
          have ht : AttMarked D t.w := by rw [e1]; exact h
          exact exec_keeps (P := AttMarked D) ht (fun u x hu => by
            dsimp only
            split
            · dsimp only
              rw [hu]
              exact ht
            · rw [hu]
              exact ht)
    | addSubBlock a =>
      dsimp only
      unfold rwAddSubBlock
      split
      · exact h
      · cases en : s.ensureNext with
        | error e => exact h
        | ok r =>
          obtain ⟨t, n⟩ := r
          obtain ⟨e1, e2⟩ := ensureNext_keeps en
          have ht : AttMarked D t.w := by rw [e1]; exact h
          dsimp only
          split
          · exact ht
          · exact exec_keeps (P := AttMarked D) ht (fun u x hu => by
              dsimp only
              rw [hu]
              exact ht)
    | replaceSubBlock k a =>
      dsimp only
      unfold rwReplaceSubBlock
      split
      · exact h
      · split
        · exact h
        · split
          · unfold rwReplaceSubBlockAtEnd
            cases en : s.ensureNext with
            | error e => exact h
            | ok r =>
              obtain ⟨t, n⟩ := r
              obtain ⟨e1, e2⟩ := ensureNext_keeps en
              have ht : AttMarked D t.w := by rw [e1]; exact h
              exact exec_keeps (P := AttMarked D) ht (fun u x hu => by
                dsimp only
                rw [hu]
                exact ht)
          · exact exec_keeps (P := AttMarked D) h (fun u x hu => by
              dsimp only
              rw [hu]
              exact h)
    | removeSubBlock k =>
      dsimp only
      unfold rwRemoveSubBlock
      split
      · exact h
      · exact exec_keeps (P := AttMarked D) h (fun u x hu => by
          dsimp only
          rw [hu]
          exact h)
    | close => exact absurd hop id

theorem attMarked_edit {D : RWAtts} (ops : List EditOp) : ∀ (s : RW) (c : Content), (∀ op ∈ ops, EditOk op) → AttMarked D s.w →
    AttMarked D (edit s c ops).1.w := by
  induction ops with
  | nil => intro s c _ h; exact h
  | cons op ops ih =>
    intro s c ho h
    exact ih _ _ (fun x hx => ho x (List.mem_cons_of_mem _ hx)) (attMarked_step h (ho op (List.mem_cons_self ..)))

theorem Ed.attKnown {al : Alloc} {o : OpenOptions} {s : RW} {c : Content} {H : Slot → Option LSeg} {top N : Nat} {grown : Prop}
    (h : Ed al o s c grown H top N) (k : Int) : (s.w.att.tryGet k).isSome = (c.atts k).isSome := (h.log.att k).isSome

/-- The keys of the attachments are below the next key. -/
theorem Ed.att_below {al : Alloc} {o : OpenOptions} {s : RW} {c : Content} {H : Slot → Option LSeg} {top N : Nat} {grown : Prop}
    (h : Ed al o s c grown H top N) {k : Int} (hk : (c.atts k).isSome) : k < c.nextAtt := by
  rw [← h.attKnown k] at hk
  obtain ⟨e, he⟩ := Option.isSome_iff_exists.1 hk
  rw [h.log.nextAtt]
  exact h.log.attInv.below _ (mem_of_mapFind he)

/-- The segment of the attachment directory. -/
def AttSegIs (D : Option SegInfo) (w : RWState) : Prop := w.attDirSeg = D

theorem attDirSeg_step {D : Option SegInfo} {s : RW} {op : EditOp} (h : AttSegIs D s.w) (hop : EditOk op) : AttSegIs D (editStep s op).1.w := by
  unfold editStep
  split
  · exact h
  · cases op with
    | addSubBlock a =>
      dsimp only
      unfold rwAddSubBlock
      split
      · exact h
      · cases en : s.ensureNext with
        | error e => exact h
        | ok r =>
          obtain ⟨t, n⟩ := r
          obtain ⟨e1, e2⟩ := ensureNext_keeps en
          have ht : AttSegIs D t.w := by rw [e1]; exact h
          dsimp only
          cases hdir : t.w.dir.tryAdd (a.entry n) with
          | mk dir x =>
            cases x with
            | none => exact ht
            | some x =>
              exact exec_keeps (P := AttSegIs D) ht (fun u x hu => by
                dsimp only
                rw [hu]
                exact ht)
    | replaceSubBlock k a =>
      dsimp only
      unfold rwReplaceSubBlock
      split
      · exact h
      · split
        · exact h
        · split
          · unfold rwReplaceSubBlockAtEnd
            cases en : s.ensureNext with
            | error e => exact h
            | ok r =>
              obtain ⟨t, n⟩ := r
              obtain ⟨e1, e2⟩ := ensureNext_keeps en
              have ht : AttSegIs D t.w := by rw [e1]; exact h
              exact exec_keeps (P := AttSegIs D) ht (fun u x hu => by
                dsimp only
                rw [hu]
                exact ht)
          · exact exec_keeps (P := AttSegIs D) h (fun u x hu => by
              dsimp only
              rw [hu]
              exact h)
    | removeSubBlock k =>
      dsimp only
      unfold rwRemoveSubBlock
      cases hdir : s.w.dir.tryRemove k with
      | mk dir x =>
        cases x with
        | none => exact h
        | some x =>
          exact exec_keeps (P := AttSegIs D) h (fun u x hu => by
            dsimp only
            rw [hu]
            exact h)
    | writeMetadata m =>
      dsimp only
      unfold rwWriteMetadata
      split
      · exact h
      · cases en : s.ensureNext with
        | error e => exact h
        | ok r =>
          obtain ⟨t, n⟩ := r
          obtain ⟨e1, e2⟩ := ensureNext_keeps en
          have ht : AttSegIs D t.w := by rw [e1]; exact h
          exact exec_keeps (P := AttSegIs D) ht (fun u x hu => by
            dsimp only
            split
            · dsimp only
              rw [hu]
              exact ht
            · rw [hu]
              exact ht)
    | addAttachment a =>
      dsimp only
      unfold rwAddAttachment
      split
      · exact h
      · cases en : s.ensureNext with
        | error e => exact h
        | ok r =>
          obtain ⟨t, n⟩ := r
          obtain ⟨e1, e2⟩ := ensureNext_keeps en
          have ht : AttSegIs D t.w := by rw [e1]; exact h
          dsimp only
          split
          · exact ht
          · exact exec_keeps (P := AttSegIs D) ht (fun u x hu => by
              dsimp only
              rw [hu]
              exact ht)
    | replaceAttachment k a =>
      dsimp only
      unfold rwReplaceAttachment
      split
      · exact h
      · split
        · exact h
        · split
          · unfold rwReplaceAttachmentAtEnd
            cases en : s.ensureNext with
            | error e => exact h
            | ok r =>
              obtain ⟨t, n⟩ := r
              obtain ⟨e1, e2⟩ := ensureNext_keeps en
              have ht : AttSegIs D t.w := by rw [e1]; exact h
              exact exec_keeps (P := AttSegIs D) ht (fun u x hu => by
                dsimp only
                rw [hu]
                exact ht)
          · exact exec_keeps (P := AttSegIs D) h (fun u x hu => by
              dsimp only
              rw [hu]
              exact h)
    | removeAttachment k =>
      dsimp only
      unfold rwRemoveAttachment
      split
      · exact h
      · exact exec_keeps (P := AttSegIs D) h (fun u x hu => by
          dsimp only
          rw [hu]
          exact h)
    | close => exact absurd hop id

theorem attSegIs_edit {D : Option SegInfo} (ops : List EditOp) : ∀ (s : RW) (c : Content), (∀ op ∈ ops, EditOk op) → AttSegIs D s.w →
    AttSegIs D (edit s c ops).1.w := by
  induction ops with
  | nil => intro s c _ h; exact h
  | cons op ops ih =>
    intro s c ho h
    exact ih _ _ (fun x hx => ho x (List.mem_cons_of_mem _ hx)) (attDirSeg_step h (ho op (List.mem_cons_self ..)))

theorem attDirSeg_edit (ops : List EditOp) (s : RW) (c : Content) (ho : ∀ op ∈ ops, EditOk op) : (edit s c ops).1.w.attDirSeg = s.w.attDirSeg :=
  attSegIs_edit ops s c ho rfl

theorem mapErase_length {α : Type} {m : List (Int × α)} (hs : KeysSorted m) {k : Int} {v : α} (h : mapFind m k = some v) : (mapErase m k).length + 1 = m.length := by
  have hp := mapSet_erase_perm m hs k v v h
  have := hp.length_eq
  rw [List.length_cons] at this
  rw [← this]
  unfold mapSet
  exact List.length_map _

/-- The object after a successful `RemoveAttachment`. -/
theorem removed_state {s : RW} {k : Int} (hi : AttInv s.w.att) (h : (editStep s (.removeAttachment k)).2 = none) :
    (editStep s (.removeAttachment k)).1.w.att.isModified = true ∧ (editStep s (.removeAttachment k)).1.w.att.atts.length + 1 = s.w.att.atts.length ∧
    (editStep s (.removeAttachment k)).1.w.attDirSeg = s.w.attDirSeg := by
  unfold editStep at h ⊢
  split at h
  · cases h
  · rename_i hop
    rw [if_neg hop]
    dsimp only at h ⊢
    unfold rwRemoveAttachment at h ⊢
    cases hr : s.w.att.tryRemove k with
    | mk att x =>
      rw [hr] at h
      cases x with
      | none => cases h
      | some e =>
        have hm : att.isModified = true ∧ att.atts.length + 1 = s.w.att.atts.length := by
          unfold RWAtts.tryRemove at hr
          split at hr
          · cases hr
          · rename_i e' he
            injection hr with h1 h2
            rw [← h1]
            exact ⟨rfl, mapErase_length hi.sorted he⟩
        exact exec_keeps (P := fun w => w.att.isModified = true ∧ w.att.atts.length + 1 = s.w.att.atts.length ∧ w.attDirSeg = s.w.attDirSeg)
          ⟨hm.1, hm.2, rfl⟩ (fun u x hu => by dsimp only; rw [hu]; exact ⟨hm.1, hm.2, rfl⟩)

/-- A new file. -/
theorem new_edit {al : Alloc} (hal : ∀ n, al n = true) {d : Disk} (hd : d.size < 544) {o : OpenOptions} {ops : List EditOp} (info : RWInfo)
    (ho : EditsOk 0 544 ops) :
    ∃ s, rwCreate al ⟨RWState.init, d⟩ info = (s, none) ∧ EditorShows al s Content.empty ∧ s.w.att = RWAtts.init ∧ s.w.attDirSeg = none ∧
      (Tame False s ops → ∃ H top N, Ed al o (Spec.edit s Content.empty ops).1 (Spec.edit s Content.empty ops).2 (Grown False s ops) H top N ∧ N < 2 ^ 31 ∧
        top + 2 ^ 41 ≤ sizeAfter 544 ops ∧ top < 2 ^ 60 ∧ (Spec.edit s Content.empty ops).1.w.subDirSeg = none ∧
        ((∃ k, ((Spec.edit s Content.empty ops).2.subs k).isSome) → (Spec.edit s Content.empty ops).1.w.dir.isModified = true) ∧
        ((∃ k, ((Spec.edit s Content.empty ops).2.atts k).isSome) → (Spec.edit s Content.empty ops).1.w.att.isModified = true) ∧
        (Spec.edit s Content.empty ops).1.w.attDirSeg = none) := by
  obtain ⟨s, h1, h2, h3, h4, h5, h6, h7, _⟩ := create_new (al := al) hd o info
  refine ⟨s, h1, h2.shows, h5, h6, fun ht => ?_⟩
  have hto := ho.total
  have hco := ho.count
  unfold sizeAfter at *
  obtain ⟨H', top', e1, e2, e3⟩ := h2.edit hal ops ho.each ht (by omega)
  refine ⟨H', top', _, e1, hco, by omega, by omega, by rw [e3]; exact h3, ?_, ?_, (attDirSeg_edit ops s Content.empty ho.each).trans h6⟩
  · rintro ⟨k, hk⟩
    rcases dirMarked_edit ops s Content.empty ho.each (Or.inl h7) with e | e
    · rw [← e1.subKnown k, e] at hk
      cases hk
    · exact e
  · rintro ⟨k, hk⟩
    rcases attMarked_edit ops s Content.empty ho.each (Or.inl h5) with e | e
    · rw [← e1.attKnown k, e] at hk
      cases hk
    · exact e

/-! ## A new file without sub-blocks -/

theorem readSubDir_at_header {al : Alloc} {d : Disk} {po : ParseOptions} (h : Holds d 0 fileMagic) (hs : 160 ≤ d.size) :
    readSubDir al d.stream po 0 = .error .corrupted := by
  have hl : (d.stream 0 160).length = 160 := by
    unfold Disk.stream Disk.read
    simp
    omega
  have hm : segMagic (d.stream 0 160) = fileMagic := by
    have h0 := h.read_eq (k := 16) (by decide)
    have := Disk.field_read (d := d) (p := 0) (n := 160) (o := 0) (k := 16) (by omega) (by omega)
    unfold segMagic Disk.stream
    rw [this]
    exact h0
  unfold readSubDir readExact
  dsimp only
  rw [if_pos hl]
  show (if segMagic (d.stream 0 160) ≠ subDirMagic then _ else _) = _
  rw [hm, if_pos (by decide)]

theorem closeNew {s : RW} (h1 : s.w.dir.isModified = false) (h2 : s.w.att.isModified = false) (h3 : s.w.header.metadataPos = segPos s.w.metaSeg) :
    rwClose s = (s, none) := by
  unfold rwClose rwCloseSubDir
  rw [h1, if_neg (by decide)]
  unfold andThen
  dsimp only
  unfold rwCloseAttDir
  rw [h2, if_neg (by decide)]
  dsimp only
  unfold rwCloseHeader
  rw [h1, h2, h3, if_neg (by simp)]

theorem new_empty {al : Alloc} {d : Disk} (h : Holds d 0 (fileHeader g 0 0 0)) (o : OpenOptions) (info : RWInfo) :
    openDoc al d.stream o = .error .corrupted ∧ (rwCreate al ⟨RWState.init, d⟩ info).2 = some .corrupted := by
  have hh := readHeader_ok h (by omega) (by omega) (by omega)
  have hsz : 544 ≤ d.size := by
    have := h.1
    rw [fileHeader_length] at this
    omega
  have hm : Holds d 0 fileMagic := by
    unfold fileHeader segHeader at h
    exact h.left.left.left.left.left.left.left.left.left.left.left.left.left
  constructor
  · unfold openDoc openDocWith
    rw [hh]
    show (readSubDir al d.stream (parseOptions o) 0 >>= _) = _
    rw [readSubDir_at_header hm (by omega)]
    rfl
  · unfold rwCreate
    rw [if_neg (by intro c; cases c)]
    dsimp only
    rw [hh]
    dsimp only
    have key : ∀ (w : RWState) (d' : Disk), w.header.subDirPos = 0 → Holds d' 0 fileMagic → 160 ≤ d'.size → (rwOpenDir al w d') = (w, some .corrupted) := by
      intro w d' hw hm hs
      unfold rwOpenDir
      rw [hw, readSubDir_at_header hm hs]
    cases hf : info.force with
    | false =>
      rw [if_neg (by decide), if_neg (by decide), key _ _ rfl hm (by omega)]
    | true =>
      rw [if_pos rfl, if_pos rfl]
      have ha : Agree d (apply d (guidWrites info.guid)) 0 (0 + fileMagic.length) := apply_agree (fun w hw => by
        unfold guidWrites at hw
        simp only [List.mem_cons, List.not_mem_nil, or_false] at hw
        rcases hw with rfl | rfl <;> (right; have : fileMagic.length = 16 := rfl; dsimp only; omega))
      rw [key _ _ rfl (hm.agree ha) (Nat.le_trans (by omega) ha.1)]

end Verif.Czi
