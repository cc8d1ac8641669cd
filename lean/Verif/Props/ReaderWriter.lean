import Verif.Proof.EditClean
import Verif.Props.Document

/-!
# C11 editing, C13 replaced attachments, C14 the directories after `Close`

`rwCreate` opens a file with an `ICziReaderWriter`, `editStep` is one call on it, `rwClose` is its `Close`; `openDoc` opens the file with an
`ICZIReader`. `Spec.edit s c ops` makes the calls `ops`, going on after exceptions, and changes the contents `c` by the successful ones.
`EditorShows` and `ReaderShows` say that all reads return exactly some contents. `al` is the allocator of the reader (here: allocations succeed);
the calls of the stream succeed.

The code has three defects that damage documents (the theorems at the end). `Tame` and `TameClose` say that none of them is met.
-/

namespace Verif
open Spec Czi

attribute [local irreducible] zeros

/-! ## Samples -/

def exOpt : OpenOptions := OpenOptions.default

/-- A new file, opened. -/
def exNew : RW := (rwCreate (fun _ => true) ⟨RWState.init, Disk.empty⟩ ⟨false, exInfo.guid⟩).1

/-- An attachment with the name of `exAtt` that does not fit into its segment. -/
def exBig : AddAtt := { exAtt with data := some (List.replicate 5000 7) }

/-- Another attachment. -/
def exOther : AddAtt := { exAtt with guid := ⟨1, 2, 4, Vector.replicate 8 4⟩, data := some [77, 78, 79] }

theorem exNew_create : rwCreate (fun _ => true) ⟨RWState.init, Disk.empty⟩ ⟨false, exInfo.guid⟩ = (exNew, none) := by
  have h : (rwCreate (fun _ => true) ⟨RWState.init, Disk.empty⟩ ⟨false, exInfo.guid⟩).2 = none := by
    obtain ⟨s, e, _⟩ := create_new (al := fun _ => true) (d := Disk.empty) (by decide) exOpt ⟨false, exInfo.guid⟩
    rw [e]
  unfold exNew
  rw [← h]

theorem exSub_editOk : EditOk (.addSubBlock exSub) := ⟨exSub_ok 1 ⟨by decide, by decide⟩, by decide⟩

/-! ## C11 -/

/-- Every sound document has contents, which a reader-writer shows when it has opened it. -/
theorem C11_contents {al : Alloc} {d : Disk} {o : OpenOptions} {doc : Doc} (h : SoundDoc al d o doc) : ∃ c, Initially al d.stream doc c :=
  contents_exist h

/-- **C11 (editing; tame sequences of calls).** Open any sound document with a reader-writer, with or without a new GUID: it shows the contents of
the document. Make any calls to add, replace and remove sub-blocks and attachments and to write metadata, in any order; some may fail. If the
calls are tame, the object then shows the contents as changed by the successful calls; if `Close` is tame too, it succeeds, and a reader that
opens the file shows exactly these contents; the file is again a sound document, so this can be repeated. -/
theorem C11_edit_partial {al : Alloc} (hal : ∀ n, al n = true) {d : Disk} {o : OpenOptions} {doc : Doc} {c : Content} {m : Nat} {ops : List EditOp} (info : RWInfo)
    (h : SoundDoc al d o doc) (hi : Initially al d.stream doc c) (hm : EndsBy d doc m)
    (ho : EditsOk (max doc.entries.length doc.attachments.length) m ops) :
    ∃ s, rwCreate al ⟨RWState.init, d⟩ info = (s, none) ∧ EditorShows al s c ∧
      (Tame False s ops → EditorShows al (edit s c ops).1 (edit s c ops).2 ∧
        (TameClose (Grown False s ops) (edit s c ops).1 → ClosesWith al o (edit s c ops).1 (edit s c ops).2 (sizeAfter m ops))) := by
  obtain ⟨s, h1, h2, _, _, _, h6⟩ := opened_edit hal info h hi hm ho
  refine ⟨s, h1, h2, fun ht => ?_⟩
  obtain ⟨H, top, N, e1, e2, e3, e4, e5⟩ := h6 ht
  exact ⟨e1.shows, fun hc => closes hal e1 e2 e4 e3 (Or.inl e5) hc⟩

/-- **C11 (sub-blocks and metadata).** Editing the sub-blocks and the metadata of any sound document always works. -/
theorem C11_subblock_edits_partial {al : Alloc} (hal : ∀ n, al n = true) {d : Disk} {o : OpenOptions} {doc : Doc} {c : Content} {m : Nat} {ops : List EditOp}
    (info : RWInfo) (h : SoundDoc al d o doc) (hi : Initially al d.stream doc c) (hm : EndsBy d doc m)
    (ho : EditsOk (max doc.entries.length doc.attachments.length) m ops) (hops : ∀ op ∈ ops, NoAttachment op) :
    ∃ s, rwCreate al ⟨RWState.init, d⟩ info = (s, none) ∧ EditorShows al s c ∧ EditorShows al (edit s c ops).1 (edit s c ops).2 ∧
      ClosesWith al o (edit s c ops).1 (edit s c ops).2 (sizeAfter m ops) := by
  obtain ⟨s, h1, h2, h3, _, h5, h6⟩ := opened_edit hal info h hi hm ho
  obtain ⟨t1, t2⟩ := tame_of ops s False id (fun s op hop hg => by
    have := hops op hop
    cases op <;> first | exact hg | exact this)
  obtain ⟨H, top, N, e1, e2, e3, e4, e5⟩ := h6 t1
  refine ⟨s, h1, h2, e1.shows, closes hal e1 e2 e4 e3 (Or.inl e5) (tameClose_noAtt t2 ?_)⟩
  rw [(noAttachment_edit ops s c hops ⟨rfl, rfl⟩).1, h3]
  exact (openedAtts doc.attachments).2.2.2.1

/-- **C11 (adding attachments).** Adding attachments and editing the metadata works for every sound document without attachment directory or with
one without free space. -/
theorem C11_attachment_adds_partial {al : Alloc} (hal : ∀ n, al n = true) {d : Disk} {o : OpenOptions} {doc : Doc} {c : Content} {m : Nat} {ops : List EditOp}
    (info : RWInfo) (h : SoundDoc al d o doc) (hi : Initially al d.stream doc c) (hm : EndsBy d doc m)
    (ho : EditsOk (max doc.entries.length doc.attachments.length) m ops) (hops : ∀ op ∈ ops, AddsAttachment op)
    (hx : doc.header.attDirPos ≠ 0 → allocAt d doc.header.attDirPos ≤ 256 + 128 * doc.attachments.length) :
    ∃ s, rwCreate al ⟨RWState.init, d⟩ info = (s, none) ∧ EditorShows al s c ∧ EditorShows al (edit s c ops).1 (edit s c ops).2 ∧
      ClosesWith al o (edit s c ops).1 (edit s c ops).2 (sizeAfter m ops) := by
  obtain ⟨s, h1, h2, h3, h4, h5, h6⟩ := opened_edit hal info h hi hm ho
  obtain ⟨t1, t2⟩ := tame_of ops s False id (fun s op hop hg => by
    have := hops op hop
    cases op <;> first | exact hg | exact this)
  obtain ⟨H, top, N, e1, e2, e3, e4, e5⟩ := h6 t1
  obtain ⟨_, a2, _⟩ := openedAtts doc.attachments
  have ha : OnlyAdded doc.attachments.length (segAt d doc.header.attDirPos) s.w := by
    refine ⟨by rw [h4]; exact (openedDir doc.entries).2.2.2.1, ?_, h5⟩
    rw [h3, ← List.length_map (f := Prod.snd), a2]
  obtain ⟨b1, b2, b3⟩ := addsAttachment_edit ops s c hops ha
  refine ⟨s, h1, h2, e1.shows, closes hal e1 e2 e4 e3 (Or.inl e5) (tameClose_onlyAtt t2 b1 ?_)⟩
  intro i hi'
  rw [b3] at hi'
  unfold segAt at hi'
  split at hi'
  · cases hi'
  · rename_i hne
    injection hi' with hi'
    subst hi'
    have := hx hne
    dsimp only
    omega

/-- **C11 (new documents).** A file that is not yet a document (shorter than a file header) becomes one: after any sub-blocks and metadata
have been added, replaced and removed, `Close` leaves a sound document that shows exactly the contents, if a sub-block is left. -/
theorem C11_new_partial {al : Alloc} (hal : ∀ n, al n = true) {d : Disk} (hd : d.size < 544) {o : OpenOptions} {ops : List EditOp} (info : RWInfo)
    (ho : EditsOk 0 544 ops) (hops : ∀ op ∈ ops, NoAttachment op) :
    ∃ s, rwCreate al ⟨RWState.init, d⟩ info = (s, none) ∧ EditorShows al s Content.empty ∧
      EditorShows al (edit s Content.empty ops).1 (edit s Content.empty ops).2 ∧
      ((∃ k, ((edit s Content.empty ops).2.subs k).isSome) →
        ClosesWith al o (edit s Content.empty ops).1 (edit s Content.empty ops).2 (sizeAfter 544 ops)) := by
  obtain ⟨s, h1, h2, h3, _, h5⟩ := new_edit (o := o) hal hd info ho
  obtain ⟨t1, t2⟩ := tame_of ops s False id (fun s op hop hg => by
    have := hops op hop
    cases op <;> first | exact hg | exact this)
  obtain ⟨H, top, N, e1, e2, e3, e4, _, e6, _⟩ := h5 t1
  refine ⟨s, h1, h2, e1.shows, fun hk => closes hal e1 e2 e4 e3 (Or.inr (e6 hk)) (tameClose_noAtt t2 ?_)⟩
  rw [(noAttachment_edit ops s Content.empty hops ⟨rfl, rfl⟩).1, h3]
  rfl

/-- A new file with one sub-block meets the hypotheses; so sound documents exist. -/
example : EditsOk 0 544 [.addSubBlock exSub] ∧ (∀ op ∈ [EditOp.addSubBlock exSub], NoAttachment op) ∧
    (editStep exNew (.addSubBlock exSub)).2 = none := by
  refine ⟨⟨?_, by decide, by decide⟩, ?_, by decide +kernel⟩
  · intro op hop
    cases hop with
    | head => exact exSub_editOk
    | tail _ h => cases h
  · intro op hop
    cases hop with
    | head => exact trivial
    | tail _ h => cases h

/-- The file after adding a sub-block to a new file and `Close`. -/
def exDisk1 : Disk := (rwClose (edit exNew Content.empty [.addSubBlock exSub]).1).1.disk

/-- It is a sound document, with one sub-block and no attachments. -/
theorem exSound1 : ∃ (doc : Doc) (c : Content), SoundDoc (fun _ => true) exDisk1 exOpt doc ∧ Initially (fun _ => true) exDisk1.stream doc c ∧
    EndsBy exDisk1 doc (2 ^ 46) ∧ doc.entries.length = 1 ∧ doc.attachments.length = 0 ∧ doc.header.attDirPos = 0 := by
  have ho : EditsOk 0 544 [.addSubBlock exSub] := by
    refine ⟨?_, by decide, by decide⟩
    intro op hop
    cases hop with
    | head => exact exSub_editOk
    | tail _ h => cases h
  have hn : ∀ op ∈ [EditOp.addSubBlock exSub], NoAttachment op := by
    intro op hop
    cases hop with
    | head => exact trivial
    | tail _ h => cases h
  obtain ⟨s, h1, _, _, h5⟩ := C11_new_partial (al := fun _ => true) (o := exOpt) (fun _ => rfl) (d := Disk.empty) (by decide) ⟨false, exInfo.guid⟩ ho hn
  have hs : s = exNew := by
    have := h1.symm.trans exNew_create
    injection this
  subst hs
  obtain ⟨w, d, doc, f1, f2, _, f4, f5⟩ := h5 ⟨0, by
    have : (editStep exNew (.addSubBlock exSub)).2 = none := by decide +kernel
    unfold edit edit
    dsimp only
    rw [this]
    rfl⟩
  have hd : exDisk1 = d := by
    unfold exDisk1
    rw [f1]
  rw [← hd] at f2 f4 f5
  obtain ⟨c, hcc⟩ := contents_exist f4
  have hx : (openDoc (fun _ => true) exDisk1.stream exOpt).toOption.map (fun doc => (doc.entries.length, doc.attachments.length, doc.header.attDirPos)) =
      some (1, 0, 0) := by decide +kernel
  rw [f2] at hx
  injection hx with hx
  injection hx with x1 hx
  injection hx with x2 x3
  exact ⟨doc, c, f4, hcc, fun p hp => Nat.le_trans (f5 p hp) (by decide), x1, x2, x3⟩

/-- It meets the hypotheses of the theorems above, e.g. with these calls. -/
example : ∃ (doc : Doc) (c : Content), SoundDoc (fun _ => true) exDisk1 exOpt doc ∧ Initially (fun _ => true) exDisk1.stream doc c ∧
    EndsBy exDisk1 doc (2 ^ 46) ∧
    EditsOk (max doc.entries.length doc.attachments.length) (2 ^ 46) [.addSubBlock exSub, .removeSubBlock 0, .writeMetadata exMeta] ∧
    (∀ op ∈ [EditOp.addSubBlock exSub, .removeSubBlock 0, .writeMetadata exMeta], NoAttachment op) := by
  obtain ⟨doc, c, h1, h2, h3, h4, h5, _⟩ := exSound1
  refine ⟨doc, c, h1, h2, h3, ⟨?_, ?_, by decide⟩, ?_⟩
  · intro op hop
    simp only [List.mem_cons, List.not_mem_nil, or_false] at hop
    rcases hop with rfl | rfl | rfl
    · exact exSub_editOk
    · exact trivial
    · exact ⟨by decide, by decide⟩
  · rw [h4, h5]
    decide
  · intro op hop
    simp only [List.mem_cons, List.not_mem_nil, or_false] at hop
    rcases hop with rfl | rfl | rfl <;> exact trivial

/-- `exDisk1`, opened. -/
def exRW1 : RW := (rwCreate (fun _ => true) ⟨RWState.init, exDisk1⟩ ⟨false, exInfo.guid⟩).1

/-- Two attachments. -/
def exAdds : List EditOp := [.addAttachment exAtt, .addAttachment exOther]

theorem exAdds_ok : EditsOk (max 1 0) (2 ^ 46) exAdds ∧ ∀ op ∈ exAdds, AddsAttachment op := by
  refine ⟨⟨?_, by decide, by decide⟩, ?_⟩
  · intro op hop
    simp only [exAdds, List.mem_cons, List.not_mem_nil, or_false] at hop
    rcases hop with rfl | rfl <;> exact ⟨by decide, by decide⟩
  · intro op hop
    simp only [exAdds, List.mem_cons, List.not_mem_nil, or_false] at hop
    rcases hop with rfl | rfl <;> exact trivial

/-- The file after adding two attachments to `exDisk1` and `Close`. -/
def exDisk2 : Disk := (rwClose (edit exRW1 Content.empty exAdds).1).1.disk

theorem edit_fst (ops : List EditOp) : ∀ (s : RW) (c c' : Content), (edit s c ops).1 = (edit s c' ops).1 := by
  induction ops with
  | nil => intro s c c'; rfl
  | cons op ops ih => intro s c c'; exact ih _ _ _

/-- It is a sound document, with one sub-block and two attachments; the hypotheses of `C11_attachment_adds_partial` were met. -/
theorem exSound2 : ∃ (doc : Doc) (c : Content), SoundDoc (fun _ => true) exDisk2 exOpt doc ∧ Initially (fun _ => true) exDisk2.stream doc c ∧
    EndsBy exDisk2 doc (2 ^ 47) ∧ doc.entries.length = 1 ∧ doc.attachments.length = 2 ∧ allocAt exDisk2 doc.header.attDirPos = 256 + 128 * 2 := by
  obtain ⟨doc, c, h1, h2, h3, h4, h5, h6⟩ := exSound1
  obtain ⟨s, g1, _, _, g4⟩ := C11_attachment_adds_partial (fun _ => rfl) ⟨false, exInfo.guid⟩ h1 h2 h3 (by rw [h4, h5]; exact exAdds_ok.1) exAdds_ok.2
    (fun x => absurd h6 x)
  have hs : s = exRW1 := by
    unfold exRW1
    rw [g1]
  subst hs
  obtain ⟨w, d, doc', f1, f2, _, f4, f5⟩ := g4
  have hd : exDisk2 = d := by
    unfold exDisk2
    rw [edit_fst exAdds exRW1 _ c, f1]
  rw [← hd] at f2 f4 f5
  obtain ⟨c', hcc⟩ := contents_exist f4
  have hx : (openDoc (fun _ => true) exDisk2.stream exOpt).toOption.map
      (fun doc => (doc.entries.length, doc.attachments.length, allocAt exDisk2 doc.header.attDirPos)) = some (1, 2, 512) := by decide +kernel
  rw [f2] at hx
  injection hx with hx
  injection hx with x1 hx
  injection hx with x2 x3
  exact ⟨doc', c', f4, hcc, fun p hp => Nat.le_trans (f5 p hp) (by decide), x1, x2, x3⟩

/-- `exDisk2`, opened. -/
def exRW2 : RW := (rwCreate (fun _ => true) ⟨RWState.init, exDisk2⟩ ⟨false, exInfo.guid⟩).1

/-- **C11 (items that are not touched).** A sub-block whose key was given out before and that no call replaces or removes keeps its contents, whatever
the calls; likewise an attachment. (With `C11_edit_partial` this is what the reads return.) -/
theorem C11_untouched (s : RW) (c : Content) (ops : List EditOp) (k : Int) :
    (k < c.nextSub → (∀ op ∈ ops, ¬ ChangesSub k op) → (edit s c ops).2.subs k = c.subs k) ∧
    (k < c.nextAtt → (∀ op ∈ ops, ¬ ChangesAtt k op) → (edit s c ops).2.atts k = c.atts k) :=
  ⟨edit_sub ops s c, edit_att ops s c⟩

/-- **C11 (which calls succeed).** After any tame sequence of calls on a sound document: removing and replacing work exactly for the keys that have
an item; writing valid metadata works; valid items can be added unless the directory already has one with the same identity. (Replacing a sub-block
needs an allocated size that is a multiple of 32 bytes, as libCZI writes it.) -/
theorem C11_calls_partial {al : Alloc} (hal : ∀ n, al n = true) {d : Disk} {o : OpenOptions} {doc : Doc} {c : Content} {m : Nat} {ops : List EditOp} (info : RWInfo)
    (h : SoundDoc al d o doc) (hi : Initially al d.stream doc c) (hm : EndsBy d doc m)
    (ho : EditsOk (max doc.entries.length doc.attachments.length) m ops) :
    ∃ s, rwCreate al ⟨RWState.init, d⟩ info = (s, none) ∧ ∀ (_ : Tame False s ops) (s' : RW) (c' : Content), edit s c ops = (s', c') →
      (∀ k, (editStep s' (.removeSubBlock k)).2 = if (c'.subs k).isSome then none else some .invalidId) ∧
      (∀ k, (editStep s' (.removeAttachment k)).2 = if (c'.atts k).isSome then none else some .invalidId) ∧
      (∀ k a, EditOk (.replaceAttachment k a) → (editStep s' (.replaceAttachment k a)).2 = if (c'.atts k).isSome then none else some .invalidId) ∧
      (∀ k a, EditOk (.replaceSubBlock k a) → ((c'.subs k).isSome = false → (editStep s' (.replaceSubBlock k a)).2 = some .invalidId) ∧
        (∀ e, s'.w.dir.tryGet k = some e → allocAt s'.disk e.filePosition % 32 = 0 → (editStep s' (.replaceSubBlock k a)).2 = none)) ∧
      (∀ x, EditOk (.writeMetadata x) → (editStep s' (.writeMetadata x)).2 = if x.check = false then some .invalidArgument else none) ∧
      (∀ a, EditOk (.addSubBlock a) → (editStep s' (.addSubBlock a)).2 = none ∨
        ((editStep s' (.addSubBlock a)).2 = some .invalidArgument ∧ a.check = false) ∨ (editStep s' (.addSubBlock a)).2 = some .subBlockExists) ∧
      (∀ a, EditOk (.addAttachment a) → (editStep s' (.addAttachment a)).2 = none ∨
        ((editStep s' (.addAttachment a)).2 = some .invalidArgument ∧ a.check = false) ∨ (editStep s' (.addAttachment a)).2 = some .attachmentExists) := by
  obtain ⟨s, h1, h2, _, _, _, h6⟩ := opened_edit hal info h hi hm ho
  refine ⟨s, h1, fun ht s' c' he => ?_⟩
  obtain ⟨H, top, N, e1, e2, e3, e4, e5⟩ := h6 ht
  rw [he] at e1
  dsimp only at e1
  have htop : top < 2 ^ 61 := by omega
  exact ⟨e1.removeSubBlock_result, e1.removeAttachment_result, fun k a hok => e1.replaceAttachment_result htop k hok.1,
    fun k a hok => e1.replaceSubBlock_result htop k hok.1 hok.2.1 hok.2.2, fun x hok => e1.writeMetadata_result htop hok.1 hok.2,
    fun a hok => e1.addSubBlock_result htop hok.1, fun a hok => e1.addAttachment_result htop hok.1⟩

/-! ## C13 -/

/-- **C13 (replaced attachments; tame sequences of calls).** After a successful `ReplaceAttachment`, reading the attachment returns the new
data until it is replaced or removed again, as long as the calls are tame: in particular if the new data fitted into the place of the old. -/
theorem C13_replaced_partial {al : Alloc} (hal : ∀ n, al n = true) {d : Disk} {o : OpenOptions} {doc : Doc} {c : Content} {m : Nat} {before after : List EditOp}
    {k : Int} {a : AddAtt} (info : RWInfo) (h : SoundDoc al d o doc) (hi : Initially al d.stream doc c) (hm : EndsBy d doc m)
    (ho : EditsOk (max doc.entries.length doc.attachments.length) m (before ++ .replaceAttachment k a :: after)) :
    ∃ s, rwCreate al ⟨RWState.init, d⟩ info = (s, none) ∧ (Tame False s (before ++ .replaceAttachment k a :: after) →
      (editStep (edit s c before).1 (.replaceAttachment k a)).2 = none → (∀ op ∈ after, ¬ ChangesAtt k op) →
      (edit s c (before ++ .replaceAttachment k a :: after)).1.readAttachment al k = .ok (some (attachmentOf a))) := by
  obtain ⟨s, h1, h2, _, _, _, h6⟩ := opened_edit hal info h hi hm ho
  refine ⟨s, h1, fun ht hr ha => ?_⟩
  obtain ⟨H, top, N, e1, _⟩ := h6 ht
  rw [e1.shows.attachment k, edit_append]
  have hob : EditsOk (max doc.entries.length doc.attachments.length) m before := by
    refine ⟨fun op hop => ho.each op (List.mem_append_left _ hop), ?_, ?_⟩
    · have := ho.count
      rw [List.length_append] at this
      omega
    · have := ho.total
      unfold sizeAfter at this ⊢
      rw [List.map_append, List.sum_append] at this
      omega
  obtain ⟨s0, g1, _, _, _, _, g6⟩ := opened_edit hal info h hi hm hob
  have hs0 : s0 = s := by
    have := g1.symm.trans h1
    injection this
  subst hs0
  obtain ⟨H', top', N', f1, _, f3, f4, _⟩ := g6 (tame_prefix ht)
  have hk : ((edit s0 c before).2.atts k).isSome := by
    have := f1.replaceAttachment_result (by omega) k (a := a) (ho.each (.replaceAttachment k a) (by simp)).1
    rw [hr] at this
    split at this
    · rename_i hk; exact hk
    · cases this
  have hb := f1.att_below hk
  show Except.ok ((edit (editStep (edit s0 c before).1 (.replaceAttachment k a)).1 (if (editStep (edit s0 c before).1 (.replaceAttachment k a)).2.isNone
    then (edit s0 c before).2.after (.replaceAttachment k a) else (edit s0 c before).2) after).2.atts k) = _
  rw [hr, if_pos (show (none : Option WErr).isNone = true from rfl), edit_att after _ ((edit s0 c before).2.after (.replaceAttachment k a)) hb ha]
  show Except.ok (setAt _ k _ k) = _
  unfold setAt
  rw [if_pos rfl]

/-- **C13 violated.** On every sound document, after any tame calls: a `ReplaceAttachment` with data that do not fit into the place of the old
succeeds; but when another attachment is then added successfully, reading the first returns *the data of the second* under the name of the first. -/
theorem C13_undone_by_add {al : Alloc} (hal : ∀ n, al n = true) {d : Disk} {o : OpenOptions} {doc : Doc} {c : Content} {m : Nat} {ops : List EditOp}
    {k : Int} {a b : AddAtt} (info : RWInfo) (h : SoundDoc al d o doc) (hi : Initially al d.stream doc c) (hm : EndsBy d doc m)
    (ho : EditsOk (max doc.entries.length doc.attachments.length) m ops) (ha : EditOk (.replaceAttachment k a)) (hb : EditOk (.addAttachment b)) :
    ∃ s, rwCreate al ⟨RWState.init, d⟩ info = (s, none) ∧ (Tame False s ops → Appends (edit s c ops).1 (.replaceAttachment k a) →
      (editStep (edit s c ops).1 (.replaceAttachment k a)).2 = none ∧
      ∀ s2, editStep (editStep (edit s c ops).1 (.replaceAttachment k a)).1 (.addAttachment b) = (s2, none) →
        s2.readAttachment al k = .ok (some { attachmentOf a with data := (attachmentOf b).data })) := by
  obtain ⟨s, h1, _, _, _, _, h6⟩ := opened_edit hal info h hi hm ho
  refine ⟨s, h1, fun ht happ => ?_⟩
  obtain ⟨H, top, N, e1, _, e3, e4, _⟩ := h6 ht
  obtain ⟨s1, n, f1, f2, f3, f4, f5, f6⟩ := e1.replaced_at_end (by omega) ha.1 happ
  rw [f1]
  exact ⟨rfl, fun s2 hs2 => added_over hal hb.1 f2 f3 f4 f5 f6 hs2⟩

/-- The document `exDisk2` meets the hypotheses of both theorems: a replacement that fits, and one that does not, followed by adding another attachment. -/
example : (∃ (doc : Doc) (c : Content), SoundDoc (fun _ => true) exDisk2 exOpt doc ∧ Initially (fun _ => true) exDisk2.stream doc c ∧ EndsBy exDisk2 doc (2 ^ 47)) ∧
    EditOk (.replaceAttachment 0 exBig) ∧ Appends exRW2 (.replaceAttachment 0 exBig) ∧
    (editStep (editStep exRW2 (.replaceAttachment 0 exBig)).1 (.addAttachment { exOther with guid := ⟨7, 7, 7, Vector.replicate 8 7⟩ })).2 = none ∧
    (editStep exRW2 (.replaceAttachment 0 exAtt)).2 = none ∧ ¬ GrowsAttachment exRW2 (.replaceAttachment 0 exAtt) := by
  obtain ⟨doc, c, h1, h2, h3, _⟩ := exSound2
  refine ⟨⟨doc, c, h1, h2, h3⟩, ⟨by decide +kernel, by decide +kernel⟩, ?_, by decide +kernel, by decide +kernel, ?_⟩
  · have : ∃ e, exRW2.w.att.tryGet 0 = some e := Option.isSome_iff_exists.1 (by decide +kernel)
    obtain ⟨e, he⟩ := this
    refine ⟨e, he, ?_⟩
    have : (exRW2.w.att.tryGet 0).map (fun e => decide (allocAt exRW2.disk e.filePosition < 256 + exBig.bytes.length)) = some true := by decide +kernel
    rw [he] at this
    injection this with this
    exact of_decide_eq_true this
  · rintro ⟨e, he, hlt⟩
    have : (exRW2.w.att.tryGet 0).map (fun e => decide (allocAt exRW2.disk e.filePosition < 256 + exAtt.bytes.length)) = some false := by decide +kernel
    rw [he] at this
    injection this with this
    exact of_decide_eq_false this hlt

/-! ## C14 -/

/-- **C14 (directories after `Close`; tame sequences of calls).** After tame calls and a tame `Close`, the file header leads to a sub-block
directory and an attachment directory that can be read and list exactly the current items, and the segments of the two directories, of the
metadata and of all items listed do not overlap. -/
theorem C14_directories_partial {al : Alloc} (hal : ∀ n, al n = true) {d : Disk} {o : OpenOptions} {doc : Doc} {c : Content} {m : Nat} {ops : List EditOp}
    (info : RWInfo) (h : SoundDoc al d o doc) (hi : Initially al d.stream doc c) (hm : EndsBy d doc m)
    (ho : EditsOk (max doc.entries.length doc.attachments.length) m ops) :
    ∃ s, rwCreate al ⟨RWState.init, d⟩ info = (s, none) ∧
      (Tame False s ops → TameClose (Grown False s ops) (edit s c ops).1 →
        ∃ w d' hd es as x, rwClose (edit s c ops).1 = (⟨w, d'⟩, none) ∧ readHeader d'.stream = .ok hd ∧
          readSubDir al d'.stream (parseOptions o) hd.subDirPos = .ok (es, x) ∧
          (if hd.attDirPos = 0 then as = [] else ∃ y, readAttDir al d'.stream hd.attDirPos = .ok (as, y)) ∧
          InKeyOrder es.length (fun i => ((Doc.mk hd es as o).readSubBlock al d'.stream i).map (Option.map viewRead)) (edit s c ops).2.subs ∧
          InKeyOrder as.length (fun i => (Doc.mk hd es as o).readAttachment al d'.stream i) (edit s c ops).2.atts ∧
          (segmentsOf ⟨hd, es, as, o⟩).Pairwise (fun p q => endAt d' p ≤ q ∨ endAt d' q ≤ p)) := by
  obtain ⟨s, h1, h2, _, _, _, h6⟩ := opened_edit hal info h hi hm ho
  refine ⟨s, h1, fun ht hc => ?_⟩
  obtain ⟨H, top, N, e1, e2, e3, e4, e5⟩ := h6 ht
  obtain ⟨w, d', doc', f1, f2, f3, f4, _⟩ := closes hal e1 e2 e4 e3 (Or.inl e5) hc
  obtain ⟨hd, es, x, as, g1, g2, rfl, g4⟩ := openDoc_inv f2
  refine ⟨w, d', hd, es, as, x, f1, g1, g2, ?_, f3.subBlocks, f3.attachments, f4.apart⟩
  rcases g4 with ⟨q1, q2⟩ | ⟨q1, q2⟩
  · rw [if_pos q1]
    exact q2
  · rw [if_neg q1]
    exact q2

/-- **C14 violated (both directories grow).** On every sound document, after any tame calls: if both directories need a new segment, `Close`
succeeds, but the file header then leads to an attachment directory that begins *inside* the sub-block directory. -/
theorem C14_directories_overlap {al : Alloc} (hal : ∀ n, al n = true) {d : Disk} {o : OpenOptions} {doc : Doc} {c : Content} {m : Nat} {ops : List EditOp}
    (info : RWInfo) (h : SoundDoc al d o doc) (hi : Initially al d.stream doc c) (hm : EndsBy d doc m)
    (ho : EditsOk (max doc.entries.length doc.attachments.length) m ops) :
    ∃ s, rwCreate al ⟨RWState.init, d⟩ info = (s, none) ∧
      (Tame False s ops → AppendsSubDir (edit s c ops).1 → AppendsAttDir (edit s c ops).1 →
        ∃ w d' hd, rwClose (edit s c ops).1 = (⟨w, d'⟩, none) ∧ readHeader d'.stream = .ok hd ∧ hd.subDirPos < hd.attDirPos ∧
          hd.attDirPos < hd.subDirPos + 32 + (128 + (((edit s c ops).1.w.dir.subBlks.map Prod.snd).map entryBytes).flatten.length) ∧
          d'.read hd.attDirPos 16 = attDirMagic) := by
  obtain ⟨s, h1, h2, _, _, _, h6⟩ := opened_edit hal info h hi hm ho
  refine ⟨s, h1, fun ht ha hb => ?_⟩
  obtain ⟨H, top, N, e1, e2, e3, e4, e5⟩ := h6 ht
  exact e1.closeBoth e2 e4 ha hb

/-- **C14 violated (every new file with sub-blocks and attachments).** A document that was newly created with a reader-writer and has at
least one sub-block and one attachment is damaged in this way by `Close`. -/
theorem C14_new_file_overlap {al : Alloc} (hal : ∀ n, al n = true) {d : Disk} (hd : d.size < 544) {ops : List EditOp} (info : RWInfo)
    (ho : EditsOk 0 544 ops) :
    ∃ s, rwCreate al ⟨RWState.init, d⟩ info = (s, none) ∧
      (Tame False s ops → (∃ k, ((edit s Content.empty ops).2.subs k).isSome) → (∃ k, ((edit s Content.empty ops).2.atts k).isSome) →
        ∃ w d' hd, rwClose (edit s Content.empty ops).1 = (⟨w, d'⟩, none) ∧ readHeader d'.stream = .ok hd ∧ hd.subDirPos < hd.attDirPos ∧
          hd.attDirPos < hd.subDirPos + 32 + (128 + (((edit s Content.empty ops).1.w.dir.subBlks.map Prod.snd).map entryBytes).flatten.length) ∧
          d'.read hd.attDirPos 16 = attDirMagic) := by
  obtain ⟨s, h1, h2, h3, h4, h5⟩ := new_edit (o := OpenOptions.default) hal hd info ho
  refine ⟨s, h1, fun ht ha hb => ?_⟩
  obtain ⟨H, top, N, e1, e2, e3, e4, e5, e6, e7, e8⟩ := h5 ht
  exact e1.closeBoth e2 e4 ⟨e6 ha, fun i hi => by rw [e5] at hi; cases hi⟩ ⟨e7 hb, fun i hi => by rw [e8] at hi; cases hi⟩

/-- The hypotheses are met by a new file with one sub-block and one attachment. -/
example : EditsOk 0 544 [.addSubBlock exSub, .addAttachment exAtt] ∧ (editStep exNew (.addSubBlock exSub)).2 = none ∧
    (editStep (editStep exNew (.addSubBlock exSub)).1 (.addAttachment exAtt)).2 = none ∧
    (openDoc (fun _ => true) (rwClose (edit exNew Content.empty [.addSubBlock exSub, .addAttachment exAtt]).1).1.disk.stream exOpt).isOk = true := by
  refine ⟨⟨?_, by decide, by decide⟩, by decide +kernel, by decide +kernel, by decide +kernel⟩
  intro op hop
  simp only [List.mem_cons, List.not_mem_nil, or_false] at hop
  rcases hop with rfl | rfl
  · exact exSub_editOk
  · exact ⟨by decide, by decide⟩

/-- **C14 violated (fewer attachments).** On every sound document with `n` attachments whose directory has the size for them: after
`RemoveAttachment` of one of them, `Close` succeeds, but a reader then finds *three* attachments less instead of one (none if there were fewer
than three), or cannot open the document any more if it was the only one. -/
theorem C14_remove_attachment_damages {al : Alloc} (hal : ∀ n, al n = true) {d : Disk} {o : OpenOptions} {doc : Doc} {c : Content} {m : Nat} {k : Int}
    (info : RWInfo) (h : SoundDoc al d o doc) (hi : Initially al d.stream doc c) (hm : EndsBy d doc m)
    (ho : EditsOk (max doc.entries.length doc.attachments.length) m [.removeAttachment k]) (hk : (c.atts k).isSome)
    (hx : 256 + 128 * doc.attachments.length ≤ allocAt d doc.header.attDirPos) :
    ∃ s, rwCreate al ⟨RWState.init, d⟩ info = (s, none) ∧ ∃ s1, editStep s (.removeAttachment k) = (s1, none) ∧ ∃ w d', rwClose s1 = (⟨w, d'⟩, none) ∧
      (doc.attachments.length = 1 → ∃ e, openDoc al d'.stream o = .error e) ∧
      (1 < doc.attachments.length → ∃ doc', openDoc al d'.stream o = .ok doc' ∧ doc'.attachments.length = doc.attachments.length - 3) := by
  obtain ⟨s, h1, h2, h3, h4, h5, h6⟩ := opened_edit hal info h hi hm ho
  obtain ⟨t1, t2⟩ := tame_of [.removeAttachment k] s False id (fun s op hop hg => by
    cases hop with
    | head => exact hg
    | tail _ h => cases h)
  obtain ⟨s0, g1, g2, g3, g4, g5, g6⟩ := opened_edit (ops := []) hal info h hi hm ⟨(fun _ hop => by cases hop), (by have := ho.count; simp at this ⊢; omega),
    (by have := ho.total; unfold sizeAfter at this ⊢; simp at this ⊢; omega)⟩
  have hs0 : s0 = s := by
    have := g1.symm.trans h1
    injection this
  subst hs0
  obtain ⟨_, _, _, f1, _⟩ := g6 trivial
  dsimp only [edit] at f1
  have hr := f1.removeAttachment_result k
  rw [if_pos hk] at hr
  obtain ⟨H, top, N, e1, e2, e3, e4, e5⟩ := h6 t1
  refine ⟨s0, h1, (editStep s0 (.removeAttachment k)).1, Prod.ext rfl hr, ?_⟩
  obtain ⟨r1, r2, r3⟩ := removed_state f1.log.attInv hr
  have hlen : s0.w.att.atts.length = doc.attachments.length := by
    rw [g3, ← List.length_map (f := Prod.snd), (openedAtts doc.attachments).2.1]
  have hpos : doc.header.attDirPos ≠ 0 := by
    intro hz
    obtain ⟨hd, es, x, as, _, _, rfl, q⟩ := openDoc_inv h.opened
    rcases q with ⟨_, rfl⟩ | ⟨q, _⟩
    · have := f1.attKnown k
      rw [hk, g3] at this
      cases this
    · exact q hz
  have hseg : (editStep s0 (.removeAttachment k)).1.w.attDirSeg = some ⟨doc.header.attDirPos, allocAt d doc.header.attDirPos, false⟩ := by
    rw [r3, g5]
    unfold segAt
    rw [if_neg hpos]
  obtain ⟨w, d', c1, c2, c3⟩ := Ed.closeSlack (s := (editStep s0 (.removeAttachment k)).1) hal e1 e2 e4 (Or.inl e5) (fun x => absurd x t2) r1 hseg (by
    dsimp only
    omega)
  refine ⟨w, d', c1, fun h1 => c2 (by omega), fun h1 => ?_⟩
  obtain ⟨doc', x1, x2⟩ := c3 (by omega)
  exact ⟨doc', x1, by omega⟩

/-- The document `exDisk2` meets the hypotheses: with two attachments, none is left. -/
example : ∃ (doc : Doc) (c : Content), SoundDoc (fun _ => true) exDisk2 exOpt doc ∧ Initially (fun _ => true) exDisk2.stream doc c ∧ EndsBy exDisk2 doc (2 ^ 47) ∧
    EditsOk (max doc.entries.length doc.attachments.length) (2 ^ 47) [.removeAttachment 0] ∧ (c.atts 0).isSome ∧
    256 + 128 * doc.attachments.length ≤ allocAt exDisk2 doc.header.attDirPos ∧ 1 < doc.attachments.length := by
  obtain ⟨doc, c, h1, h2, h3, h4, h5, h6⟩ := exSound2
  refine ⟨doc, c, h1, h2, h3, ⟨?_, ?_, by decide⟩, ?_, ?_, by omega⟩
  · intro op hop
    cases hop with
    | head => exact trivial
    | tail _ h => cases h
  · rw [h4, h5]
    decide
  · have hx := h2.attachment 0
    unfold Doc.readAttachment at hx
    cases ha : doc.attachments[0]? with
    | none =>
      rw [List.getElem?_eq_none_iff] at ha
      omega
    | some e =>
      rw [ha] at hx
      dsimp only at hx
      split at hx
      · cases hx
      · injection hx with hx
        have : c.atts 0 = c.atts ((0 : Nat) : Int) := rfl
        rw [this, ← hx]
        rfl
  · rw [h5, h6]

/-- **C14 violated (no sub-blocks).** A new file that is closed before a sub-block was added has no sub-block directory: it cannot be opened again,
neither by a reader nor by a reader-writer. -/
theorem C14_new_empty_file_unreadable {al : Alloc} {d : Disk} (hd : d.size < 544) (o : OpenOptions) (info info' : RWInfo) :
    ∃ s w d', rwCreate al ⟨RWState.init, d⟩ info = (s, none) ∧ rwClose s = (⟨w, d'⟩, none) ∧ openDoc al d'.stream o = .error .corrupted ∧
      (rwCreate al ⟨RWState.init, d'⟩ info').2 = some .corrupted := by
  obtain ⟨s, h1, h2, h3, h4, h5, h6, h7, h8, h9⟩ := create_new (al := al) hd o info
  have hho : Holds s.disk 0 (fileHeader info.guid 0 0 0) := by
    rw [h8]
    exact Holds.write (fileHeader_ne_nil _ _ _ _)
  obtain ⟨e1, e2⟩ := new_empty (al := al) hho o info'
  refine ⟨s, s.w, s.disk, h1, closeNew h4 (by rw [h5]; rfl) h9, e1, e2⟩

example : Disk.empty.size < 544 := by decide

end Verif
