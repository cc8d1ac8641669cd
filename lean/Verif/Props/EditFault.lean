import Verif.Proof.EditFaultHarm
import Verif.Props.ReaderWriter

/-! **C91: a stream failure during an edit does not corrupt the session.** -/

namespace Verif

open Verif.Czi Verif.Spec

/-- **C91 (no failure).** The calls with outcomes of the writes are the calls of C11 and C82 if no write fails. -/
theorem C91_without_fault (s : RW) (op : EditOp) : editStepF s op [] = ((editStep s op).1, (editStep s op).2, []) := stepF_nil s op

/-- **C91 (going on after failures).** Open any sound document with a reader-writer and make any calls to add, replace and remove and to write
metadata, with any of their writes failing – except those of `SyncAddSubBlock` and `SyncAddAttachment`, and those that touch bytes of the document. The
object then shows the contents as changed by the successful calls (and by the removals that threw). `Close` may fail any number of times, at any
write; when it succeeds at last, a reader that opens the file shows exactly these contents. -/
theorem C91_edit_partial {al : Alloc} (hal : ∀ n, al n = true) {d : Disk} {o : OpenOptions} {doc : Doc} {c : Content} {m : Nat}
    {ops : List (EditOp × List Fault)} (info : RWInfo) (h : SoundDoc al d o doc) (hi : Initially al d.stream doc c) (hm : EndsBy d doc m)
    (ho : EditsOk (max doc.entries.length doc.attachments.length) m (ops.map Prod.fst)) :
    ∃ s, rwCreate al ⟨RWState.init, d⟩ info = (s, none) ∧ EditorShows al s c ∧ (TameF False s ops →
      EditorShows al (editF s c ops).1 (editF s c ops).2 ∧
      (TameClose (GrownF False s ops) (editF s c ops).1 → ∀ t, Retried (editF s c ops).1 t →
        ClosesWith al o t (editF s c ops).2 (sizeAfter m (ops.map Prod.fst)))) := by
  obtain ⟨s, h1, h2, h3⟩ := opened_editF hal info h hi hm ho
  refine ⟨s, h1, h2, fun ht => ?_⟩
  obtain ⟨H, top, N, e1, e2, e3, e4, e5⟩ := h3 ht
  refine ⟨e1.shows, fun hc t htt => ?_⟩
  obtain ⟨r1, r2, _⟩ := retried htt (e1.marksApart e2 e4 (fun x => (hc.notGrown x).1))
  exact ClosesWith.again (closes hal e1 e2 e4 e3 (Or.inl e5) hc) r1 r2

/-- **C91 (which failures do no harm).** After such calls: replacing a sub-block or an attachment by one that does not fit into the old segment may
fail at any write but the last; writing the first metadata may fail at any write. -/
theorem C91_unharmed {al : Alloc} (hal : ∀ n, al n = true) {d : Disk} {o : OpenOptions} {doc : Doc} {c : Content} {m : Nat}
    {ops : List (EditOp × List Fault)} (info : RWInfo) (h : SoundDoc al d o doc) (hi : Initially al d.stream doc c) (hm : EndsBy d doc m)
    (ho : EditsOk (max doc.entries.length doc.attachments.length) m (ops.map Prod.fst)) :
    ∃ s, rwCreate al ⟨RWState.init, d⟩ info = (s, none) ∧ ∀ (_ : TameF False s ops) (s' : RW) (c' : Content), editF s c ops = (s', c') →
      (∀ k a i j rest, EditOk (.replaceSubBlock k a) → Appends s' (.replaceSubBlock k a) → i + 1 < (editWrites s' (.replaceSubBlock k a)).length →
        ∃ t fs, editStepF s' (.replaceSubBlock k a) (List.replicate i none ++ some j :: rest) = (t, some .ioError, fs) ∧
          Unharmed s' (.replaceSubBlock k a) t) ∧
      (∀ k a i j rest, EditOk (.replaceAttachment k a) → Appends s' (.replaceAttachment k a) → i + 1 < (editWrites s' (.replaceAttachment k a)).length →
        ∃ t fs, editStepF s' (.replaceAttachment k a) (List.replicate i none ++ some j :: rest) = (t, some .ioError, fs) ∧
          Unharmed s' (.replaceAttachment k a) t) ∧
      (∀ x i j rest, EditOk (.writeMetadata x) → x.check = true → c'.metadata = none → i < (editWrites s' (.writeMetadata x)).length →
        ∃ t fs, editStepF s' (.writeMetadata x) (List.replicate i none ++ some j :: rest) = (t, some .ioError, fs) ∧
          Unharmed s' (.writeMetadata x) t) := by
  obtain ⟨s, h1, h2, h3⟩ := opened_editF hal info h hi hm ho
  refine ⟨s, h1, fun ht s' c' hs => ?_⟩
  obtain ⟨H, top, N, e1, e2, e3, e4, e5⟩ := h3 ht
  rw [hs] at e1
  dsimp only at e1
  have fin : ∀ (op : EditOp) (fs : List Fault), (editStepF s' op fs).2.1 = some .ioError ∧ Unharmed s' op (editStepF s' op fs).1 →
      ∃ t fs', editStepF s' op fs = (t, some .ioError, fs') ∧ Unharmed s' op t := by
    intro op fs ⟨a, b⟩
    exact ⟨_, (editStepF s' op fs).2.2, by rw [← a], b⟩
  refine ⟨?_, ?_, ?_⟩
  · intro k a i j rest hk ha hw
    exact fin _ _ (e1.replaceEnd (by omega) hk ha (Or.inl ⟨k, a, rfl⟩) hw)
  · intro k a i j rest hk ha hw
    exact fin _ _ (e1.replaceEnd (by omega) hk ha (Or.inr ⟨k, a, rfl⟩) hw)
  · intro x i j rest hk hc hn hw
    exact fin _ _ (e1.metaFirst (by omega) hk.1 hk.2 hc hn hw)

/-- **C91 is violated by failing removals.** The item is gone although the call threw: the object shows the contents without it, and calling
again throws for another reason. -/
theorem C91_failed_remove_violated {al : Alloc} (hal : ∀ n, al n = true) {d : Disk} {o : OpenOptions} {doc : Doc} {c : Content} {m : Nat}
    {ops : List (EditOp × List Fault)} (info : RWInfo) (h : SoundDoc al d o doc) (hi : Initially al d.stream doc c) (hm : EndsBy d doc m)
    (ho : EditsOk (max doc.entries.length doc.attachments.length) m (ops.map Prod.fst)) :
    ∃ s, rwCreate al ⟨RWState.init, d⟩ info = (s, none) ∧ ∀ (_ : TameF False s ops) (s' : RW) (c' : Content), editF s c ops = (s', c') →
      (∀ k fs t fs', editStepF s' (.removeSubBlock k) fs = (t, some .ioError, fs') → (c'.subs k).isSome = true ∧
        EditorShows al t (c'.after (.removeSubBlock k)) ∧ (editStep t (.removeSubBlock k)).2 = some .invalidId) ∧
      (∀ k fs t fs', editStepF s' (.removeAttachment k) fs = (t, some .ioError, fs') → (c'.atts k).isSome = true ∧
        EditorShows al t (c'.after (.removeAttachment k)) ∧ (editStep t (.removeAttachment k)).2 = some .invalidId) := by
  obtain ⟨s, h1, h2, h3⟩ := opened_editF hal info h hi hm ho
  refine ⟨s, h1, fun ht s' c' hs => ?_⟩
  obtain ⟨H, top, N, e1, e2, e3, e4, e5⟩ := h3 ht
  rw [hs] at e1
  dsimp only at e1
  have hop1 : s'.w.operational ≠ false := by rw [e1.log.operational]; exact Bool.noConfusion
  constructor
  · intro k fs t fs' hf
    unfold editStepF at hf
    rw [if_neg hop1] at hf
    dsimp only at hf
    obtain ⟨⟨H', r1⟩, _, r3⟩ := e1.removeSubBlockF (k := k) (fs := fs) (by rw [hf])
    rw [hf] at r1
    refine ⟨r3, r1.shows, ?_⟩
    rw [r1.removeSubBlock_result k, show (c'.after (.removeSubBlock k)).subs k = none from if_pos rfl]
    rfl
  · intro k fs t fs' hf
    unfold editStepF at hf
    rw [if_neg hop1] at hf
    dsimp only at hf
    obtain ⟨⟨H', r1⟩, _, r3⟩ := e1.removeAttachmentF (k := k) (fs := fs) (by rw [hf])
    rw [hf] at r1
    refine ⟨r3, r1.shows, ?_⟩
    rw [r1.removeAttachment_result k, show (c'.after (.removeAttachment k)).atts k = none from if_pos rfl]
    rfl

/-- **C91 is violated by every failing `SyncAddSubBlock`.** The sub-block stays in the directory although the call threw. Repeating the call throws for a tile with
M-index; and the next sub-block that is added is shown twice, under its own key and as the one that failed. -/
theorem C91_failed_add_violated {al : Alloc} (hal : ∀ n, al n = true) {d : Disk} {o : OpenOptions} {doc : Doc} {c : Content} {m : Nat}
    {ops : List (EditOp × List Fault)} (info : RWInfo) (h : SoundDoc al d o doc) (hi : Initially al d.stream doc c) (hm : EndsBy d doc m)
    (ho : EditsOk (max doc.entries.length doc.attachments.length) m (ops.map Prod.fst)) :
    ∃ s, rwCreate al ⟨RWState.init, d⟩ info = (s, none) ∧ ∀ (_ : TameF False s ops) (s' : RW) (c' : Content), editF s c ops = (s', c') →
      ∀ a fs t fs', editStepF s' (.addSubBlock a) fs = (t, some .ioError, fs') →
        (HasM (a.entry 0) → OnLayer0 (a.entry 0) → (editStep t (.addSubBlock a)).2 = some .subBlockExists) ∧
        ∀ b u, EditOk (.addSubBlock b) → editStep t (.addSubBlock b) = (u, none) →
          (u.readSubBlock al c'.nextSub).map (Option.map viewRead) = .ok (some (viewAdded b)) ∧
          (u.readSubBlock al (c'.nextSub + 1)).map (Option.map viewRead) = .ok (some (viewAdded b)) := by
  obtain ⟨s, h1, h2, h3⟩ := opened_editF hal info h hi hm ho
  refine ⟨s, h1, fun ht s' c' hs => ?_⟩
  obtain ⟨H, top, N, e1, e2, e3, e4, e5⟩ := h3 ht
  rw [hs] at e1
  dsimp only at e1
  intro a fs t fs' hf
  obtain ⟨r1, r2⟩ := e1.addSubBlockF_ghost hal (by omega) (a := a) (fs := fs) (by rw [hf])
  rw [hf] at r1 r2
  refine ⟨r1, fun b u hb hu => ?_⟩
  have := r2 b hb.1 hb.2 (by rw [hu])
  rw [hu] at this
  exact this

/-- **C91 is violated by every failing `SyncAddAttachment`.** The attachment stays in the directory although the call threw. Repeating the call throws; and
the next attachment that is added gives its data to the one that failed: its identity and name, with the other data. -/
theorem C91_failed_add_attachment_violated {al : Alloc} (hal : ∀ n, al n = true) {d : Disk} {o : OpenOptions} {doc : Doc} {c : Content} {m : Nat}
    {ops : List (EditOp × List Fault)} (info : RWInfo) (h : SoundDoc al d o doc) (hi : Initially al d.stream doc c) (hm : EndsBy d doc m)
    (ho : EditsOk (max doc.entries.length doc.attachments.length) m (ops.map Prod.fst)) :
    ∃ s, rwCreate al ⟨RWState.init, d⟩ info = (s, none) ∧ ∀ (_ : TameF False s ops) (s' : RW) (c' : Content), editF s c ops = (s', c') →
      ∀ a fs t fs', editStepF s' (.addAttachment a) fs = (t, some .ioError, fs') →
        (editStep t (.addAttachment a)).2 = some .attachmentExists ∧
        ∀ b u, EditOk (.addAttachment b) → editStep t (.addAttachment b) = (u, none) →
          u.readAttachment al c'.nextAtt = .ok (some { attachmentOf a with data := (attachmentOf b).data }) := by
  obtain ⟨s, h1, h2, h3⟩ := opened_editF hal info h hi hm ho
  refine ⟨s, h1, fun ht s' c' hs => ?_⟩
  obtain ⟨H, top, N, e1, e2, e3, e4, e5⟩ := h3 ht
  rw [hs] at e1
  dsimp only at e1
  intro a fs t fs' hf
  obtain ⟨r1, r2⟩ := e1.addAttachmentF_ghost hal (by omega) (a := a) (fs := fs) (by rw [hf])
  rw [hf] at r1 r2
  refine ⟨r1, fun b u hb hu => ?_⟩
  have := r2 b hb.1 (by rw [hu])
  rw [hu] at this
  exact this

/-- **C91 is violated by failing metadata writes.** If the new metadata do not fit into the old segment, that is marked as deleted first; if the next write fails, the
old metadata cannot be read any more. -/
theorem C91_failed_metadata_violated {al : Alloc} (hal : ∀ n, al n = true) {d : Disk} {o : OpenOptions} {doc : Doc} {c : Content} {m : Nat}
    {ops : List (EditOp × List Fault)} (info : RWInfo) (h : SoundDoc al d o doc) (hi : Initially al d.stream doc c) (hm : EndsBy d doc m)
    (ho : EditsOk (max doc.entries.length doc.attachments.length) m (ops.map Prod.fst)) :
    ∃ s, rwCreate al ⟨RWState.init, d⟩ info = (s, none) ∧ ∀ (_ : TameF False s ops) (_ : ¬ GrownF False s ops) (s' : RW) (c' : Content), editF s c ops = (s', c') →
      ∀ x j rest, EditOk (.writeMetadata x) → x.check = true → c'.metadata.isSome = true → (∀ i, s'.w.metaSeg = some i → 0 < i.alloc) →
        Appends s' (.writeMetadata x) →
        s'.readMetadata al = .ok c'.metadata ∧
        ∃ t fs e, editStepF s' (.writeMetadata x) (none :: some j :: rest) = (t, some .ioError, fs) ∧ t.readMetadata al = .error e := by
  obtain ⟨s, h1, h2, h3⟩ := opened_editF hal info h hi hm ho
  refine ⟨s, h1, fun ht hg s' c' hs => ?_⟩
  obtain ⟨H, top, N, e1, e2, e3, e4, e5⟩ := h3 ht
  rw [hs] at e1
  dsimp only at e1
  intro x j rest hx hc hsome hz happ
  obtain ⟨r1, e, r2⟩ := e1.metaLost (by omega) hg hx.1 hx.2 hc hsome hz happ j rest
  exact ⟨e1.shows.metadata, _, _, e, by rw [← r1], r2⟩

/-! ## The hypotheses are met -/

/-- The calls with their writes on the document `exDisk2`: replacing an attachment by a larger one fails at the second write, then works; removing
the sub-block fails. -/
private def exFaulty : List (EditOp × List Fault) :=
  [(.replaceAttachment 0 exBig, [none, some 3]), (.removeSubBlock 0, [some 5])]

private theorem exFaulty_first : (editStepF exRW2 (.replaceAttachment 0 exBig) [none, some 3]).2.1 = some .ioError := by decide +kernel

private theorem exFaulty_second : (editStepF (editStepF exRW2 (.replaceAttachment 0 exBig) [none, some 3]).1 (.removeSubBlock 0) [some 5]).2.1 = some .ioError := by
  decide +kernel

private theorem exFaulty_unharmed : Unharmed exRW2 (.replaceAttachment 0 exBig) (editStepF exRW2 (.replaceAttachment 0 exBig) [none, some 3]).1 := by
  obtain ⟨doc, c, h1, h2, h3, h4, h5, _⟩ := exSound2
  obtain ⟨s, g1, g2⟩ := C91_unharmed (fun _ => rfl) (ops := []) ⟨false, exInfo.guid⟩ h1 h2 h3 ⟨(by intro op hop; cases hop), (by rw [h4, h5]; decide), (by decide)⟩
  have hs : s = exRW2 := by unfold exRW2; rw [g1]
  rw [hs] at g2
  have happ : Appends exRW2 (.replaceAttachment 0 exBig) := by
    have hx : (exRW2.w.att.tryGet 0).map (fun e => decide (allocAt exRW2.disk e.filePosition < 256 + exBig.bytes.length)) = some true := by decide +kernel
    obtain ⟨e, he, hx⟩ := Option.map_eq_some_iff.1 hx
    exact ⟨e, he, of_decide_eq_true hx⟩
  obtain ⟨t, fs, e1, e2⟩ := (g2 trivial exRW2 c rfl).2.1 0 exBig 1 3 [] ⟨by decide +kernel, by decide +kernel⟩ happ (by decide +kernel)
  rw [show [none, some 3] = List.replicate 1 none ++ some 3 :: ([] : List Fault) from rfl, e1]
  exact e2

/-- These calls are tame, although both fail, and meet the other hypotheses. -/
example : (∃ (doc : Doc) (c : Content), SoundDoc (fun _ => true) exDisk2 exOpt doc ∧ Initially (fun _ => true) exDisk2.stream doc c ∧ EndsBy exDisk2 doc (2 ^ 47) ∧
      EditsOk (max doc.entries.length doc.attachments.length) (2 ^ 47) (exFaulty.map Prod.fst)) ∧
    TameF False exRW2 exFaulty ∧ TameClose (GrownF False exRW2 exFaulty) (editF exRW2 Content.empty exFaulty).1 := by
  have hg : ¬ GrownF False exRW2 exFaulty := by
    rintro ((h | ⟨_, h⟩) | ⟨h, _⟩)
    · exact h
    · exact h exFaulty_first
    · exact h
  refine ⟨?_, ⟨fun x => x.elim, fun _ => ⟨exFaulty_unharmed, fun x => x.elim⟩, ?_, fun _ => ⟨trivial, fun _ => ⟨0, Or.inl rfl⟩⟩, trivial⟩, tameClose_noAtt hg (by decide +kernel)⟩
  · obtain ⟨doc, c, h1, h2, h3, h4, h5, _⟩ := exSound2
    refine ⟨doc, c, h1, h2, h3, ?_, by rw [h4, h5]; decide, by decide +kernel⟩
    intro op hop
    simp only [exFaulty, List.map_cons, List.map_nil, List.mem_cons, List.not_mem_nil, or_false] at hop
    rcases hop with rfl | rfl
    · exact ⟨by decide +kernel, by decide +kernel⟩
    · exact trivial
  · rintro (x | ⟨_, x⟩) _
    · exact x
    · exact x exFaulty_first

private theorem triple {α β γ : Type} {x : α × β × γ} {b : β} (h : x.2.1 = b) : x = (x.1, b, x.2.2) := by
  rw [← h]

/-- A `Close` that fails twice, at different writes, and then works. -/
example : ∃ t, Retried (editStep exRW2 (.removeSubBlock 0)).1 t ∧ (editStep t .close).2 = none := by
  have h1 : (editStepF (editStep exRW2 (.removeSubBlock 0)).1 .close [none, some 3]).2.1 = some .ioError := by decide +kernel
  have h2 : (editStepF (editStepF (editStep exRW2 (.removeSubBlock 0)).1 .close [none, some 3]).1 .close [some 100]).2.1 = some .ioError := by decide +kernel
  refine ⟨(editStepF (editStepF (editStep exRW2 (.removeSubBlock 0)).1 .close [none, some 3]).1 .close [some 100]).1, ?_, by decide +kernel⟩
  refine Retried.again (fs := [some 100])
    (fs' := (editStepF (editStepF (editStep exRW2 (.removeSubBlock 0)).1 .close [none, some 3]).1 .close [some 100]).2.2) (Retried.again (t' := (editStepF (editStep exRW2 (.removeSubBlock 0)).1 .close [none, some 3]).1)
    (fs := [none, some 3]) (fs' := (editStepF (editStep exRW2 (.removeSubBlock 0)).1 .close [none, some 3]).2.2) .never ?_) ?_
  · exact triple h1
  · exact triple h2

/-- A sub-block on layer 0 with an M-index, and other metadata. -/
private def exTile : AddInfo := { exSub with physicalWidth := 4, physicalHeight := 2 }
private def exMeta2 : MetaInfo := ⟨some (List.replicate 100 65), some []⟩

/-- Adding that fails, and what can be added then. -/
example : (editStepF exRW1 (.addSubBlock exTile) [some 3]).2.1 = some .ioError ∧ HasM (exTile.entry 0) ∧ OnLayer0 (exTile.entry 0) ∧
    (editStep (editStepF exRW1 (.addSubBlock exTile) [some 3]).1 (.addSubBlock exSub)).2 = none ∧ EditOk (.addSubBlock exSub) ∧
    (editStepF exRW1 (.addAttachment exAtt) [none, some 1]).2.1 = some .ioError ∧
    (editStep (editStepF exRW1 (.addAttachment exAtt) [none, some 1]).1 (.addAttachment exOther)).2 = none ∧ EditOk (.addAttachment exOther) := by
  refine ⟨by decide +kernel, by unfold HasM; decide +kernel, by unfold OnLayer0; decide +kernel, by decide +kernel, exSub_editOk, by decide +kernel, by decide +kernel,
    by decide +kernel, by decide +kernel⟩

private theorem editF_one {s : RW} {op : EditOp} (h : (editStepF s op []).2.1 = none) (c : Content) : (editF s c [(op, [])]).2 = c.afterCall op none := by
  unfold editF
  rw [h]
  rfl

/-- Metadata that need a new segment, when there are metadata. -/
example : TameF False exRW1 [(.writeMetadata exMeta, [])] ∧ ¬ GrownF False exRW1 [(.writeMetadata exMeta, [])] ∧
    (∀ c, ((editF exRW1 c [(.writeMetadata exMeta, [])]).2.metadata).isSome = true) ∧ exMeta2.check = true ∧ EditOk (.writeMetadata exMeta2) ∧
    (∃ i, (editF exRW1 Content.empty [(.writeMetadata exMeta, [])]).1.w.metaSeg = some i ∧ 0 < i.alloc ∧
      i.alloc < align (256 + (exMeta2.xmlBytes.length + exMeta2.attBytes.length))) := by
  have hr : (editStepF exRW1 (.writeMetadata exMeta) []).2.1 = none := by decide +kernel
  refine ⟨⟨fun x => x.elim, (fun x => by rw [hr] at x; cases x), trivial⟩, ?_, fun c => ?_, by decide +kernel, ⟨by decide +kernel, by decide +kernel⟩, ?_⟩
  · rintro (h | ⟨h, _⟩) <;> exact h
  · rw [editF_one hr]
    rfl
  · have hx : ((editF exRW1 Content.empty [(.writeMetadata exMeta, [])]).1.w.metaSeg).map (fun i => decide (0 < i.alloc ∧
        i.alloc < align (256 + (exMeta2.xmlBytes.length + exMeta2.attBytes.length)))) = some true := by decide +kernel
    obtain ⟨i, hi, hx⟩ := Option.map_eq_some_iff.1 hx
    exact ⟨i, hi, of_decide_eq_true hx⟩

/-- The attachment of the document `exDisk2` with other data, that fit into its segment. -/
private def exThree : AddAtt := { exAtt with data := some [9, 9, 9] }

private theorem ok_of_toOption {ε α : Type} {x : Except ε α} {v : α} (h : x.toOption = some v) : x = .ok v := by
  cases x with
  | error e => cases h
  | ok w => exact congrArg Except.ok (Option.some.inj h)

/-- **C91 is violated by replacements in their place.** If the second write of such a replacement fails, the object shows neither the old data nor the new: here the
size of the new attachment with the data of the old one. -/
theorem C91_torn_replace_violated : ∃ (d : Disk) (info : RWInfo) (s t : RW) (b : AddAtt) (fs : List Fault),
    rwCreate (fun _ => true) ⟨RWState.init, d⟩ info = (s, none) ∧ EditOk (.replaceAttachment 0 b) ∧ b.data = some [9, 9, 9] ∧
    (s.readAttachment (fun _ => true) 0).map (Option.map (·.data.bytes)) = .ok (some (some [5, 6])) ∧
    editStepF s (.replaceAttachment 0 b) [none, some 0] = (t, some .ioError, fs) ∧
    (t.readAttachment (fun _ => true) 0).map (Option.map (·.data.bytes)) = .ok (some (some [5, 6, 0])) := by
  obtain ⟨doc, c, h1, h2, h3, h4, h5, _⟩ := exSound2
  obtain ⟨s, g1, _⟩ := C91_unharmed (fun _ => rfl) (ops := []) ⟨false, exInfo.guid⟩ h1 h2 h3 ⟨(by intro op hop; cases hop), (by rw [h4, h5]; decide), (by decide)⟩
  have hs : s = exRW2 := by unfold exRW2; rw [g1]
  rw [hs] at g1
  have hf : (editStepF exRW2 (.replaceAttachment 0 exThree) [none, some 0]).2.1 = some .ioError := by decide +kernel
  exact ⟨_, _, exRW2, (editStepF exRW2 (.replaceAttachment 0 exThree) [none, some 0]).1, exThree, (editStepF exRW2 (.replaceAttachment 0 exThree) [none, some 0]).2.2, g1,
    ⟨(by decide +kernel), (by decide +kernel)⟩, rfl, ok_of_toOption (by decide +kernel), triple hf, ok_of_toOption (by decide +kernel)⟩

end Verif
