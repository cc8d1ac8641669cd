import Verif.Proof.WriteFault2
import Verif.Props.Document

/-!
# C98 a stream that fails while a document is written

`Spec.insist`, `Spec.writeDocOn`: calls of `ICziWriter` that are made again when a write fails. `Spec.callsOn`: calls that are not made again. The outcome of each write
is given (`Fault`): it succeeds, or only so many of its bytes get to the file and the call throws.
-/

namespace Verif
open Spec Czi

attribute [local irreducible] zeros

/-- A write that fails after 3 bytes, then one that fails after 40. -/
private def exTries : List (List Fault) := [[some 3], [none, some 40]]

private def exCalls : List (WOp × List (List Fault)) :=
  [(.addSubBlock exSub, []), (.writeMetadata exMeta, exTries), (.addAttachment exAtt, []), (.writeMetadata ⟨some [60, 98, 47, 62], some [1]⟩, [[none, none, some 0]])]

/-- **C98 (a call made again, partial: writing metadata and closing).** Whenever writing metadata throws, any number of times, at whatever write, then making the call
again has the same effect as if it were made for the first time: the same outcome, the same state of the writer, and the same file, byte by byte. The same holds for
`Close`, after any calls made since `Create` on a stream that did not fail. -/
theorem C98_again_partial :
    (∀ (s t : Sys) (m : MetaInfo), Repeated (.writeMetadata m) s t → step t (.writeMetadata m) = step s (.writeMetadata m)) ∧
    (∀ (dup : Bool) (d0 : Disk) (info : WriterInfo) (ops : List WOp) (t : Sys), (∀ op ∈ ops, (∀ i, op ≠ .create i) ∧ op ≠ .close) →
      Repeated .close (opened dup d0 info ops).1 t → step t .close = step (opened dup d0 info ops).1 .close) := by
  refine ⟨?_, ?_⟩
  · intro s t m h
    exact (repeated_of (fun _ => True) (fun h _ => ⟨meta_again h, trivial⟩) h trivial).1
  · intro dup d0 info ops t ho h
    exact (repeated_of Calm (fun h hc => close_again' h hc) h (session_fresh ops ho _ (create_fresh dup d0 info)).calm).1

private def exOpened : Sys := (opened false Disk.empty exInfo exOps).1

/-- In the sample document: `Close` that fails while the second directory is written, and again while the header is written; after that the writer still works. -/
example : ∃ t u, Repeated .close exOpened u ∧ stepOp exOpened .close [none, none, some 5] = (t, some .ioError, []) ∧
    (stepOp t .close [none, none, none, some 100]).1 = u ∧ (step u .close).2 = none := by
  have h1 : (stepOp exOpened .close [none, none, some 5]).2.1 = some .ioError := by decide +kernel
  have h2 : (stepOp exOpened .close [none, none, some 5]).2.2 = [] := by decide +kernel
  have h3 : (stepOp (stepOp exOpened .close [none, none, some 5]).1 .close [none, none, none, some 100]).2.1 = some .ioError := by decide +kernel
  refine ⟨(stepOp exOpened .close [none, none, some 5]).1, (stepOp (stepOp exOpened .close [none, none, some 5]).1 .close [none, none, none, some 100]).1, ?_, ?_, rfl, ?_⟩
  · exact .again (e := .ioError) (.again (e := .ioError) .never (Prod.ext rfl (Prod.ext h1 rfl))) (Prod.ext rfl (Prod.ext h3 rfl))
  · exact Prod.ext rfl (Prod.ext h1 h2)
  · decide +kernel

/-- **C98 (whole documents, partial: the stream does not fail while sub-blocks and attachments are added).** A document for which writing metadata and `Close` are made
again whenever a write fails is, byte by byte, the document written to a stream that does not fail, and the same calls succeed. So everything said about written
documents (C01 to C07) holds for it. -/
theorem C98_document_partial (dup : Bool) (d0 : Disk) (info : WriterInfo) (cs : List (WOp × List (List Fault))) (close : List (List Fault)) (h : AddsDoNotFail cs) :
    writeDocOn dup d0 info cs close = writeDoc dup d0 info (cs.map Prod.fst) := writeDocOn_eq dup d0 info close h

/-- The sample document, with four writes of metadata that fail and two of `Close`. -/
example : AddsDoNotFail exCalls ∧ (writeDocOn false Disk.empty exInfo exCalls [[some 7], [none, none, none, some 1]]).map (fun r => r.2.length) = some 4 ∧
    (stepOp (sessionOn (step ⟨WState.init false, Disk.empty⟩ (.create exInfo)).1 exCalls).1 .close [none, none, none, some 1]).2.1 = some .ioError := by
  refine ⟨?_, by decide +kernel, by decide +kernel⟩
  intro c hc
  simp only [exCalls, List.mem_cons, List.not_mem_nil, or_false] at hc
  rcases hc with rfl | rfl | rfl | rfl <;> trivial

/-- **C98 (metadata that are given up, partial: the first metadata, without reservations; sizes as in C01 to C03).** If writing the first metadata fails, any number of
times, and is not made again, or later with others: `Close` succeeds, and the reader shows exactly the sub-blocks, the attachments and the metadata whose calls did not
throw. -/
theorem C98_given_up_partial (dup : Bool) (d0 : Disk) (info : WriterInfo) (cs : List (WOp × List Fault)) (hi : InfoOk info) (hr1 : info.reservedMetadata = none)
    (hr2 : info.reservedAttDir = none) (hops : OpsOk (cs.map Prod.fst)) (hsz : ∀ a ∈ subsOf (cs.map Prod.fst), a.sizeData ≤ 2147483647)
    (hat : ∀ a ∈ attsOf (cs.map Prod.fst), a.bytes.length < 2 ^ 31 ∧ 0 ∈ a.name.toList)
    (hmt : ∀ m, .writeMetadata m ∈ cs.map Prod.fst → m.xmlBytes.length < 2 ^ 31 ∧ m.attBytes.length < 2 ^ 31)
    (o : OpenOptions) (al : Alloc) (hal : ∀ n, al n = true) :
    ∃ s, step ⟨WState.init dup, d0⟩ (.create info) = (s, none) ∧ (OnlyFirstMetadataFail s false cs → ∀ t done, callsOn s cs = (t, done) →
      ∃ u, step t .close = (u, none) ∧ ∃ doc, openDoc al u.disk.stream o = .ok doc ∧
        (∃ sbs : List SubBlock, sbs.length = doc.entries.length ∧ (∀ i (h : i < sbs.length), doc.readSubBlock al u.disk.stream i = .ok (some sbs[i])) ∧
          (sbs.map viewRead).Perm ((subsOf done).map viewAdded)) ∧
        (doc.attachments.length = (attsOf done).length ∧
          ∀ i (h : i < (attsOf done).length), doc.readAttachment al u.disk.stream i = .ok (some (attachmentOf (attsOf done)[i]))) ∧
        (∀ m, lastMeta done = some m → doc.readMetadata al u.disk.stream = .ok (metaOf m)) ∧
        (lastMeta done = none → doc.readMetadata al u.disk.stream = .error .notPresent)) := by
  obtain ⟨s, e1, h⟩ := calls_written dup d0 info cs hi hr1 hops
  refine ⟨s, e1, ?_⟩
  intro ho t done hcall
  obtain ⟨d, segs, q, sp, mp, ap, dir, att, e2, hw⟩ := h ho
  have hs := callsOn_sublist cs s
  rw [hcall] at e2 hw hs
  dsimp only at e2 hw hs
  obtain ⟨as, eo, k1, k2⟩ := hw.open hal o
  obtain ⟨sbs, j1, j2, j3, _⟩ := hw.subBlocks hal o (fun a ha => hsz a ((hs.filterMap _).subset ha))
  have hl := hw.att_length
  have has : as = att.map AttEntry.read := by
    by_cases hn : att = []
    · rw [k1 hn, hn]; rfl
    · rw [k2 hn]
      have hod : attOnDisk info.reservedAttDir att = attEntriesBytes att := by rw [hr2]; rfl
      have := attEntriesOf_bytes att hw.att_pos []
      rw [List.append_nil] at this
      rw [hod, this]
  subst has
  have hm := hw.metadata hal o dir (att.map AttEntry.read) (fun m hm => hmt m (hs.subset (lastMeta_mem hm)))
  refine ⟨_, e2, _, eo, ⟨sbs, j1, ?_, j3⟩, ⟨by simp [hl], ?_⟩, ?_, ?_⟩
  · intro i h
    unfold Doc.readSubBlock
    dsimp only
    rw [List.getElem?_eq_getElem (by omega)]
    dsimp only
    rw [j2 i (by omega) h]
    rfl
  · intro i h
    have hm := hat _ ((hs.filterMap _).subset (List.getElem_mem h))
    rw [hw.readAttachment hal _ _ o i h hm.1]
    congr 2
    unfold attachmentRead
    rw [List.take_of_length_le]
    · rfl
    · unfold cstr
      have := takeWhile_length_lt (fun x : UInt8 => decide (x ≠ 0)) hm.2 (by simp)
      rw [Vector.length_toList] at this
      exact Nat.le_of_lt_succ this
  · intro m hm'
    rw [hm'] at hm
    exact hm
  · intro hm'
    rw [hm'] at hm
    exact hm

/-- Metadata that do not fit into the place of `exMeta`. -/
private def exBig : MetaInfo := ⟨some (List.replicate 50 60), some []⟩

private def exInfo0 : WriterInfo := ⟨exInfo.guid, none, none, none, none, none⟩

private def exStart : Sys := (step ⟨WState.init false, Disk.empty⟩ (.create exInfo0)).1

private def exGivenUp : List (WOp × List Fault) :=
  [(.addSubBlock exSub, []), (.writeMetadata exBig, [none, some 45]), (.addAttachment exAtt, []), (.writeMetadata exMeta, [some 9])]

/-- The sample document, with metadata that fail twice and are given up. -/
example : InfoOk exInfo0 ∧ OpsOk (exGivenUp.map Prod.fst) ∧ OnlyFirstMetadataFail exStart false exGivenUp ∧
    (callsOn exStart exGivenUp).2.length = 2 := by
  refine ⟨⟨(by intro n h; cases h), (by intro n h; cases h), (by intro n h; cases h)⟩, ⟨?_, by decide +kernel, by decide +kernel⟩, ?_, by decide +kernel⟩
  · intro op h
    simp only [exGivenUp, List.map_cons, List.map_nil, List.mem_cons, List.not_mem_nil, or_false] at h
    rcases h with rfl | rfl | rfl | rfl
    · exact exSub_ok 1 ⟨by decide, by decide⟩
    · exact ⟨by decide, by decide⟩
    · show (2 : Nat) < _; decide
    · exact ⟨by decide, by decide⟩
  · have h1 : ((stepOp exStart (.addSubBlock exSub) []).2.1.isNone && false) = false := Bool.and_false _
    have h2 : ((stepOp (stepOp exStart (.addSubBlock exSub) []).1 (.writeMetadata exBig) [none, some 45]).2.1.isNone && true) = false := by decide +kernel
    have h3 : ∀ b, (b && false) = false := Bool.and_false
    show OnlyFirstMetadataFail exStart false exGivenUp
    unfold exGivenUp
    refine ⟨.inl rfl, .inr ⟨?_, exBig, rfl⟩, .inl rfl, .inr ⟨?_, exMeta, rfl⟩, trivial⟩
    · exact h1
    · show (((false || (_ && false)) || (_ && true)) || (_ && false)) = false
      rw [h3, h3, Bool.or_false, Bool.false_or]
      exact h2

/-- **C98 is violated by adding.** Adding a sub-block or an attachment that failed because of a write cannot be made again, in no state of the writer and at no write:
the second call throws because the item is there already. (That it is listed in the document, where it cannot be read: `C08_failed_add_is_listed`,
`C08_failed_attachment_is_listed`.) -/
theorem C98_add_violated (s : Sys) (fs : List Fault) :
    (∀ a, (stepOp s (.addSubBlock a) fs).2.1 = some .ioError → (step (stepOp s (.addSubBlock a) fs).1 (.addSubBlock a)).2 = some .subBlockExists) ∧
    (∀ a, (stepOp s (.addAttachment a) fs).2.1 = some .ioError → (step (stepOp s (.addAttachment a) fs).1 (.addAttachment a)).2 = some .attachmentExists) :=
  ⟨fun _ h => add_again h, fun _ h => addAtt_again h⟩

/-- Adding that fails, in the sample document. -/
example : (stepOp exOpened (.addSubBlock { exSub with mIndex := some 9 }) [some 20]).2.1 = some .ioError ∧
    (stepOp exOpened (.addAttachment { exAtt with guid := ⟨5, 5, 5, Vector.replicate 8 5⟩ }) [none, some 1]).2.1 = some .ioError := by decide +kernel

/-- **C98 is violated by `Create`.** `Create` that failed because of a write cannot be made again, with whatever arguments: the object takes itself for one that is
working. -/
theorem C98_create_violated (dup : Bool) (d0 : Disk) (info info' : WriterInfo) (fs fs' : List Fault) (u : Sys)
    (h : stepOp ⟨WState.init dup, d0⟩ (.create info) fs = (u, some .ioError, fs')) : step u (.create info') = (u, some .logicError) := create_again h

private def exFailed : Sys := (stepOp ⟨WState.init false, Disk.empty⟩ (.create exInfo0) [some 10]).1

private def exWrong : Sys := (step (step exFailed (.addSubBlock exSub)).1 .close).1

private theorem of_toOption_map {ε α β : Type} {x : Except ε α} {f : α → β} {v : β} (h : x.toOption.map f = some v) : ∃ a, x = .ok a ∧ f a = v := by
  cases x with
  | error e => cases h
  | ok a => exact ⟨a, rfl, Option.some.inj h⟩

private def errOf {α : Type} : Except RErr α → Option RErr
  | .error e => some e
  | .ok _ => none

private theorem error_of {α : Type} {x : Except RErr α} {e : RErr} (h : errOf x = some e) : x = .error e := by
  cases x with
  | error e' => rw [Option.some.inj h]
  | ok a => cases h

/-- **C98 is violated by working on after a failing `Create`.** Adding a sub-block and `Close` then succeed; but the sub-block and the directory are written to the
beginning of the file, where `Close` puts the file header afterwards. The document cannot be opened. -/
theorem C98_create_file_violated : ∃ u v w : Sys, stepOp ⟨WState.init false, Disk.empty⟩ (.create exInfo0) [some 10] = (u, some .ioError, []) ∧
    step u (.addSubBlock exSub) = (v, none) ∧ step v .close = (w, none) ∧
    openDoc (fun _ => true) w.disk.stream OpenOptions.default = .error .corrupted := by
  have h1 : (stepOp ⟨WState.init false, Disk.empty⟩ (.create exInfo0) [some 10]).2 = (some .ioError, []) := by decide +kernel
  have h2 : (step exFailed (.addSubBlock exSub)).2 = none := by decide +kernel
  have h3 : (step (step exFailed (.addSubBlock exSub)).1 .close).2 = none := by decide +kernel
  refine ⟨exFailed, (step exFailed (.addSubBlock exSub)).1, exWrong, Prod.ext rfl h1, Prod.ext rfl h2, Prod.ext rfl h3, error_of ?_⟩
  decide +kernel

private def exOne : Sys := (step exStart (.writeMetadata exMeta)).1

private def exOneTorn : Sys := (stepOp exOne (.writeMetadata exBig) [none, some 0]).1

private def exNoMeta : Sys := (step exOneTorn .close).1

/-- **C98 is violated by metadata that are written again.** New metadata that do not fit into the place of the old ones: the old ones are marked as deleted first. If the
next write fails and the call is not made again, the document has no metadata that can be read, although one call to write metadata succeeded. -/
theorem C98_metadata_violated : ∃ r s t u : Sys, step ⟨WState.init false, Disk.empty⟩ (.create exInfo0) = (r, none) ∧
    step r (.writeMetadata exMeta) = (s, none) ∧ stepOp s (.writeMetadata exBig) [none, some 0] = (t, some .ioError, []) ∧ step t .close = (u, none) ∧
    ∃ doc, openDoc (fun _ => true) u.disk.stream OpenOptions.default = .ok doc ∧ doc.readMetadata (fun _ => true) u.disk.stream = .error .corrupted := by
  have h0 : (step ⟨WState.init false, Disk.empty⟩ (.create exInfo0)).2 = none := by decide +kernel
  have h1 : (step exStart (.writeMetadata exMeta)).2 = none := by decide +kernel
  have h2 : (stepOp exOne (.writeMetadata exBig) [none, some 0]).2 = (some .ioError, []) := by decide +kernel
  have h3 : (step exOneTorn .close).2 = none := by decide +kernel
  have h4 : (openDoc (fun _ => true) exNoMeta.disk.stream OpenOptions.default).toOption.map (fun doc =>
      errOf (doc.readMetadata (fun _ => true) exNoMeta.disk.stream)) = some (some .corrupted) := by decide +kernel
  refine ⟨exStart, exOne, exOneTorn, exNoMeta, Prod.ext rfl h0, Prod.ext rfl h1, Prod.ext rfl h2, Prod.ext rfl h3, ?_⟩
  obtain ⟨doc, e1, e2⟩ := of_toOption_map h4
  exact ⟨doc, e1, error_of e2⟩

end Verif
