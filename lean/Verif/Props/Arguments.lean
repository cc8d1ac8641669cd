import Verif.Proof.WriterInv
import Verif.Proof.FailedAdd
import Verif.Props.Crash

/-! # C56: calls of the writer with invalid arguments or at the wrong time -/

namespace Verif.Spec

open Verif.Czi

/-- The arguments of `SyncAddSubBlock` are invalid: a size without a way to get the data, a negative width or height, or the invalid compression mode. -/
def BadSubBlock (a : AddInfo) : Prop :=
  (0 < a.sizeData ∧ a.data = none) ∨ (0 < a.sizeMetadata ∧ a.metadata = none) ∨ (0 < a.sizeAttachment ∧ a.attachment = none) ∨
  a.logicalWidth < 0 ∨ a.logicalHeight < 0 ∨ a.physicalWidth < 0 ∨ a.physicalHeight < 0 ∨ a.compression = -2147483648

end Verif.Spec

namespace Verif

open Czi Spec

theorem check_false_iff (a : AddInfo) : a.check = false ↔ BadSubBlock a := by
  unfold AddInfo.check BadSubBlock compressionModeToInt intMin
  cases a.data <;> cases a.metadata <;> cases a.attachment <;> simp <;> omega

/-- A phase that throws without writing ends the call without a change. -/
theorem runPhases_throw {p : Phase} {ps : List Phase} {s : Sys} {fs : List Fault} {e : WErr} (h : p s.w = Plan.throw e) :
    runPhases (p :: ps) s fs = (s, some e, fs) := by
  unfold runPhases
  rw [h]
  simp [Plan.throw, performWrites]

/-- **C56 (wrong time).** On a writer that is not open, adding sub-blocks or attachments, writing metadata and closing throw a logic error; on one that is open,
`Create` does. Neither the writer nor the file is changed, whatever the arguments and whatever the stream does. -/
theorem C56_wrong_time (s : Sys) (fs : List Fault) :
    (s.w.info = none → ∀ op, (∀ i, op ≠ .create i) → stepOp s op fs = (s, some .logicError, fs)) ∧
    (s.w.info ≠ none → ∀ i, stepOp s (.create i) fs = (s, some .logicError, fs)) := by
  constructor
  · intro h op hop
    cases op with
    | create i => exact absurd rfl (hop i)
    | addSubBlock a => exact runPhases_throw (by rw [h])
    | addAttachment a => exact runPhases_throw (by rw [h])
    | writeMetadata m => exact runPhases_throw (by rw [h]; rfl)
    | close => exact runPhases_throw (by rw [h]; rfl)
  · intro h i
    refine runPhases_throw ?_
    cases hi : s.w.info with
    | none => exact absurd hi h
    | some v => rfl

/-- **C56 (invalid arguments).** On an open writer, a sub-block with a size but no way to get the data, with a negative width or height or with the invalid compression
mode, an attachment without data and metadata without content are refused with an invalid-argument exception; neither the writer nor the file is changed, whatever the stream does. -/
theorem C56_bad_arguments (s : Sys) (fs : List Fault) (h : s.w.info ≠ none) :
    (∀ a, BadSubBlock a → stepOp s (.addSubBlock a) fs = (s, some .invalidArgument, fs)) ∧
    (∀ a : AddAtt, a.data = none → stepOp s (.addAttachment a) fs = (s, some .invalidArgument, fs)) ∧
    (∀ m : MetaInfo, m.xml = none ∨ m.attachment = none → stepOp s (.writeMetadata m) fs = (s, some .invalidArgument, fs)) := by
  cases hi : s.w.info with
  | none => exact absurd hi h
  | some info =>
    refine ⟨?_, ?_, ?_⟩
    · intro a ha
      refine runPhases_throw ?_
      rw [hi]
      dsimp only
      rw [if_pos ((check_false_iff a).2 ha)]
    · intro a ha
      refine runPhases_throw ?_
      rw [hi]
      dsimp only
      rw [if_pos (by unfold AddAtt.check; rw [ha]; rfl)]
    · intro m hm
      refine runPhases_throw ?_
      rw [hi]
      rw [if_neg (by simp), if_pos (by unfold MetaInfo.check; rcases hm with hm | hm <;> simp [hm])]

/-- **C56 (nothing else is refused).** On an open writer and a stream that does not fail, a sub-block with valid arguments, sizes in range and sources without null pointers, whose
coordinate satisfies the declared bounds and which is not a duplicate, is accepted. -/
theorem C56_valid_accepted (s : Sys) (a : AddInfo) (info : WriterInfo) (h : s.w.info = some info) (hc : ¬ BadSubBlock a)
    (hb : checkCoordinate info.dimBounds info.mBounds a.coordinate a.mIndex = .Ok) (hd : (s.w.dir.tryAdd (a.entry s.w.next)).2 = true)
    (hs : SubOk a) : (step s (.addSubBlock a)).2 = none := by
  have hck : a.check = true := by
    cases hk : a.check with
    | true => rfl
    | false => exact absurd ((check_false_iff a).1 hk) hc
  have hul : a.usedSize < 2 ^ 60 := by
    have := hs.metadataSize; have := hs.dataSize; have := hs.attachmentSize; have := a.dimCount_le
    unfold AddInfo.usedSize AddInfo.segSize
    omega
  obtain ⟨ws, e, _⟩ := writeSubBlock_ok s.w.next none a a.allocSize (hs.writable hck) (by unfold AddInfo.allocSize; have := align_lt a.usedSize; omega)
    (.inl ⟨rfl, rfl⟩)
  generalize (a.body s.w.next a.allocSize ++ zeros (zeroAmount (a.allocSize + 32 - (a.body s.w.next a.allocSize).length))).length = n at e
  unfold step stepOp WOp.phases addSubBlockPhases
  dsimp only
  rw [runPhases_ok (ws := []) (w := { s.w with dir := (s.w.dir.tryAdd (a.entry s.w.next)).1 }),
    runPhases_ok (ws := ws) (w := { s.w with dir := (s.w.dir.tryAdd (a.entry s.w.next)).1, next := s.w.next + n })]
  · rfl
  · dsimp only
    rw [e, Plan.bind_ok, Plan.pure_eq]
    simp
  · dsimp only
    rw [h]
    simp [hck, hb, coordErr, hd, Plan.pure_eq]

/-! ## Non-vacuity -/

example : BadSubBlock { exSub with physicalHeight := -1 } ∧ ¬ BadSubBlock exSub := by
  rw [← check_false_iff, ← check_false_iff]
  decide +kernel

end Verif
