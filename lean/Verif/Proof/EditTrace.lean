import Verif.Model.EditTrace
import Verif.Proof.EditCreate

/-! The writes of a call on a reader-writer are what changes the file. -/

namespace Verif.Czi

theorem ensureNext_disk {s s' : RW} {n : Nat} (h : s.ensureNext = .ok (s', n)) : s'.disk = s.disk ∧ s'.w = { s.w with next := some n } := by
  unfold RW.ensureNext at h
  cases hn : s.w.next with
  | some m =>
    rw [hn] at h
    injection h with h
    injection h with h1 h2
    subst h1 h2
    refine ⟨rfl, ?_⟩
    rw [← hn]
  | none =>
    rw [hn] at h
    dsimp only at h
    cases hr : readSegmentHeaderAny s.disk.stream s.w.last with
    | error e => rw [hr] at h; cases h
    | ok r =>
      rw [hr] at h
      obtain ⟨al, u⟩ := r
      dsimp only at h
      injection h with h
      injection h with h1 h2
      subst h1 h2
      exact ⟨rfl, rfl⟩

theorem exec_disk {α : Type} (s : RW) (p : Plan α) (k : RW → α → RW × Option WErr) (h : ∀ s a, (k s a).1.disk = s.disk) :
    (s.exec p k).1.disk = apply s.disk p.writes := by
  unfold RW.exec
  cases p.result with
  | error e => rfl
  | ok a => exact h _ _

theorem closeSubDir_disk (s : RW) : (rwCloseSubDir s).1.disk = apply s.disk (closeSubDirWrites s) := by
  unfold rwCloseSubDir closeSubDirWrites
  cases s.w.dir.isModified with
  | false => rfl
  | true =>
    simp only [if_true]
    cases h : s.ensureNext with
    | error e => rfl
    | ok r =>
      obtain ⟨s', n⟩ := r
      dsimp only
      rw [exec_disk _ _ _ (fun _ _ => rfl), (ensureNext_disk h).1]

theorem closeAttDir_disk (s : RW) : (rwCloseAttDir s).1.disk = apply s.disk (closeAttDirWrites s) := by
  unfold rwCloseAttDir closeAttDirWrites
  cases s.w.att.isModified with
  | false => rfl
  | true =>
    simp only [if_true]
    cases h : s.ensureNext with
    | error e => rfl
    | ok r =>
      obtain ⟨s', n⟩ := r
      dsimp only
      rw [exec_disk _ _ _ (fun _ _ => rfl), (ensureNext_disk h).1]

theorem closeHeader_disk (s : RW) : (rwCloseHeader s).1.disk = apply s.disk (closeHeaderWrites s) := by
  unfold rwCloseHeader closeHeaderWrites
  split
  · rw [exec_disk _ _ _ (fun _ _ => rfl)]
    rfl
  · rfl

theorem close_disk (s : RW) : (rwClose s).1.disk = apply s.disk (closeWrites s) := by
  unfold rwClose closeWrites andThen writesThen
  rw [apply_append, ← closeSubDir_disk]
  cases h : (rwCloseSubDir s).2 with
  | some e => dsimp only; rw [h]; rfl
  | none =>
    dsimp only
    rw [apply_append, ← closeAttDir_disk]
    cases h' : (rwCloseAttDir (rwCloseSubDir s).1).2 with
    | some e => rfl
    | none => exact closeHeader_disk _

theorem edit_disk (s : RW) (op : EditOp) : (editStep s op).1.disk = apply s.disk (editWrites s op) := by
  unfold editStep editWrites
  split
  · rfl
  · cases op with
    | addSubBlock a =>
      dsimp only
      unfold rwAddSubBlock addSubBlockWrites
      split
      · rfl
      · cases h : s.ensureNext with
        | error e => rfl
        | ok r =>
          obtain ⟨s', n⟩ := r
          dsimp only
          obtain ⟨h1, _⟩ := ensureNext_disk h
          rcases s'.w.dir.tryAdd (a.entry n) with ⟨d, _ | _⟩
          · exact h1
          · dsimp only
            rw [exec_disk _ _ _ (fun _ _ => rfl), h1]
    | addAttachment a =>
      dsimp only
      unfold rwAddAttachment addAttachmentWrites
      split
      · rfl
      · cases h : s.ensureNext with
        | error e => rfl
        | ok r =>
          obtain ⟨s', n⟩ := r
          dsimp only
          obtain ⟨h1, _⟩ := ensureNext_disk h
          rcases s'.w.att.tryAdd (a.entry n) with _ | _
          · exact h1
          · dsimp only
            rw [exec_disk _ _ _ (fun _ _ => rfl), h1]
    | replaceSubBlock k a =>
      dsimp only
      unfold rwReplaceSubBlock replaceSubBlockWrites
      cases s.w.dir.tryGet k with
      | none => rfl
      | some e =>
        dsimp only
        rcases readSegmentHeader s.disk.stream subBlockMagic e.filePosition with _ | ⟨al, u⟩
        · rfl
        · dsimp only
          split
          · unfold rwReplaceSubBlockAtEnd
            cases h : s.ensureNext with
            | error e => rfl
            | ok r =>
              obtain ⟨s', n⟩ := r
              dsimp only
              rw [exec_disk _ _ _ (fun _ _ => rfl), (ensureNext_disk h).1]
          · unfold rwReplaceSubBlockInPlace
            rw [exec_disk _ _ _ (fun _ _ => rfl)]
    | replaceAttachment k a =>
      dsimp only
      unfold rwReplaceAttachment replaceAttachmentWrites
      cases s.w.att.tryGet k with
      | none => rfl
      | some e =>
        dsimp only
        rcases readSegmentHeader s.disk.stream attMagic e.filePosition with _ | ⟨al, u⟩
        · rfl
        · dsimp only
          split
          · unfold rwReplaceAttachmentAtEnd
            cases h : s.ensureNext with
            | error e => rfl
            | ok r =>
              obtain ⟨s', n⟩ := r
              dsimp only
              rw [exec_disk _ _ _ (fun _ _ => rfl), (ensureNext_disk h).1]
          · unfold rwReplaceAttachmentInPlace
            rw [exec_disk _ _ _ (fun _ _ => rfl)]
    | removeSubBlock k =>
      dsimp only
      unfold rwRemoveSubBlock removeSubBlockWrites
      rcases s.w.dir.tryRemove k with ⟨d, _ | e⟩
      · rfl
      · dsimp only
        rw [exec_disk _ _ _ (fun _ _ => rfl)]
    | removeAttachment k =>
      dsimp only
      unfold rwRemoveAttachment removeAttachmentWrites
      rcases s.w.att.tryRemove k with ⟨d, _ | e⟩
      · rfl
      · dsimp only
        rw [exec_disk _ _ _ (fun _ _ => rfl)]
    | writeMetadata m =>
      dsimp only
      unfold rwWriteMetadata writeMetadataWrites
      split
      · rfl
      · cases h : s.ensureNext with
        | error e => rfl
        | ok r =>
          obtain ⟨s', n⟩ := r
          dsimp only
          rw [exec_disk _ _ _ (fun _ _ => by split <;> rfl), (ensureNext_disk h).1]
    | close => exact close_disk s

end Verif.Czi
