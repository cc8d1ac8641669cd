import Verif.Spec.ReaderWriter
import Verif.Model.EditFault
import Verif.Model.EditTrace

/-!
# Specification of editing on a stream that can fail

Each call comes with the outcomes of its writes (`Fault`).
-/

namespace Verif.Spec

open Verif.Czi

/-- What a call that ended like this has done to the contents: nothing if it threw – except that a removal whose write failed has removed the item
all the same. -/
def Content.afterCall (c : Content) (op : EditOp) : Option WErr → Content
  | none => c.after op
  | some e =>
    match op with
    | .removeSubBlock _ => if e = .ioError then c.after op else c
    | .removeAttachment _ => if e = .ioError then c.after op else c
    | _ => c

/-- Make the calls one after the other, going on after exceptions. -/
def editF (s : RW) (c : Content) : List (EditOp × List Fault) → RW × Content
  | [] => (s, c)
  | (op, fs) :: ops => editF (editStepF s op fs).1 (c.afterCall op (editStepF s op fs).2.1) ops

/-- A call that failed because of the stream, and left the state `s'`, did no harm: it was a removal, or it was about to replace something or to write
metadata and has not yet touched any byte before the end of the document. (After a failed `SyncAddSubBlock` or `SyncAddAttachment` there always is harm.) -/
def Unharmed (s : RW) (op : EditOp) (s' : RW) : Prop :=
  match op with
  | .removeSubBlock _ => True
  | .removeAttachment _ => True
  | .addSubBlock _ => False
  | .addAttachment _ => False
  | .close => False
  | _ => ∃ s0 n, s.ensureNext = .ok (s0, n) ∧ ∀ i < n, s'.disk.get i = s.disk.get i

/-- As `Tame`, for calls that may fail because of the stream: those must not do harm, and only removals fail after a `ReplaceAttachment` that needed
a new segment. -/
def TameF (grown : Prop) (s : RW) : List (EditOp × List Fault) → Prop
  | [] => True
  | (op, fs) :: ops =>
    (grown → ¬ Appends s op) ∧
    ((editStepF s op fs).2.1 = some .ioError → Unharmed s op (editStepF s op fs).1 ∧ (grown → ∃ k, op = .removeSubBlock k ∨ op = .removeAttachment k)) ∧
    TameF (grown ∨ (GrowsAttachment s op ∧ (editStepF s op fs).2.1 ≠ some .ioError)) (editStepF s op fs).1 ops

/-- The same for the state at the end. -/
def GrownF (grown : Prop) (s : RW) : List (EditOp × List Fault) → Prop
  | [] => grown
  | (op, fs) :: ops => GrownF (grown ∨ (GrowsAttachment s op ∧ (editStepF s op fs).2.1 ≠ some .ioError)) (editStepF s op fs).1 ops

/-- `Close` was called any number of times in the state `s`, and always failed because of the stream: now it is `t`. -/
inductive Retried (s : RW) : RW → Prop
  | never : Retried s s
  | again {t t' : RW} {fs fs' : List Fault} : Retried s t → editStepF t .close fs = (t', some .ioError, fs') → Retried s t'

end Verif.Spec
