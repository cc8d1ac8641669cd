import Verif.Model.Owned

/-! # What the user of objects and pointers relies on -/

namespace Verif.Spec.Owned
open Verif.Owned

/-- Block `i` has these contents (it has not been released). -/
def Contents (w : World) (i : Nat) (b : List UInt8) : Prop := w.heap.mem[i]? = some (some b)

/-- The variable `v` of the user gives access to block `i`: it is an object of which the block is a part, or a pointer to the block. -/
def Gives (w : World) (v i : Nat) : Prop :=
  (∃ o k p, w.vars[v]? = some (some (.obj o)) ∧ w.piece o k = some p ∧ p.ptr = some i) ∨
  (∃ o k p, w.vars[v]? = some (some (.raw o k)) ∧ w.piece o k = some p ∧ p.ptr = some i)

/-- No block was released twice, and exactly those blocks are allocated that a variable of the user gives access to. -/
def Exact (w : World) : Prop :=
  w.heap.broken = false ∧ ∀ i, (∃ b, Contents w i b) ↔ ∃ v, Gives w v i

/-- The allocation that fails, if one does, is one after which the function cleans up correctly. (The allocations of a call are numbered: for a sub-block and a metadata segment, 0 is the
object, then one for each part; for an attachment, 0 is the name, 1 the object, 2 the copy of the name, 3 the part.) -/
def Harmless : Kind → Option Nat → Prop
  | _, none => True
  | .subBlock, some k => k = 0 ∨ 4 ≤ k
  | .subBlockRW, some k => 3 ≤ k
  | .attachment, some k => 3 ≤ k
  | .metadata, some k => 2 ≤ k

/-- All calls of a history are of that kind. -/
def HarmlessOp : Op → Prop
  | .read kind _ _ _ _ fail => Harmless kind fail
  | _ => True

/-- The call does not reset variable `v`. -/
def Keeps (v : Nat) : Op → Prop
  | .drop u => u ≠ v
  | _ => True

/-- `GetRawData` of the object in variable `v` for part `k` gives this payload: its size, as an unsigned number of so many bits, and a pointer to its bytes, or the null pointer. -/
def Shown (w : World) (v k bits : Nat) (p : Czi.Payload) : Prop :=
  ∃ ptr, w.rawData v k = some (ptr, (p.size % ((2 ^ bits : Nat) : Int)).toNat) ∧ (p.bytes = none → ptr = none) ∧ ∀ b, p.bytes = some b → ∃ i, ptr = some i ∧ Contents w i b

/-- The streams deliver at most what they are asked for. -/
def HonestOp : Op → Prop
  | .read _ s _ _ _ _ => ∀ off n, (s off n).length ≤ n
  | _ => True

end Verif.Spec.Owned
