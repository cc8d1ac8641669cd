import Verif.Spec.Czi

/-!
# Crashes while writing

The calls of `IOutputStream::Write` issued while a document is written, in order. A crash leaves the file with some of them done (`Czi.cut`): the first `k`
completely, and `j` bytes of the next one.
-/

namespace Verif.Spec
open Czi

/-- The writes issued by the phases of a call, and the state of the writer afterwards. -/
def tracePhases : List Phase → WState → WState × List Write
  | [], w => (w, [])
  | p :: ps, w => match (p w).result with
    | .ok w' => ((tracePhases ps w').1, (p w).writes ++ (tracePhases ps w').2)
    | .error _ => (w, (p w).writes)

/-- The writes issued by a sequence of calls, going on after exceptions. -/
def traceOps (w : WState) : List WOp → WState × List Write
  | [] => (w, [])
  | op :: ops =>
    let r := tracePhases op.phases w
    ((traceOps r.1 ops).1, r.2 ++ (traceOps r.1 ops).2)

/-- All writes issued while a document is written, from `Create` to `Close`. -/
def docTrace (dup : Bool) (info : WriterInfo) (ops : List WOp) : List Write :=
  (traceOps (WState.init dup) (.create info :: (ops ++ [.close]))).2

/-- The new file after a crash. -/
def crashed (dup : Bool) (info : WriterInfo) (ops : List WOp) (k j : Nat) : Disk := apply Disk.empty (cut (docTrace dup info ops) k j)

/-- The last write (of the file header) is cut inside one of the three positions in it (8 bytes each, the lowest first), where in a file of this size the bytes
that are missing need not be zero. -/
def TornPosition (size j : Nat) : Prop :=
  (84 < j ∧ j < 92 ∧ 256 ^ (j - 84) ≤ size) ∨ (92 < j ∧ j < 100 ∧ 256 ^ (j - 92) ≤ size) ∨ (104 < j ∧ j < 112 ∧ 256 ^ (j - 104) ≤ size)

/-- The writer after `Create` and the given calls, and the calls that did not throw. -/
def opened (dup : Bool) (d0 : Disk) (info : WriterInfo) (ops : List WOp) : Sys × List WOp := session (step ⟨WState.init dup, d0⟩ (.create info)).1 ops

end Verif.Spec
