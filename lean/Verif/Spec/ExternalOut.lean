import Verif.Model.ExternalOut

/-! # What a stream of the caller for writing has to do -/

namespace Verif.Spec
open Verif.Czi

/-- The function of the caller does what the documentation asks for: if it returns 0 and reports a number, so many bytes are in the file. -/
def TellsTruth (r : WReply) : Prop := r.code = 0 → ∀ n, r.count = some n → r.put = n

/-- The calls one after the other on a stream whose writes have the given outcomes: the last state and the calls that did not throw. -/
def historyOn : Sys → List WOp → List Fault → Sys × List WOp
  | s, [], _ => (s, [])
  | s, op :: ops, fs =>
    let r := stepOp s op fs
    let t := historyOn r.1 ops r.2.2
    (t.1, if r.2.1 = none then op :: t.2 else t.2)

end Verif.Spec
