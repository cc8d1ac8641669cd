import Verif.Model.Writer

/-!
# A writer on a stream of the caller (libCZIApi.cpp: `OutputStreamWrapper`)

The calls of `Model/Writer.lean`, where each write calls the function of the caller.
-/

namespace Verif.Czi

/-- What the function of the caller does with a request: the value returned, the number of bytes (the first ones) that get to the file, and the number of bytes reported
(`none`: not set). -/
structure WReply where
  code : Int
  put : Nat
  count : Option Nat

/-- `OutputStreamWrapper::Write`, libCZIApi.cpp:719-752, followed by the checks of `CCziWriter::WriteToOutputStream`, CziWriter.cpp:1080-1103: whether no exception is thrown. A number that is not
set is 2^64-1, which is the size of no data. -/
def writeAccepted (r : WReply) (size : Nat) : Bool := r.code = 0 && r.count == some size

/-- The writes of a plan (as `performWrites`), with the replies of the caller (all further ones: done as asked). -/
def performExternal (d : Disk) : List Write → List WReply → Disk × Bool × List WReply
  | [], rs => (d, true, rs)
  | w :: ws, [] => performExternal (d.write w.1 w.2) ws []
  | w :: ws, r :: rs =>
    let d' := d.write w.1 (w.2.take r.put)
    if writeAccepted r w.2.length then performExternal d' ws rs else (d', false, rs)

/-- The phases of an operation (as `runPhases`). -/
def runExternal : List Phase → Sys → List WReply → Sys × Option WErr × List WReply
  | [], s, rs => (s, none, rs)
  | p :: ps, s, rs =>
    let plan := p s.w
    let (d, ok, rs) := performExternal s.disk plan.writes rs
    if ok then
      match plan.result with
      | .ok w => runExternal ps ⟨w, d⟩ rs
      | .error e => (⟨s.w, d⟩, some e, rs)
    else (⟨s.w, d⟩, some .ioError, rs)

/-- One call of the writer's API. -/
def stepExternal (s : Sys) (op : WOp) (rs : List WReply) : Sys × Option WErr × List WReply := runExternal op.phases s rs

/-- A history of calls: the last state and the calls that did not throw. -/
def historyExternal : Sys → List WOp → List WReply → Sys × List WOp
  | s, [], _ => (s, [])
  | s, op :: ops, rs =>
    let r := stepExternal s op rs
    let t := historyExternal r.1 ops r.2.2
    (t.1, if r.2.1 = none then op :: t.2 else t.2)

end Verif.Czi
