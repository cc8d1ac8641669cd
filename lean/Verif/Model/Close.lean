/-!
# Reading concurrently with `Close`

The steps of a read call (`ReadSubBlock`, `ReadAttachment`, `ReadMetadataSegment`) and of `Close` that touch shared state are single steps
of the model; a schedule is an arbitrary list of thread numbers. Reading the stream is split into any number of steps. The directory is not
changed by `Close`, so looking up the entry is no step.
Simplification: the flag `isOperational` is a plain `bool` in the code; the model gives its accesses sequentially consistent meaning, the data
race itself is a theorem (`C45_flag_race`). `Open` on an object in use by other threads is not modelled.
-/

namespace Verif.Closing

/-- Where a thread is. -/
inductive Pc where
  /-- A read: before `ThrowIfNotOperational`, CZIReader.cpp:205, 311, 94, with the number of stream
  accesses it is going to make. -/
  | rCheck (uses : Nat)
  /-- Before acquiring `stream_mutex_`, CZIReader.cpp:330, 407, 434. -/
  | rLock (uses : Nat)
  /-- Before copying the `shared_ptr`, CZIReader.cpp:331, 408, 435. -/
  | rCopy (uses : Nat)
  /-- Before releasing the mutex; `got`: the copy is not null. Then the test for null, CZIReader.cpp:334, 411, 438. -/
  | rUnlock (got : Bool) (uses : Nat)
  /-- In `CCZIParse::Read…` using the raw pointer of the copy. -/
  | rUse (left : Nat)
  /-- Before the destruction of the copy. -/
  | rRelease
  /-- The read returned (`true`) or threw that the reader is not operational or closed (`false`). -/
  | rDone (ok : Bool)
  /-- `Close`: before `ThrowIfNotOperational`, CZIReader.cpp:245. -/
  | kCheck
  /-- Before `SetOperationalState(false)`, line 246. -/
  | kClear
  /-- Before acquiring the mutex, line 252. -/
  | kLock
  /-- Before `stream.reset()`, line 253. -/
  | kReset
  /-- Before releasing the mutex (line 254). -/
  | kUnlock
  /-- `Close` returned (`true`) or threw (`false`). -/
  | kDone (ok : Bool)
  /-- A released stream was used. -/
  | useAfterRelease
  deriving DecidableEq, Repr

/-- The shared state of the reader: the flag, whether the member `stream` is not null, the reference count of the stream object,
whether the stream object still exists, and the owner of the mutex. -/
structure State where
  threads : List Pc
  operational : Bool
  member : Bool
  refs : Nat
  alive : Bool
  mutex : Option Nat
  deriving DecidableEq

/-- An open reader holding the only reference to the stream, with the given calls about to start. -/
def State.start (calls : List Pc) : State := ⟨calls, true, true, 1, true, none⟩

/-- A call that is about to start. -/
def Pc.isCall : Pc → Bool
  | .rCheck _ | .kCheck => true
  | _ => false

/-- The call is over. -/
def Pc.finished : Pc → Bool
  | .rDone _ | .kDone _ | .useAfterRelease => true
  | _ => false

/-- Giving up one reference: at zero the stream object is destroyed (`std::shared_ptr`). -/
def State.dropRef (s : State) : State := { s with refs := s.refs - 1, alive := if s.refs - 1 = 0 then false else s.alive }

/-- Thread `i` goes to another place. -/
def State.goto (s : State) (i : Nat) (pc : Pc) : State := { s with threads := s.threads.set i pc }

/-- A step of thread `i` at `pc`; CZIReader.cpp:243-254, 322-341, 400-416, 425-445. A thread that waits for the mutex does not
move. -/
def State.stepAt (s : State) (i : Nat) : Pc → State
  | .rCheck n => if s.operational then s.goto i (.rLock n) else s.goto i (.rDone false)
  | .rLock n => if s.mutex = none then { s.goto i (.rCopy n) with mutex := some i } else s
  | .rCopy n => if s.member then { s.goto i (.rUnlock true n) with refs := s.refs + 1 } else s.goto i (.rUnlock false n)
  | .rUnlock true n => { s.goto i (.rUse n) with mutex := none }
  | .rUnlock false _ => { s.goto i (.rDone false) with mutex := none }
  | .rUse 0 => s.goto i .rRelease
  | .rUse (n + 1) => if s.alive then s.goto i (.rUse n) else s.goto i .useAfterRelease
  | .rRelease => (s.goto i (.rDone true)).dropRef
  | .rDone _ => s
  | .kCheck => if s.operational then s.goto i .kClear else s.goto i (.kDone false)
  | .kClear => { s.goto i .kLock with operational := false }
  | .kLock => if s.mutex = none then { s.goto i .kReset with mutex := some i } else s
  | .kReset => if s.member then { (s.goto i .kUnlock).dropRef with member := false } else s.goto i .kUnlock
  | .kUnlock => { s.goto i (.kDone true) with mutex := none }
  | .kDone _ => s
  | .useAfterRelease => s

/-- Thread `i` makes a step. -/
def State.step (s : State) (i : Nat) : State :=
  match s.threads[i]? with
  | none => s
  | some pc => s.stepAt i pc

/-- A schedule. -/
def State.run (s : State) (sched : List Nat) : State := sched.foldl State.step s

/-- The two shared variables that are no mutex and not atomic. -/
inductive Loc where
  | flag | member
  deriving DecidableEq

/-- The access of the next step of a thread to these variables: which, and whether it writes. -/
def Pc.access : Pc → Option (Loc × Bool)
  | .rCheck _ | .kCheck => some (.flag, false)
  | .kClear => some (.flag, true)
  | .rCopy _ => some (.member, false)
  | .kReset => some (.member, true)
  | _ => none

end Verif.Closing
