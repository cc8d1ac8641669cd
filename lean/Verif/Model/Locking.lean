/-!
# `CBitmapData::Lock` and `Unlock` under concurrency

Each atomic operation of the code is one step of the model; a schedule is an arbitrary list of thread numbers. Simplification: the
counter (`std::atomic_int`) is an unbounded integer.
-/

namespace Verif.Locking

/-- A call made by a thread. -/
inductive LOp where
  | lock | unlock
  deriving DecidableEq, Repr

/-- How a call ended: `Unlock` either succeeds or throws. -/
inductive LEvent where
  | locked | unlocked | unlockError
  deriving DecidableEq, Repr

/-- A thread: the calls it still has to make, whether it is inside of `Unlock` between the two atomic operations, and the outcomes of
its calls so far. -/
structure Thread where
  prog : List LOp
  pending : Bool
  log : List LEvent
  deriving DecidableEq, Repr

/-- One atomic step of a thread, with the counter: `Lock` is one `atomic_fetch_add`, bitmapData.h:47-56; `Unlock` is one
`atomic_fetch_sub`, and if the previous value was less than 1 an `atomic_fetch_add` followed by throwing, bitmapData.h:58-67. -/
def Thread.step (t : Thread) (cnt : Int) : Thread × Int :=
  if t.pending then ({ t with pending := false, log := t.log ++ [.unlockError] }, cnt + 1)
  else
    match t.prog with
    | [] => (t, cnt)
    | .lock :: r => ({ t with prog := r, log := t.log ++ [.locked] }, cnt + 1)
    | .unlock :: r =>
      if cnt < 1 then ({ t with prog := r, pending := true }, cnt - 1)
      else ({ t with prog := r, log := t.log ++ [.unlocked] }, cnt - 1)

/-- The threads and the counter `lockCnt`. -/
structure LState where
  threads : List Thread
  cnt : Int

/-- Threads with the given programs; the counter starts at 0 (bitmapData.h:39). -/
def LState.start (progs : List (List LOp)) : LState := ⟨progs.map (fun p => ⟨p, false, []⟩), 0⟩

/-- Thread `i` makes a step (nothing happens if there is no such thread, or it is finished). -/
def LState.step (s : LState) (i : Nat) : LState :=
  match s.threads[i]? with
  | none => s
  | some t => ⟨s.threads.set i (t.step s.cnt).1, (t.step s.cnt).2⟩

/-- A schedule. -/
def LState.run (s : LState) (sched : List Nat) : LState := sched.foldl LState.step s

end Verif.Locking
