import Verif.Model.MemStream

/-!
# The streams on files and on HTTP resources

A file is its list of bytes. What the operating system, libcurl and the Azure library do is a parameter, or documented here.
-/

namespace Verif.Streams

open Verif.Czi

/-! ## Files -/

/-- `PreadFileInputStream::Read`, preadfileinputstream.cpp:43-58, and `CInputOutputStreamImplPreadPwrite::Read`, StreamImpl.cpp:283-298. `pread` fails for offsets
that are negative as `off_t`; otherwise it delivers the bytes from this offset, `most` at most (it may deliver fewer than asked for, e.g. if interrupted). -/
def preadRead (file : List UInt8) (most : Nat) (offset size : Nat) : Option (List UInt8) :=
  if 2 ^ 63 ≤ offset then none else some (((file.drop offset).take size).take most)

/-- A call of `Read`. -/
structure Req where
  offset : Nat
  size : Nat
  deriving DecidableEq

/-- Where a thread is in `SimpleFileInputStream::Read`: before it (`idle`), before the seek, before the read, before the mutex is released. -/
inductive Pc where
  | idle | entered | sought | done
  deriving DecidableEq

/-- A thread: the calls it has to make (the current one first), where it is in the current one, and the results so far (`none`: exception). -/
structure Thread where
  calls : List Req
  pc : Pc
  results : List (Option (List UInt8))

/-- The position of the `FILE`, the owner of the mutex, and the threads. -/
structure State where
  pos : Nat
  owner : Option Nat
  threads : Nat → Thread

def State.set (s : State) (i : Nat) (t : Thread) : State := { s with threads := fun j => if j = i then t else s.threads j }

/-- One step of thread `i` in `Read` of a stream on a C `FILE`: `SimpleFileInputStream::Read`, simplefileinputstream.cpp:61-83 (`mutex`), and
`CSimpleInputOutputStreamImpl::Read`, StreamImpl.cpp:457-478 (no mutex). `fseeko` fails for offsets that are negative as `off_t`; `fseeko` and `fread` are
atomic. A thread that waits for the mutex does not move. -/
def step (file : List UInt8) (mutex : Bool) (s : State) (i : Nat) : State :=
  match (s.threads i).calls with
  | [] => s
  | r :: rest =>
    match (s.threads i).pc with
    | .idle =>
      if mutex = true ∧ s.owner ≠ none then s
      else { (s.set i { s.threads i with pc := .entered }) with owner := if mutex then some i else none }
    | .entered =>
      if 2 ^ 63 ≤ r.offset then { (s.set i ⟨rest, .idle, (s.threads i).results ++ [none]⟩) with owner := none }
      else { (s.set i { s.threads i with pc := .sought }) with pos := r.offset }
    | .sought =>
      { (s.set i { s.threads i with pc := .done, results := (s.threads i).results ++ [some ((file.drop s.pos).take r.size)] }) with
        pos := s.pos + ((file.drop s.pos).take r.size).length }
    | .done => { (s.set i { s.threads i with calls := rest, pc := .idle }) with owner := none }

/-- The threads before their calls; the position of the `FILE` is anything. -/
def start (pos : Nat) (calls : Nat → List Req) : State := ⟨pos, none, fun i => ⟨calls i, .idle, []⟩⟩

/-- A schedule. -/
def run (file : List UInt8) (mutex : Bool) (s : State) (sched : List Nat) : State := sched.foldl (step file mutex) s

/-! ## HTTP -/

/-- `CURLE_WRITE_ERROR`. -/
def writeError : Nat := 23

/-- `CurlHttpInputStream::WriteData`, curlhttpinputstream.cpp:299-317: a piece of the response is appended to the destination, unless it does not fit. `count` is
`count_data_received`, `size` the size that was asked for. The result is the destination, the count, and what the function returns to libcurl. -/
def writeData (size : Nat) (dst : Buf) (count : Nat) (piece : List UInt8) : Outcome (Buf × Nat × Nat) :=
  if size < count + piece.length then .ok (dst, count, writeError)
  else match dst.memcpy count (Buf.ofList piece) 0 piece.length with
    | none => .undefined
    | some d => .ok (d, count + piece.length, piece.length)

/-- What libcurl does with the response, https://curl.se/libcurl/c/CURLOPT_WRITEFUNCTION.html: the function gets the pieces in order; if it returns another number
than the length of the piece, the transfer is aborted with an error. `complete`: the transfer has no other error. -/
def perform (size : Nat) : Buf → Nat → List (List UInt8) → Bool → Outcome (Buf × Nat)
  | dst, count, [], complete => if complete then .ok (dst, count) else .throws
  | dst, count, p :: ps, complete =>
    match writeData size dst count p with
    | .ok (d, n, returned) => if returned ≠ p.length then .throws else perform size d n ps complete
    | .throws => .throws
    | .undefined => .undefined

/-- The text for `CURLOPT_RANGE`, curlhttpinputstream.cpp:247-248; the sum is one of `uint64_t`. -/
def rangeText (offset size : Nat) : String := toString offset ++ "-" ++ toString ((offset + size - 1) % 2 ^ 64)

/-- `CurlHttpInputStream::Read`, curlhttpinputstream.cpp:234-285. `serve` is the response to a request for a range: the body in pieces, and whether the transfer
completes. The status is not looked at (`CURLOPT_FAILONERROR` is not set), so it is not in the model. `dst` is the memory of the caller. -/
def httpRead (serve : String → List (List UInt8) × Bool) (offset size : Nat) (dst : Buf) : Outcome (Buf × Nat) :=
  if size = 0 then .ok (dst, 0)
  else perform size dst 0 (serve (rangeText offset size)).1 (serve (rangeText offset size)).2

/-! ## Azure -/

/-- The response of `DownloadTo`: the status, the position and the length it reports, and the bytes it has stored in the destination. -/
structure Download where
  status : Nat
  position : Int
  length : Option Int
  bytes : List UInt8

/-- `AzureBlobInputStream::Read`, azureblobinputstream.cpp:162-210. `download` is the Azure library (`none`: it throws an exception); the numbers are `int64_t`.
The result is the number of bytes reported as read, and the bytes stored. -/
def azureRead (download : Int → Int → Option Download) (offset size : Nat) : Option (Int × List UInt8) :=
  if 2 ^ 63 - 1 < size then none
  else if 2 ^ 63 - 1 < offset then none
  else match download offset size with
    | none => none
    | some d =>
      if d.status = 200 ∨ d.status = 206 then
        if d.position ≠ offset then none
        else match d.length with
          | none => none
          | some n => if (size : Int) < n then none else some (n, d.bytes)
      else none

end Verif.Streams
