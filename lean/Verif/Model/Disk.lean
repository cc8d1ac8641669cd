/-!
# Files, streams, sequences of writes and the little-endian codec

A file is a length and a total map from positions to bytes (bytes beyond the end, and holes created by writing beyond the
end, read as zero). The library only writes through a function that either writes everything or throws
(`WriteToOutputStream`, CziWriter.cpp:1078-1109 and CziReaderWriter.cpp:605-635), so an operation on the output is a *plan*: the writes it
issues in order, and the result it produces if all of them succeed. Executing a plan against a failing stream or a crash
means performing only a prefix of the writes, the last of them possibly only partly (`Verif.Czi.cut`).
-/

namespace Verif.Czi

/-- A file (the contents behind `libCZI::IStream`/`IOutputStream`/`IInputOutputStream`, libCZI.h). -/
structure Disk where
  size : Nat
  get : Nat → UInt8

/-- An empty file. -/
def Disk.empty : Disk := ⟨0, fun _ => 0⟩

/-- `IOutputStream::Write` of the bytes `l` at `off`, succeeding. Writing nothing changes nothing. -/
def Disk.write (d : Disk) (off : Nat) (l : List UInt8) : Disk :=
  ⟨if l = [] then d.size else max d.size (off + l.length),
   fun i => if off ≤ i ∧ i < off + l.length then l.getD (i - off) 0 else d.get i⟩

/-- `IStream::Read`: the bytes delivered for a request of `n` bytes at `off`; fewer than `n` at the end of the file. -/
def Disk.read (d : Disk) (off n : Nat) : List UInt8 :=
  (List.range (min n (d.size - off))).map (fun i => d.get (off + i))

/-- An input stream, as a function from (offset, requested size) to the bytes delivered (`IStream::Read`, libCZI.h). An
exception thrown by the stream is represented by delivering too little: both make the reader throw. -/
abbrev Stream := Nat → Nat → List UInt8

/-- The stream on a file. -/
def Disk.stream (d : Disk) : Stream := fun off n => d.read off n

/-- One call of `IOutputStream::Write`: offset and bytes. -/
abbrev Write := Nat × List UInt8

/-- All writes succeed. -/
def apply (d : Disk) (ws : List Write) : Disk := ws.foldl (fun d w => d.write w.1 w.2) d

/-- What can be left of a sequence of writes if it is interrupted: the first `k` writes are complete, of the next one only
`j` bytes got to the file, nothing after that. -/
def cut (ws : List Write) (k j : Nat) : List Write :=
  ws.take k ++ ((ws.drop k).head?.map (fun w => (w.1, w.2.take j))).toList

/-- Exceptions thrown by writer operations (libCZI_exceptions.h, libCZI_Write.h). -/
inductive WErr where
  | logicError | invalidArgument | runtimeError
  | coordinateOutOfBounds | coordinateInsufficient | unexpectedDimension
  | subBlockExists | attachmentExists | getDataCall
  | ioError
  /-- not an exception: the operation would not terminate -/
  | diverges
  /-- an exception from reading -/
  | readError
  /-- `LibCZIReaderWriteException` with `InvalidSubBlkId`, `InvalidAttachmentId` -/
  | invalidId
  deriving DecidableEq, Repr

/-- The writes an operation issues until it returns or throws, and what it returns or throws, provided all these writes
succeed. -/
structure Plan (α : Type) where
  writes : List Write
  result : Except WErr α

namespace Plan

def pure {α : Type} (a : α) : Plan α := ⟨[], .ok a⟩

def throw {α : Type} (e : WErr) : Plan α := ⟨[], .error e⟩

/-- Sequential composition. -/
def bind {α β : Type} (p : Plan α) (f : α → Plan β) : Plan β :=
  match p.result with
  | .error e => ⟨p.writes, .error e⟩
  | .ok a => ⟨p.writes ++ (f a).writes, (f a).result⟩

instance : Monad Plan where
  pure := Plan.pure
  bind := Plan.bind

/-- One write. -/
def write (off : Nat) (l : List UInt8) : Plan Unit := ⟨[(off, l)], .ok ()⟩

/-- No write, a given result. -/
def lift {α : Type} (r : Except WErr α) : Plan α := ⟨[], r⟩

end Plan

/-! ## Little-endian codec (CziStructs.h is `#pragma pack(2)` little-endian; on a little-endian host the structures are
written and read as they are in memory) -/

/-- The `n` little-endian bytes of `v` (modulo 256^n). -/
def le : Nat → Nat → List UInt8
  | 0, _ => []
  | n + 1, v => UInt8.ofNat v :: le n (v / 256)

/-- The `n` bytes of a two's-complement integer. -/
def leInt (n : Nat) (i : Int) : List UInt8 := le n (i % (256 ^ n : Nat)).toNat

/-- Unsigned value of little-endian bytes. -/
def unle : List UInt8 → Nat
  | [] => 0
  | b :: bs => b.toNat + 256 * unle bs

/-- Reinterpretation of an `n`-byte unsigned value as two's complement. -/
def toSigned (n v : Nat) : Int := if 2 * v < 256 ^ n then (v : Int) else (v : Int) - (256 ^ n : Nat)

/-- Signed value of little-endian bytes. -/
def unleInt (l : List UInt8) : Int := toSigned l.length (unle l)

/-- The field of `n` bytes at offset `off` of a structure. -/
def field (l : List UInt8) (off n : Nat) : List UInt8 := (l.drop off).take n

/-- A signed field. -/
def fieldInt (l : List UInt8) (off n : Nat) : Int := unleInt (field l off n)

/-- An unsigned field. -/
def fieldNat (l : List UInt8) (off n : Nat) : Nat := unle (field l off n)

/-- `n` zero bytes. -/
def zeros (n : Nat) : List UInt8 := List.replicate n 0

end Verif.Czi
