import Verif.Spec.Coord
import Verif.Model.Chunk

/-! # What a chunk container is

A chunk container is a sequence of chunks, each made of a GUID (16 bytes), the size of the payload (4 bytes, little-endian)
and the payload (at least one byte). -/

namespace Verif.Spec

open Verif.Czi

/-- A chunk to be stored: GUID and payload. -/
abbrev StoredChunk := Guid × List UInt8

/-- The bytes of one chunk. -/
def chunkBytes (c : StoredChunk) : List UInt8 := guidBytes c.1 ++ le 4 c.2.length ++ c.2

/-- The bytes of a container. -/
def containerBytes (cs : List StoredChunk) : List UInt8 := (cs.map chunkBytes).flatten

/-- What is to be reported for the chunks of a container that starts at `start`. -/
def chunkInfos : Nat → List StoredChunk → List Chunk
  | _, [] => []
  | start, c :: cs => ⟨c.1, start + 20, c.2.length⟩ :: chunkInfos (start + 20 + c.2.length) cs

/-- A well-formed container: at least one chunk, no empty payload, less than 4 GiB. -/
def WellFormed (cs : List StoredChunk) : Prop :=
  cs ≠ [] ∧ (∀ c ∈ cs, c.2 ≠ []) ∧ (containerBytes cs).length + 21 < 2 ^ 32

/-- A callback that notes its calls (index and information) and never stops. -/
def noteAll (st : List (Nat × Chunk)) (i : Nat) (c : Chunk) : Bool × List (Nat × Chunk) := (true, st ++ [(i, c)])

/-- The bit of pixel (x,y) of a bitonal bitmap stored at `off` with the given stride: most significant bit first. -/
def maskPixel (data : List UInt8) (off stride x y : Nat) : Option Bool :=
  (data[off + y * stride + x / 8]?).map (fun b => b.toNat.testBit (7 - x % 8))

end Verif.Spec
