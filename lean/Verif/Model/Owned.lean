import Verif.Model.Parse

/-!
# The memory of sub-blocks, attachments and metadata segments (CziParse.cpp, CZIReader.cpp, CziReaderWriter.cpp, CziSubBlock.cpp, CziAttachment.cpp, CziMetadataSegment.cpp)

What is read from a document is put into memory from `malloc`; the objects given to the user own this memory through `std::shared_ptr`, and the user may obtain further owners with
`GetRawData`. The model has the blocks of memory, the numbers of owners that the shared pointers count, and the variables in which the user keeps objects and pointers.

`malloc` may fail (a null pointer), and each allocation that C++ makes for an object or for the counter of a shared pointer may fail (`std::bad_alloc`).

Simplifications: one thread; a stream that throws is a stream that delivers nothing (either way the call ends with an exception, Parse.lean); the exceptions raised by the header part of
a segment, and the undefined behaviour of headers that overrun their structure (Parse.lean, C15), are not told apart; what the objects say about themselves besides the memory
(`SubBlockInfo`, `AttachmentInfo`) is in Parse.lean.
-/

namespace Verif.Owned
open Verif.Czi

/-- The memory: block `i` has contents, or was released. `broken`: a block was released that was not allocated any more. -/
structure Heap where
  mem : List (Option (List UInt8))
  broken : Bool
  deriving DecidableEq

/-- `free`: a null pointer is allowed. -/
def Heap.free (h : Heap) : Option Nat → Heap
  | none => h
  | some i =>
    match h.mem[i]? with
    | some (some _) => { h with mem := h.mem.set i none }
    | _ => { h with broken := true }

/-- Several blocks, one after the other. -/
def Heap.freeAll (h : Heap) : List (Option Nat) → Heap
  | [] => h
  | p :: ps => (h.free p).freeAll ps

/-- A part of a segment: position, size as stored in the file, and the width in bytes of the variable in which the object keeps the size. -/
structure Part where
  off : Nat
  n : Int
  width : Nat
  deriving DecidableEq

/-- The size that the object keeps: converted to the unsigned type of the variable. -/
def Part.size (p : Part) : Nat := (p.n % ((2 ^ (8 * p.width) : Nat) : Int)).toNat

/-- The buffers are allocated if the sizes are positive, CziParse.cpp:370-372, 464, 674-675; `ok k` tells whether the `k`-th call of `malloc` succeeds. -/
def allocAll (ok : Nat → Bool) : Heap → Nat → List Part → Heap × List (Option Nat)
  | h, _, [] => (h, [])
  | h, k, p :: ps =>
    if p.n > 0 ∧ ok k = true then
      let r := allocAll ok { h with mem := h.mem ++ [some []] } (k + 1) ps
      (r.1, some h.mem.length :: r.2)
    else
      let r := allocAll ok h (k + 1) ps
      (r.1, none :: r.2)

/-- The buffers are filled, CziParse.cpp:376-427, 466-482, 676-706; `false`: not enough was delivered. -/
def fillAll (s : Stream) : Heap → List (Option Nat × Part) → Heap × Bool
  | h, [] => (h, true)
  | h, (none, _) :: ps => fillAll s h ps
  | h, (some i, p) :: ps =>
    let b := s p.off p.n.toNat
    let h := { h with mem := h.mem.set i (some b) }
    if i32 b.length ≠ p.n then (h, false) else fillAll s h ps

/-- Allocating and filling: if it fails, the `unique_ptr`s release what was allocated; otherwise the buffers are handed over (`release`), CziParse.cpp:370-436, 464-489, 674-716. -/
def readParts (ok : Nat → Bool) (s : Stream) (h : Heap) (ps : List Part) : Heap × Option (List (Option Nat)) :=
  let a := allocAll ok h 0 ps
  match fillAll s a.1 (a.2.zip ps) with
  | (h, true) => (h, some a.2)
  | (h, false) => (h.freeAll a.2.reverse, none)

/-- What is read, and by which class: `ICZIReader` or `ICziReaderWriter` for a sub-block (the other functions are the same in both). -/
inductive Kind where
  | subBlock | subBlockRW | attachment | metadata
  deriving DecidableEq

/-- The parts of a segment in the order in which they are allocated and read, `none` if the header is refused: CziParse.cpp:252-427, 439-480, 648-706. -/
def layout (kind : Kind) (s : Stream) (pos : Nat) : Option (List Part) :=
  match kind with
  | .subBlock | .subBlockRW =>
    match readSbHeader s pos with
    | .ok (b, _, _, _, _, len) =>
      some [⟨u64 (pos + len + 32), fieldInt b 32 4, 4⟩, ⟨u64 (pos + len + 32 + fieldInt b 32 4), fieldInt b 40 8, 8⟩,
        ⟨u64 (pos + len + 32 + fieldInt b 32 4 + fieldInt b 40 8), fieldInt b 36 4, 4⟩]
    | .error _ => none
  | .attachment =>
    match readExact s pos 288 with
    | .ok b => if segMagic b ≠ attMagic then none else some [⟨u64 (pos + 288), fieldInt b 32 8, 8⟩]
    | .error _ => none
  | .metadata =>
    match readExact s pos 288 with
    | .ok b =>
      if segMagic b ≠ metadataMagic then none
      else some [⟨u64 (pos + 288), fieldInt b 32 4, 8⟩, ⟨u64 (pos + 288 + fieldInt b 32 4), fieldInt b 36 4, 4⟩]
    | .error _ => none

/-- The order in which an object keeps its parts: data, attachment, metadata for a sub-block (CziSubBlock.h:19), XML, attachment for a metadata segment (CziMetadataSegment.h). -/
def memberOrder {α : Type} (kind : Kind) (l : List α) : List α :=
  match kind, l with
  | .subBlock, [m, d, a] => [d, a, m]
  | .subBlockRW, [m, d, a] => [d, a, m]
  | _, l => l

/-- The shared pointers of an object are constructed one after the other (CziSubBlock.cpp:10-19, CziAttachment.cpp:12-18, CziMetadataSegment.cpp:11-17). If there is no memory for the
counter of one, its constructor releases the block, and those constructed before are destroyed. `fail`: the number of the allocation that fails. -/
def control (fail : Option Nat) : Heap → Nat → List (Option Nat) → List (Option Nat) → Heap × Bool
  | h, _, _, [] => (h, true)
  | h, k, before, p :: ps =>
    if fail = some k then ((h.free p).freeAll before, false) else control fail h (k + 1) (p :: before) ps

/-- `std::make_shared` and the constructor: `first` allocations precede those of the counters. -/
def makeShared (fail : Option Nat) (first : Nat) (h : Heap) (ptrs : List (Option Nat)) : Heap × Bool :=
  if (fail.any (fun k => decide (k < first))) = true then (h, false) else control fail h first [] ptrs

/-- The allocations before those of the counters: the object itself; for an attachment also its name and the copy of the name, CZIReader.cpp:417-424, CziReaderWriter.cpp:937-944. -/
def before : Kind → Nat
  | .attachment => 3
  | _ => 1

/-- `ReadSubBlock`, `ReadAttachment`, `ReadMetadataSegment`, CZIReader.cpp:321-445, CziReaderWriter.cpp:232-246, 661-685, 932-945: the blocks and sizes of the object, or `none` if the
call throws. Only `CCZIReader::ReadSubBlock` guards the blocks (lines 341-345) until the object is complete (lines 392-395); it may refuse the sub-block (`accepted`, lines 351-365). -/
def readObject (kind : Kind) (s : Stream) (pos : Nat) (ok : Nat → Bool) (accepted : Bool) (fail : Option Nat) (h : Heap) : Heap × Option (List (Option Nat × Nat)) :=
  match layout kind s pos with
  | none => (h, none)
  | some ps =>
    match readParts ok s h ps with
    | (h, none) => (h, none)
    | (h, some ptrs) =>
      let ms := memberOrder kind (ptrs.zip ps)
      let qs := ms.map Prod.fst
      let res := ms.map (fun m => (m.1, m.2.size))
      if kind = .subBlock then
        if accepted = true then
          match makeShared fail (before kind) h qs with
          | (h, true) => (h, some res)
          | (h, false) => (h.freeAll qs.reverse, none)
        else (h.freeAll qs.reverse, none)
      else
        match makeShared fail (before kind) h qs with
        | (h, true) => (h, some res)
        | (h, false) => (h, none)

/-! ## Objects and references -/

/-- A shared pointer to a block: its counter has `owners`. -/
structure Piece where
  ptr : Option Nat
  size : Nat
  owners : Nat
  deriving DecidableEq

/-- An object (`CCziSubBlock`, `CCziAttachment`, `CCziMetadataSegment`) with the number of its owners. -/
structure Obj where
  pieces : List Piece
  owners : Nat
  deriving DecidableEq

/-- What a variable of the user refers to: an object, or the `k`-th part of an object (from `GetRawData`). -/
inductive Ref where
  | obj (o : Nat)
  | raw (o k : Nat)
  deriving DecidableEq

/-- The program: memory, objects, and the variables of the user (`none`: the variable was reset). -/
structure World where
  heap : Heap
  objs : List Obj
  vars : List (Option Ref)
  deriving DecidableEq

/-- At the start there is nothing. -/
def World.start : World := ⟨⟨[], false⟩, [], []⟩

/-- The piece `k` of object `o`. -/
def World.piece (w : World) (o k : Nat) : Option Piece := (w.objs[o]?).bind (fun b => b.pieces[k]?)

/-- The number of owners of the piece becomes `f` of it. -/
def World.setOwners (w : World) (o k : Nat) (f : Nat → Nat) : World :=
  { w with objs := w.objs.modify o (fun b => { b with pieces := b.pieces.modify k (fun p => { p with owners := f p.owners }) }) }

/-- A shared pointer to a block is destroyed: the last one releases the block. -/
def World.releasePiece (w : World) (o k : Nat) : World :=
  match w.piece o k with
  | none => w
  | some p =>
    let w := w.setOwners o k (· - 1)
    if p.owners = 1 then { w with heap := w.heap.free p.ptr } else w

/-- The members of an object are destroyed in reverse order. -/
def World.releasePieces (w : World) (o : Nat) : Nat → World
  | 0 => w
  | k + 1 => (w.releasePiece o k).releasePieces o k

/-- A shared pointer to an object is destroyed: the last one destroys the object. -/
def World.releaseObj (w : World) (o : Nat) : World :=
  match w.objs[o]? with
  | none => w
  | some b =>
    let w := { w with objs := w.objs.modify o (fun b => { b with owners := b.owners - 1 }) }
    if b.owners = 1 then w.releasePieces o b.pieces.length else w

/-- The calls of the user. -/
inductive Op where
  /-- a part of a document is read into a new variable -/
  | read (kind : Kind) (s : Stream) (pos : Nat) (ok : Nat → Bool) (accepted : Bool) (fail : Option Nat)
  /-- `GetRawData` of the object in variable `v`, into a new variable -/
  | raw (v k : Nat)
  /-- a copy of a variable, into a new variable -/
  | copy (v : Nat)
  /-- a variable is reset -/
  | drop (v : Nat)

/-- A further reference. -/
def World.share (w : World) : Ref → World
  | .obj o => { w with objs := w.objs.modify o (fun b => { b with owners := b.owners + 1 }), vars := w.vars ++ [some (.obj o)] }
  | .raw o k => { w.setOwners o k (· + 1) with vars := w.vars ++ [some (.raw o k)] }

/-- What `GetRawData` returns: the pointer and the size, CziSubBlock.cpp:46-75, CziAttachment.cpp:31-39, CziMetadataSegment.cpp:36-58 (`none`: it throws, or there is no object).
The types of memory are numbered as the members: 0 data, 1 attachment, 2 metadata of a sub-block; 0 XML, 1 attachment of a metadata segment. -/
def World.rawData (w : World) (v k : Nat) : Option (Option Nat × Nat) :=
  match w.vars[v]? with
  | some (some (.obj o)) => (w.piece o k).map (fun p => (p.ptr, p.size))
  | _ => none

/-- One call. -/
def World.step (w : World) : Op → World
  | .read kind s pos ok accepted fail =>
    match readObject kind s pos ok accepted fail w.heap with
    | (h, none) => { w with heap := h }
    | (h, some ps) =>
      { heap := h, objs := w.objs ++ [⟨ps.map (fun p => ⟨p.1, p.2, 1⟩), 1⟩], vars := w.vars ++ [some (.obj w.objs.length)] }
  | .raw v k =>
    match w.vars[v]? with
    | some (some (.obj o)) => match w.piece o k with
      | some _ => w.share (.raw o k)
      | none => w
    | _ => w
  | .copy v =>
    match w.vars[v]? with
    | some (some r) => w.share r
    | _ => w
  | .drop v =>
    match w.vars[v]? with
    | some (some (.obj o)) => { w with vars := w.vars.set v none }.releaseObj o
    | some (some (.raw o k)) => { w with vars := w.vars.set v none }.releasePiece o k
    | _ => w

/-- A history. -/
def World.run (w : World) : List Op → World
  | [] => w
  | op :: ops => (w.step op).run ops

end Verif.Owned
