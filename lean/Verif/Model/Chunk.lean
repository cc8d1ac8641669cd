import Verif.Model.Structs

/-!
# Chunk containers in sub-block attachments and the valid-pixel mask

The attachment of the sub-block is a list of bytes. Every read outside of it, and every use of a variable that was not
initialised, is the outcome `undefined`. `std::uint32_t` arithmetic is modulo 2^32, `size_t` arithmetic modulo 2^64.
-/

namespace Verif.Czi

/-- `ISubBlockAttachmentAccessor::ChunkInfo`, libCZI_SubBlock.h:119-124. -/
structure Chunk where
  guid : Guid
  offset : Nat
  size : Nat
  deriving DecidableEq

/-- How a call ends: it returns a value, throws `LibCZIException`, or has undefined behaviour. -/
inductive Outcome (α : Type) where
  | ok (a : α)
  | throws
  | undefined
  deriving DecidableEq

/-- The loop of `SubblockAttachmentAccessor::EnumerateChunksInChunkContainer`, SubblockAttachmentAccessor.cpp:61-97. `ptr` is
the distance the pointer `attachment_data` was advanced (only by the 20 bytes of the header in each iteration, lines
68 and 73), `offset` the variable of that name. The index given to the callback is the variable `index`, which is never changed
(line 61). -/
def chunkLoop {σ : Type} (f : σ → Nat → Chunk → Bool × σ) (data : List UInt8) (ptr offset : Nat) (st : σ) :
    Outcome Bool × σ :=
  if ptr + 20 ≤ data.length then
    let size := fieldNat data (ptr + 16) 4
    if data.length < (offset + 20 + size) % 2 ^ 32 then (.throws, st)
    else
      let r := f st 0 ⟨guidOf (field data ptr 16), (offset + 20) % 2 ^ 32, size⟩
      if r.1 = false then (.ok true, r.2)
      else
        let offset' := (offset + 20 + size) % 2 ^ 32
        if data.length < (offset' + 21) % 2 ^ 32 then (.ok true, r.2)
        else chunkLoop f data (ptr + 20) offset' r.2
  else (.undefined, st)
termination_by data.length - ptr

/-- `SubblockAttachmentAccessor::EnumerateChunksInChunkContainer`, SubblockAttachmentAccessor.cpp:42-100. `has` is
`has_chunk_container_` (lines 17-30: the sub-block metadata announces a chunk container). -/
def enumerateChunks {σ : Type} (f : σ → Nat → Chunk → Bool × σ) (has : Bool) (data : List UInt8) (st : σ) :
    Outcome Bool × σ :=
  if has = false then (.throws, st)
  else if data.length < 21 then (.throws, st)
  else chunkLoop f data 0 0 st

/-- `kGuidValidPixelMask`, SubblockAttachmentAccessor.cpp:15. -/
def maskGuid : Guid := ⟨0xCBE3EA67, 0x5BFC, 0x492B, #v[0xA1, 0x6A, 0xEC, 0xE3, 0x78, 0x03, 0x14, 0x48]⟩

/-- `SubBlockAttachmentMaskInfoGeneral`, libCZI_SubBlock.h:93-102; the data pointer as an offset into the attachment. -/
structure MaskGeneral where
  width : Nat
  height : Nat
  repr : Nat
  sizeData : Nat
  dataOffset : Nat
  deriving DecidableEq

/-- The callback in `GetValidPixelMaskFromChunkContainer`, SubblockAttachmentAccessor.cpp:110-120. -/
def findMask (st : Option Chunk) (_ : Nat) (c : Chunk) : Bool × Option Chunk :=
  if c.guid.eq maskGuid then (false, some c) else (true, st)

/-- `SubblockAttachmentAccessor::GetValidPixelMaskFromChunkContainer`, SubblockAttachmentAccessor.cpp:102-139. If no chunk has
the GUID, the local variable of line 109 is used without having been initialised. -/
def maskGeneral (has : Bool) (data : List UInt8) : Outcome MaskGeneral :=
  match enumerateChunks findMask has data none with
  | (.throws, _) => .throws
  | (.undefined, _) => .undefined
  | (.ok _, none) => .undefined
  | (.ok _, some c) =>
    if c.offset + 12 ≤ data.length then
      .ok ⟨fieldNat data c.offset 4, fieldNat data (c.offset + 4) 4, fieldNat data (c.offset + 8) 4,
        (c.size + (2 ^ 64 - 12)) % 2 ^ 64, c.offset + 12⟩
    else .undefined

/-- A bitonal bitmap in the memory of the attachment. -/
structure MaskBitmap where
  width : Nat
  height : Nat
  stride : Nat
  dataOffset : Nat
  deriving DecidableEq

/-- `GetValidPixelMaskAsUncompressedBitonalBitmap`, SubblockAttachmentAccessor.cpp:141-166, followed by
`CreateBitonalBitmapFromMaskInfo`, lines 168-197. (The stride 0, replaced by the minimal one in `CBitonalBitmapData::Create`, bitmapData.h:187-195, gets
there only if `minimal` is 0, and stays 0 then.) -/
def maskBitmap (has : Bool) (data : List UInt8) : Outcome MaskBitmap :=
  match maskGeneral has data with
  | .throws => .throws
  | .undefined => .undefined
  | .ok g =>
    if g.repr ≠ 0 then .throws
    else if g.sizeData < 4 then .throws
    else if g.dataOffset + 4 ≤ data.length then
      let stride := fieldNat data g.dataOffset 4
      let sizeData := g.sizeData - 4
      if g.width = 0 ∨ g.height = 0 then .throws
      else
        let minimal := (g.width + 7) % 2 ^ 32 / 8
        if stride < minimal then .throws
        else if sizeData < (g.height - 1) * stride + minimal then .throws
        else .ok ⟨g.width, g.height, stride, g.dataOffset + 4⟩
    else .undefined

end Verif.Czi
