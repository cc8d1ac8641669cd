import Verif.Model.Chunk
import Verif.Model.Mem

/-! # The in-memory stream -/

namespace Verif.Czi

/-- `CStreamImplInMemory::Read`, StreamImpl.cpp:141-163, with `data` the buffer of the stream (`rawData`, `dataBufferSize`) and `pv` the
memory at the destination pointer (`none`: null pointer). The result is the destination afterwards and the number stored in
`*ptrBytesRead`. Both exceptions (`invalid_argument` and `runtime_error`) are `throws`. Offset and size are `uint64_t`, `size_t` has 64 bits. -/
def memStreamRead (data : Buf) (offset : UInt64) (pv : Option Buf) (size : UInt64) : Outcome (Buf × Nat) :=
  match pv with
  | none => .throws
  | some dst =>
    if data.size ≤ offset.toNat then .throws
    else
      match dst.memcpy 0 data offset.toNat (min size.toNat (data.size - offset.toNat)) with
      | some dst' => .ok (dst', min size.toNat (data.size - offset.toNat))
      | none => .undefined

end Verif.Czi
