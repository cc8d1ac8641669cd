import Verif.Model.Streams

/-!
# Specification of streams (`IStream::Read`, libCZI.h:235-258)
-/

namespace Verif.Spec

/-- The bytes of a file from an offset on, `size` at most: fewer at the end of the file, none beyond. -/
def bytesAt (file : List UInt8) (offset size : Nat) : List UInt8 := (file.drop offset).take size

/-- What a call of `Read` is to give: the bytes at its offset; an exception for offsets no file can have. -/
def readResult (file : List UInt8) (r : Streams.Req) : Option (List UInt8) :=
  if r.offset < 2 ^ 63 then some (bytesAt file r.offset r.size) else none

/-- The memory contains these bytes, from its beginning on; the others are as before. -/
def Received (before after : Buf) (bytes : List UInt8) : Prop :=
  after.size = before.size ∧ (∀ i, i < bytes.length → bytes[i]? = some (after.get i)) ∧ ∀ i, bytes.length ≤ i → after.get i = before.get i

/-- The response (the pieces of the body, and whether the transfer completes) is the one to a request for the bytes `first` to `last` of a file, in any pieces. -/
def Answers (file : List UInt8) (response : List (List UInt8) × Bool) (first last : Nat) : Prop :=
  response.2 = true ∧ response.1.flatten = bytesAt file first (last - first + 1)

/-- A server that ignores ranges, and sends the whole file. -/
def IgnoresRanges (file : List UInt8) (serve : String → List (List UInt8) × Bool) : Prop :=
  ∀ range, (serve range).2 = true ∧ (serve range).1.flatten = file

end Verif.Spec
