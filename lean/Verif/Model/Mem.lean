/-!
# Byte buffers with explicit out-of-bounds behaviour, and loops

A C++ buffer is modelled as a size and a content function.  Every access is checked: an access outside of
`[0,size)` - undefined behaviour in C++ - makes the result `none`.
-/

namespace Verif

/-- A block of memory of `size` bytes. Only the values of `get` below `size` are meaningful. -/
structure Buf where
  size : Nat
  get : Nat → UInt8

namespace Buf

/-- Read one byte; `none` = out of bounds. -/
def read (b : Buf) (i : Nat) : Option UInt8 := if i < b.size then some (b.get i) else none

/-- Write one byte; `none` = out of bounds. -/
def write (b : Buf) (i : Nat) (v : UInt8) : Option Buf :=
  if i < b.size then some { b with get := fun j => if j = i then v else b.get j } else none

/-- `memcpy(dst + d, src + s, n)` for non-overlapping buffers; `none` = out of bounds. -/
def memcpy (dst : Buf) (d : Nat) (src : Buf) (s n : Nat) : Option Buf :=
  if d + n ≤ dst.size ∧ s + n ≤ src.size then
    some { dst with get := fun i => if d ≤ i ∧ i < d + n then src.get (s + (i - d)) else dst.get i }
  else none

/-- `memset(dst + d, v, n)`; `none` = out of bounds. -/
def memset (dst : Buf) (d : Nat) (v : UInt8) (n : Nat) : Option Buf :=
  if d + n ≤ dst.size then
    some { dst with get := fun i => if d ≤ i ∧ i < d + n then v else dst.get i }
  else none

/-- Buffer made from a list. -/
def ofList (l : List UInt8) : Buf := ⟨l.length, fun i => l.getD i 0⟩

/-- The content as a list. -/
def toList (b : Buf) : List UInt8 := (List.range b.size).map b.get

end Buf

/-- `for (i = 0; i < n; ++i) s = f(i, s)` where the body may fail. -/
def loop {σ : Type} : Nat → (Nat → σ → Option σ) → σ → Option σ
  | 0, _, s => some s
  | n + 1, f, s => (loop n f s).bind (f n)

end Verif
