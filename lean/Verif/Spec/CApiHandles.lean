import Verif.Model.CApiHandles

/-!
# Specification of handles: what a caller has to do, and which objects are to be alive
-/

namespace Verif.Spec

open Verif.CApi

/-- The handles a call is given and the class each of them has to be of. -/
def expects : Call → List (Kind × Nat)
  | .create _ _ _ => []
  | .make f h _ _ => [(f.source, h)]
  | .readerOpen r st _ => [(.reader, r), (.stream, st)]
  | .writerCreate w st _ => [(.writer, w), (.outputStream, st)]
  | .writerClose w _ => [(.writer, w)]
  | .channel d _ => [(.displaySettings, d)]
  | .lock b => [(.bitmap, b)]
  | .unlock b => [(.bitmap, b)]
  | .compose bs _ => bs.map fun b => (.bitmap, b)
  | .use k h => [(k, h)]
  | .release k h => [(k, h)]

/-- `h` was handed out as a handle of class `k` and is not released. -/
def LiveHandle (s : St) (k : Kind) (h : Nat) : Prop := ∃ w ∈ s.wrappers, w.addr = h ∧ w.kind = k

/-- Attachments and document information, whose magic numbers are equal. -/
def Confusable (k k' : Kind) : Prop := (k = .attachment ∧ k' = .documentInfo) ∨ (k = .documentInfo ∧ k' = .attachment)

/-- What is asked of a caller: each handle is null or was handed out (by whatever function) and not released; not asked for is that it is of the right class.
New memory is not memory in use. The last five conditions avoid what is not checked. -/
structure Careful (s : St) (c : Call) (addr : Nat) : Prop where
  handles : ∀ e ∈ expects c, e.2 = 0 ∨ ∃ k, LiveHandle s k e.2
  memory : addr ≠ 0 ∧ ∀ w ∈ s.wrappers, w.addr ≠ addr
  creates : ∀ k ext ok, c = .create k ext ok → (k = .reader ∨ k = .writer) ∧ ext = none ∨ k = .stream ∨ k = .outputStream
  confused : ∀ e ∈ expects c, ∀ k, LiveHandle s k e.2 → ¬Confusable k e.1
  nullAttachment : ∀ h out r, c = .make .readAttachment h out r → h ≠ 0 ∧ out = false
  nullMetadata : ∀ h out r, c = .make .metadataSegment h out r → out = false
  nullBitmap : ∀ bs ok, c = .compose bs ok → 0 ∉ bs
  settings : ∀ h out, c ≠ .make .displaySettings h out .null

/-- The calls of a careful caller from the start, and the state after them. -/
inductive History : List (Call × Nat) → St → Prop
  | nil : History [] St.init
  | call {cs : List (Call × Nat)} {s : St} {c : Call} {addr : Nat} {r : Res} :
      History cs s → Careful s c addr → step s c addr = some r → History (cs ++ [(c, addr)]) r.st

/-- The object is needed: by a handle that is not released, or by an object that is needed. -/
inductive Held (s : St) : Nat → Prop
  | handle {w : Wrapper} {o : Nat} : w ∈ s.wrappers → w.obj = some o → Held s o
  | member {o u : Nat} {x : Obj} : Held s o → s.obj? o = some x → u ∈ x.uses → Held s u

/-- How often a stream of the caller with number `e` was passed to the library. -/
def passed (e : Nat) (cs : List (Call × Nat)) : Nat :=
  cs.countP fun c => match c.1 with
    | .create _ (some e') true => e' == e
    | _ => false

/-- A stream of the caller with number `e` is needed. -/
def StreamHeld (s : St) (e : Nat) : Prop := ∃ o x, Held s o ∧ s.obj? o = some x ∧ x.ext = some e

/-- The class of the handle a call returns. -/
def returns : Call → Option Kind
  | .create k _ _ => some k
  | .make f _ _ _ => some f.target
  | .channel _ _ => some .channelSettings
  | .compose _ _ => some .bitmap
  | _ => none

/-- How often the bitmap of this handle is locked. -/
def lockCount (s : St) (h : Nat) : Nat := ((((s.wrapper? h).bind (·.obj)).bind s.obj?).map (·.locks)).getD 0

end Verif.Spec
