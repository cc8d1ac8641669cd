import Verif.Spec.Crash

/-!
# Writing a document to a stream that can fail

Calls of `ICziWriter` whose writes may fail, made again when they throw. The outcomes of the writes of a call are a list of `Fault` (Model/Writer.lean): `none` for a
write that succeeds, `some j` for one that fails after `j` bytes; when the list is used up the stream does not fail any more.
-/

namespace Verif.Spec
open Czi

/-- The call was made any number of times and threw each time; `t` is what is left of `s` then. -/
inductive Repeated (op : WOp) (s : Sys) : Sys → Prop
  | never : Repeated op s s
  | again {t u : Sys} {fs fs' : List Fault} {e : WErr} : Repeated op s t → stepOp t op fs = (u, some e, fs') → Repeated op s u

/-- A call that is made again as long as it throws because a write failed, at most as often as there are outcomes given, and then once more on a stream that does
not fail. -/
def insist (s : Sys) (op : WOp) : List (List Fault) → Sys × Option WErr
  | [] => step s op
  | fs :: tries =>
    let r := stepOp s op fs
    if r.2.1 = some .ioError then insist r.1 op tries else (r.1, r.2.1)

/-- A sequence of such calls, going on after exceptions; and the calls that did not throw in the end. -/
def sessionOn (s : Sys) : List (WOp × List (List Fault)) → Sys × List WOp
  | [] => (s, [])
  | c :: cs =>
    let r := insist s c.1 c.2
    let r' := sessionOn r.1 cs
    (r'.1, if r.2.isNone then c.1 :: r'.2 else r'.2)

/-- A whole document, as `writeDoc`: the calls between `Create` and `Close`, and `Close`, are made again when writes fail. -/
def writeDocOn (dup : Bool) (d : Disk) (info : WriterInfo) (cs : List (WOp × List (List Fault))) (close : List (List Fault)) : Option (Disk × List WOp) :=
  let r := step ⟨WState.init dup, d⟩ (.create info)
  if r.2.isSome then none
  else
    let r' := sessionOn r.1 cs
    let c := insist r'.1 .close close
    if c.2.isSome then none else some (c.1.disk, r'.2)

/-- Between `Create` and `Close`: no other `Create` and `Close`; and the stream does not fail while sub-blocks and attachments are added. -/
def AddsDoNotFail (cs : List (WOp × List (List Fault))) : Prop :=
  ∀ c ∈ cs, match c.1 with
    | .create _ => False
    | .close => False
    | .addSubBlock _ => c.2 = []
    | .addAttachment _ => c.2 = []
    | .writeMetadata _ => True

/-- A sequence of calls, each made once with the given outcomes of its writes, going on after exceptions; and the calls that did not throw. -/
def callsOn (s : Sys) : List (WOp × List Fault) → Sys × List WOp
  | [] => (s, [])
  | c :: cs =>
    let r := stepOp s c.1 c.2
    let r' := callsOn r.1 cs
    (r'.1, if r.2.1.isNone then c.1 :: r'.2 else r'.2)

/-- Writes fail only while metadata are written, and only as long as there are no metadata in the document. -/
def OnlyFirstMetadataFail (s : Sys) : Bool → List (WOp × List Fault) → Prop
  | _, [] => True
  | there, c :: cs =>
    (c.2 = [] ∨ (there = false ∧ ∃ m, c.1 = .writeMetadata m)) ∧
    OnlyFirstMetadataFail (stepOp s c.1 c.2).1 (there || ((stepOp s c.1 c.2).2.1.isNone && (match c.1 with | .writeMetadata _ => true | _ => false))) cs

end Verif.Spec
