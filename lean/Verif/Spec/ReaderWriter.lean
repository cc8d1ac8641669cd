import Verif.Spec.Czi
import Verif.Model.ReaderWriter

/-!
# Specification of editing a document

What a user sees of a document that is edited: maps from keys to sub-blocks and attachments, and the metadata.
-/

namespace Verif.Spec

open Verif.Czi

/-- The contents of a document under edit. `nextSub` and `nextAtt` are the keys the next sub-block and attachment added get. -/
structure Content where
  subs : Int → Option SbView
  nextSub : Int
  atts : Int → Option Attachment
  nextAtt : Int
  metadata : Option MetaData

/-- Nothing at all. -/
def Content.empty : Content := ⟨fun _ => none, 0, fun _ => none, 0, none⟩

/-- A map with the value for one key changed. -/
def setAt {α : Type} (m : Int → Option α) (k : Int) (v : Option α) : Int → Option α := fun j => if j = k then v else m j

/-- What a successful call does to the contents. -/
def Content.after (c : Content) : EditOp → Content
  | .addSubBlock a => { c with subs := setAt c.subs c.nextSub (some (viewAdded a)), nextSub := c.nextSub + 1 }
  | .addAttachment a => { c with atts := setAt c.atts c.nextAtt (some (attachmentOf a)), nextAtt := c.nextAtt + 1 }
  | .replaceSubBlock k a => { c with subs := setAt c.subs k (some (viewAdded a)) }
  | .replaceAttachment k a => { c with atts := setAt c.atts k (some (attachmentOf a)) }
  | .removeSubBlock k => { c with subs := setAt c.subs k none }
  | .removeAttachment k => { c with atts := setAt c.atts k none }
  | .writeMetadata m => { c with metadata := some (metaOf m) }
  | .close => c

/-- Make the calls one after the other, going on after exceptions; only successful calls change the contents. -/
def edit (s : RW) (c : Content) : List EditOp → RW × Content
  | [] => (s, c)
  | op :: ops =>
    let r := editStep s op
    edit r.1 (if r.2.isNone then c.after op else c) ops

/-- The reader-writer shows exactly these contents. -/
structure EditorShows (al : Alloc) (s : RW) (c : Content) : Prop where
  subBlock : ∀ k, (s.readSubBlock al k).map (Option.map viewRead) = .ok (c.subs k)
  attachment : ∀ k, s.readAttachment al k = .ok (c.atts k)
  metadata : s.readMetadata al = .ok c.metadata

/-- The items numbered 0 … n-1 are the items of the map `m` in the order of their keys. -/
def InKeyOrder {α : Type} (n : Nat) (read : Nat → Except RErr (Option α)) (m : Int → Option α) : Prop :=
  ∃ keys : List Int, keys.length = n ∧ keys.Pairwise (· < ·) ∧ (∀ k, k ∈ keys ↔ (m k).isSome) ∧
    ∀ i k, keys[i]? = some k → read i = .ok (m k)

/-- A reader that opened a document shows exactly these contents, in the order of the keys. -/
structure ReaderShows (al : Alloc) (s : Stream) (doc : Doc) (c : Content) : Prop where
  subBlocks : InKeyOrder doc.entries.length (fun i => (doc.readSubBlock al s i).map (Option.map viewRead)) c.subs
  attachments : InKeyOrder doc.attachments.length (fun i => doc.readAttachment al s i) c.atts
  metadata : doc.readMetadata al s = (match c.metadata with
    | none => .error .notPresent
    | some m => .ok m)

/-- The contents of a document when it is opened: the keys are 0, 1, … -/
structure Initially (al : Alloc) (s : Stream) (doc : Doc) (c : Content) : Prop where
  nextSub : c.nextSub = doc.entries.length
  subBlock : ∀ i : Nat, (doc.readSubBlock al s i).map (Option.map viewRead) = .ok (c.subs i)
  noSub : ∀ k < 0, c.subs k = none
  nextAtt : c.nextAtt = doc.attachments.length
  attachment : ∀ i : Nat, doc.readAttachment al s i = .ok (c.atts i)
  noAtt : ∀ k < 0, c.atts k = none
  metadata : doc.readMetadata al s = (match c.metadata with
    | none => .error .notPresent
    | some m => .ok m)

/-! ## Sound documents -/

/-- The allocated size in the segment header at `p`. -/
def allocAt (d : Disk) (p : Nat) : Nat := fieldNat (d.read p 32) 16 8

/-- The end of the segment at `p`. -/
def endAt (d : Disk) (p : Nat) : Nat := p + 32 + allocAt d p

/-- Reading with `f` looks at nothing but the segment at `p`: the result is the same for every file that has the same bytes there and is
not shorter. -/
def LooksOnlyAt {α : Type} (d : Disk) (p : Nat) (f : Stream → α) : Prop :=
  ∀ d' : Disk, d.size ≤ d'.size → (∀ i, p ≤ i → i < endAt d p → i < d.size → d'.get i = d.get i) → f d'.stream = f d.stream

/-- The positions of all segments a document refers to. -/
def segmentsOf (doc : Doc) : List Nat :=
  doc.entries.map (·.filePosition) ++ (doc.attachments.map (·.filePosition) ++ (doc.header.subDirPos ::
    ((if doc.header.attDirPos = 0 then [] else [doc.header.attDirPos]) ++
     (if doc.header.metadataPos = 0 then [] else [doc.header.metadataPos]))))

/-- A sound document: it can be opened, its segments are behind the file header, do not overlap and contain what is read
from them, and the header of each sub-block agrees with its directory entry. -/
structure SoundDoc (al : Alloc) (d : Disk) (o : OpenOptions) (doc : Doc) : Prop where
  opened : openDoc al d.stream o = .ok doc
  apart : (segmentsOf doc).Pairwise (fun p q => endAt d p ≤ q ∨ endAt d q ≤ p)
  behind : ∀ p ∈ segmentsOf doc, 544 ≤ p
  size : ∀ p ∈ segmentsOf doc, endAt d p < 2 ^ 62
  subBlocks : ∀ e ∈ doc.entries, LooksOnlyAt d e.filePosition (fun s => readEntry al s o e) ∧
    LooksOnlyAt d e.filePosition (fun s => rwReadEntry al s e) ∧
    ∃ sb sb', readEntry al d.stream o e = .ok sb ∧ rwReadEntry al d.stream e = .ok sb' ∧ viewRead sb' = viewRead sb
  attachments : ∀ e ∈ doc.attachments, LooksOnlyAt d e.filePosition (fun s => rwReadAtt al s e) ∧
    ∃ a, rwReadAtt al d.stream e = .ok a
  subDir : ∀ po, LooksOnlyAt d doc.header.subDirPos (fun s => readSubDir al s po doc.header.subDirPos)
  attDir : doc.header.attDirPos ≠ 0 → LooksOnlyAt d doc.header.attDirPos (fun s => readAttDir al s doc.header.attDirPos)
  metadata : doc.header.metadataPos ≠ 0 → LooksOnlyAt d doc.header.metadataPos (fun s => readMetadataData al s doc.header.metadataPos) ∧
    ∃ m, readMetadataData al d.stream doc.header.metadataPos = .ok m

/-! ## Calls -/

/-- Data that fit into memory and into the format: sizes are `int32` where they are read back, the name of an attachment is a C string. -/
def EditOk : EditOp → Prop
  | .addSubBlock a => SubOk a ∧ a.sizeData ≤ 2147483647
  | .replaceSubBlock _ a => SubOk a ∧ a.sizeData ≤ 2147483647 ∧ a.check = true
  | .addAttachment a => a.bytes.length ≤ 2147483647 ∧ 0 ∈ a.name.toList
  | .replaceAttachment _ a => a.bytes.length ≤ 2147483647 ∧ 0 ∈ a.name.toList
  | .writeMetadata m => m.xmlBytes.length ≤ 2147483647 ∧ m.attBytes.length ≤ 2147483647
  | .removeSubBlock _ => True
  | .removeAttachment _ => True
  | .close => False

/-- The call puts the data into a new segment at the end of the file: there is no segment for them yet or it is too small. -/
def Appends (s : RW) : EditOp → Prop
  | .addSubBlock _ => True
  | .addAttachment _ => True
  | .replaceSubBlock k a => ∃ e, s.w.dir.tryGet k = some e ∧ allocAt s.disk e.filePosition + 32 < a.usedSize
  | .replaceAttachment k a => ∃ e, s.w.att.tryGet k = some e ∧ allocAt s.disk e.filePosition < 256 + a.bytes.length
  | .removeSubBlock _ => False
  | .removeAttachment _ => False
  | .writeMetadata m => ∀ i, s.w.metaSeg = some i → i.alloc < align (256 + (m.xmlBytes.length + m.attBytes.length))
  | .close => True

/-- The call is a `ReplaceAttachment` that needs a new segment. -/
def GrowsAttachment (s : RW) : EditOp → Prop
  | .replaceAttachment k a => Appends s (.replaceAttachment k a)
  | _ => False

/-- After a `ReplaceAttachment` that needed a new segment, no call puts anything at the end of the file. (`grown`: there was one.) -/
def Tame (grown : Prop) (s : RW) : List EditOp → Prop
  | [] => True
  | op :: ops => (grown → ¬ Appends s op) ∧ Tame (grown ∨ GrowsAttachment s op) (editStep s op).1 ops

/-- The same for the state at the end. -/
def Grown (grown : Prop) (s : RW) : List EditOp → Prop
  | [] => grown
  | op :: ops => Grown (grown ∨ GrowsAttachment s op) (editStep s op).1 ops

/-- Calls that do not concern attachments. -/
def NoAttachment : EditOp → Prop
  | .addSubBlock _ => True
  | .replaceSubBlock _ _ => True
  | .removeSubBlock _ => True
  | .writeMetadata _ => True
  | _ => False

/-- Calls that add attachments or change the metadata. -/
def AddsAttachment : EditOp → Prop
  | .addAttachment _ => True
  | .writeMetadata _ => True
  | _ => False

/-- The call replaces or removes the sub-block with this key. -/
def ChangesSub (k : Int) : EditOp → Prop
  | .replaceSubBlock j _ => j = k
  | .removeSubBlock j => j = k
  | _ => False

/-- The call replaces or removes the attachment with this key. -/
def ChangesAtt (k : Int) : EditOp → Prop
  | .replaceAttachment j _ => j = k
  | .removeAttachment j => j = k
  | _ => False

/-- `Close` needs a new segment for the sub-block directory. -/
def AppendsSubDir (s : RW) : Prop :=
  s.w.dir.isModified = true ∧ ∀ i, s.w.subDirSeg = some i → i.alloc < align (128 + ((s.w.dir.subBlks.map Prod.snd).map entryBytes).flatten.length)

/-- `Close` needs a new segment for the attachment directory. -/
def AppendsAttDir (s : RW) : Prop :=
  s.w.att.isModified = true ∧ ∀ i, s.w.attDirSeg = some i → i.alloc < 256 + 128 * s.w.att.atts.length

/-- `Close` does not meet one of its defects: not both directories need a new segment, none of them if a `ReplaceAttachment` did, and an attachment
directory written to its old place fills that exactly. -/
structure TameClose (grown : Prop) (s : RW) : Prop where
  notBoth : ¬ (AppendsSubDir s ∧ AppendsAttDir s)
  notGrown : grown → ¬ AppendsSubDir s ∧ ¬ AppendsAttDir s
  exact : s.w.att.isModified = true → ∀ i, s.w.attDirSeg = some i → i.alloc ≤ 256 + 128 * s.w.att.atts.length

/-- The number of bytes given to a call. -/
def editBytes : EditOp → Nat
  | .addSubBlock a => a.sizeMetadata + a.sizeData + a.sizeAttachment
  | .replaceSubBlock _ a => a.sizeMetadata + a.sizeData + a.sizeAttachment
  | .addAttachment a => a.bytes.length
  | .replaceAttachment _ a => a.bytes.length
  | .writeMetadata m => m.xmlBytes.length + m.attBytes.length
  | _ => 0

/-- All segments of the document end at `n` or before. -/
def EndsBy (d : Disk) (doc : Doc) (n : Nat) : Prop := ∀ p ∈ segmentsOf doc, endAt d p ≤ n

/-- A bound for the end of the last segment after these calls and `Close`, if it is `n` before. -/
def sizeAfter (n : Nat) (ops : List EditOp) : Nat := n + (ops.map editBytes).sum + 2 ^ 45

/-- Calls that fit into one file, for `n` items and a size of the file of `m` at the beginning. -/
structure EditsOk (n m : Nat) (ops : List EditOp) : Prop where
  each : ∀ op ∈ ops, EditOk op
  count : n + ops.length < 2 ^ 31
  total : sizeAfter m ops < 2 ^ 60

/-- `Close` succeeds, and the file can then be opened with the options `o`, is a sound document and shows exactly the contents `c`; all its
segments end by `n`. -/
def ClosesWith (al : Alloc) (o : OpenOptions) (s : RW) (c : Content) (n : Nat) : Prop :=
  ∃ w d doc, rwClose s = (⟨w, d⟩, none) ∧ openDoc al d.stream o = .ok doc ∧ ReaderShows al d.stream doc c ∧ SoundDoc al d o doc ∧ EndsBy d doc n

end Verif.Spec
