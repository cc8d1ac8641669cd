import Verif.Model.ReaderSession
import Verif.Props.Truncated

/-! # C103: sessions of a reader -/

namespace Verif.Spec
open Verif.Czi Verif.ReaderSession

/-- The streams deliver what is in the files, or only a first part of it, or nothing. -/
def Faulty (files : Nat → Disk) (w : World) : Prop := ∀ id, DeliversLess (w id) (files id).stream

/-- The document that is open after some calls with these outcomes: the one of the last successful `Open`, if no successful `Close` followed. -/
def current : List (Call × Outcome Answer) → Option (Nat × OpenOptions) → Option (Nat × OpenOptions)
  | [], st => st
  | (.open id o, .ok _) :: l, _ => current l (some (id, o))
  | (.close, .ok _) :: l, _ => current l none
  | _ :: l, st => current l st

/-- The calls that concern attachments. -/
def ForAttachments : Call → Prop
  | .readAttachment _ | .attachments | .attachmentInfo _ => True
  | _ => False

/-- The streams deliver all that is in the files. -/
def working (files : Nat → Disk) : World := fun id => (files id).stream

/-- What a new reader answers that has opened this file, if no stream ever fails. -/
def asNew (al : Alloc) (files : Nat → Disk) (id : Nat) (o : OpenOptions) (c : Call) : Outcome Answer :=
  (call al (working files) (call al (working files) Obj.new (.open id o)).2 c).1

/-- The function of the caller does what the documentation asks for: if it returns 0, it stored the bytes of the file at this position, as many as there are or fewer, and reported their number or nothing. -/
def KeepsContract (f : Nat → Nat → Reply) (d : Disk) : Prop :=
  ∀ off n, (f off n).code = 0 → (f off n).stored <+: d.stream off n ∧ ((f off n).count = some (f off n).stored.length ∨ (f off n).count = none)

end Verif.Spec
