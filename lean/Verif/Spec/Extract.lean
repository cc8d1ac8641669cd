import Verif.Model.Extract
import Verif.Spec.Viewer
import Verif.Spec.Text

/-! # What is supposed to be extracted, in terms of the attachments and sub-blocks given to the writer -/

namespace Verif.Spec
open Verif.Czi Verif.Extract

/-- The selection asks for the attachment with this index and name: both have to agree, as far as they are given. -/
def AsksFor (sel : Selection) (i : Nat) (name : List UInt8) : Prop := (∀ n, sel.name = some n → n = name) ∧ (∀ k, sel.index = some k → k = i)

/-- `file` is named after the attachment with the index `i`: the name given by the user, the name of the attachment (if it has one), the index, and the type as
extension (`XXX` without type). -/
def NamedAfter (wide : List UInt8 → Option (List Char)) (base : List Char) (i : Nat) (a : AddAtt) (file : List Char) : Prop :=
  ∃ name ext, wide (cstr a.name.toList) = some name ∧ wide (cstr a.contentFileType.toList) = some ext ∧
    file = base ++ "_".toList ++ (if cstr a.name.toList = [] then [] else name ++ "_".toList) ++ Text.printInt i ++ ".".toList ++
      (if cstr a.contentFileType.toList = [] then "XXX".toList else ext)

/-- The file lies in the directory of files whose names start with `base`. -/
def Beside (base file : List Char) : Prop := ∃ t, file = base ++ t ∧ '/' ∉ t

end Verif.Spec
