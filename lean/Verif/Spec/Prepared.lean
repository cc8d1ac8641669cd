import Verif.Model.Prepared
import Verif.Spec.DocInfo
import Verif.Spec.SubBlock

/-!
# Specification: the metadata prepared by the writer
-/

namespace Verif.Spec
open Verif.Xml (Node Str ChannelInfo)

/-- The sub-blocks that the directory accepts, in the order in which they are added: duplicates are left out. -/
def acceptedFrom (d : WriterDir) : List Entry → List Entry
  | [] => []
  | e :: es => if (d.tryAdd e).2 then e :: acceptedFrom (d.tryAdd e).1 es else acceptedFrom d es

/-- The pixel type of a channel: that of the first sub-block with the channel index. -/
def channelType (es : List Entry) (c : Int) : Option PixelType :=
  (es.find? (fun e => e.coordinate .C = some c)).map (fun e => pixelTypeFromInt e.pixelType)

/-- The pixel types that can be stated in the metadata written. -/
def Statable (t : PixelType) : Prop := t ∉ [PixelType.Gray32, .Gray64Float, .Invalid]

instance (t : PixelType) : Decidable (Statable t) := by unfold Statable; infer_instance

/-- The name of a pixel type in the metadata. -/
def typeName : PixelType → String
  | .Gray8 => "Gray8" | .Gray16 => "Gray16" | .Gray32Float => "Gray32Float" | .Bgr24 => "Bgr24" | .Bgr48 => "Bgr48" | .Bgr96Float => "Bgr96Float"
  | .Bgra32 => "Bgra32" | .Gray64ComplexFloat => "Gray64ComplexFloat" | .Bgr192ComplexFloat => "Bgr192ComplexFloat" | .Gray32 => "Gray32"
  | .Gray64Float => "Gray64Float" | .Invalid => ""

/-- What is to be read for a channel: the identifier and the name given, and the pixel type if it can be stated. -/
def channelOf (es : List Entry) (gen : Int → Str × Option Str) (c : Int) : ChannelInfo :=
  ⟨some (gen c).1, (gen c).2, (channelType es c).filter (fun t => Statable t)⟩

/-- The indices from `lo` to `hi`. -/
def indices (lo hi : Int) : List Int := (List.range (hi - lo + 1).toNat).map (fun i : Nat => lo + (i : Int))

/-- The function gives an identifier and a name without the characters that have a meaning in paths, and different identifiers for different
channels. -/
def GoodNames (gen : Int → Str × Option Str) : Prop :=
  (∀ c, AttrValue (gen c).1 ∧ ∀ n, (gen c).2 = some n → AttrValue n) ∧ ∀ c c', (gen c).1 = (gen c').1 → c = c'

end Verif.Spec
