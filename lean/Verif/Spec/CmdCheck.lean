import Verif.Model.CmdCheck
import Verif.Spec.CmdLine

/-! # What must be given with a command of CZICmd -/

namespace Verif.Spec

open Verif.CmdLine Verif.Xml

/-- The commands that read a document. -/
def Reads (c : Command) : Prop := c ∉ [.Invalid, .CreateCZI, .ReadWriteCZI]

/-- The commands that write a picture of one region (all of them but the scan of a plane, which writes many). -/
def Pictures (c : Command) : Prop :=
  c ∈ [.SingleChannelTileAccessor, .ChannelComposite, .SingleChannelPyramidTileAccessor, .SingleChannelScalingTileAccessor, .ScalingChannelComposite]

/-- The commands that scale. -/
def Scales (c : Command) : Prop := c ∈ [.SingleChannelScalingTileAccessor, .ScalingChannelComposite]

/-- A number greater than zero. -/
def AboveZero (z : Num) : Prop := (∃ x, z = .fin x ∧ 0 < x) ∨ z = .inf false

/-- The region `r` is what the text says; without a text there is none. -/
def RegionGiven (text : List Char) (r : Option RectArg) : Prop :=
  (text = [] ∧ r = none) ∨ ∃ absolute x y w h, RegionText text absolute x y w h ∧ r = some ⟨absolute, x, y, w, h⟩

/-- The layer is what the text says; without a text there is none, which is written as -1. -/
def LayerGiven (text : List Char) (factor layer : Int) : Prop :=
  (text = [] ∧ factor = -1 ∧ layer = -1) ∨
    ∃ t c r, text = t ++ c :: r ∧ c ∈ [';', ',', '|'] ∧ PaddedInt32 t factor ∧ PaddedInt32 r layer

/-- The zoom is what the text says (`C105_zoom_partial`), which must have passed the check `range`; without a text it is 1. -/
def ZoomGiven (range : List Char → Bool) (text : List Char) (z : Num) : Prop :=
  (text = [] ∧ z = .fin 1) ∨ (text ≠ [] ∧ range text = true ∧ tryParseZoom text = some z)

/-- Everything that must be given with a command is given: a document to read, a name for what is written, a region, a layer, a zoom. -/
structure NothingMissing (c : Command) (source output : List Char) (region : Option RectArg) (factor layer : Int) (z : Num) : Prop where
  command : c ≠ .Invalid
  source : Reads c → source ≠ []
  output : c ≠ .PrintInformation → output ≠ []
  region : Pictures c → region ≠ none
  layer : c = .SingleChannelPyramidTileAccessor → 0 < factor ∧ 0 ≤ layer
  zoom : Scales c → AboveZero z ∨ z = .nan

end Verif.Spec
