import Verif.Model.CmdLine
import Verif.Model.ScaledView

/-!
# The commands of CZICmd that write one picture (CZICmd/execute.cpp:537-573 and 734-760, executeBase.cpp:59-69)

Simplifications: as in `Verif.Model.Viewer` and `Verif.Model.ScaledView`; no borders around tiles, no masks; the PNG file is represented by the bitmap that is encoded; the hash that is
printed on request is left out. The region is given as text, the other options as the values they stand for.
-/

namespace Verif.Commands
open Verif.Czi Verif.Blit Verif.Jxr Verif.Fill Verif.Accessor Verif.Viewer Verif.CmdLine

/-- `int` addition: undefined if the sum does not fit. -/
def addInt (a b : Int) : Option Int := if -(2 ^ 31) ≤ a + b ∧ a + b < 2 ^ 31 then some (a + b) else none

/-- `GetRoiFromOptions`, executeBase.cpp:59-69, and the same lines in execute.cpp:554-560. -/
def roiFromOptions (r : RectArg) (doc : Doc) : Option IntRect :=
  if r.absolute then some ⟨r.x, r.y, r.w, r.h⟩
  else (addInt r.x (docStats doc).bbox0.x).bind fun x => (addInt r.y (docStats doc).bbox0.y).map fun y => ⟨x, y, r.w, r.h⟩

/-- `ISingleChannelTileAccessor::Options`, libCZI_Compositor.h:204-254, as far as the command sets them: `scenes` is the scene filter. -/
structure TileOptions where
  view : ViewOptions
  scenes : Option (Int → Bool)

/-- `CSingleChannelTileAccessor::Get`, SingleChannelTileAccessor.cpp:21-32, with all options: `sceneFilter` is not looked at in SingleChannelTileAccessor.cpp and
SingleChannelAccessorBase.cpp. The size of the region is converted to `uint32_t`, SingleChannelTileAccessor.cpp:37. -/
def getTiles (sort : List Item → List Item) (c : Codecs) (mem : Memory) (al : Alloc) (s : Stream) (doc : Doc) (plane : Coord) (o : TileOptions) (roi : IntRect) : Result Typed :=
  Viewer.get sort c mem al s doc plane o.view roi.x roi.y (toUInt32 roi.w) (toUInt32 roi.h)

/-- The name of the file, `MakeOutputFilename(L"", L"PNG")`, cmdlineoptions.cpp:1171-1188. -/
def pictureName (base : List Char) : List Char := base ++ ".PNG".toList

/-- The end of the commands: the picture is saved. -/
def save (base : List Char) : Result Typed → Result (List Char × Typed)
  | .ok t => .ok (pictureName base, t)
  | .throws => .throws
  | .aborts => .aborts
  | .undefined => .undefined

/-- `CExecuteSingleChannelTileAccessor::execute`, execute.cpp:540-572, after the reader was opened. A text that is no region is reported (here: `throws`). -/
def tileCommand (sort : List Item → List Item) (c : Codecs) (mem : Memory) (al : Alloc) (s : Stream) (doc : Doc) (plane : Coord) (background : Colour) (visibility : Bool)
    (scenes : Option (Int → Bool)) (region base : List Char) : Result (List Char × Typed) :=
  match tryParseRect region with
  | none => .throws
  | some r =>
    match roiFromOptions r doc with
    | none => .undefined
    | some roi => save base (getTiles sort c mem al s doc plane ⟨⟨background, true, visibility⟩, scenes⟩ roi)

/-- `CExecuteSingleChannelScalingTileAccessor::execute`, execute.cpp:737-759. -/
def scalingCommand (sort : List Item → List Item) (c : Codecs) (mem : Memory) (al : Alloc) (s : Stream) (doc : Doc) (plane : Coord) (background : Colour) (visibility : Bool)
    (scenes : Option (Int → Bool)) (zoom : ℚ) (region base : List Char) : Result (List Char × Typed) :=
  match tryParseRect region with
  | none => .throws
  | some r =>
    match roiFromOptions r doc with
    | none => .undefined
    | some roi => save base (getScaled sort c mem al s doc plane ⟨⟨background, true, visibility⟩, scenes⟩ zoom roi)

end Verif.Commands
