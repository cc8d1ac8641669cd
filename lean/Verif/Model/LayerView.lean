import Verif.Model.Commands

/-!
# From the file to the picture of a pyramid layer (SingleChannelPyramidLevelTileAccessor.cpp on a document opened by the reader, CZICmd/execute.cpp:703-731)

Simplifications: those of `Verif.Model.Viewer`, `Verif.Model.Commands` and of the pyramid-layer accessor in `Verif.Model.Accessor`, except that the pictures are the ones decoded from the
file and the background is painted.
-/

namespace Verif.Viewer
open Verif.Czi Verif.Blit Verif.Jxr Verif.Fill Verif.Zstd Verif.Accessor Verif.CmdLine Verif.Commands

/-- `ISingleChannelPyramidLayerTileAccessor::Options`, libCZI_Compositor.h:380-414, as far as they are looked at: no borders, no cache, no masks. -/
structure LayerOptions where
  background : Colour
  sortByM : Bool
  scenes : Option (Int → Bool)

/-- `ComposeTiles`, SingleChannelPyramidLevelTileAccessor.cpp:98-130: `is` are the indices of the sub-blocks, `f` is the size of a pixel. -/
def composeLayer (c : Codecs) (mem : Memory) (al : Alloc) (s : Stream) (doc : Doc) (pt : PixelType) (xPos yPos : Int) (f : Nat) : List Nat → Bitmap → Result Bitmap
  | [], dst => .ok dst
  | i :: is, dst =>
    match fetch c mem al s doc i with
    | .throws => .throws
    | .aborts => .aborts
    | .undefined => .undefined
    | .ok (info, t) =>
      match copyAt (fun q => c.enc (.num q)) t.pt pt t.bm dst none ((info.x - xPos).tdiv f) ((info.y - yPos).tdiv f) with
      | .throws => .throws
      | .undefined => .undefined
      | .ok dst' => composeLayer c mem al s doc pt xPos yPos f is dst'

/-- `CSingleChannelPyramidLevelTileAccessor::InternalGet`, SingleChannelPyramidLevelTileAccessor.cpp:76-96: `byLayer.at` throws if there is no sub-block on the layer. -/
def layerInternalGet (sort : List Item → List Item) (c : Codecs) (mem : Memory) (al : Alloc) (s : Stream) (doc : Doc) (pt : PixelType) (plane : Coord)
    (o : LayerOptions) (info : LayerRequest) (xPos yPos : Int) (f : Nat) (dst : Bitmap) : Result Bitmap :=
  match checkPlane (docStats doc).dimBounds plane with
  | some _ => .throws
  | none =>
    match clear c.enc pt dst o.background with
    | .throws => .throws
    | .undefined => .undefined
    | .ok bg =>
      if bg.w * f > 2147483647 ∨ bg.h * f > 2147483647 then .undefined
      else
        let found := planeSubBlocks (indexed doc.entries) plane o.scenes ⟨xPos, yPos, (bg.w * f : Nat), (bg.h * f : Nat)⟩
        let subSet := if o.sortByM then sort found else found
        if subSet.isEmpty then .ok bg
        else
          match layerOf info.factor.toNat info.layerNo.toNat subSet with
          | none => .undefined
          | some none => .throws
          | some (some tiles) => composeLayer c mem al s doc pt xPos yPos f (tiles.map (·.1.toNat)) bg

/-- `Get` with a pixel type, SingleChannelPyramidLevelTileAccessor.cpp:38-59. -/
def getLayerTyped (sort : List Item → List Item) (c : Codecs) (mem : Memory) (al : Alloc) (s : Stream) (doc : Doc) (pt : PixelType) (plane : Coord)
    (o : LayerOptions) (info : LayerRequest) (roi : IntRect) : Result Typed :=
  match sizeOfPixel info with
  | none => .undefined
  | some f =>
    if f = 0 then .undefined
    else
      let w := toUInt32 (roi.w.tdiv f)
      let h := toUInt32 (roi.h.tdiv f)
      if w = 0 ∨ h = 0 then .throws
      else
        match bytesPerPel pt with
        | none => .throws
        | some bpp =>
          match layerInternalGet sort c mem al s doc pt plane o info roi.x roi.y f (newBitmap mem.dest w h (defaultPitch bpp w)) with
          | .ok b => .ok ⟨pt, b⟩
          | .throws => .throws
          | .aborts => .aborts
          | .undefined => .undefined

/-- `Get`, SingleChannelPyramidLevelTileAccessor.cpp:19-36. -/
def getLayer (sort : List Item → List Item) (c : Codecs) (mem : Memory) (al : Alloc) (s : Stream) (doc : Doc) (plane : Coord)
    (o : LayerOptions) (info : LayerRequest) (roi : IntRect) : Result Typed :=
  if pixelTypeOf doc plane = .Invalid then .throws
  else getLayerTyped sort c mem al s doc (pixelTypeOf doc plane) plane o info roi

/-- A number that is not negative, assigned to a `std::uint8_t`: the last eight bits, libCZI_Compositor.h:417-421. -/
def toByte (v : Int) : UInt8 := UInt8.ofNat v.toNat

/-- `CExecuteSingleChannelPyramidTileAccessor::execute`, execute.cpp:703-731, after the reader was opened, with the parts of the command line `region` and `layer` it depends on:
these are parsed first (cmdlineoptions.cpp:875-879) and the layer is checked (cmdlineoptions.cpp:1073-1082); each failure is reported and ends the program (here: `throws`).
`Options::Clear` switches sorting on. -/
def layerCommand (sort : List Item → List Item) (c : Codecs) (mem : Memory) (al : Alloc) (s : Stream) (doc : Doc) (plane : Coord) (background : Colour)
    (scenes : Option (Int → Bool)) (layer region base : List Char) : Result (List Char × Typed) :=
  match tryParseRect region, tryParsePyramidInfo layer with
  | some r, some (factor, layerNo) =>
    if factor ≤ 0 ∨ layerNo < 0 then .throws
    else
      match roiFromOptions r doc with
      | none => .undefined
      | some roi => save base (getLayer sort c mem al s doc plane ⟨background, true, scenes⟩ ⟨toByte factor, toByte layerNo⟩ roi)
  | _, _ => .throws

end Verif.Viewer
