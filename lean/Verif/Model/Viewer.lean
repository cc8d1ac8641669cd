import Verif.Model.Accessor
import Verif.Model.Convert
import Verif.Model.Enum
import Verif.Model.Jxr
import Verif.Model.Parse

/-!
# From the file to the picture (SingleChannelTileAccessor.cpp on a document opened by the reader)

The whole path of `ISingleChannelTileAccessor::Get`: pixel type, plane check, background, selection and order of the sub-blocks, and for each
of them `ReadSubBlock` from the stream, `CreateBitmap`, and composition.

Simplifications: without cache (see
`Verif.Model.CachedTiles`), masks (see `Verif.Model.MaskBitmap`) and tile borders; `std::sort` is an arbitrary function fulfilling `SortsBy`;
coordinates are unbounded integers (see `Verif.Model.Machine`).
-/

namespace Verif.Viewer
open Verif.Czi Verif.Blit Verif.Jxr Verif.Fill Verif.Zstd Verif.Accessor

/-- The libraries and the bytes of floating-point numbers. -/
structure Codecs where
  lib : Lib
  zstd : Codec
  enc : Fl → Nat → UInt8

/-- The contents of newly allocated memory: of the destination, and of the memory allocated while sub-block `i` is decoded. -/
structure Memory where
  dest : Nat → UInt8
  first : Nat → Nat → UInt8
  second : Nat → Nat → UInt8

/-- The options looked at, libCZI_Compositor.h:204-252. -/
structure ViewOptions where
  background : Colour
  sortByM : Bool
  useVisibilityCheck : Bool

/-- The branch without cache of `GetSubBlockDataIncludingMaskForSubBlockIndex`, SingleChannelAccessorBase.cpp:157-163 (without mask):
`ReadSubBlock` (a null pointer is dereferenced), then `CreateBitmap` with the pixel type, size and compression of the sub-block read. -/
def fetch (c : Codecs) (mem : Memory) (al : Alloc) (s : Stream) (doc : Doc) (i : Nat) : Result (SbInfo × Typed) :=
  match doc.readSubBlock al s i with
  | .error .undefined => .undefined
  | .error _ => .throws
  | .ok none => .undefined
  | .ok (some sb) =>
    match createBitmap c.lib c.zstd c.enc (mem.first i) (mem.second i) (compressionModeFromInt sb.info.compression)
        (sb.data.bytes.getD []) sb.info.pixelType (toUInt32 sb.info.pw) (toUInt32 sb.info.ph) none with
    | .ok t => .ok (sb.info, t)
    | .throws => .throws
    | .aborts => .aborts
    | .undefined => .undefined

/-- `Compositors::ComposeSingleChannelTilesMaskAware`, SingleChannelTileCompositor.cpp:105-135 with 37-72, with the callback of
SingleChannelTileAccessor.cpp:71-86 and 98-113: the sub-blocks `is` are fetched and copied one after the other. -/
def composeFetched (c : Codecs) (mem : Memory) (al : Alloc) (s : Stream) (doc : Doc) (pt : PixelType) (xPos yPos : Int) :
    List Nat → Bitmap → Result Bitmap
  | [], dst => .ok dst
  | i :: is, dst =>
    match fetch c mem al s doc i with
    | .throws => .throws
    | .aborts => .aborts
    | .undefined => .undefined
    | .ok (info, t) =>
      match copyAt (fun q => c.enc (.num q)) t.pt pt t.bm dst none (info.x - xPos) (info.y - yPos) with
      | .throws => .throws
      | .undefined => .undefined
      | .ok dst' => composeFetched c mem al s doc pt xPos yPos is dst'

/-- The sub-blocks to draw, in order, SingleChannelTileAccessor.cpp:48-69: the visibility check is given the rectangles in the directory
(`TryGetSubBlockInfo`). `none` = undefined behaviour. -/
def toDraw (useVisibilityCheck : Bool) (roi : IntRect) (ordered : List Item) : Option (List Nat) :=
  if useVisibilityCheck then
    (Coverage.checkForVisibility roi ordered.length (fun i => ((ordered[i]?).map (·.2.rect)).getD ⟨0, 0, -1, -1⟩)).map fun vis =>
      vis.filterMap fun i => (ordered[i]?).map (·.1.toNat)
  else some (ordered.map (·.1.toNat))

/-- The statistics of the document, CZIReader.cpp:200-205. -/
def docStats (doc : Doc) : Stats := (doc.entries.foldl ReaderDir.add ReaderDir.init).upd.stats

/-- `CSingleChannelTileAccessor::InternalGet`, SingleChannelTileAccessor.cpp:125-162. -/
def internalGet (sort : List Item → List Item) (c : Codecs) (mem : Memory) (al : Alloc) (s : Stream) (doc : Doc) (pt : PixelType) (plane : Coord)
    (o : ViewOptions) (xPos yPos : Int) (dst : Bitmap) : Result Bitmap :=
  match checkPlane (docStats doc).dimBounds plane with
  | some _ => .throws
  | none =>
    match clear c.enc pt dst o.background with
    | .throws => .throws
    | .undefined => .undefined
    | .ok bg =>
      let roi : IntRect := ⟨xPos, yPos, bg.w, bg.h⟩
      let found := layer0SubBlocks (indexed doc.entries) plane roi
      match toDraw o.useVisibilityCheck roi (if o.sortByM then sort found else found) with
      | none => .undefined
      | some is => composeFetched c mem al s doc pt xPos yPos is bg

/-- `Get` with a pixel type, SingleChannelTileAccessor.cpp:34-40. -/
def getTyped (sort : List Item → List Item) (c : Codecs) (mem : Memory) (al : Alloc) (s : Stream) (doc : Doc) (pt : PixelType) (plane : Coord)
    (o : ViewOptions) (xPos yPos : Int) (w h : Nat) : Result Typed :=
  match bytesPerPel pt with
  | none => .throws
  | some bpp =>
    match internalGet sort c mem al s doc pt plane o xPos yPos (newBitmap mem.dest w h (defaultPitch bpp w)) with
    | .ok b => .ok ⟨pt, b⟩
    | .throws => .throws
    | .aborts => .aborts
    | .undefined => .undefined

/-- `TryGetPixelType`, SingleChannelAccessorBase.cpp:14-23, with `TryDeterminePixelTypeForChannel`, libCZI_Utilities.cpp:535-545. -/
def pixelTypeOf (doc : Doc) (plane : Coord) : PixelType :=
  match arbitraryInChannel (indexed doc.entries) (docStats doc) ((plane .C).getD intMin) with
  | none => .Invalid
  | some e => pixelTypeFromInt e.pixelType

/-- `Get`, SingleChannelTileAccessor.cpp:21-32. -/
def get (sort : List Item → List Item) (c : Codecs) (mem : Memory) (al : Alloc) (s : Stream) (doc : Doc) (plane : Coord)
    (o : ViewOptions) (xPos yPos : Int) (w h : Nat) : Result Typed :=
  if pixelTypeOf doc plane = .Invalid then .throws
  else getTyped sort c mem al s doc (pixelTypeOf doc plane) plane o xPos yPos w h

/-- `Get` with a pixel type and a region in some coordinate system, SingleChannelTileAccessor.cpp:34-40: `dflt` is the default frame of reference of the
reader. The size is converted to `uint32_t`. -/
def getIn (sort : List Item → List Item) (c : Codecs) (mem : Memory) (al : Alloc) (s : Stream) (doc : Doc) (dflt : Frame) (pt : PixelType) (plane : Coord)
    (o : ViewOptions) (frame : Frame) (roi : IntRect) : Result Typed :=
  match transformRectangle dflt (docStats doc).bbox0.x (docStats doc).bbox0.y frame roi .Raw with
  | none => .throws
  | some (_, r) => getTyped sort c mem al s doc pt plane o r.x r.y (toUInt32 r.w) (toUInt32 r.h)

end Verif.Viewer
