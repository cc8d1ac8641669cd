import Verif.Model.CreateCzi
import Verif.Spec.AddOverloads
import Verif.Spec.Coord
import Verif.Spec.Zstd

/-!
# Specification of the command that creates a document with a mosaic
-/

namespace Verif.Spec
open Czi CreateCzi

/-- The bounds with a channel dimension: channel 0 if none is given. -/
def inChannel (b : Bounds) : Bounds := fun d => if d = .C ∧ b .C = none then some (0, 1) else b d

/-- The number of rows and columns of the mosaic: one tile if it is not specified. -/
def mosaicRows (t : TileInfo) : Nat := if 0 < t.rows ∧ 0 < t.columns then t.rows else 1
def mosaicColumns (t : TileInfo) : Nat := if 0 < t.rows ∧ 0 < t.columns then t.columns else 1

/-- The position `x` of the `k`-th tile of a row (or column) of tiles with `size` pixels which overlap by the fraction `overlap`: exact without overlap, otherwise rounded (with the
precision of `float`). -/
def TileAt (k size : Nat) (overlap : ℚ) (x : Int) : Prop :=
  (overlap = 0 → x = k * size) ∧ |(x : ℚ) - k * size * (1 - overlap)| ≤ 1 / 2 + k * size / 2 ^ 22

/-- A user who creates the bitmap of the sub-block (with default options, whatever is in fresh memory) gets one of this pixel type and size, and byte `i` of line `y` is `f y i`. -/
def Depicts (codec : Zstd.Codec) (v : SbView) (pt : PixelType) (w h n : Nat) (f : Nat → Nat → UInt8) : Prop :=
  ∃ l, v.data.bytes = some l ∧ v.data.size = l.length ∧ v.physicalSize = ((w : Int), (h : Int)) ∧ v.pixelType = pt ∧
    ∀ lib enc fresh fresh2, ∃ bm, Jxr.createBitmap lib codec enc fresh fresh2 (compressionModeFromInt v.compression) l pt w h none = .ok ⟨pt, bm⟩ ∧ Zstd.Shows bm w h n f

/-- The sub-block is the tile in row `r` and column `k` for the coordinate `c`: m-index, position and size, no pyramid, the given metadata and the generated picture. -/
structure IsTile (env : Env) (o : Options) (c : Coord) (r k : Nat) (v : SbView) : Prop where
  coordinate : v.coordinate = c
  mIndex : v.mIndex = some ((r * mosaicColumns o.tiles + k : Nat) : Int)
  position : TileAt k o.width o.tiles.overlap v.logicalRect.1 ∧ TileAt r o.height o.tiles.overlap v.logicalRect.2.1
  size : v.logicalRect.2.2 = ((o.width : Int), (o.height : Int))
  layer0 : v.pyramidType = .None
  metadata : v.metadata = payload o.metadata
  attachment : v.attachment = payload []
  picture : ∀ bpp, bytesPerPel o.pixelType = some bpp →
    let t := env.generate o.pixelType o.width o.height c (r * mosaicColumns o.tiles + k : Nat) (v.logicalRect.1, v.logicalRect.2.1)
    Depicts env.codec v o.pixelType o.width o.height (o.width * bpp) (fun y i => t.bm.buf.get (y * t.bm.stride + i))

/-- Options that make sense: a pixel type that can be stored, tiles with pixels, all positions and coordinates representable, an overlap between 0 and 100 %, and a compression mode that
the command knows, with the exception of packed Bgr48 (`C37_bgr48_packed_violated`). -/
structure JobOk (o : Options) (bpp : Nat) : Prop where
  pixel : bytesPerPel o.pixelType = some bpp
  size : 0 < o.width ∧ 0 < o.height
  bytes : o.height * (o.width * bpp) ≤ 2147483647
  width : mosaicColumns o.tiles * o.width ≤ 2147483647
  height : mosaicRows o.tiles * o.height ≤ 2147483647
  overlap : 0 ≤ o.tiles.overlap ∧ o.tiles.overlap ≤ 1
  bounds : ∀ d s n, o.bounds d = some (s, n) → 1 ≤ n ∧ IsInt32 s ∧ s + n ≤ 2147483648
  metadata : o.metadata.length ≤ 2147483647
  mode : o.compression = .Invalid ∨ o.compression = .UnCompressed ∨ o.compression = .Zstd0 ∨ o.compression = .Zstd1
  packed : o.compression = .Zstd1 → o.packing = true → o.pixelType ≠ .Bgr48

/-- The generator delivers bitmaps of the requested type and size, whose lines are in their memory and either without space between them or of a pixel type that can be copied. -/
def GeneratorOk (env : Env) (o : Options) (bpp : Nat) : Prop :=
  ∀ c m p, let t := env.generate o.pixelType o.width o.height c m p
    t.pt = o.pixelType ∧ t.bm.w = o.width ∧ t.bm.h = o.height ∧ o.width * bpp ≤ t.bm.stride ∧
      (o.height - 1) * t.bm.stride + o.width * bpp ≤ t.bm.buf.size ∧ (t.bm.stride = o.width * bpp ∨ Zstd.copySupported o.pixelType = true)

/-- The zstd library is lossless, and what it produces is not larger than the bound that it states, and the data of a tile (`n` bytes) stay below 2 GB. -/
structure CodecOk (env : Env) (n : Nat) : Prop where
  lossless : Zstd.Lossless env.codec
  bound : ∀ l, (env.codec.compress l).length ≤ env.bound l.length
  small : 3 + env.bound n ≤ 2147483647

end Verif.Spec
