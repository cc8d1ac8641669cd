import Verif.Model.AddOverloads
import Verif.Model.Jxr
import Verif.Model.Float
import Verif.Model.Machine

/-!
# The command "CreateCZI" of the program CZIcmd

`CExecuteCreateCzi`, CZICmd/executeCreateCzi.cpp: a document is written that has, for each coordinate within given bounds, the tiles of a mosaic with
generated pictures.

Simplifications: the generator of the pictures, the sub-block metadata (the same for all sub-blocks) and the text of the document's metadata (any function of
the state of the writer; C64, C66 and C92 are about it) are parameters. The messages to the console are left out. The type `long` has 64 bits. The stream does
not fail (C98 is about streams that do).
-/

namespace Verif.CreateCzi
open Czi Blit Zstd

/-- `struct CreateTileInfo`, cmdlineoptions.h:130-137. -/
structure TileInfo where
  rows : Nat
  columns : Nat
  overlap : ℚ

/-- `CreateTileInfo::IsValid`, cmdlineoptions.h:136. -/
def TileInfo.isValid (t : TileInfo) : Bool := decide (0 < t.rows) && decide (0 < t.columns)

/-- Conversion to `uint32_t`. -/
def u32 (v : Int) : Nat := (v % 4294967296).toNat

/-- The position in one direction, executeCreateCzi.cpp:337-338: `k * size` is computed with 32 bits, converted to `float`, multiplied with the overlap and rounded by
`lrint`; the difference is computed with 32 bits and converted to `int`. -/
def axisPosition (k size : Nat) (overlap : ℚ) : Int :=
  Machine.asInt (u32 ((k * size % 4294967296 : Nat) - u32 (Flt.roundEven (Flt.f32 (Flt.f32 (k * size % 4294967296 : Nat) * overlap)))))

/-- `CExecuteCreateCzi::CalcTilePosition`, executeCreateCzi.cpp:327-340: `x`, `y` and the m-index; `none`: `false` is returned. -/
def calcTilePosition (t : TileInfo) (w h cnt : Nat) : Option (Int × Int × Int) :=
  let r := cnt / t.columns
  let c := cnt - r * t.columns
  if r ≥ t.rows ∨ c ≥ t.columns then none
  else some (axisPosition c w t.overlap, axisPosition r h t.overlap, Machine.asInt cnt)

/-- What the command does not compute itself. -/
structure Env where
  codec : Codec
  /-- the contents of fresh memory -/
  fresh : Nat → UInt8
  /-- `ZSTD_compressBound` -/
  bound : Nat → Nat
  /-- `IBitmapGen::Create` -/
  generate : PixelType → Nat → Nat → Coord → Int → Int × Int → Jxr.Typed
  /-- the text of the metadata, executeCreateCzi.cpp:280-308 -/
  xml : WState → List UInt8

/-- The options of the command line that are used, cmdlineoptions.h:171-194. -/
structure Options where
  bounds : Bounds
  tiles : TileInfo
  width : Nat
  height : Nat
  pixelType : PixelType
  compression : CompressionMode
  /-- whether the compression parameters ask for separating low and high bytes -/
  packing : Bool
  guid : Guid
  /-- the sub-block metadata -/
  metadata : List UInt8

/-- The position of a tile, the lambda in executeCreateCzi.cpp:238-253: without tile information there is one tile. -/
def position (o : Options) (cnt : Nat) : Option (Int × Int × Int) :=
  if o.tiles.isValid then calcTilePosition o.tiles o.width o.height cnt else if cnt = 0 then some (0, 0, 0) else none

/-- The descriptive part of a sub-block, executeCreateCzi.cpp:87-97, 107-117 and 131-141, with `AddSubBlockInfoBase::Clear`, libCZI_Write.h:486-500. -/
def base (coord : Coord) (p : Int × Int × Int) (t : Jxr.Typed) (mode : CompressionMode) : AddBase :=
  { coordinate := coord, mIndex := some p.2.2, x := p.1, y := p.2.1, logicalWidth := Machine.asInt t.bm.w, logicalHeight := Machine.asInt t.bm.h,
    physicalWidth := Machine.asInt t.bm.w, physicalHeight := Machine.asInt t.bm.h, pixelType := t.pt, pyramidType := .None,
    compression := compressionModeToInt mode }

/-- The sub-block metadata, executeCreateCzi.cpp:45-79: a null pointer if there are none. -/
def givenMetadata (m : List UInt8) : Given := if m = [] then ⟨none, 0⟩ else ⟨some (Buf.ofList m), m.length % 4294967296⟩

/-- A compressed sub-block, executeCreateCzi.cpp:102-148 with `CompressZStd0Alloc` and `CompressZStd1Alloc`, zstdCompress.cpp:208-224 and 365-378: if the compressed data do not
fit into the memory, a null pointer is used (`undefined`). -/
def compressed (coord : Coord) (p : Int × Int × Int) (t : Jxr.Typed) (mode : CompressionMode) (metadata : List UInt8) (r : Res (Option (List UInt8))) : Outcome AddInfo :=
  match r with
  | none => .undefined
  | some (.error _) => .throws
  | some (.ok none) => .undefined
  | some (.ok (some z)) =>
    (AddMemPtr.mk (base coord p t mode) ⟨some (Buf.ofList z), z.length % 4294967296⟩ (givenMetadata metadata) ⟨none, 0⟩).info

/-- The sub-block of a tile, `CExecuteCreateCzi::AddSubBlock`, executeCreateCzi.cpp:38-149; `ok none`: nothing is added (none of the three compression modes). The size of the memory for
compressed data is zstdCompress.cpp:140-157 (0 if the bitmap has no pixels: then the compressor throws). -/
def subBlock (env : Env) (o : Options) (coord : Coord) (p : Int × Int × Int) : Outcome (Option AddInfo) :=
  let t := env.generate o.pixelType o.width o.height coord p.2.2 (p.1, p.2.1)
  let bound := env.bound (t.bm.w * (bytesPerPel t.pt).getD 0 * t.bm.h)
  let add := fun (r : Outcome AddInfo) => match r with | .ok a => Outcome.ok (some a) | .throws => .throws | .undefined => .undefined
  match o.compression with
  | .Invalid | .UnCompressed =>
    add (AddStrided.mk (base coord p t .UnCompressed) (some t.bm.buf) t.bm.stride (givenMetadata o.metadata) ⟨none, 0⟩).info
  | .Zstd1 =>
    add (compressed coord p t .Zstd1 o.metadata (compress1 env.codec env.fresh t.bm.w t.bm.h t.bm.stride t.pt o.packing t.bm.buf (3 + bound)))
  | .Zstd0 =>
    add (compressed coord p t .Zstd0 o.metadata (compress0 env.codec env.fresh t.bm.w t.bm.h t.bm.stride t.pt t.bm.buf bound))
  | _ => .ok none

/-- One iteration: the sub-block is added; an exception of the writer ends the command. -/
def addTile (env : Env) (o : Options) (coord : Coord) (p : Int × Int × Int) (s : Sys) : Outcome Sys :=
  match subBlock env o coord p with
  | .throws => .throws
  | .undefined => .undefined
  | .ok none => .ok s
  | .ok (some a) => let r := step s (.addSubBlock a); if r.2.isSome then .throws else .ok r.1

/-- The loop of `AddSubBlock`, executeCreateCzi.cpp:30-36 (the counter is a `uint32_t`). `none`: not ended within `fuel` iterations. -/
def tileLoop (env : Env) (o : Options) (coord : Coord) : Nat → Nat → Sys → Option (Outcome Sys)
  | 0, _, _ => none
  | fuel + 1, cnt, s =>
    match position o cnt with
    | none => some (.ok s)
    | some p =>
      match addTile env o coord p s with
      | .ok s' => tileLoop env o coord fuel ((cnt + 1) % 4294967296) s'
      | .throws => some .throws
      | .undefined => some .undefined

/-- The callback for the coordinates, executeCreateCzi.cpp:226-276. The state is that of the loops; nothing is done any more after an exception. -/
def forCoordinate (env : Env) (o : Options) (fuel : Nat) (st : Option (Outcome Sys)) (_ : Nat) (coord : Coord) : Bool × Option (Outcome Sys) :=
  match st with
  | some (.ok s) =>
    match tileLoop env o coord fuel 0 s with
    | some (.ok s') => (true, some (.ok s'))
    | r => (false, r)
  | st => (false, st)

/-- The bounds that are used, executeCreateCzi.cpp:210-214. -/
def withChannel (b : Bounds) : Bounds := if (b .C).isSome then b else b.set .C 0 1

/-- The information for the writer, executeCreateCzi.cpp:204: only a GUID. -/
def writerInfo (o : Options) : WriterInfo := ⟨o.guid, none, none, none, none, none⟩

/-- The end of `DoIt`, executeCreateCzi.cpp:280-324: the metadata are written and the writer is closed. -/
def finish (env : Env) (s : Sys) : Outcome Disk :=
  let m := step s (.writeMetadata ⟨some (env.xml s.w), some []⟩)
  if m.2.isSome then .throws
  else
    let c := step m.1 .close
    if c.2.isSome then .throws else .ok c.1.disk

/-- `CExecuteCreateCzi::DoIt`, executeCreateCzi.cpp:191-325, on a stream with the contents `d`. `none`: not ended within `fuel` iterations of one of the loops. -/
def doIt (env : Env) (o : Options) (fuel : Nat) (d : Disk) : Option (Outcome Disk) :=
  let r := step ⟨WState.init false, d⟩ (.create (writerInfo o))
  if r.2.isSome then some .throws
  else
    match EnumAll.enumAll (withChannel o.bounds) (forCoordinate env o fuel) fuel (some (.ok r.1)) with
    | none => none
    | some (_, none) => none
    | some (_, some .throws) => some .throws
    | some (_, some .undefined) => some .undefined
    | some (_, some (.ok s)) => some (finish env s)

end Verif.CreateCzi
