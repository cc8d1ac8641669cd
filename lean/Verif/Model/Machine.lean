import Verif.Model.Accessor

/-!
# Rectangles, statistics, queries and the tile accessor with 32-bit integers

The other models compute coordinates with unbounded integers. Here the same functions are given with the arithmetic of the code: every addition, subtraction and
negation of `int` that the code executes is checked, in the order of the code, and `none` is the undefined behaviour of a signed overflow (or, as in
`Verif.Model.Blit`, of an access outside of a bitmap).

Simplification: the positions `x`, `y` and sizes `w`, `h` stored in entries and rectangles are integers in the range of `int`; this is a hypothesis of the theorems
where it matters, it is not part of the types.
-/

namespace Verif.Machine
open Blit Accessor

/-- The result of an operation on `int` (32 bits); `none` = signed overflow. -/
def i32 (v : Int) : Option Int := if -2147483648 ≤ v ∧ v ≤ 2147483647 then some v else none

/-- The result of an operation on `std::int64_t`; `none` = signed overflow. -/
def i64 (v : Int) : Option Int := if -9223372036854775808 ≤ v ∧ v ≤ 9223372036854775807 then some v else none

/-- Conversion of a `uint32_t` to `int`. -/
def asInt (n : Nat) : Int := if n % 4294967296 < 2147483648 then (n % 4294967296 : Nat) else ((n % 4294967296 : Nat) : Int) - 4294967296

/-! ## Rectangles -/

/-- `Utilities::Intersect`, utilities.h:53-66, and `IntRect::Intersect`, libCZI_Pixels.h:65-77. -/
def intersect (a b : IntRect) : Option IntRect := do
  let ax ← i32 (a.x + a.w)
  let bx ← i32 (b.x + b.w)
  let ay ← i32 (a.y + a.h)
  let b_y ← i32 (b.y + b.h)
  let x1 := max a.x b.x
  let x2 := min ax bx
  let y1 := max a.y b.y
  let y2 := min ay b_y
  if x2 ≥ x1 ∧ y2 ≥ y1 then (i32 (x2 - x1)).bind fun w => (i32 (y2 - y1)).bind fun h => some ⟨x1, y1, w, h⟩
  else some ⟨0, 0, 0, 0⟩

/-- `Utilities::DoIntersect`, utilities.h:68-72. -/
def doIntersect (a b : IntRect) : Option Bool := (intersect a b).map fun r => decide (r.w > 0) && decide (r.h > 0)

/-- `IntRect::IntersectsWith`, libCZI_Pixels.h:36-47: the operands of `||` are evaluated as far as needed. -/
def intersectsWith (a r : IntRect) : Option Bool :=
  if !a.isValid || !r.isValid then some false
  else (i32 (a.x + a.w)).bind fun s1 => if s1 ≤ r.x then some false
  else (i32 (r.x + r.w)).bind fun s2 => if s2 ≤ a.x then some false
  else (i32 (a.y + a.h)).bind fun s3 => if s3 ≤ r.y then some false
  else (i32 (r.y + r.h)).bind fun s4 => if s4 ≤ a.y then some false else some true

/-! ## Statistics -/

/-- One direction of `CSbBlkStatisticsUpdater::UpdateBoundingBox`, CziSubBlockDirectory.cpp:190-195 (and 197-202): extend `(x, w)` to the left so that it begins at
or before `ex`. -/
def extendLeft (x w ex : Int) : Option (Int × Int) :=
  if x > ex then (i32 (x - ex)).bind fun diff => (i32 (w + diff)).bind fun w' => some (ex, w') else some (x, w)

/-- The other end, CziSubBlockDirectory.cpp:204-207 (and 209-212). -/
def extendRight (x w ex ew : Int) : Option Int :=
  (i32 (x + w)).bind fun r => (i32 (ex + ew)).bind fun e =>
    if r < e then (i32 (ex + ew)).bind fun e' => i32 (e' - x) else some w

/-- `CSbBlkStatisticsUpdater::UpdateBoundingBox`, CziSubBlockDirectory.cpp:186-221. -/
def updateBoundingBox (r : IntRect) (e : Entry) : Option IntRect :=
  if r.isValid then
    (extendLeft r.x r.w e.x).bind fun px => (extendLeft r.y r.h e.y).bind fun py =>
      (extendRight px.1 px.2 e.x e.width).bind fun w => (extendRight py.1 py.2 e.y e.height).bind fun h =>
        some ⟨px.1, py.1, w, h⟩
  else some ⟨e.x, e.y, e.width, e.height⟩

/-- The interval update in the lambda of `UpdateStatistics`, CziSubBlockDirectory.cpp:58-82. -/
def updateInterval (b : Bounds) (d : Dim) (value : Int) : Option Bounds :=
  match b d with
  | none => some (b.set d value 1)
  | some (start, size) =>
    if value < start then (i32 (start - value)).bind fun diff => (i32 (size + diff)).bind fun n => some (b.set d value n)
    else (i32 (start + size)).bind fun e =>
      if value ≥ e then (i32 (1 + value)).bind fun v1 => (i32 (v1 - start)).bind fun n => some (b.set d start n) else some b

/-- The lambda of `EnumValidDimensions` in `UpdateStatistics`, CziSubBlockDirectory.cpp:56-99. -/
def updateDim (e : Entry) (s : Stats) (d : Dim) : Option Stats :=
  match e.coordinate d with
  | none => some s
  | some v =>
    (updateInterval s.dimBounds d v).bind fun b =>
      let s := { s with dimBounds := b }
      if e.isMIndexValid then
        some { s with minM := if e.mIndex < s.minM then e.mIndex else s.minM,
                      maxM := if e.mIndex > s.maxM then e.mIndex else s.maxM }
      else some s

/-- The scene part of `UpdateStatistics`, CziSubBlockDirectory.cpp:102-133. -/
def updateScenes (m : List (Int × (IntRect × IntRect))) (e : Entry) : Option (List (Int × (IntRect × IntRect))) :=
  match e.coordinate .S with
  | none => some m
  | some sc =>
    match mapFind m sc with
    | some (b, b0) =>
      (updateBoundingBox b e).bind fun b' => (if e.isLayer0 then updateBoundingBox b0 e else some b0).bind fun b0' =>
        some (mapSet m sc (b', b0'))
    | none => some (mapInsert m sc (e.rect, if e.isLayer0 then e.rect else invalidRect))

/-- `CSbBlkStatisticsUpdater::UpdateStatistics`, CziSubBlockDirectory.cpp:46-133 and 162 (`++subBlockCount`). -/
def statsUpdate (s : Stats) (e : Entry) : Option Stats :=
  (updateBoundingBox s.bbox e).bind fun b => (if e.isLayer0 then updateBoundingBox s.bbox0 e else some s.bbox0).bind fun b0 =>
    (e.coordinate.validDims.foldlM (updateDim e) { s with bbox := b, bbox0 := b0 }).bind fun s =>
      (updateScenes s.scenes e).bind fun sc => (i32 (s.count + 1)).bind fun n => some { s with scenes := sc, count := n }

/-- The statistics after the sub-blocks of a directory were added, `CCziSubBlockDirectory::AddSubBlock`, CziSubBlockDirectory.cpp:375-384: this is what opening a
document computes. -/
def statistics (es : List Entry) : Option Stats := es.foldlM statsUpdate Stats.init

/-! ## Queries -/

/-- Enumerating with a callback whose evaluation may be undefined, `EnumSubBlocks`, CziSubBlockDirectory.cpp:403-414. -/
def enumerate {σ α : Type} (f : σ → Int → α → Option (Bool × σ)) : List (Int × α) → σ → Option σ
  | [], st => some st
  | (i, a) :: as, st => (f st i a).bind fun r => if r.1 = false then some r.2 else enumerate f as r.2

/-- `CziReaderCommon::EnumSubset`, CziReaderCommon.cpp:15-41. -/
def enumSubset {σ : Type} (items : List (Int × Entry)) (plane : Option Coord) (roi : Option IntRect) (onlyLayer0 : Bool)
    (f : σ → Int → Entry → Option (Bool × σ)) (st : σ) : Option σ :=
  enumerate (fun st i e =>
    if onlyLayer0 = false ∨ (e.storedWidth = e.width ∧ e.storedHeight = e.height) then
      if (match plane with | none => true | some c => compareCoordinate c e.coordinate) then
        (match roi with | none => some true | some r => doIntersect r e.rect).bind fun b =>
          if b then f st i e else some (true, st)
      else some (true, st)
    else some (true, st)) items st

/-! ## Coverage -/

/-- `RectangleCoverageCalculator::IsCompletelyContained`, utilities.cpp:710-714, evaluated as far as needed. -/
def isCompletelyContained (outer inner : IntRect) : Option Bool :=
  if ¬ inner.x ≥ outer.x then some false
  else (i32 (inner.x + inner.w)).bind fun a => (i32 (outer.x + outer.w)).bind fun b => if ¬ a ≤ b then some false
  else if ¬ inner.y ≥ outer.y then some false
  else (i32 (inner.y + inner.h)).bind fun c => (i32 (outer.y + outer.h)).bind fun d => some (decide (c ≤ d))

/-- The expression `b + bs - a - as` of `SplitUpIntoNonOverlapping` (utilities.cpp:661, 674, 679, 688, 695, 703), evaluated from left to right. -/
def beyond (b bs a as : Int) : Option Int := (i32 (b + bs)).bind fun s => (i32 (s - a)).bind fun t => i32 (t - as)

/-- The strip above `a` within the columns from `x` on (utilities.cpp:655-658, 672-675, 686-689). -/
def stripAbove (c : Prop) [Decidable c] (x : Int) (w : Option Int) (a b : IntRect) : Option (List IntRect) :=
  if c then w.bind fun w => (i32 (a.y - b.y)).bind fun h => some [⟨x, b.y, w, h⟩] else some []

/-- The strip below `a` (utilities.cpp:660-663, 677-680, 691-694). -/
def stripBelow (x : Int) (w : Option Int) (a b : IntRect) : Option (List IntRect) :=
  (i32 (b.y + b.h)).bind fun b2 => (i32 (a.y + a.h)).bind fun a2 =>
    if b2 > a2 then w.bind fun w => (i32 (a.y + a.h)).bind fun y => (beyond b.y b.h a.y a.h).bind fun h => some [⟨x, y, w, h⟩]
    else some []

/-- `RectangleCoverageCalculator::SplitUpIntoNonOverlapping`, utilities.cpp:648-707. -/
def splitUp (a b : IntRect) : Option (List IntRect) :=
  (i32 (b.x + b.w)).bind fun bx => (i32 (a.x + a.w)).bind fun ax =>
  if b.x ≥ a.x ∧ bx ≤ ax then
    (stripAbove (a.y > b.y) b.x (some b.w) a b).bind fun l1 => (stripBelow b.x (some b.w) a b).bind fun l2 => some (l1 ++ l2)
  else if b.x < a.x ∧ bx ≤ ax then
    (i32 (a.x - b.x)).bind fun w0 =>
    (stripAbove (b.y < a.y) a.x (i32 (bx - a.x)) a b).bind fun l1 => (stripBelow a.x (i32 (bx - a.x)) a b).bind fun l2 =>
      some ([⟨b.x, b.y, w0, b.h⟩] ++ l1 ++ l2)
  else if b.x ≥ a.x ∧ bx > ax then
    (beyond b.x b.w a.x a.w).bind fun w0 =>
    (stripAbove (b.y < a.y) b.x (i32 (ax - b.x)) a b).bind fun l1 => (stripBelow b.x (i32 (ax - b.x)) a b).bind fun l2 =>
      some ([⟨ax, b.y, w0, b.h⟩] ++ l1 ++ l2)
  else if b.x ≤ a.x ∧ bx ≥ ax then
    (i32 (a.x - b.x)).bind fun w0 => (beyond b.x b.w a.x a.w).bind fun w1 =>
      (if a.y > b.y then (i32 (a.y - b.y)).bind fun h => some [⟨a.x, b.y, a.w, h⟩]
       else (i32 (a.y + a.h)).bind fun ay => if ¬ ay > b.y then some []
         else (i32 (b.y + b.h)).bind fun b2 => if ay < b2 then (beyond b.y b.h a.y a.h).bind fun h => some [⟨a.x, ay, a.w, h⟩]
           else some []).bind fun l => some ([⟨b.x, b.y, w0, b.h⟩, ⟨ax, b.y, w1, b.h⟩] ++ l)
  else some []

/-- The search of `AddRectangle`, utilities.cpp:605-608: the first rectangle that intersects `r`, and the vector without it. -/
def locate (r : IntRect) : List IntRect → Option (Option (IntRect × List IntRect))
  | [] => some none
  | s :: S => (intersectsWith s r).bind fun b =>
    if b then some (some (s, S)) else (locate r S).map fun o => o.map fun p => (p.1, s :: p.2)

/-- `RectangleCoverageCalculator::AddRectangle`, utilities.cpp:593-646, with fuel as in `Coverage.addRectangleFuel`. -/
def addRectangleFuel : Nat → List IntRect → IntRect → Option (List IntRect)
  | 0, _, _ => none
  | fuel + 1, S, r =>
    if !r.isValid then some S
    else
      (locate r S).bind fun o =>
      match o with
      | none => some (S ++ [r])
      | some (s, rest) =>
        (isCompletelyContained s r).bind fun c1 => if c1 then some S
        else (isCompletelyContained r s).bind fun c2 => if c2 then addRectangleFuel fuel rest r
        else (splitUp s r).bind fun ps => ps.foldlM (fun S' q => addRectangleFuel fuel S' q) S

/-- `AddRectangle` with the fuel of `Coverage.addRectangle`. -/
def addRectangle (S : List IntRect) (r : IntRect) : Option (List IntRect) := addRectangleFuel (S.length + 1) S r

/-- `RectangleCoverageCalculator::CalcAreaOfIntersectionWithRectangle`, utilities.cpp:716-734: products and sum are 64-bit. -/
def calcArea (S : List IntRect) (q : IntRect) : Option Int :=
  if !q.isValid then some 0
  else S.foldlM (fun area r => (intersect r q).bind fun i =>
    if i.isValid then (i64 (i.w * i.h)).bind fun p => i64 (area + p) else some area) 0

/-- The loop of `CheckForVisibilityCore`, SingleChannelAccessorBase.cpp:121-140. -/
def visLoop (roi : IntRect) (total : Int) (rectOf : Nat → IntRect) : Nat → List IntRect → Int → List Nat → Option (List Nat)
  | 0, _, _, result => some result
  | i + 1, S, covered, result =>
    (addRectangle S (rectOf i)).bind fun S' => (calcArea S' roi).bind fun newCovered =>
      if newCovered > covered then
        if newCovered = total then some (result ++ [i]) else visLoop roi total rectOf i S' newCovered (result ++ [i])
      else visLoop roi total rectOf i S' covered result

/-- `CSingleChannelAccessorBase::CheckForVisibilityCore`, SingleChannelAccessorBase.cpp:108-145. -/
def checkForVisibility (roi : IntRect) (count : Nat) (rectOf : Nat → IntRect) : Option (List Nat) :=
  if count = 0 ∨ !roi.isNonEmpty then some []
  else (i64 (roi.w * roi.h)).bind fun total => (visLoop roi total rectOf count [] 0 []).map List.reverse

/-! ## Copying and the tile accessor -/

/-- `CBitmapOperations::CopyWithOffset`, BitmapOperations.cpp:175-194 (without tile border). -/
def copyWithOffset (k : Kind) (src : Bitmap) (dst : Bitmap) (xOff yOff : Int) : Option Bitmap :=
  (intersect ⟨xOff, yOff, asInt src.w, asInt src.h⟩ ⟨0, 0, asInt dst.w, asInt dst.h⟩).bind fun i =>
  if i.w = 0 ∨ i.h = 0 then some dst
  else (i32 (-yOff)).bind fun ny => (i32 (-xOff)).bind fun nx =>
    let d := i.y.toNat * dst.stride + i.x.toNat * k.db
    let s := (max ny 0).toNat * src.stride + (max nx 0).toNat * k.sb
    let res := match k with
      | .same bpp => copySamePixelType bpp src.buf s src.stride dst.buf d dst.stride i.w.toNat i.h.toNat false
      | .conv c => copyConv c src.buf s src.stride dst.buf d dst.stride i.w.toNat i.h.toNat
    res.map fun b => { dst with buf := b }

/-- `BitmapOperationsBitonal::CopyWithOffsetAndMask`, BitmapOperationsBitonal.cpp:958-999 (without tile border). -/
def copyWithOffsetAndMask (k : Kind) (src : Bitmap) (dst : Bitmap) (mask : Option Mask) (xOff yOff : Int) : Option Bitmap :=
  match mask with
  | none => copyWithOffset k src dst xOff yOff
  | some m =>
    (intersect ⟨xOff, yOff, min (asInt src.w) (asInt m.w), min (asInt src.h) (asInt m.h)⟩ ⟨0, 0, asInt dst.w, asInt dst.h⟩).bind fun i =>
    if i.w = 0 ∨ i.h = 0 then some dst
    else (i32 (-xOff)).bind fun nx => (i32 (-yOff)).bind fun ny =>
      let tx := (max nx 0).toNat
      let ty := (max ny 0).toNat
      let d := i.y.toNat * dst.stride + i.x.toNat * k.db
      let s := ty * src.stride + tx * k.sb
      let res := match k with
        | .same bpp => copySameWithMask bpp src.buf s src.stride dst.buf d dst.stride i.w.toNat i.h.toNat m.buf m.stride tx ty
        | .conv c => copyConvWithMask c src.buf s src.stride dst.buf d dst.stride i.w.toNat i.h.toNat m.buf m.stride tx ty
      res.map fun b => { dst with buf := b }

/-- `Compositors::ComposeSingleChannelTilesMaskAware`, SingleChannelTileCompositor.cpp:105-135. -/
def composeTiles (k : Kind) (xPos yPos : Int) : List Tile → Bitmap → Option Bitmap
  | [], dst => some dst
  | t :: ts, dst => (i32 (t.x - xPos)).bind fun dx => (i32 (t.y - yPos)).bind fun dy =>
    (copyWithOffsetAndMask k t.bm dst t.mask dx dy).bind (composeTiles k xPos yPos ts)

/-- `CSingleChannelTileAccessor::GetAllSubBlocks`, SingleChannelTileAccessor.cpp:164-176. -/
def layer0SubBlocks (items : List Item) (plane : Coord) (roi : IntRect) : Option (List Item) :=
  enumSubset items (some plane) none true
    (fun st i e => (doIntersect roi e.rect).map fun b => if b then (true, st ++ [(i, e)]) else (true, st)) []

/-- `CSingleChannelTileAccessor::ComposeTiles`, SingleChannelTileAccessor.cpp:48-123. -/
def accessorComposeTiles (k : Kind) (useVisibilityCheck : Bool) (xPos yPos : Int)
    (subBlocks : List (IntRect × Bitmap × Option Mask)) (dst : Bitmap) : Option Bitmap :=
  let tileOf := fun (s : IntRect × Bitmap × Option Mask) => (⟨s.1.x, s.1.y, s.2.1, s.2.2⟩ : Tile)
  if useVisibilityCheck then
    (checkForVisibility ⟨xPos, yPos, asInt dst.w, asInt dst.h⟩ subBlocks.length
      (fun i => ((subBlocks[i]?).map (·.1)).getD ⟨0, 0, -1, -1⟩)).bind fun vis =>
    composeTiles k xPos yPos (vis.filterMap fun i => (subBlocks[i]?).map tileOf) dst
  else composeTiles k xPos yPos (subBlocks.map tileOf) dst

/-- `CSingleChannelTileAccessor::InternalGet` and `GetSubBlocksSubset`, SingleChannelTileAccessor.cpp:125-162. -/
def tileAccessorGet (sort : List Item → List Item) (k : Kind) (items : List Item) (bounds : Bounds) (plane : Coord)
    (sortByM useVisibilityCheck : Bool) (pix : Pictures) (xPos yPos : Int) (dst : Bitmap) :
    Except PlaneError (Option Bitmap) :=
  match checkPlane bounds plane with
  | some e => .error e
  | none => .ok <|
    (layer0SubBlocks items plane ⟨xPos, yPos, asInt dst.w, asInt dst.h⟩).bind fun found =>
      let ordered := if sortByM then sort found else found
      accessorComposeTiles k useVisibilityCheck xPos yPos (ordered.map fun p => (p.2.rect, (pix p.1).1, (pix p.1).2)) dst

end Verif.Machine
