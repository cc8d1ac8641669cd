import Verif.Model.Enum

/-!
# Sub-block entries, statistics and the three sub-block directories

Simplifications: `int` values are unbounded integers (no overflow); the `double`/`float` zoom computations use exact
rationals (the comparisons near the ends of the tolerance intervals may differ by rounding); `std::map` is a
key-sorted association list, `std::set` a sorted list.
-/

namespace Verif

/-- `CCziSubBlockDirectoryBase::SubBlkEntry`, CziSubBlockDirectory.h:22-52. -/
structure Entry where
  coordinate : Coord
  /-- `INT_MIN` = no m-index -/
  mIndex : Int
  x : Int
  y : Int
  width : Int
  height : Int
  storedWidth : Int
  storedHeight : Int
  pixelType : Int
  filePosition : Nat
  compression : Int
  pyramidType : UInt8

namespace Entry

/-- `SubBlkEntry::IsMIndexValid`, CziSubBlockDirectory.h:37-40. -/
def isMIndexValid (e : Entry) : Bool := decide (e.mIndex ≠ intMin)

/-- `SubBlkEntry::IsStoredSizeEqualLogicalSize`, CziSubBlockDirectory.h:42-45. -/
def isLayer0 (e : Entry) : Bool := decide (e.width = e.storedWidth) && decide (e.height = e.storedHeight)

/-- The logical rectangle, CziReaderCommon.cpp:118. -/
def rect (e : Entry) : IntRect := ⟨e.x, e.y, e.width, e.height⟩

/-- `CompareForEquality_Coordinate`, CziSubBlockDirectory.cpp:13-29. -/
def equalCoordinate (a b : Entry) : Bool :=
  if a.coordinate.compare b.coordinate = 0 then
    if a.isMIndexValid && b.isMIndexValid then
      decide (a.mIndex = b.mIndex) && a.isLayer0 && b.isLayer0
    else false
  else false

end Entry

/-! ## Association lists with sorted integer keys (`std::map<int, T>`) -/

/-- `std::map::find`. -/
def mapFind {α : Type} (m : List (Int × α)) (k : Int) : Option α := (m.find? (fun p => p.1 == k)).map (·.2)

/-- `std::map::insert` of a key (no change if the key is present), keeping the keys sorted. -/
def mapInsert {α : Type} (m : List (Int × α)) (k : Int) (v : α) : List (Int × α) :=
  match m with
  | [] => [(k, v)]
  | (k', v') :: r => if k < k' then (k, v) :: (k', v') :: r else if k = k' then (k', v') :: r
                     else (k', v') :: mapInsert r k v

/-- Assignment through an iterator: replace the value of an existing key. -/
def mapSet {α : Type} (m : List (Int × α)) (k : Int) (v : α) : List (Int × α) :=
  m.map (fun p => if p.1 = k then (k, v) else p)

/-- `std::map::erase`. -/
def mapErase {α : Type} (m : List (Int × α)) (k : Int) : List (Int × α) := m.filter (fun p => p.1 ≠ k)

/-! ## Statistics -/

/-- `struct SubBlockStatistics`, libCZI.h:479-541. An invalid rectangle has `w = h = -1`; `x`,`y` are then
unspecified (0 here). -/
structure Stats where
  count : Int
  minM : Int
  maxM : Int
  bbox : IntRect
  bbox0 : IntRect
  dimBounds : Bounds
  /-- per scene: bounding box of all, bounding box of layer 0 -/
  scenes : List (Int × (IntRect × IntRect))

/-- `IntRect::Invalidate`, libCZI_Pixels.h:25. -/
def invalidRect : IntRect := ⟨0, 0, -1, -1⟩

/-- The constructor `CSbBlkStatisticsUpdater()`, CziSubBlockDirectory.cpp:33-37, with `SubBlockStatistics::Invalidate`,
libCZI.h:530-539. -/
def Stats.init : Stats := ⟨0, intMax, intMin, invalidRect, invalidRect, fun _ => none, []⟩

/-- `CSbBlkStatisticsUpdater::UpdateBoundingBox`, CziSubBlockDirectory.cpp:186-221. -/
def updateBoundingBox (r : IntRect) (e : Entry) : IntRect :=
  if r.isValid then
    let r := if r.x > e.x then { r with x := e.x, w := r.w + (r.x - e.x) } else r
    let r := if r.y > e.y then { r with y := e.y, h := r.h + (r.y - e.y) } else r
    let r := if r.x + r.w < e.x + e.width then { r with w := (e.x + e.width) - r.x } else r
    if r.y + r.h < e.y + e.height then { r with h := (e.y + e.height) - r.y } else r
  else ⟨e.x, e.y, e.width, e.height⟩

/-- The interval update in the lambda of `UpdateStatistics`, CziSubBlockDirectory.cpp:58-82. -/
def updateInterval (b : Bounds) (d : Dim) (value : Int) : Bounds :=
  match b d with
  | none => b.set d value 1
  | some (start, size) =>
    if value < start then b.set d value (size + (start - value))
    else if value ≥ start + size then b.set d start (1 + value - start)
    else b

/-- The lambda of `EnumValidDimensions` in `UpdateStatistics`, CziSubBlockDirectory.cpp:56-99: note that the minimum and
maximum of the m-index are updated *inside* (i.e. only if the coordinate has a dimension). -/
def updateDim (e : Entry) (s : Stats) (d : Dim) : Stats :=
  match e.coordinate d with
  | none => s
  | some v =>
    let s := { s with dimBounds := updateInterval s.dimBounds d v }
    if e.isMIndexValid then
      { s with minM := if e.mIndex < s.minM then e.mIndex else s.minM,
               maxM := if e.mIndex > s.maxM then e.mIndex else s.maxM }
    else s

/-- The scene part of `UpdateStatistics`, CziSubBlockDirectory.cpp:102-133. -/
def updateScenes (m : List (Int × (IntRect × IntRect))) (e : Entry) : List (Int × (IntRect × IntRect)) :=
  match e.coordinate .S with
  | none => m
  | some sc =>
    match mapFind m sc with
    | some (b, b0) => mapSet m sc (updateBoundingBox b e, if e.isLayer0 then updateBoundingBox b0 e else b0)
    | none => mapInsert m sc (e.rect, if e.isLayer0 then e.rect else invalidRect)

/-- The part of `CSbBlkStatisticsUpdater::UpdateStatistics` that maintains `SubBlockStatistics`,
CziSubBlockDirectory.cpp:46-133 and 162. -/
def Stats.update (s : Stats) (e : Entry) : Stats :=
  let s := { s with bbox := updateBoundingBox s.bbox e,
                    bbox0 := if e.isLayer0 then updateBoundingBox s.bbox0 e else s.bbox0 }
  let s := e.coordinate.validDims.foldl (updateDim e) s
  { s with scenes := updateScenes s.scenes e, count := s.count + 1 }

/-! ## Pyramid statistics -/

/-- `PyramidStatistics::PyramidLayerInfo`, libCZI.h:556-570: (minification factor, layer number). -/
abbrev LayerInfo := Nat × Nat

/-- `PyramidStatistics`, libCZI.h:544-582: per scene a list of (layer, count). -/
abbrev PyrStats := List (Int × List (LayerInfo × Nat))

/-- `CziUtils::CalculateMinificationFactor`, CziUtils.cpp:177-194, as numerator and denominator. -/
def minificationFraction (lw lh pw ph : Int) : Int × Int := if pw > ph then (lw, pw) else (lh, ph)

/-- `IsInRange`, CziSubBlockDirectory.cpp:246-254, with value `v` and tolerance `t/10`: exact rational comparison
`v - t/10 ≤ n/d ≤ v + t/10`; a zero denominator gives infinity or NaN, never in range. -/
def inRange (n d : Int) (v t : Int) : Bool :=
  if d = 0 then false
  else
    -- make the denominator positive
    let (n, d) := if d < 0 then (-n, -d) else (n, d)
    decide ((10 * v - t) * d ≤ 10 * n) && decide (10 * n ≤ (10 * v + t) * d)

/-- `CSbBlkStatisticsUpdater::TryToDeterminePyramidLayerInfo`, CziSubBlockDirectory.cpp:231-306, including the fallback
0xff of `UpdateStatistics`, lines 146-150. Entries of the tables: (value, 10*tolerance, layer). -/
def layerInfo (e : Entry) : LayerInfo :=
  if e.isLayer0 then (0, 0)
  else
    let (n, d) := minificationFraction e.width e.height e.storedWidth e.storedHeight
    match ([(2, 1, 1), (4, 2, 2), (8, 4, 3), (16, 8, 4), (32, 10, 5), (64, 10, 6), (128, 10, 7), (256, 20, 8),
            (512, 40, 9), (1024, 100, 10)] : List (Int × Int × Nat)).find? (fun r => inRange n d r.1 r.2.1) with
    | some r => (2, r.2.2)
    | none =>
      match ([(3, 1, 1), (9, 2, 2), (27, 8, 3), (81, 15, 4), (243, 20, 5), (729, 50, 6), (2187, 150, 7)] :
              List (Int × Int × Nat)).find? (fun r => inRange n d r.1 r.2.1) with
      | some r => (3, r.2.2)
      | none => (255, 255)

/-- `CSbBlkStatisticsUpdater::UpdatePyramidLayerStatistics`, CziSubBlockDirectory.cpp:308-322. -/
def updateLayerList (v : List (LayerInfo × Nat)) (l : LayerInfo) : List (LayerInfo × Nat) :=
  match v with
  | [] => [(l, 1)]
  | (l', n) :: r => if l = l' then (l', n + 1) :: r else (l', n) :: updateLayerList r l

/-- The scene key used for pyramid statistics, CziSubBlockDirectory.cpp:138-143. -/
def sceneKey (e : Entry) : Int := (e.coordinate .S).getD intMax

/-- The pyramid part of `UpdateStatistics`, CziSubBlockDirectory.cpp:135-160. (Sorting the layer lists,
`SortPyramidStatistics` lines 324-367, only permutes them and is not modelled.) -/
def PyrStats.update (p : PyrStats) (e : Entry) : PyrStats :=
  match mapFind p (sceneKey e) with
  | some v => mapSet p (sceneKey e) (updateLayerList v (layerInfo e))
  | none => mapInsert p (sceneKey e) (updateLayerList [] (layerInfo e))

/-- `CSbBlkStatisticsUpdater`, CziSubBlockDirectory.h:61-82. -/
structure Updater where
  stats : Stats
  pyr : PyrStats

def Updater.init : Updater := ⟨Stats.init, []⟩

/-- `CSbBlkStatisticsUpdater::UpdateStatistics`, CziSubBlockDirectory.cpp:46-163. -/
def Updater.update (u : Updater) (e : Entry) : Updater := ⟨u.stats.update e, u.pyr.update e⟩

/-- `CSbBlkStatisticsUpdater::Clear`, CziSubBlockDirectory.cpp:39-44: the pyramid statistics are *not* cleared. -/
def Updater.clear (u : Updater) : Updater := ⟨Stats.init, u.pyr⟩

/-! ## Reader directory -/

/-- `CCziSubBlockDirectory`, CziSubBlockDirectory.h:85-110 (without the adding-finished flag). -/
structure ReaderDir where
  subBlks : List Entry
  upd : Updater

def ReaderDir.init : ReaderDir := ⟨[], Updater.init⟩

/-- `CCziSubBlockDirectory::AddSubBlock`, CziSubBlockDirectory.cpp:375-384. -/
def ReaderDir.add (d : ReaderDir) (e : Entry) : ReaderDir := ⟨d.subBlks ++ [e], d.upd.update e⟩

/-- `CCziSubBlockDirectory::TryGetSubBlock`, CziSubBlockDirectory.cpp:416-425, for non-negative indices. -/
def ReaderDir.get (d : ReaderDir) (i : Nat) : Option Entry := d.subBlks[i]?

/-- Enumerating with a callback (an arbitrary state machine): `EnumSubBlocks`, CziSubBlockDirectory.cpp:403-414, and
`EnumEntries`, lines 557-569 and 629-641. The items carry their index (or key). -/
def enumerate {σ α : Type} (f : σ → Int → α → Bool × σ) : List (Int × α) → σ → σ
  | [], st => st
  | (i, a) :: as, st =>
    let r := f st i a
    if r.1 = false then r.2 else enumerate f as r.2

/-- The items of the reader's directory with their running index. -/
def indexed {α : Type} (l : List α) : List (Int × α) := l.zipIdx.map (fun p => ((p.2 : Int), p.1))

/-- `CziReaderCommon::EnumSubset`, CziReaderCommon.cpp:15-41, over an enumerable repository. -/
def enumSubset {σ : Type} (items : List (Int × Entry)) (plane : Option Coord) (roi : Option IntRect) (onlyLayer0 : Bool)
    (f : σ → Int → Entry → Bool × σ) (st : σ) : σ :=
  enumerate (fun st i e =>
    if onlyLayer0 = false ∨ (e.storedWidth = e.width ∧ e.storedHeight = e.height) then
      if (match plane with | none => true | some c => compareCoordinate c e.coordinate) then
        if (match roi with | none => true | some r => r.doIntersect e.rect) then f st i e
        else (true, st)
      else (true, st)
    else (true, st)) items st

/-- `CziReaderCommon::TryGetSubBlockInfoOfArbitrarySubBlockInChannel`, CziReaderCommon.cpp:43-83. -/
def arbitraryInChannel (items : List (Int × Entry)) (stats : Stats) (c : Int) : Option Entry :=
  if (stats.dimBounds .C).isNone then
    enumerate (fun _ _ e => (false, some e)) items none
  else
    enumerate (fun st _ e => if e.coordinate .C = some c then (false, some e) else (true, st)) items none

/-! ## Writer directory -/

/-- `Utils::CalcZoom`, libCZI_Utilities.h:210-220, as a fraction (numerator, denominator). -/
def zoomFraction (e : Entry) : Int × Int :=
  if e.storedWidth > e.storedHeight then (e.storedWidth, e.width) else (e.storedHeight, e.height)

/-- The zoom as an exact rational (sizes are positive in every sub-block; a zero size would be division by
zero, here 0). -/
def zoom (e : Entry) : Rat := ((zoomFraction e).1 : Rat) / ((zoomFraction e).2 : Rat)

/-- `SubBlkEntryCompare::operator()`, CziSubBlockDirectory.cpp:465-544: "goes before". The first check uses a
tolerance of 0.0001. -/
def entryLt (includeFilePosition : Bool) (a b : Entry) : Bool :=
  if (if zoom a - zoom b < 0 then -(zoom a - zoom b) else zoom a - zoom b) > 1 / 10000 then
    decide (zoom a > zoom b)
  else
    let r := a.coordinate.compare b.coordinate
    if r < 0 then true
    else if r > 0 then false
    else if a.isMIndexValid && !b.isMIndexValid then true
    else if !a.isMIndexValid && b.isMIndexValid then false
    else if a.isMIndexValid && b.isMIndexValid && decide (a.mIndex < b.mIndex) then true
    else if a.isMIndexValid && b.isMIndexValid && decide (a.mIndex > b.mIndex) then false
    else if !a.isMIndexValid && !b.isMIndexValid && decide (a.x - b.x < 0) then true
    else if !a.isMIndexValid && !b.isMIndexValid && decide (a.x - b.x > 0) then false
    else if !a.isMIndexValid && !b.isMIndexValid && decide (a.y - b.y < 0) then true
    else if !a.isMIndexValid && !b.isMIndexValid && decide (a.y - b.y > 0) then false
    else includeFilePosition && decide (a.filePosition < b.filePosition)

/-- `std::set::insert` with comparison `lt`: the element is placed before the first one that is not less than it; it
is not inserted (`none`) if equivalent to that one. (A balanced tree finds the same position if `lt` is a strict weak
order.) -/
def setInsert {α : Type} (lt : α → α → Bool) (a : α) : List α → Option (List α)
  | [] => some [a]
  | b :: r => if lt b a then (setInsert lt a r).map (b :: ·) else if lt a b then some (a :: b :: r) else none

/-- `CWriterCziSubBlockDirectory`, CziSubBlockDirectory.h:132-180. -/
structure WriterDir where
  allowDuplicates : Bool
  subBlks : List Entry
  upd : Updater

def WriterDir.init (allowDuplicates : Bool) : WriterDir := ⟨allowDuplicates, [], Updater.init⟩

/-- `CWriterCziSubBlockDirectory::TryAddSubBlock`, CziSubBlockDirectory.cpp:452-463: the new directory and whether the entry
was added. -/
def WriterDir.tryAdd (d : WriterDir) (e : Entry) : WriterDir × Bool :=
  match setInsert (entryLt d.allowDuplicates) e d.subBlks with
  | some l => ({ d with subBlks := l, upd := d.upd.update e }, true)
  | none => (d, false)

/-! ## Reader-writer directory -/

/-- `CReaderWriterCziSubBlockDirectory`, CziSubBlockDirectory.h:182-228. -/
structure RWDir where
  subBlks : List (Int × Entry)
  next : Int
  isModified : Bool
  upd : Updater
  statsCurrent : Bool

def RWDir.init : RWDir := ⟨[], 0, false, Updater.init, true⟩

namespace RWDir

/-- `AddSubBlock`, CziSubBlockDirectory.cpp:609-627: returns the key. -/
def add (d : RWDir) (e : Entry) : RWDir × Int :=
  ({ subBlks := mapInsert d.subBlks d.next e, next := d.next + 1, isModified := true,
     upd := if d.statsCurrent then d.upd.update e else d.upd, statsCurrent := d.statsCurrent }, d.next)

/-- `TryGetSubBlock`, CziSubBlockDirectory.cpp:643-657. -/
def tryGet (d : RWDir) (k : Int) : Option Entry := mapFind d.subBlks k

/-- `TryModifySubBlock`, CziSubBlockDirectory.cpp:659-675. -/
def tryModify (d : RWDir) (k : Int) (e : Entry) : RWDir × Bool :=
  match mapFind d.subBlks k with
  | none => (d, false)
  | some _ => ({ d with subBlks := mapSet d.subBlks k e, isModified := true, statsCurrent := false }, true)

/-- `TryRemoveSubBlock`, CziSubBlockDirectory.cpp:677-697. -/
def tryRemove (d : RWDir) (k : Int) : RWDir × Option Entry :=
  match mapFind d.subBlks k with
  | none => (d, none)
  | some e => ({ d with subBlks := mapErase d.subBlks k, isModified := true, statsCurrent := false }, some e)

/-- `TryAddSubBlock`, CziSubBlockDirectory.cpp:706-718. -/
def tryAdd (d : RWDir) (e : Entry) : RWDir × Option Int :=
  if d.subBlks.any (fun p => p.2.equalCoordinate e) then (d, none)
  else let r := d.add e; (r.1, some r.2)

/-- `RecreateSubBlockStatistics`, CziSubBlockDirectory.cpp:753-762. -/
def recreate (d : RWDir) : RWDir :=
  { d with upd := d.subBlks.foldl (fun u p => u.update p.2) d.upd.clear, statsCurrent := true }

/-- `GetStatistics`, CziSubBlockDirectory.cpp:720-728. -/
def getStatistics (d : RWDir) : RWDir × Stats :=
  let d := if d.statsCurrent then d else d.recreate
  (d, d.upd.stats)

/-- `GetPyramidStatistics`, CziSubBlockDirectory.cpp:730-751 (up to the order of the layer lists). -/
def getPyramidStatistics (d : RWDir) : RWDir × PyrStats :=
  let d := if d.statsCurrent then d else d.recreate
  (d, d.upd.pyr)

end RWDir

/-! ## Checks on coordinates -/

/-- Result of `CCziWriter::CheckCoordinate`, CziWriter.h. -/
inductive CoordCheck where
  | Ok | OutOfBounds | InsufficientCoordinate | UnexpectedCoordinate
  deriving DecidableEq, Repr

/-- The loop of `CheckCoordinate`, CziWriter.cpp:1325-1344: number of dimensions of the bounds, or an error. -/
def checkDims (b : Bounds) (c : Coord) : List Dim → Nat → Except CoordCheck Nat
  | [], n => .ok n
  | d :: ds, n =>
    match b d with
    | none => checkDims b c ds n
    | some (start, size) =>
      match c d with
      | none => .error .InsufficientCoordinate
      | some v => if ¬(start ≤ v ∧ start + size > v) then .error .OutOfBounds else checkDims b c ds (n + 1)

/-- `CCziWriter::CheckCoordinate`, CziWriter.cpp:1316-1367. `mBounds` is the result of `TryGetMIndexMinMax`, `m` the
m-index if valid. -/
def checkCoordinate (dimBounds : Option Bounds) (mBounds : Option (Int × Int)) (c : Coord) (m : Option Int) : CoordCheck :=
  match dimBounds with
  | none => .Ok
  | some b =>
    match checkDims b c Dim.all 0 with
    | .error e => e
    | .ok n =>
      if n ≠ c.count then .UnexpectedCoordinate
      else
        match mBounds with
        | none => .Ok
        | some (lo, hi) =>
          match m with
          | none => .InsufficientCoordinate
          | some v => if ¬(lo ≤ v ∧ hi ≥ v) then .OutOfBounds else .Ok

/-- Error codes of `LibCZIInvalidPlaneCoordinateException`, libCZI_exceptions.h. -/
inductive PlaneError where
  | InvalidDimension | MissingDimension | CoordinateOutOfRange | SurplusDimension
  deriving DecidableEq, Repr

/-- The loop of `CheckPlaneCoordinates`, SingleChannelAccessorBase.cpp:46-84. -/
def checkPlaneDims (b : Bounds) (c : Coord) : List Dim → Option PlaneError
  | [] => none
  | d :: ds =>
    match b d with
    | some (start, size) =>
      match c d with
      | none => if size > 1 then some .MissingDimension else checkPlaneDims b c ds
      | some v => if v < start ∨ v ≥ start + size then some .CoordinateOutOfRange else checkPlaneDims b c ds
    | none => if (c d).isSome then some .SurplusDimension else checkPlaneDims b c ds

/-- `CSingleChannelAccessorBase::CheckPlaneCoordinates`, SingleChannelAccessorBase.cpp:33-85 (`none` = accepted). -/
def checkPlane (b : Bounds) (c : Coord) : Option PlaneError :=
  if (c .S).isSome then some .InvalidDimension
  else checkPlaneDims b c [.Z, .C, .T, .R, .I, .H, .V, .B]

end Verif
