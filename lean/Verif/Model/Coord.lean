/-!
# Dimensions, coordinates and bounds

Simplification: `CDimCoordinate` (bit mask + value array) is represented by a function from dimensions to
optional values, `CDimBounds` by a function to optional (start, size) pairs. `int` values are unbounded integers.
-/

namespace Verif

/-- `enum class DimensionIndex`, libCZI_DimCoordinate.h:14-33 (MinDim = Z = 1, MaxDim = B = 9). -/
inductive Dim where
  | Z | C | T | R | S | I | H | V | B
  deriving DecidableEq, Repr

/-- The dimensions from `MinDim` to `MaxDim`: the range of the loops
`for (i = MinDim; i <= MaxDim; ++i)`, e.g. libCZI_DimCoordinate.h:66; also the order of
`EnumAllCoordinateDimensions`, CziUtils.cpp:163-175. -/
def Dim.all : List Dim := [.Z, .C, .T, .R, .S, .I, .H, .V, .B]

/-- `CDimCoordinate`, libCZI_DimCoordinate.h:147-279: `c d = some v` iff `TryGetPosition(d)` gives `v`. -/
abbrev Coord := Dim → Option Int

/-- `CDimBounds`, libCZI_DimCoordinate.h:282-415: `b d = some (start, size)`. -/
abbrev Bounds := Dim → Option (Int × Int)

/-- `CDimCoordinate()`, libCZI_DimCoordinate.h:154. -/
def Coord.empty : Coord := fun _ => none

/-- `CDimCoordinate::Set`, libCZI_DimCoordinate.h:193-198. -/
def Coord.set (c : Coord) (d : Dim) (v : Int) : Coord := fun e => if e = d then some v else c e

/-- `CDimBounds::Set`, libCZI_DimCoordinate.h:328-334. -/
def Bounds.set (b : Bounds) (d : Dim) (s n : Int) : Bounds := fun e => if e = d then some (s, n) else b e

/-- The dimensions enumerated by `CDimCoordinate::EnumValidDimensions`, libCZI_DimCoordinate.h:222-234. -/
def Coord.validDims (c : Coord) : List Dim := Dim.all.filter (fun d => (c d).isSome)

/-- The dimensions enumerated by `CDimBounds::EnumValidDimensions`, libCZI_DimCoordinate.h:338-351. -/
def Bounds.validDims (b : Bounds) : List Dim := Dim.all.filter (fun d => (b d).isSome)

/-- `IDimCoordinate::GetNumberOfValidDimensions`, libCZI_DimCoordinate.h:63-75. -/
def Coord.count (c : Coord) : Nat := (Dim.all.filter (fun d => (c d).isSome)).length

/-- Body of the loop of `Utils::Compare`, libCZI_Utilities.cpp:552-576, over the remaining dimensions. -/
def compareFrom (a b : Coord) : List Dim → Int
  | [] => 0
  | d :: ds =>
    match a d, b d with
    | some x, some y => if x > y then 1 else if x < y then -1 else compareFrom a b ds
    | some _, none => 1
    | none, some _ => -1
    | none, none => compareFrom a b ds

/-- `Utils::Compare`, libCZI_Utilities.cpp:546-579. -/
def Coord.compare (a b : Coord) : Int := compareFrom a b Dim.all

/-- Body of the enumeration in `CziUtils::CompareCoordinate`, CziUtils.cpp:138-158. -/
def compareCoordinateFrom (a b : Coord) : List Dim → Bool
  | [] => true
  | d :: ds =>
    match a d with
    | none => compareCoordinateFrom a b ds
    | some x =>
      match b d with
      | none => false
      | some y => if x ≠ y then false else compareCoordinateFrom a b ds

/-- `CziUtils::CompareCoordinate`, CziUtils.cpp:135-161. -/
def compareCoordinate (a b : Coord) : Bool := compareCoordinateFrom a b Dim.all

/-- `Utils::HasSameDimensions`, libCZI_Utilities.cpp:582-595. -/
def hasSameDimensions (a b : Coord) : Bool :=
  Dim.all.all (fun d => (a d).isSome == (b d).isSome)

namespace EnumAll

/-- Reset the listed dimensions to their start value: libCZI_Utilities.cpp:665-669. -/
def reset (b : Bounds) (ds : List Dim) (c : Coord) : Coord :=
  ds.foldl (fun c d => match b d with | some (s, _) => c.set d s | none => c) c

/-- The inner loop `for (i = 0; i < dims.size(); ++i)` of `Utils::EnumAllCoordinates`,
libCZI_Utilities.cpp:644-671. `done` are the dimensions before `i`, the list those from `i` on.
Result `none`: the function returns `true`. -/
def advance (b : Bounds) (done : List Dim) : List Dim → Coord → Option Coord
  | [], c => some c
  | d :: rest, c =>
    match b d, c d with
    | some (s, n), some v =>
      if v < s + n - 1 then some (c.set d (v + 1))
      else if rest = [] then none
      else advance b (done ++ [d]) rest (reset b (done ++ [d]) c)
    | _, _ => none  -- not reachable: `dims` are the valid dimensions of `bounds`

/-- The outer loop `for(;;)`, libCZI_Utilities.cpp:637-672. The callback is an arbitrary state machine `f`
(`false` = stop). `none` = the loop has not ended within `fuel` iterations. -/
def run {σ : Type} (b : Bounds) (dims : List Dim) (f : σ → Nat → Coord → Bool × σ) :
    Nat → Nat → Coord → σ → Option (Bool × σ)
  | 0, _, _, _ => none
  | fuel + 1, no, c, st =>
    let r := f st no c
    if r.1 = false then some (false, r.2)
    else match advance b [] dims c with
      | none => some (true, r.2)
      | some c' => run b dims f fuel (no + 1) c' r.2

/-- `Utils::EnumAllCoordinates`, libCZI_Utilities.cpp:620-673. Returns the return value and the final state of the
callback. -/
def enumAll {σ : Type} (b : Bounds) (f : σ → Nat → Coord → Bool × σ) (fuel : Nat) (st : σ) : Option (Bool × σ) :=
  if b.validDims = [] then some (true, st)
  else run b b.validDims f fuel 0 (reset b b.validDims Coord.empty) st

end EnumAll

end Verif
