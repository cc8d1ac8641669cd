/-!
# Rectangles, coverage calculation and the visibility check

Models `IntRect` (libCZI_Pixels.h), `Utilities::Intersect/DoIntersect` (utilities.h),
`RectangleCoverageCalculator` (utilities.cpp) and
`CSingleChannelAccessorBase::CheckForVisibilityCore` (SingleChannelAccessorBase.cpp).

Simplification used throughout this file: C++ `int`/`int64_t` are modelled by unbounded `Int`, i.e. the
model describes the executions in which no signed overflow happens (overflow would be undefined behaviour).
-/

namespace Verif

/-- `struct IntRect`, libCZI_Pixels.h:17-22. -/
structure IntRect where
  x : Int
  y : Int
  w : Int
  h : Int
deriving DecidableEq, Repr, Inhabited

namespace IntRect

/-- `IntRect::IsValid`, libCZI_Pixels.h:28. -/
def isValid (r : IntRect) : Bool := decide (r.w ≥ 0) && decide (r.h ≥ 0)

/-- `IntRect::IsNonEmpty`, libCZI_Pixels.h:31. -/
def isNonEmpty (r : IntRect) : Bool := decide (r.w > 0) && decide (r.h > 0)

/-- `IntRect::IntersectsWith`, libCZI_Pixels.h:36-47. -/
def intersectsWith (a r : IntRect) : Bool :=
  if !a.isValid || !r.isValid then false
  else !(decide (a.x + a.w ≤ r.x) || decide (r.x + r.w ≤ a.x) ||
         decide (a.y + a.h ≤ r.y) || decide (r.y + r.h ≤ a.y))

/-- `IntRect::Intersect`, libCZI_Pixels.h:65-77; the same code is `Utilities::Intersect`,
utilities.h:53-66. -/
def intersect (a b : IntRect) : IntRect :=
  let x1 := max a.x b.x
  let x2 := min (a.x + a.w) (b.x + b.w)
  let y1 := max a.y b.y
  let y2 := min (a.y + a.h) (b.y + b.h)
  if x2 ≥ x1 ∧ y2 ≥ y1 then ⟨x1, y1, x2 - x1, y2 - y1⟩ else ⟨0, 0, 0, 0⟩

/-- `Utilities::DoIntersect`, utilities.h:68-72. -/
def doIntersect (a b : IntRect) : Bool :=
  let r := intersect a b
  decide (r.w > 0) && decide (r.h > 0)

end IntRect

namespace Coverage

/-- `RectangleCoverageCalculator::IsCompletelyContained`, utilities.cpp:710-714. -/
def isCompletelyContained (outer inner : IntRect) : Bool :=
  decide (inner.x ≥ outer.x) && decide (inner.x + inner.w ≤ outer.x + outer.w) &&
  decide (inner.y ≥ outer.y) && decide (inner.y + inner.h ≤ outer.y + outer.h)

/-- `RectangleCoverageCalculator::SplitUpIntoNonOverlapping`, utilities.cpp:648-707.
The out-array plus count is modelled as a list. -/
def splitUp (a b : IntRect) : List IntRect :=
  if b.x ≥ a.x ∧ b.x + b.w ≤ a.x + a.w then
    (if a.y > b.y then [⟨b.x, b.y, b.w, a.y - b.y⟩] else []) ++
    (if b.y + b.h > a.y + a.h then [⟨b.x, a.y + a.h, b.w, b.y + b.h - a.y - a.h⟩] else [])
  else if b.x < a.x ∧ b.x + b.w ≤ a.x + a.w then
    [⟨b.x, b.y, a.x - b.x, b.h⟩] ++
    (if b.y < a.y then [⟨a.x, b.y, b.x + b.w - a.x, a.y - b.y⟩] else []) ++
    (if b.y + b.h > a.y + a.h then
      [⟨a.x, a.y + a.h, b.x + b.w - a.x, b.y + b.h - a.y - a.h⟩] else [])
  else if b.x ≥ a.x ∧ b.x + b.w > a.x + a.w then
    [⟨a.x + a.w, b.y, b.x + b.w - a.x - a.w, b.h⟩] ++
    (if b.y < a.y then [⟨b.x, b.y, a.x + a.w - b.x, a.y - b.y⟩] else []) ++
    (if b.y + b.h > a.y + a.h then
      [⟨b.x, a.y + a.h, a.x + a.w - b.x, b.y + b.h - a.y - a.h⟩] else [])
  else if b.x ≤ a.x ∧ b.x + b.w ≥ a.x + a.w then
    [⟨b.x, b.y, a.x - b.x, b.h⟩,
     ⟨a.x + a.w, b.y, b.x + b.w - a.x - a.w, b.h⟩] ++
    (if a.y > b.y then [⟨a.x, b.y, a.w, a.y - b.y⟩]
     else if a.y + a.h > b.y ∧ a.y + a.h < b.y + b.h then
      [⟨a.x, a.y + a.h, a.w, b.y + b.h - a.y - a.h⟩]
     else [])
  else []

/-- `RectangleCoverageCalculator::AddRectangle`, utilities.cpp:593-646, on the vector `splitters_`.
The recursion of the code is not structurally decreasing; the model takes a fuel argument and answers
`none` when it is used up (`addRectangle_total` in Props shows this never happens with the fuel used by
`addRectangle`). The special case for an empty vector (599-602) coincides with the loop finding nothing. -/
def addRectangleFuel : Nat → List IntRect → IntRect → Option (List IntRect)
  | 0, _, _ => none
  | fuel + 1, S, r =>
    if !r.isValid then some S
    else
      match S.find? (fun s => s.intersectsWith r) with
      | none => some (S ++ [r])
      | some s =>
        if isCompletelyContained s r then some S
        else if isCompletelyContained r s then
          addRectangleFuel fuel (S.eraseP (fun s => s.intersectsWith r)) r
        else (splitUp s r).foldlM (fun S' q => addRectangleFuel fuel S' q) S

/-- `AddRectangle` with sufficient fuel. -/
def addRectangle (S : List IntRect) (r : IntRect) : Option (List IntRect) :=
  addRectangleFuel (S.length + 1) S r

/-- `RectangleCoverageCalculator::CalcAreaOfIntersectionWithRectangle`, utilities.cpp:716-734. -/
def calcArea (S : List IntRect) (q : IntRect) : Int :=
  if !q.isValid then 0
  else S.foldl (fun area r =>
    let i := IntRect.intersect r q
    if i.isValid then area + i.w * i.h else area) 0

/-- `RectangleCoverageCalculator::IsCompletelyCovered`, utilities.cpp:736-744. -/
def isCompletelyCovered (S : List IntRect) (q : IntRect) : Bool :=
  if !q.isValid then true else decide (calcArea S q = q.w * q.h)

/-- The loop of `CheckForVisibilityCore`, SingleChannelAccessorBase.cpp:121-140.
`n` is `i + 1` for the loop variable `i`; the result vector is in the order of `push_back`. -/
def visLoop (roi : IntRect) (rectOf : Nat → IntRect) :
    Nat → List IntRect → Int → List Nat → Option (List Nat)
  | 0, _, _, result => some result
  | i + 1, S, covered, result =>
    match addRectangle S (rectOf i) with
    | none => none
    | some S' =>
      let newCovered := calcArea S' roi
      if newCovered > covered then
        if newCovered = roi.w * roi.h then some (result ++ [i])
        else visLoop roi rectOf i S' newCovered (result ++ [i])
      else visLoop roi rectOf i S' covered result

/-- `CSingleChannelAccessorBase::CheckForVisibilityCore`, SingleChannelAccessorBase.cpp:108-145.
`rectOf i` stands for `get_rect_of_subblock(get_subblock_index(i))`. -/
def checkForVisibility (roi : IntRect) (count : Nat) (rectOf : Nat → IntRect) : Option (List Nat) :=
  if count = 0 ∨ !roi.isNonEmpty then some []
  else (visLoop roi rectOf count [] 0 []).map List.reverse

end Coverage
end Verif
