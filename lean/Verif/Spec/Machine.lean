import Verif.Model.SubBlock

/-! # Documents within the range of 32-bit integers -/

namespace Verif.Spec

/-- A value of type `int` (32 bits). -/
def IsInt (v : Int) : Prop := -2147483648 ≤ v ∧ v ≤ 2147483647

/-- A rectangle whose position, size and end points are values of type `int`. -/
def Representable (r : IntRect) : Prop :=
  IsInt r.x ∧ IsInt r.y ∧ 0 ≤ r.w ∧ 0 ≤ r.h ∧ IsInt r.w ∧ IsInt r.h ∧ IsInt (r.x + r.w) ∧ IsInt (r.y + r.h)

/-- `r` lies in `frame` (and has no negative size). -/
def InFrame (frame r : IntRect) : Prop :=
  0 ≤ r.w ∧ 0 ≤ r.h ∧ frame.x ≤ r.x ∧ frame.y ≤ r.y ∧ r.x + r.w ≤ frame.x + frame.w ∧ r.y + r.h ≤ frame.y + frame.h

/-- The entry's values are of type `int` and its size is not negative. -/
def EntryInts (e : Entry) : Prop := IsInt e.x ∧ IsInt e.y ∧ IsInt e.width ∧ IsInt e.height ∧ 0 ≤ e.width ∧ 0 ≤ e.height

/-- There is a rectangle of the range of `int` in which all sub-blocks lie. -/
def FitsFrame (es : List Entry) : Prop := ∃ frame, Representable frame ∧ ∀ e ∈ es, InFrame frame e.rect

/-- For each dimension there is an interval `[lo, lo + n)` of the range of `int` in which all its values lie. -/
def FitsIntervals (es : List Entry) : Prop :=
  ∀ d, ∃ lo n, IsInt lo ∧ IsInt n ∧ IsInt (lo + n) ∧ ∀ e ∈ es, ∀ v, e.coordinate d = some v → lo ≤ v ∧ v < lo + n

end Verif.Spec
