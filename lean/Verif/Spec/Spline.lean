import Verif.Model.Spline
import Verif.Spec.Lut
import Mathlib.Algebra.BigOperators.Group.Finset.Basic

/-!
# Splines

The polynomials of a curve, what a natural cubic spline is, and which piece belongs to a position.
-/

namespace Verif.Spec
open Verif.Lut

/-- The value of a polynomial. -/
def polyValue (p : Coeffs) (x : ℚ) : ℚ := p.a * x ^ 3 + p.b * x ^ 2 + p.c * x + p.d

/-- Its first derivative. -/
def polySlope (p : Coeffs) (x : ℚ) : ℚ := 3 * p.a * x ^ 2 + 2 * p.b * x + p.c

/-- Its second derivative. -/
def polyBend (p : Coeffs) (x : ℚ) : ℚ := 6 * p.a * x + 2 * p.b

/-- The `n` polynomials `p 0, …, p (n-1)` are the natural cubic spline through the points `pt 0, …, pt n` (the argument of polynomial `i` is the
distance from the x-coordinate of point `i`): they meet the points, first and second derivatives agree at the inner points, and the second
derivative is 0 at both ends. -/
structure NaturalSpline (n : Nat) (pt : Nat → ℚ × ℚ) (p : Nat → Coeffs) : Prop where
  starts : ∀ i < n, polyValue (p i) 0 = (pt i).2
  ends : ∀ i < n, polyValue (p i) ((pt (i + 1)).1 - (pt i).1) = (pt (i + 1)).2
  slope : ∀ i, i + 1 < n → polySlope (p i) ((pt (i + 1)).1 - (pt i).1) = polySlope (p (i + 1)) 0
  bend : ∀ i, i + 1 < n → polyBend (p i) ((pt (i + 1)).1 - (pt i).1) = polyBend (p (i + 1)) 0
  left : 0 < n → polyBend (p 0) 0 = 0
  right : ∀ i, i + 1 = n → polyBend (p i) ((pt (i + 1)).1 - (pt i).1) = 0

/-- A solver that finds a solution of every system of linear equations that has one. -/
def Solves (solve : Solver) : Prop :=
  ∀ (k : Nat) (A : Nat → Nat → ℚ) (r : Nat → ℚ), (∃ x : Nat → ℚ, ∀ i < k, ∑ j ∈ Finset.range k, A i j * x j = r i) →
    ∀ i < k, ∑ j ∈ Finset.range k, A i j * solve k A r j = r i

/-- Piece `q` belongs to position `x`: it is the last one of the list that begins to the left of `x`, or the first one if there is none. -/
def PieceFor (x : ℚ) (l : List Piece) (q : Piece) : Prop :=
  ∃ i, l[i]? = some q ∧ (q.x < x ∨ i = 0) ∧ ∀ j q', i < j → l[j]? = some q' → x ≤ q'.x

/-- Restricting a number to the range of a byte. -/
def toByteRange (v : ℚ) : ℚ := max 0 (min 255 v)

end Verif.Spec

namespace Verif.Spec
open Verif.Lut

/-- The points of the curve for a list of control points: (0,0), the control points, (1,1). -/
def through (ctrl : List (ℚ × ℚ)) (i : Nat) : ℚ × ℚ := (((0, 0) :: (ctrl ++ [(1, 1)]))[i]?).getD (1, 1)

/-- The control points are given from left to right; the distance of each to the next (also from 0 to the first and from the last to 1) is at least
1/1000. -/
def Spaced (ctrl : List (ℚ × ℚ)) : Prop := ∀ i ≤ ctrl.length, (through ctrl i).1 + 1 / 1000 ≤ (through ctrl (i + 1)).1

end Verif.Spec
