import Verif.Model.Lut

/-!
# Spline coefficients (splines.cpp, libCZI_Utilities.cpp, CziDisplaySettings.cpp)

The solver of the linear system (Eigen's `colPivHouseholderQr().solve`) is a parameter; `rd` is the rounding of `double` results.
-/

namespace Verif.Lut
open Verif.Flt Verif.Czi

/-- A solver: number of unknowns, matrix (row, column), right-hand side; the result is indexed. -/
abbrev Solver := Nat → (Nat → Nat → ℚ) → (Nat → ℚ) → Nat → ℚ

/-- Difference of the x-coordinates of the points `i` and `i+1`. -/
def stepX (rd : ℚ → ℚ) (pt : Nat → ℚ × ℚ) (i : Nat) : ℚ := rd ((pt (i + 1)).1 - (pt i).1)

/-- Difference of the y-coordinates of the points `i` and `i+1`. -/
def stepY (rd : ℚ → ℚ) (pt : Nat → ℚ × ℚ) (i : Nat) : ℚ := rd ((pt (i + 1)).2 - (pt i).2)

/-- `if (abs(dx) < 0.001) dx = 0.001`, splines.cpp:63-71. -/
def atLeast (rd : ℚ → ℚ) (dx : ℚ) : ℚ := if |dx| < rd (1 / 1000) then rd (1 / 1000) else dx

/-- `dx1` in row `i` when the diagonal entry is computed: it is the `dx2` of the row before, after that was made at least 0.001 (for row 0
the difference itself). splines.cpp:38, 43 and 68-71. -/
def carriedX (rd : ℚ → ℚ) (pt : Nat → ℚ × ℚ) (i : Nat) : ℚ := if i = 0 then stepX rd pt 0 else atLeast rd (stepX rd pt i)

/-- The matrix, splines.cpp:30-31 and 53-61. -/
def splineMatrix (rd : ℚ → ℚ) (pt : Nat → ℚ × ℚ) (i j : Nat) : ℚ :=
  if i = j then rd (2 * rd (carriedX rd pt i + stepX rd pt (i + 1)))
  else if j = i + 1 then stepX rd pt (i + 1)
  else if i = j + 1 then stepX rd pt (j + 1)
  else 0

/-- The right-hand side, splines.cpp:63-73. -/
def splineRhs (rd : ℚ → ℚ) (pt : Nat → ℚ × ℚ) (i : Nat) : ℚ :=
  rd (3 * rd (rd (stepY rd pt (i + 1) / atLeast rd (stepX rd pt (i + 1))) - rd (stepY rd pt i / atLeast rd (stepX rd pt i))))

/-- The second coefficients `b_0 = 0, b_1, …, b_(n-1), b_n = 0`, splines.cpp:76-82 and 104. -/
def secondCoeff (rd : ℚ → ℚ) (solve : Solver) (n : Nat) (pt : Nat → ℚ × ℚ) (i : Nat) : ℚ :=
  if i = 0 ∨ n ≤ i then 0 else solve (n - 1) (splineMatrix rd pt) (splineRhs rd pt) (i - 1)

/-- The coefficients of piece `i`, splines.cpp:80-105. -/
def pieceCoeffs (rd : ℚ → ℚ) (pt : Nat → ℚ × ℚ) (b : Nat → ℚ) (i : Nat) : Coeffs :=
  let dx := stepX rd pt i
  if |dx| < rd (1 / 10000000) then ⟨0, b i, 0, (pt i).2⟩
  else ⟨rd (rd (b (i + 1) - b i) / rd (3 * dx)), b i,
    rd (rd (stepY rd pt i / dx) - rd (rd (dx * rd (b (i + 1) + rd (2 * b i))) / 3)), (pt i).2⟩

/-- `CSplines::GetSplineCoefficients`, splines.cpp:13-108, for at least two points (otherwise it throws); `pt i` is what the functor returns
for index `i` (the same for every call). -/
def splineCoefficients (rd : ℚ → ℚ) (solve : Solver) (pointsCnt : Nat) (pt : Nat → ℚ × ℚ) : Outcome (List Coeffs) :=
  if pointsCnt < 2 then .throws
  else .ok ((List.range (pointsCnt - 1)).map (pieceCoeffs rd pt (secondCoeff rd solve (pointsCnt - 1) pt)))

/-- The points of the curve: (0,0), the control points and (1,1), libCZI_Utilities.cpp:366-383 and CziDisplaySettings.cpp:73-93. -/
def curvePoint (ctrl : List (ℚ × ℚ)) (i : Nat) : ℚ × ℚ :=
  if i = 0 then (0, 0) else if i = ctrl.length + 1 then (1, 1) else (ctrl[i - 1]?).getD (0, 0)

/-- `Utils::CalcSplineDataFromPoints`, libCZI_Utilities.cpp:362-396, and `GetSplineDataFromSplineControlPoints`,
CziDisplaySettings.cpp:71-103. -/
def splineData (rd : ℚ → ℚ) (solve : Solver) (ctrl : List (ℚ × ℚ)) : Outcome (List Piece) :=
  (splineCoefficients rd solve (ctrl.length + 2) (curvePoint ctrl)).bind fun cs =>
  .ok ((List.range cs.length).map fun i => ⟨if i = 0 then 0 else (curvePoint ctrl i).1, (cs[i]?).getD ⟨0, 0, 0, 0⟩⟩)

end Verif.Lut
