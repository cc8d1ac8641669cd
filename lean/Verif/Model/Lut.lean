import Verif.Model.Float
import Verif.Model.Chunk

/-!
# Look-up tables from a gamma value and from splines (libCZI_Utilities.cpp, splines.cpp)

`float` and `double` values are rational numbers (Model/Float.lean). The function `pow` of the C library is a parameter: nothing is
assumed about it except where a theorem says so. `undefined` is what C++ leaves undefined: the conversion of a NaN (or of a value out
of range) to an integer.
-/

namespace Verif.Lut
open Verif.Flt Verif.Czi

/-- `static_cast<int>(point * tableElementCnt)` (`float` arithmetic), libCZI_Utilities.cpp:204-205 and 290-291. -/
def cutIndex (n : Nat) (p : ℚ) : Int := truncInt (f32 (p * f32 n))

/-- Going on with the value of a call that returned one. -/
def _root_.Verif.Czi.Outcome.bind {α β : Type} (o : Outcome α) (f : α → Outcome β) : Outcome β :=
  match o with
  | .ok a => f a
  | .throws => .throws
  | .undefined => .undefined

/-- A loop `for (i = 0; i < k; ++i) lut.emplace_back(f(i))`. -/
def collect {α : Type} (f : Nat → Outcome α) : Nat → Outcome (List α)
  | 0 => .ok []
  | k + 1 => (collect f k).bind fun l => (f k).bind fun v => .ok (l ++ [v])

/-- The three loops of a table: `lo` zeros, the values in between (`f k` for index `lo + k`), then the largest value.
libCZI_Utilities.cpp:207-227 and 293-346. -/
def table (n : Nat) (lo hi : Int) (maxOut : Nat) (f : Nat → Outcome Nat) : Outcome (List Nat) :=
  (collect f (hi - lo).toNat).bind fun m =>
  .ok (List.replicate lo.toNat 0 ++ m ++ List.replicate ((n : Int) - hi).toNat maxOut)

/-- `(i - lowOut) / tFloat(highOut - lowOut - 1)` for `i = lowOut + k`, libCZI_Utilities.cpp:310 and 329; a NaN (`0/0`) if there is only one
value in between. -/
def position (lo hi : Int) (k : Nat) : Option ℚ :=
  if hi - lo - 1 = 0 then none else some (f32 (f32 (k : ℚ) / f32 ((hi - lo - 1 : Int) : ℚ)))

/-- Restricting `val` to the range of the type and the conversion to it, libCZI_Utilities.cpp:313-322 and 331-340. -/
def clampTo (maxOut : Nat) (val : ℚ) : Nat :=
  if (maxOut : ℚ) < val then maxOut else if val < 0 then 0 else (truncInt val).toNat

/-- A value of the table for `gamma ≥ 1`, libCZI_Utilities.cpp:329-341. -/
def powerEntry (pow : ℚ → ℚ → ℚ) (maxOut : Nat) (gamma : ℚ) (lo hi : Int) (k : Nat) : Outcome Nat :=
  match position lo hi k with
  | none => .undefined
  | some x => .ok (clampTo maxOut (f32 (maxOut * pow x gamma)))

/-- The loop of `GetParameterForToeSlopeAdjustment`, libCZI_Utilities.cpp:269-278 (`result` is the value before the iteration). -/
def toeLoop (pow : ℚ → ℚ → ℚ) (gamma factor : ℚ) : Nat → ℚ → ℚ
  | 0, result => result
  | fuel + 1, start =>
    let result := f32 (factor * f32 (pow (f32 (start + 1)) gamma - 1))
    if |f32 (start - result)| < f32 (1 / 1000000) then result else toeLoop pow gamma factor fuel result

/-- `GetParameterForToeSlopeAdjustment<float>`, libCZI_Utilities.cpp:246-282. -/
def toeParameter (pow : ℚ → ℚ → ℚ) (gamma : ℚ) : ℚ :=
  if |f32 (gamma - f32 (1 / 2))| < f32 (1 / 10000) then 224
  else if |f32 (gamma - f32 (45 / 100))| < f32 (1 / 10000) then f32 (287806332841221 / 1000000000000)
  else
    let gamma2 := f32 (gamma * gamma)
    toeLoop pow gamma (f32 (1 / f32 (gamma2 * gamma2))) 200 224

/-- A value of the table for `gamma < 1`, libCZI_Utilities.cpp:310-323; `a` is the parameter. If the divisor is zero the quotient is not a
finite number: this is said to be undefined (for a numerator other than zero the program stores the largest value). -/
def toeEntry (pow : ℚ → ℚ → ℚ) (maxOut : Nat) (gamma a : ℚ) (lo hi : Int) (k : Nat) : Outcome Nat :=
  match position lo hi k with
  | none => .undefined
  | some x =>
    let denumerator := f32 (pow (f32 (a + 1)) gamma - 1)
    if denumerator = 0 then .undefined
    else .ok (clampTo maxOut (f32 (f32 (maxOut * f32 (pow (f32 (f32 (a * x) + 1)) gamma - 1)) / denumerator)))

/-- `InternalCreateLookUpTableFromGamma`, libCZI_Utilities.cpp:285-350; `maxOut` is 255 for `Create8BitLookUpTableFromGamma` and 65535
for `Create16BitLookUpTableFromGamma` (352-360). -/
def gammaTable (pow : ℚ → ℚ → ℚ) (maxOut n : Nat) (black white gamma : ℚ) : Outcome (List Nat) :=
  let lo := cutIndex n black
  let hi := cutIndex n white
  if gamma < 1 then table n lo hi maxOut (toeEntry pow maxOut gamma (toeParameter pow gamma) lo hi)
  else table n lo hi maxOut (powerEntry pow maxOut gamma lo hi)

/-- `IDisplaySettings::CubicSplineCoefficients`, libCZI_Metadata.h:491-514: the polynomial `a*x^3 + b*x^2 + c*x + d`. -/
structure Coeffs where
  a : ℚ
  b : ℚ
  c : ℚ
  d : ℚ
deriving DecidableEq

/-- `IDisplaySettings::SplineData`, libCZI_Metadata.h:517-524: where a piece begins and its polynomial. -/
structure Piece where
  x : ℚ
  p : Coeffs
deriving DecidableEq

/-- `CSplines::CalculateSplineValue`, splines.cpp:110-124; `rd` is the rounding of `double` results (`Flt.f64` for the program).
The first iteration adds `1 * d` to 0 and multiplies 1 by `x`, which is exact. -/
def pieceValue (rd : ℚ → ℚ) (x : ℚ) (p : Coeffs) : ℚ :=
  let y1 := p.d
  let p1 := x
  let y2 := rd (y1 + rd (p1 * p.c))
  let p2 := rd (p1 * x)
  let y3 := rd (y2 + rd (p2 * p.b))
  let p3 := rd (p2 * x)
  rd (y3 + rd (p3 * p.a))

/-- The loop of `CalcSplineValue` that looks for the piece: the last one that begins before `x`, otherwise the first one.
libCZI_Utilities.cpp:183-190. -/
def pieceIndex (x : ℚ) : List Piece → Nat → Nat → Nat
  | [], _, index => index
  | q :: l, i, index => pieceIndex x l (i + 1) (if q.x < x then i else index)

/-- `CalcSplineValue`, libCZI_Utilities.cpp:176-195. -/
def splineValue (rd : ℚ → ℚ) (x : ℚ) (l : List Piece) : Outcome ℚ :=
  if x < 0 ∨ 1 < x then .throws
  else match l[pieceIndex x l 0 0]? with
    | none => .throws
    | some q => .ok (pieceValue rd (rd (x - q.x)) q.p)

/-- A value of a table from splines, libCZI_Utilities.cpp:214-221: an empty list of pieces throws, the conversion of a NaN or of a value that
is not in the range of `int` is undefined. -/
def splineEntry (rd : ℚ → ℚ) (l : List Piece) (lo hi : Int) (k : Nat) : Outcome Nat :=
  if hi - lo - 1 = 0 then (if l = [] then .throws else .undefined)
  else (splineValue rd (rd ((k : ℚ) / ((hi - lo - 1 : Int) : ℚ))) l).bind fun s =>
    let v := rd (s * 255)
    if 2 ^ 31 ≤ |v| then .undefined
    else .ok (if truncInt v < 0 then 0 else if 255 < truncInt v then 255 else (truncInt v).toNat)

/-- `Create8BitLookUpTableFromSplines`, libCZI_Utilities.cpp:198-230. -/
def splineTable (rd : ℚ → ℚ) (n : Nat) (black white : ℚ) (l : List Piece) : Outcome (List Nat) :=
  let lo := cutIndex n black
  let hi := cutIndex n white
  table n lo hi 255 (splineEntry rd l lo hi)

end Verif.Lut
