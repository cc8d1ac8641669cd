import Verif.Spec.Blit
import Verif.Spec.SubBlock

/-! # What the accessors are supposed to paint -/

namespace Verif.Spec
open Blit

/-- The sub-block has an m-index (both the largest and the smallest `int` mean that it has none). -/
def ValidM (e : Entry) : Prop := e.mIndex ≠ 2147483647 ∧ e.mIndex ≠ -2147483648

/-- Sub-block `a` must be painted after (above) sub-block `b`: it has the larger m-index, or `b` has none. -/
def PaintedAbove (a b : Entry) : Prop := ValidM a ∧ (ValidM b → b.mIndex < a.mIndex)

/-- `v` is a correct value for byte `j` of the pixel `(px,py)`: if none of the candidates paints the pixel, the background `bg`;
otherwise the value given by a candidate that paints it, above which there is no other candidate that paints it. -/
def Painted (k : Kind) (candidate : Int × Entry → Prop) (place : Int × Entry → Tile) (px py : Int) (j : Nat) (bg v : UInt8) :
    Prop :=
  ((∀ p, candidate p → (place p).paints px py = false) ∧ v = bg) ∨
  ∃ p, candidate p ∧ (place p).paints px py = true ∧ v = (place p).colour k px py j ∧
    ∀ q, candidate q → (place q).paints px py = true → ¬ PaintedAbove q.2 p.2

/-- `r` is the integer nearest to `a / b`, a half being rounded away from zero. -/
def Nearest (a : Int) (b : Nat) (r : Int) : Prop :=
  if 0 ≤ a then (2 * r - 1) * b ≤ 2 * a ∧ 2 * a < (2 * r + 1) * b
  else (2 * r - 1) * b < 2 * a ∧ 2 * a ≤ (2 * r + 1) * b

/-- The minification of a sub-block: the ratio of logical to stored size along its longer stored side, as an integer. -/
def Minification (e : Entry) (r : Int) : Prop :=
  if e.storedWidth > e.storedHeight then Nearest e.width e.storedWidth.toNat r else Nearest e.height e.storedHeight.toNat r

/-- The sub-block belongs to pyramid layer `n`: the least `n` such that `factor^n` reaches its minification. -/
def OnLayer (factor : Nat) (n : Nat) (e : Entry) : Prop :=
  ∃ r, Minification e r ∧ r ≤ (factor ^ n : Nat) ∧ ∀ l < n, ((factor ^ l : Nat) : Int) < r

/-- The sub-block passes the scene filter. -/
def PassesScene (scene : Option (Int → Bool)) (e : Entry) : Prop :=
  ∀ contained, scene = some contained → ∀ s, e.coordinate .S = some s → contained s = true

end Verif.Spec
