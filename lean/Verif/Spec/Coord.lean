import Verif.Model.Coord

/-! # What enumerating and comparing coordinates means -/

namespace Verif.Spec

/-- The coordinate has exactly the dimensions of the bounds, each value within `[start, start+size)`. -/
def InBounds (b : Bounds) (c : Coord) : Prop :=
  ∀ d, match b d with
    | none => c d = none
    | some (s, n) => ∃ v, c d = some v ∧ s ≤ v ∧ v < s + n

/-- Enumeration order: `c` comes before `c'` if it has the smaller value in the *last* dimension (order
Z,C,T,R,S,I,H,V,B) in which they differ. -/
def Before (c c' : Coord) : Prop :=
  ∃ pre d post, Dim.all = pre ++ d :: post ∧ (∀ e ∈ post, c e = c' e) ∧
    ∃ v v', c d = some v ∧ c' d = some v' ∧ v < v'

/-- Presenting a list to a callback (an arbitrary state machine answering `false` to stop), numbering the
calls: the overall answer and the callback's final state. -/
def present {σ α : Type} (f : σ → Nat → α → Bool × σ) : Nat → List α → σ → Bool × σ
  | _, [], st => (true, st)
  | no, a :: as, st =>
    let r := f st no a
    if r.1 = false then (false, r.2) else present f (no + 1) as r.2

end Verif.Spec
