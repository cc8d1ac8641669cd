import Verif.Spec.Blit

/-!
# Specification of the decimation of a bitonal bitmap
-/

namespace Verif.Spec
open Blit

/-- All pixels of the bitmap at a distance of at most `n` columns and at most `n` rows from `(2X, 2Y)` are set. -/
def AllSetAround (m : Mask) (n X Y : Nat) : Prop :=
  ∀ x y, x < m.w → y < m.h → 2 * X ≤ x + n → x ≤ 2 * X + n → 2 * Y ≤ y + n → y ≤ 2 * Y + n → m.at x y = true

end Verif.Spec
