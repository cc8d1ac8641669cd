import Verif.Spec.Blit

/-! # Pictures of different regions of a plane -/

namespace Verif.Spec
open Blit

/-- Two pictures, the first with its upper left corner at `(ax, ay)` and the second with it at `(bx, by')`: wherever they show the same place, they have the same
pixel (`n` bytes each). -/
def Agree (n : Nat) (a : Bitmap) (ax ay : Int) (b : Bitmap) (bx by' : Int) : Prop :=
  ∀ x y x' y' : Nat, x < a.w → y < a.h → x' < b.w → y' < b.h → ax + x = bx + x' → ay + y = by' + y' →
    ∀ j, j < n → a.byteAt n x y j = b.byteAt n x' y' j

/-- The bitmap has the same pixel everywhere: byte `j` of it is `bg j`. -/
def OneColour (n : Nat) (bg : Nat → UInt8) (b : Bitmap) : Prop := ∀ x y j, x < b.w → y < b.h → j < n → b.byteAt n x y j = bg j

end Verif.Spec
