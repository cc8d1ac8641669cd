import Verif.Model.FileOut

/-!
# What it means that a write is complete
-/

namespace Verif.Spec
open Czi

/-- Every call reports that all its bytes were written (as `WriteToOutputStream` demands, CziWriter.cpp:1100-1108). -/
def AllComplete (ws : List Write) (results : List (Option Nat)) : Prop := results = ws.map (fun w => some w.2.length)

/-- All files but the one at `p` are the same. -/
def OthersSame (fs fs' : Files) (p : List Char) : Prop := ∀ q, q ≠ p → fs' q = fs q

end Verif.Spec
