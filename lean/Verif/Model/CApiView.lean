import Verif.Model.CApi
import Verif.Model.CApiHandles
import Verif.Model.JsonOptions
import Verif.Model.ScaledView

/-!
# Pictures through the C interface (libCZIApi.cpp, "SingleChannelScalingTileAccessor functions")

The handle of the accessor is valid (handles are in `Verif.Model.CApiHandles`) and the accessor that of the document `doc`. Simplifications: those of `Verif.Model.ScaledView`; masks
are not modelled, the result is `none` if they are asked for.
-/

namespace Verif.Viewer
open Verif.Czi Verif.Blit Verif.Jxr Verif.Fill Verif.CApi Verif.JsonOpt Verif.Accessor

/-- The options the accessor gets, parameterhelpers.cpp:599-631 with `Options::Clear`, libCZI_Compositor.h:537-547; there is never a scene filter. -/
def apiOptions (parse : Parser) (opts : Option (AccessorInterop Fl)) : ScaledOptions :=
  let o := accessorOptions parse Fl.nan opts
  ⟨⟨⟨o.red, o.green, o.blue⟩, o.sortByM, o.useVisibilityCheck⟩, none⟩

/-- `libCZI_SingleChannelTileAccessorGet`, libCZIApi.cpp:1911-1949; pointers that may be null are `Option`s, `hasResult` = there is a place for the result. The code, and the picture of the
handle stored there; `none` = undefined behaviour, end of the process, or with masks. -/
def apiGet (sort : List Item → List Item) (c : Codecs) (mem : Memory) (al : Alloc) (s : Stream) (doc : Doc) (parse : Parser) (coordinate : Option (Packed Int))
    (roi : Option IntRect) (zoom : ℚ) (opts : Option (AccessorInterop Fl)) (hasResult : Bool) : Option (Code × Option Typed) :=
  match coordinate, roi, hasResult with
  | some p, some r, true =>
    if (accessorOptions parse Fl.nan opts).maskAware then none
    else
      match getScaled sort c mem al s doc (coordFromInterop p) (apiOptions parse opts) zoom r with
      | .ok t => some (.ok, some t)
      | .throws => some (.unspecified, none)
      | .aborts => none
      | .undefined => none
  | _, _, _ => some (.invalidArgument, none)

/-- An `uint32_t` assigned to an `int32_t`. -/
def int32OfNat (n : Nat) : Int := if n % 4294967296 < 2147483648 then (n % 4294967296 : Nat) else (n % 4294967296 : Nat) - 4294967296

/-- `libCZI_SingleChannelTileAccessorCalcSize`, libCZIApi.cpp:1883-1909; `none` = undefined behaviour. -/
def apiCalcSize (roi : Option IntRect) (zoom : ℚ) (hasResult : Bool) : Option (Code × Option (Int × Int)) :=
  match roi, hasResult with
  | some r, true => (calcSize r zoom).map fun s => (.ok, some (int32OfNat s.1, int32OfNat s.2))
  | _, _ => some (.invalidArgument, none)

end Verif.Viewer
