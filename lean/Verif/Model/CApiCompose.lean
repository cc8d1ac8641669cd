import Verif.Model.DisplayHelper

/-!
# Composition through the C interface (`libCZIApi.cpp`, `parameterhelpers.cpp`)

`pow`, `rd`, `solve`: see Model/Lut.lean and Model/Spline.lean.
-/

namespace Verif.CComp
open Verif.Lut Verif.Czi Verif.Xml Verif.Multi Verif.Helper Verif.Blit

/-- `CompositionChannelInfoInterop`, composition_channel_info_interop.h:11-50 (the table is the memory block the pointer points to). -/
structure Interop where
  weight : Option ℚ
  enableTinting : UInt8
  red : UInt8
  green : UInt8
  blue : UInt8
  blackPoint : ℚ
  whitePoint : ℚ
  count : Int
  lut : Option Buf

/-- `memset(&composition_channel_info, 0, ...)`, parameterhelpers.cpp:1460. -/
def Interop.zero : Interop := ⟨some 0, 0, 0, 0, 0, 0, 0, 0, none⟩

/-- The structure of an enabled channel without a table, parameterhelpers.cpp:1470-1486. -/
def Interop.plain (v : ChannelView ℚ) : Interop :=
  match v.tint with
  | some c => ⟨some v.weight, 1, c.r, c.g, c.b, v.black, v.white, 0, none⟩
  | none => ⟨some v.weight, 0, 0, 0, 0, v.black, v.white, 0, none⟩

/-- `FillOutCompositionChannelInfoFromDisplaySettings`, parameterhelpers.cpp:1458-1525, for the settings of a channel. The memory
for the table is assumed to be available. -/
def fillView (pow : ℚ → ℚ → ℚ) (rd : ℚ → ℚ) (solve : Solver) (v : ChannelView ℚ) (sixteen : Bool) : Outcome Interop :=
  if v.isEnabled = false then .ok { Interop.zero with weight := some 0 }
  else if v.mode = .linear then .ok (Interop.plain v)
  else
    let n := if sixteen then 256 * 256 else 256
    (tableOf pow rd solve v n).bind fun t => .ok { Interop.plain v with count := n, lut := some (bytesOf t) }

/-- `libCZI_CompositorFillOutCompositionChannelInfoInterop`, libCZIApi.cpp:2009-2036 (valid handle; an exception becomes the code
`UnspecifiedError`): a null pointer is used if there are no settings for the channel. -/
def fillOut (pow : ℚ → ℚ → ℚ) (rd : ℚ → ℚ) (solve : Solver) (s : Settings ℚ) (ch : Int) (sixteen : Bool) : Outcome Interop :=
  match s.get ch with
  | none => .undefined
  | some v => fillView pow rd solve v sixteen

/-- `ConvertCompositionChannelInfoInteropToChannelInfo`, parameterhelpers.cpp:633-647. -/
def fromInterop (i : Interop) : Channel :=
  ⟨i.weight, decide (i.enableTinting ≠ 0), bgr i.blue i.green i.red, i.blackPoint, i.whitePoint, i.count, i.lut⟩

/-- A handle of a bitmap given by the caller: the null handle, a wrapper that is not valid, a bitmap. -/
inductive Handle where
  | null
  | invalid
  | bitmap (s : Source)

/-- What `libCZI_CompositorDoMultiChannelComposition` comes to: the code, with the new bitmap if it is `OK`. -/
inductive Answer where
  | ok (bm : Bitmap)
  | invalidArgument
  | invalidHandle
  | unspecifiedError
  | undefined

/-- The loop over the channels, libCZIApi.cpp:1983-1993: arrays with fewer elements are read past their end, a null handle is used. -/
def gather : Nat → List Handle → List Interop → List (Source × Channel) → Except Answer (List (Source × Channel))
  | 0, _, _, acc => .ok acc
  | n + 1, h :: hs, i :: is, acc =>
    match h with
    | .null => .error .undefined
    | .invalid => .error .invalidHandle
    | .bitmap s => gather n hs is (acc ++ [(s, fromInterop i)])
  | _ + 1, .invalid :: _, [], _ => .error .invalidHandle
  | _ + 1, _, _, _ => .error .undefined

/-- `libCZI_CompositorDoMultiChannelComposition`, libCZIApi.cpp:1968-2007, with `ComposeMultiChannel_Bgr24`,
MultiChannelCompositor.cpp:1310-1318; `create` is the bitmap that `CreateBitmap` gives for a width and a height. -/
def compose (create : Nat → Nat → Bitmap) (count : Int) (handles : Option (List Handle)) (infos : Option (List Interop)) : Answer :=
  if count ≤ 0 then .invalidArgument
  else match handles, infos with
    | none, _ => .invalidArgument
    | some _, none => .invalidArgument
    | some hs, some is =>
      match gather count.toNat hs is [] with
      | .error a => a
      | .ok [] => .undefined
      | .ok (p :: l) =>
        match composeMultiChannel none .Bgr24 (create p.1.bm.w p.1.bm.h)
            ⟨count, some ((p :: l).map fun q => some q.1), some ((p :: l).map (·.2))⟩ with
        | .ok out => .ok out
        | .throws _ => .unspecifiedError
        | .undefined => .undefined

end Verif.CComp
