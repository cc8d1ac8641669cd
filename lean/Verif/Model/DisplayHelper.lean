import Verif.Model.Spline
import Verif.Model.Display
import Verif.Model.MultiChannel

/-!
# `CDisplaySettingsHelper` (libCZI_Helpers.h)

From display settings to the channel infos for a multi-channel composition. `pow`, `rd`, `solve`: see Model/Lut.lean and Model/Spline.lean. The functor
that is asked for the pixel type of a channel is a function `ptOf`; for which channels it is called is recorded.
-/

namespace Verif.Helper
open Verif.Lut Verif.Czi Verif.Xml Verif.Multi

/-- The members of the helper: `channelInfos` and `activeChannels`, libCZI_Helpers.h:23-25, and the calls of the functor. The tables (`lutStore`) are
in the channel infos: a table stays where it is when more are added, because moving a `std::vector` does not move its elements. -/
structure State where
  infos : List Channel
  active : List Int
  asked : List Int

/-- `GetSizeForLUT`, libCZI_Helpers.h:194-205 (`none`: the exception). -/
def sizeForLut : PixelType → Option Nat
  | .Gray8 => some 256
  | .Bgr24 => some 256
  | .Gray16 => some (256 * 256)
  | .Bgr48 => some (256 * 256)
  | _ => none

/-- The memory of a `std::vector<std::uint8_t>`. -/
def bytesOf (t : List Nat) : Buf := ⟨t.length, fun i => UInt8.ofNat ((t[i]?).getD 0)⟩

/-- The channel info without a look-up table, libCZI_Helpers.h:154-160: `Clear` sets everything to zero. -/
def plainInfo (v : ChannelView ℚ) : Channel :=
  ⟨some v.weight, v.tint.isSome, match v.tint with | none => fun _ => 0 | some c => bgr c.b c.g c.r, v.black, v.white, 0, none⟩

/-- The channel info with a look-up table for `n` pixel values, libCZI_Helpers.h:169-172 and 180-183. -/
def lutInfo (v : ChannelView ℚ) (n : Nat) (t : List Nat) : Channel := { plainInfo v with lutCount := n, lut := some (bytesOf t) }

/-- `TryGetSplineData`, CziDisplaySettings.cpp:239-252: the list stays empty if there are no control points. -/
def splineDataOf (rd : ℚ → ℚ) (solve : Solver) (v : ChannelView ℚ) : Outcome (List Piece) :=
  match v.points with
  | none => .ok []
  | some ps => splineData rd solve ps

/-- The look-up table of a channel, libCZI_Helpers.h:164-185; a gamma value that is not there is an uninitialised variable. -/
def tableOf (pow : ℚ → ℚ → ℚ) (rd : ℚ → ℚ) (solve : Solver) (v : ChannelView ℚ) (n : Nat) : Outcome (List Nat) :=
  match v.mode with
  | .spline => (splineDataOf rd solve v).bind fun l => splineTable rd n v.black v.white l
  | _ => match v.gamma with
    | none => .undefined
    | some g => gammaTable pow 255 n v.black v.white g

/-- `AddChannelSetting`, libCZI_Helpers.h:145-192. -/
def addSetting (pow : ℚ → ℚ → ℚ) (rd : ℚ → ℚ) (solve : Solver) (ptOf : Int → PixelType) (st : State) (ch : Int) (v : ChannelView ℚ) : Outcome State :=
  if v.isEnabled = false then .ok st
  else if v.mode = .linear then .ok ⟨st.infos ++ [plainInfo v], st.active ++ [ch], st.asked⟩
  else match sizeForLut (ptOf ch) with
    | none => .throws
    | some n => (tableOf pow rd solve v n).bind fun t => .ok ⟨st.infos ++ [lutInfo v n t], st.active ++ [ch], st.asked ++ [ch]⟩

/-- The calls of `AddChannelSetting` for a sequence of channels. -/
def addSettings (pow : ℚ → ℚ → ℚ) (rd : ℚ → ℚ) (solve : Solver) (ptOf : Int → PixelType) : List (Int × ChannelView ℚ) → State → Outcome State
  | [], st => .ok st
  | e :: l, st => (addSetting pow rd solve ptOf st e.1 e.2).bind (addSettings pow rd solve ptOf l)

/-- `Initialize` with a functor that supplies the channels, libCZI_Helpers.h:87-100: `l` is what the functor returns until it returns `false`. -/
def initFunctor (pow : ℚ → ℚ → ℚ) (rd : ℚ → ℚ) (solve : Solver) (ptOf : Int → PixelType) (_ : State) (l : List (Int × ChannelView ℚ)) : Outcome State :=
  addSettings pow rd solve ptOf l ⟨[], [], []⟩

/-- The lambda in `Initialize`, libCZI_Helpers.h:71-76, for every channel index (a null pointer is used if there are no settings for it). -/
def addByIndex (pow : ℚ → ℚ → ℚ) (rd : ℚ → ℚ) (solve : Solver) (ptOf : Int → PixelType) (s : Settings ℚ) : List Int → State → Outcome State
  | [], st => .ok st
  | ch :: l, st => match s.get ch with
    | none => .undefined
    | some v => (addSetting pow rd solve ptOf st ch v).bind (addByIndex pow rd solve ptOf s l)

/-- `Initialize`, libCZI_Helpers.h:67-77; the first argument is the state before (it is cleared). -/
def initSettings (pow : ℚ → ℚ → ℚ) (rd : ℚ → ℚ) (solve : Solver) (ptOf : Int → PixelType) (_ : State) (s : Settings ℚ) : Outcome State :=
  addByIndex pow rd solve ptOf s (s.map (·.1)) ⟨[], [], []⟩

/-- The enumeration in `EnumEnabledChannels`, libCZI_Helpers.h:33-46, with `CDisplaySettingsOnPod::EnumChannels`, CziDisplaySettings.cpp:430-440; `f` is the
functor: an arbitrary state machine that says whether to go on. -/
def enumEnabled {σ : Type} (f : σ → Int → Bool × σ) (s : Settings ℚ) : List Int → σ → Outcome σ
  | [], a => .ok a
  | ch :: l, a => match s.get ch with
    | none => .undefined
    | some v =>
      if v.isEnabled then
        if (f a ch).1 then enumEnabled f s l (f a ch).2 else .ok (f a ch).2
      else enumEnabled f s l a

/-- The static `GetActiveChannels`, libCZI_Helpers.h:53-58. -/
def activeChannels (s : Settings ℚ) : Outcome (List Int) := enumEnabled (fun a ch => (true, a ++ [ch])) s (s.map (·.1)) []

end Verif.Helper
