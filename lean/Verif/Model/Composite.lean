import Verif.Model.Commands
import Verif.Model.DisplayHelper

/-!
# The commands `ChannelComposite` and `ScalingChannelComposite` of CZICmd (CZICmd/execute.cpp:575-701 and 761-891)

Simplifications: as in `Verif.Model.Commands`; the display settings are given (they come from the document or from the options); `pow`, `rd`, `solve` as in
`Verif.Model.DisplayHelper`. The memory of the composed picture is filled as that of the pictures of the channels.
-/

namespace Verif.Composite
open Verif.Czi Verif.Blit Verif.Jxr Verif.Fill Verif.Accessor Verif.Viewer Verif.CmdLine Verif.Commands Verif.Zstd Verif.Helper

/-- The coordinate for the picture of a channel, execute.cpp:688-695: the channel is set only if the sub-blocks of the document have channels. -/
def channelPlane (doc : Doc) (plane : Coord) (ch : Int) : Coord := if ((docStats doc).dimBounds .C).isSome then plane.set .C ch else plane

/-- The loop of `GetBitmapsFromSpecifiedChannels`, execute.cpp:680-698 and 865-887: the coordinate is kept from one round to the next; `get` is the call of the accessor. -/
def channelPictures (get : Coord → Result Typed) (doc : Doc) : Coord → List Int → Result (List Typed)
  | _, [] => .ok []
  | plane, ch :: l =>
    match get (channelPlane doc plane ch) with
    | .throws => .throws
    | .aborts => .aborts
    | .undefined => .undefined
    | .ok t =>
      match channelPictures get doc (channelPlane doc plane ch) l with
      | .ok ts => .ok (t :: ts)
      | r => r

/-- The lambda that tells the pixel type of a channel, execute.cpp:618-622: it is called for active channels only (for others, an element behind the last one would be used). -/
def typeOfChannel (active : List Int) (pics : List Typed) (ch : Int) : PixelType :=
  match pics[active.idxOf ch]? with
  | some t => t.pt
  | none => .Invalid

/-- `ComposeMultiChannel_Bgr24` and `ComposeMultiChannel_Bgra32` with an iterator, libCZI_Compositor.h:823-862 and MultiChannelCompositor.cpp:1309-1330: without a bitmap,
`&vecBm[0]` is the address of an element that does not exist, and what is there is used as a pointer. -/
def composeVector (alpha : Option UInt8) (fresh : Nat → UInt8) (pics : List Typed) (infos : List Multi.Channel) : Result Typed :=
  match pics with
  | [] => .undefined
  | t :: _ =>
    match Multi.composeMultiChannel alpha (if alpha.isSome then .Bgra32 else .Bgr24)
        (newBitmap fresh t.bm.w t.bm.h (defaultPitch (if alpha.isSome then 4 else 3) t.bm.w))
        ⟨pics.length, some (pics.map fun t => some ⟨t.pt, t.bm⟩), some infos⟩ with
    | .ok b => .ok ⟨if alpha.isSome then .Bgra32 else .Bgr24, b⟩
    | .throws _ => .throws
    | .undefined => .undefined

/-- The two commands, execute.cpp:578-658 and 764-843, after the reader was opened and the display settings were fetched: `get` is the call of the accessor with the region
and the coordinate. `alpha`: the alpha value if the output pixel type is Bgra32. -/
def commandWith (get : IntRect → Coord → Result Typed) (fresh : Nat → UInt8) (doc : Doc) (pow : ℚ → ℚ → ℚ) (rd : ℚ → ℚ) (solve : Lut.Solver) (settings : Xml.Settings ℚ)
    (alpha : Option UInt8) (plane : Coord) (region base : List Char) : Result (List Char × Typed) :=
  match tryParseRect region with
  | none => .throws
  | some r =>
    match activeChannels settings with
    | .throws => .throws
    | .undefined => .undefined
    | .ok active =>
      match roiFromOptions r doc with
      | none => .undefined
      | some roi =>
        match channelPictures (get roi) doc plane active with
        | .throws => .throws
        | .aborts => .aborts
        | .undefined => .undefined
        | .ok pics =>
          match initSettings pow rd solve (typeOfChannel active pics) ⟨[], [], []⟩ settings with
          | .throws => .throws
          | .undefined => .undefined
          | .ok st => save base (composeVector alpha fresh pics st.infos)

/-- `CExecuteChannelComposite`, execute.cpp:575-701: `Options::Clear` switches the visibility check off; there is no filter for scenes. -/
def compositeCommand (sort : List Item → List Item) (c : Codecs) (mem : Memory) (al : Alloc) (s : Stream) (doc : Doc) (pow : ℚ → ℚ → ℚ) (rd : ℚ → ℚ) (solve : Lut.Solver)
    (settings : Xml.Settings ℚ) (alpha : Option UInt8) (plane : Coord) (background : Colour) (region base : List Char) : Result (List Char × Typed) :=
  commandWith (fun roi p => getTiles sort c mem al s doc p ⟨⟨background, true, false⟩, none⟩ roi) mem.dest doc pow rd solve settings alpha plane region base

/-- `CExecuteScalingChannelComposite`, execute.cpp:761-891. -/
def scalingCompositeCommand (sort : List Item → List Item) (c : Codecs) (mem : Memory) (al : Alloc) (s : Stream) (doc : Doc) (pow : ℚ → ℚ → ℚ) (rd : ℚ → ℚ) (solve : Lut.Solver)
    (settings : Xml.Settings ℚ) (alpha : Option UInt8) (plane : Coord) (background : Colour) (visibility : Bool) (scenes : Option (Int → Bool)) (zoom : ℚ)
    (region base : List Char) : Result (List Char × Typed) :=
  commandWith (fun roi p => getScaled sort c mem al s doc p ⟨⟨background, true, visibility⟩, scenes⟩ zoom roi) mem.dest doc pow rd solve settings alpha plane region base

end Verif.Composite
