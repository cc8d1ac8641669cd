import Verif.Model.CmdNumbers
import Verif.Model.Commands
import Verif.Model.PlaneScan

/-!
# Which combinations of arguments CZICmd accepts

Models `CCmdLineOptions::Parse` (cmdlineoptions.cpp:526-994) for the options the check at its end looks at, and `CheckArgumentConsistency` (lines 1006-1090).

Simplifications: the library CLI11, which splits the command line, is not in the repository; its range check for the zoom (line 693) is a parameter. The validators given with
the other two options call the same functions as the code after them, so that they reject nothing more. A file name is the text given; an empty one is the same as none
(lines 821 and 834; `SetOutputFilename` and `MakeOutputFilename`, lines 1140-1188, give a name that is not empty for every text that is not). The other options are left out.
-/

namespace Verif.CmdLine

open Verif.Text Verif.Xml

/-- `enum class Command`, cmdlineoptions.h:13-38. -/
inductive Command where
  | Invalid | PrintInformation | ExtractSubBlock | SingleChannelTileAccessor | ChannelComposite | SingleChannelPyramidTileAccessor | SingleChannelScalingTileAccessor
  | ScalingChannelComposite | ExtractAttachment | CreateCZI | ReadWriteCZI | PlaneScan
  deriving DecidableEq, Repr

/-- The texts given with the options, cmdlineoptions.cpp:567-600 (empty = not given). -/
structure Arguments where
  command : Command
  source : Str := []
  output : Str := []
  rect : Str := []
  pyramid : Str := []
  zoom : Str := []
  deriving DecidableEq

/-- The members of `CCmdLineOptions`, cmdlineoptions.h:141-160. `rect = none`: the position is 0, 0 and the extent -1, -1 (`Clear`, cmdlineoptions.cpp:1110-1111), and
the mode has no value (`Clear` does not set it). -/
structure Options where
  command : Command
  source : Str
  output : Str
  rect : Option RectArg
  layer : Int × Int
  zoom : Num

/-- `GetRectW`. -/
def Options.rectW (o : Options) : Int := match o.rect with | none => -1 | some r => r.w

/-- `GetRectH`. -/
def Options.rectH (o : Options) : Int := match o.rect with | none => -1 | some r => r.h

/-- `x <= 0` for a `float`. -/
def notAboveZero : Num → Bool
  | .fin x => decide (x ≤ 0)
  | .inf neg => neg
  | .nan => false

/-- cmdlineoptions.cpp:844-848: the option `--rect`. -/
def readRect (s : Str) : Option (Option RectArg) := if s = [] then some none else (tryParseRect s).map some

/-- cmdlineoptions.cpp:875-879 and 1113-1114: the option `--pyramidinfo`, minification factor and layer. -/
def readLayer (s : Str) : Option (Int × Int) := if s = [] then some (-1, -1) else tryParsePyramidInfo s

/-- cmdlineoptions.cpp:693, 881-885 and 1112: the option `--zoom`; `range` is the check of CLI11. -/
def readZoom (range : Str → Bool) (s : Str) : Option Num := if s = [] then some (.fin 1) else if range s then tryParseZoom s else none

/-- `CCmdLineOptions::CheckArgumentConsistency`, cmdlineoptions.cpp:1006-1090. -/
def consistent (o : Options) : Bool :=
  if o.command = .Invalid then false
  else if (o.command ≠ .CreateCZI ∧ o.command ≠ .ReadWriteCZI) ∧ o.source = [] then false
  else if o.command ≠ .PrintInformation ∧ o.output = [] then false
  else if (o.command = .ScalingChannelComposite ∨ o.command = .SingleChannelScalingTileAccessor) ∧ notAboveZero o.zoom then false
  else if (o.command = .SingleChannelTileAccessor ∨ o.command = .ChannelComposite ∨ o.command = .SingleChannelPyramidTileAccessor ∨
      o.command = .SingleChannelScalingTileAccessor ∨ o.command = .ScalingChannelComposite) ∧ (o.rectW ≤ 0 ∨ o.rectH ≤ 0) then false
  else if o.command = .SingleChannelPyramidTileAccessor ∧ (o.layer.1 ≤ 0 ∨ o.layer.2 < 0) then false
  else true

/-- `CCmdLineOptions::Parse`, cmdlineoptions.cpp:815-994; `none` = `ParseResult::Error`. -/
def parseArguments (range : Str → Bool) (a : Arguments) : Option Options :=
  (readRect a.rect).bind fun r => (readLayer a.pyramid).bind fun l => (readZoom range a.zoom).bind fun z =>
    let o : Options := ⟨a.command, a.source, a.output, r, l, z⟩
    if consistent o then some o else none

/-- The region the plane scan works on, executeBase.cpp:59-69: `mode` stands for the value of the mode if no region was given. -/
def scanRegion (mode : Bool) (o : Options) (doc : Czi.Doc) : Option IntRect :=
  Commands.roiFromOptions (o.rect.getD ⟨mode, 0, 0, -1, -1⟩) doc

end Verif.CmdLine
