import Verif.Model.CmdCheck
import Verif.Model.LayerView

/-!
# CZICmd from the arguments to the exit status (CZICmd/CZIcmd.cpp:67-124, execute.cpp:1110-1182)

Simplifications: as in `Verif.Model.CmdCheck` and `Verif.Model.Commands`. What is written to the standard error output is reduced to whether something was written there. The
option for the version is left out, and so are exceptions that leave `Parse` (`C105_size_exception_violated` and its like), which no option modelled here throws.
-/

namespace Verif.CmdLine

open Verif.Jxr Verif.Czi Verif.Commands Verif.Fill Verif.Accessor Verif.Viewer

/-- How the process ends: with an exit status, a complaint or none, and the files it has written; terminated; or undefined. -/
inductive Exit (α : Type) where
  | ended (status : Int) (complaint : Bool) (written : List α)
  | terminated
  | undefined

/-- What a command does: the files it writes, and how it ends; `ok false` = it complains and returns `false`. -/
abbrev Ran (α : Type) := List α × Result Bool

/-- `execute`, execute.cpp:1110-1182: `ran` is the command. The result is the value returned and whether there was a complaint. Exceptions become complaints, with the value `false`. (The
nested exception that is asked for in lines 1156-1165 is there: `LibCZIIOException` is only thrown by `throw_with_nested` in handlers.) -/
def execute {α : Type} (ran : Ran α) : Result (Bool × Bool) :=
  match ran.2 with
  | .ok true => .ok (true, false)
  | .ok false => .ok (false, true)
  | .throws => .ok (false, true)
  | .aborts => .aborts
  | .undefined => .undefined

/-- `main`, CZIcmd.cpp:67-124: the value of `execute` (line 97) is not used. -/
def mainTool {α : Type} (range : List Char → Bool) (run : Arguments → Options → Ran α) (a : Arguments) : Exit α :=
  let retVal : Int := 0
  match parseArguments range a with
  | none => .ended 2 true []
  | some o =>
    if o.command ≠ .Invalid then
      match execute (run a o) with
      | .ok (_, complaint) => .ended retVal complaint (run a o).1
      | .throws => .ended 1 true (run a o).1
      | .aborts => .terminated
      | .undefined => .undefined
    else .ended retVal false []

/-- The beginning of the commands that read a document: `CreateAndOpenCziReader`, executeBase.cpp:12-36, then `command` with the document. `files` are the files that can be opened. -/
def withDocument {α : Type} (files : List Char → Option Stream) (al : Alloc) (source : List Char) (command : Stream → Doc → Ran α) : Ran α :=
  match files source with
  | none => ([], .throws)
  | some s =>
    match openDoc al s .default with
    | .error .undefined => ([], .undefined)
    | .error _ => ([], .throws)
    | .ok doc => command s doc

/-- A command that writes one file at its end. -/
def oneFile {α : Type} : Result α → Ran α
  | .ok w => ([w], .ok true)
  | .throws => ([], .throws)
  | .aborts => ([], .aborts)
  | .undefined => ([], .undefined)

/-- `CExecuteSingleChannelTileAccessor::execute`, execute.cpp:540-572. The text of the region was parsed before, with the same result. The name of the output is used as given (the code
puts `./` before a name without a directory, cmdlineoptions.cpp:1140-1170, which means the same file). -/
def tileRun (files : List Char → Option Stream) (sort : List Item → List Item) (c : Codecs) (mem : Memory) (al : Alloc) (plane : Coord) (background : Colour) (visibility : Bool)
    (scenes : Option (Int → Bool)) (a : Arguments) (_ : Options) : Ran (List Char × Typed) :=
  withDocument files al a.source fun s doc => oneFile <| tileCommand sort c mem al s doc plane background visibility scenes a.rect a.output

/-- `CExecuteSingleChannelPyramidTileAccessor::execute`, execute.cpp:703-731; as before. -/
def layerRun (files : List Char → Option Stream) (sort : List Item → List Item) (c : Codecs) (mem : Memory) (al : Alloc) (plane : Coord) (background : Colour)
    (scenes : Option (Int → Bool)) (a : Arguments) (_ : Options) : Ran (List Char × Typed) :=
  withDocument files al a.source fun s doc => oneFile <| layerCommand sort c mem al s doc plane background scenes a.pyramid a.rect a.output

/-- `CExecutePlaneScan::execute`, executePlaneScan.cpp:21-57: `get` is the accessor for the document, `mode` the value of the mode if no region was given. -/
def scanRun (files : List Char → Option Stream) (al : Alloc) (mode : Bool) (get : Stream → Doc → IntRect → Outcome Blit.Bitmap) (tileW tileH : Nat) (a : Arguments) (o : Options) :
    Ran (List Char × Blit.Bitmap) :=
  withDocument files al a.source fun s doc =>
    match scanRegion mode o doc with
    | none => ([], .undefined)
    | some roi =>
      let r := PlaneScan.planeScan (get s doc) a.output roi tileW tileH
      (r.1, match r.2 with | .done => .ok true | .threw => .throws | .undefined => .undefined)

end Verif.CmdLine
