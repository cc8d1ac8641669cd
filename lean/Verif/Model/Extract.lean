import Verif.Model.Lookup
import Verif.Model.Text
import Verif.Model.Viewer

/-!
# Extracting attachments and sub-blocks with the command line tool (CZICmd/execute.cpp:892-1113)

Simplifications: the JSON text of the option `--selection` is given as the members that the (third-party) parser found; the conversion of UTF-8 texts to wide texts is an arbitrary
function (`none`: it throws), and so is the decision of the operating system whether a file can be created; writing to a created file succeeds; PNG files are represented by the
bitmaps that are encoded. The hash that is printed on request is left out.
-/

namespace Verif.Extract
open Verif.Czi Verif.Blit Verif.Jxr Verif.Viewer

/-! ## The selection -/

/-- A value in the JSON text as rapidjson classifies it: a number without fraction and exponent is an integer, not a `double`. -/
inductive SelJson where
  | str (s : List UInt8)
  | bool (b : Bool)
  | int (n : Int)
  | real (q : ℚ)
  | other

/-- `struct ItemValue`, cmdlineoptions.h:99-128. -/
inductive ItemValue where
  | str (s : List UInt8)
  | num (q : ℚ)
  | bool (b : Bool)

/-- The value of a member, cmdlineoptions.cpp:1627-1643: `IsString`, `IsDouble`, `IsBool`. -/
def itemValue : SelJson → Option ItemValue
  | .str s => some (.str (cstr s))
  | .real q => some (.num q)
  | .bool b => some (.bool b)
  | .int _ => none
  | .other => none

/-- The loop of `CCmdLineOptions::TryParseSelection`, cmdlineoptions.cpp:1619-1646: `map[name] = iv`. The map is a list, the newest entry first. -/
def selectionLoop : List (List UInt8 × SelJson) → List (List UInt8 × ItemValue) → Option (List (List UInt8 × ItemValue))
  | [], m => some m
  | (k, v) :: r, m => (itemValue v).bind fun iv => selectionLoop r ((cstr k, iv) :: m)

/-- `CCmdLineOptions::TryParseSelection`, cmdlineoptions.cpp:1609-1654; `none`: parse error or no object. -/
def tryParseSelection (doc : Option (List (List UInt8 × SelJson))) : Option (List (List UInt8 × ItemValue)) := doc.bind fun m => selectionLoop m []

/-- `GetSelectionItemValue`, cmdlineoptions.cpp:1656-1665. -/
def selectionItem (m : List (List UInt8 × ItemValue)) (key : String) : Option ItemValue := (m.find? fun e => e.1 = ascii key).map (·.2)

/-- `struct SelectionInfo`, execute.cpp:895-902. -/
structure Selection where
  name : Option (List UInt8)
  index : Option Int

/-- `(int)value` for a `double`: undefined outside of the range. -/
def toInt (q : ℚ) : Option Int :=
  let t := if 0 ≤ q then ⌊q⌋ else ⌈q⌉
  if -(2 ^ 31) ≤ t ∧ t < 2 ^ 31 then some t else none

/-- `TryGetNumber` and the conversion, execute.cpp:941-947 and 1072-1079. `none`: undefined behaviour. -/
def selectedIndex (m : List (List UInt8 × ItemValue)) : Option (Option Int) :=
  match selectionItem m "index" with
  | some (.num q) => (toInt q).map some
  | _ => some none

/-- `TryGetString`, execute.cpp:939-940. -/
def selectedName (m : List (List UInt8 × ItemValue)) : Option (List UInt8) :=
  match selectionItem m "name" with
  | some (.str s) => some s
  | _ => none

/-- `CreateSelectionInfo` for attachments, execute.cpp:935-950. -/
def attSelection (m : List (List UInt8 × ItemValue)) : Option Selection := (selectedIndex m).map fun i => ⟨selectedName m, i⟩

/-- `CreateSelectionInfo` for sub-blocks, execute.cpp:1068-1081. -/
def subSelection (m : List (List UInt8 × ItemValue)) : Option Selection := (selectedIndex m).map fun i => ⟨none, i⟩

/-! ## Attachments -/

/-- `IsSelection`, execute.cpp:952-972; `strcmp`. -/
def isSelection (sel : Selection) (index : Int) (name : List UInt8) : Bool :=
  (match sel.name with | none => true | some n => decide (cstr n = cstr name)) && (match sel.index with | none => true | some k => decide (k = index))

/-- `MakeOutputFilename`, cmdlineoptions.cpp:1171-1188; `base` is output path and name. -/
def makeOutputFilename (base suffix extension : List Char) : List Char := base ++ (suffix ++ '.' :: extension)

/-- `GenerateFilename`, execute.cpp:974-997. -/
def attFilename (wide : List UInt8 → Option (List Char)) (base : List Char) (index : Int) (info : RawAttInfo) : Option (List Char) :=
  (if cstr info.fileType = [] then some "XXX".toList else wide (cstr info.fileType)).bind fun ext =>
    (if info.name.length > 0 then (wide info.name).map fun n => n ++ ['_'] else some []).map fun n =>
      makeOutputFilename base ('_' :: (n ++ Text.printInt index)) ext

/-- How the command ends. -/
inductive Ended where
  | done
  | threw
  | aborted
  | undefined
  deriving DecidableEq

/-- The callback, execute.cpp:911-930, with `WriteFile`, execute.cpp:999-1026: an exception leaves the enumeration. -/
def attStep (wide : List UInt8 → Option (List Char)) (canCreate : List Char → Bool) (read : Int → Outcome (Option (RawAttInfo × Payload))) (base : List Char) (sel : Selection)
    (st : List (List Char × List UInt8) × Ended) (index : Int) (info : RawAttInfo) : Bool × (List (List Char × List UInt8) × Ended) :=
  if isSelection sel index info.name then
    match attFilename wide base index info with
    | none => (false, (st.1, .threw))
    | some fn =>
      match read index with
      | .throws => (false, (st.1, .threw))
      | .undefined => (false, (st.1, .undefined))
      | .ok none => (false, (st.1, .undefined))
      | .ok (some (_, d)) => if canCreate fn then (true, (st.1 ++ [(fn, d.bytes.getD [])], st.2)) else (false, (st.1, .threw))
  else (true, st)

/-- `CExecuteExtractAttachment::execute`, execute.cpp:904-933, after the reader was opened: the files written, in order, and how the command ends. -/
def extractAttachments (wide : List UInt8 → Option (List Char)) (canCreate : List Char → Bool) (r : Reader) (al : Alloc) (s : Stream) (base : List Char) (sel : Selection) :
    List (List Char × List UInt8) × Ended :=
  match r.enumerateAttachments (attStep wide canCreate (r.readAttachment al s) base sel) ([], .done) with
  | .ok st => st
  | .throws => ([], .threw)
  | .undefined => ([], .undefined)

/-- The files after some were written, `fopen(…, "wb")`: a file that is there already is replaced. -/
def writeFiles {β : Type} (fs : List Char → Option β) : List (List Char × β) → List Char → Option β
  | [] => fs
  | f :: r => writeFiles (fun n => if n = f.1 then some f.2 else fs n) r

/-! ## Sub-blocks -/

/-- The name of the picture, execute.cpp:1099-1103. -/
def imageName (base : List Char) (index : Int) : List Char := makeOutputFilename base ('#' :: Text.printInt index) "PNG".toList

/-- `IsSelection` for sub-blocks, execute.cpp:1083-1097. -/
def subSelected (sel : Selection) (index : Int) : Bool := match sel.index with | none => true | some k => decide (k = index)

/-- The callback, execute.cpp:1046-1063, with `WriteImage`, execute.cpp:1099-1107. -/
def subStep (get : Int → Result (SbInfo × Typed)) (base : List Char) (sel : Selection) (st : List (List Char × Typed) × Ended) (index : Int) (_info : SbInfo) :
    Bool × (List (List Char × Typed) × Ended) :=
  if subSelected sel index then
    match get index with
    | .throws => (false, (st.1, .threw))
    | .aborts => (false, (st.1, .aborted))
    | .undefined => (false, (st.1, .undefined))
    | .ok (_, t) => (true, (st.1 ++ [(imageName base index, t)], st.2))
  else (true, st)

/-- `CExecuteExtractSubBlock::execute`, execute.cpp:1039-1066, after the reader was opened: the pictures, in order, and how the command ends. -/
def extractSubBlocks (c : Codecs) (mem : Memory) (r : Reader) (al : Alloc) (s : Stream) (base : List Char) (sel : Selection) : List (List Char × Typed) × Ended :=
  match r.enumerateSubBlocks (subStep (fun i => fetch c mem al s r.doc i.toNat) base sel) ([], .done) with
  | .ok st => st
  | .throws => ([], .threw)
  | .undefined => ([], .undefined)

end Verif.Extract
