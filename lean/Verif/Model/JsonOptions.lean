import Verif.Model.CApi
import Verif.Model.Writer

/-!
# Options given to the C interface as JSON texts (`parameterhelpers.cpp`, `libCZIApi.cpp`)

The JSON parser is third-party code: it is an arbitrary function from texts to documents (`none`: parse error). Characters are bytes. Allocation failures are
not modelled.
-/

namespace Verif.JsonOpt
open Verif.Czi Verif.CApi

/-- A JSON value as the parser keeps it; numbers that are not integers are `real` (their value is never used). -/
inductive Json where
  | null
  | bool (b : Bool)
  | int (n : Int)
  | real
  | str (s : List Char)
  | arr (l : List Json)
  | obj (m : List (List Char × Json))

/-- The parser. -/
abbrev Parser := List Char → Option Json

/-- `FindMember`, `HasMember`, `operator[]`: the first member with that name. -/
def member (m : List (List Char × Json)) (key : String) : Option Json := (m.find? fun e => e.1 = key.toList).map (·.2)

/-- What a `const char*` to a string says: everything before the first zero. -/
def cstr (s : List Char) : List Char := s.takeWhile fun c => c.toNat ≠ 0

/-- `IsBool`, `GetBool`. -/
def asBool : Option Json → Option Bool
  | some (.bool b) => some b
  | _ => none

/-- `IsUint`, `GetUint`. -/
def asUint : Option Json → Option Nat
  | some (.int n) => if 0 ≤ n ∧ n < 2 ^ 32 then some n.toNat else none
  | _ => none

/-- `IsInt`, `GetInt`. -/
def asInt : Option Json → Option Int
  | some (.int n) => if -2 ^ 31 ≤ n ∧ n < 2 ^ 31 then some n else none
  | _ => none

/-- `IsString`, `GetString` (a pointer to the characters). -/
def asStr : Option Json → Option (List Char)
  | some (.str s) => some (cstr s)
  | _ => none

/-- The document, if there is a text, it can be parsed and is an object (parameterhelpers.cpp:352-362 and 381-391). -/
def object (parse : Parser) : Option (List Char) → Option (List (List Char × Json))
  | none => none
  | some t => match parse t with
    | some (.obj m) => some m
    | _ => none

/-- `TryParseCZIWriterOptions`, parameterhelpers.cpp:350-377 (`none`: it returns false). -/
def tryWriterOptions (parse : Parser) (text : Option (List Char)) : Option Bool :=
  (object parse text).bind fun m => asBool (member m "allow_duplicate_subblocks")

/-- Whether the writer made by `libCZI_CreateWriter`, libCZIApi.cpp:1584-1614, allows duplicate sub-blocks: the default (libCZI.h:111) if the
options are not valid. -/
def createWriter (parse : Parser) (text : Option (List Char)) : Bool := (tryWriterOptions parse text).getD false

/-- The GUID whose bits are all zero. -/
def nullGuid : Guid := ⟨0, 0, 0, #v[0, 0, 0, 0, 0, 0, 0, 0]⟩

/-- `CCziWriterInfo()`, libCZI_Write.h:111-125. -/
def blankInfo : WriterInfo := ⟨nullGuid, none, none, none, none, none⟩

/-- `SetMIndexBounds`, libCZI_Write.h:641-654. -/
def setBounds (i : WriterInfo) (lo hi : Int) : WriterInfo := if hi < lo then { i with mBounds := none } else { i with mBounds := some (lo, hi) }

/-- The file GUID of the options, parameterhelpers.cpp:404-413. -/
def optGuid (m : List (List Char × Json)) : Option Guid := (asStr (member m "file_guid")).bind tryParseGuid

/-- The bounds of the m-index in the options, parameterhelpers.cpp:433-451. -/
def optBounds (m : List (List Char × Json)) : Option (Int × Int) :=
  match asInt (member m "minimum_m_index"), asInt (member m "maximum_m_index") with
  | some a, some b => some (a, b)
  | _, _ => none

/-- `if (HasMember(...)) { set(...); information_successfully_parsed = true; }`. -/
def apply {α : Type} (o : Option α) (f : WriterInfo → α → WriterInfo) (s : WriterInfo × Bool) : WriterInfo × Bool :=
  match o with
  | none => s
  | some a => (f s.1 a, true)

/-- `TryParseCZIWriterInfo`, parameterhelpers.cpp:379-459 (`none`: it returns false). -/
def tryWriterInfo (parse : Parser) (text : Option (List Char)) : Option WriterInfo :=
  (object parse text).bind fun m =>
    let s := (blankInfo, false)
    let s := apply (optGuid m) (fun i g => { i with guid := g }) s
    let s := apply (asUint (member m "reserved_size_attachments_directory")) (fun i n => { i with reservedAttDir := some n }) s
    let s := apply (asUint (member m "reserved_size_subblock_directory")) (fun i n => { i with reservedSubDir := some n }) s
    let s := apply (asUint (member m "reserved_size_metadata_segment")) (fun i n => { i with reservedMetadata := some n }) s
    let s := apply (optBounds m) (fun i b => setBounds i b.1 b.2) s
    if s.2 then some s.1 else none

/-- The information the writer works with: `libCZI_WriterCreate`, libCZIApi.cpp:1675-1686, and the beginning of `CCziWriter::Create`,
CziWriter.cpp:917-932 (with `CziWriterInfoWrapper`, CziWriter.h:250-264); `fresh` is the GUID that is generated. -/
def writerInfo (parse : Parser) (text : Option (List Char)) (fresh : Guid) : WriterInfo :=
  match tryWriterInfo parse text with
  | some i => if i.guid = nullGuid then { i with guid := fresh } else i
  | none => { blankInfo with guid := fresh }

/-- `AccessorOptionsInterop` (the colour components are copied as they are). -/
structure AccessorInterop (φ : Type) where
  red : φ
  green : φ
  blue : φ
  sortByM : Bool
  useVisibilityCheck : Bool
  additional : Option (List Char)

/-- `ISingleChannelScalingTileAccessor::Options`, libCZI_Compositor.h:488-548, without the members that are not set here. -/
structure AccessorOptions (φ : Type) where
  red : φ
  green : φ
  blue : φ
  sortByM : Bool
  useVisibilityCheck : Bool
  maskAware : Bool

/-- `ConvertSingleChannelScalingTileAccessorOptionsInteropToLibCZI`, parameterhelpers.cpp:600-631; `blank` is the result of `Clear` for the colour. -/
def accessorOptions {φ : Type} (parse : Parser) (blank : φ) : Option (AccessorInterop φ) → AccessorOptions φ
  | none => ⟨blank, blank, blank, true, false, false⟩
  | some o => ⟨o.red, o.green, o.blue, o.sortByM, o.useVisibilityCheck,
      ((object parse o.additional).bind fun m => asBool (member m "mask_aware")).getD false⟩

/-! ## The property bag of a stream -/

/-- The types of properties (`StreamsFactory::Property::Type`) that are in the table. -/
inductive PropType where
  | string
  | boolean
  | int32
  deriving DecidableEq

/-- `StreamsFactory::Property`. -/
inductive PropValue where
  | string (s : List Char)
  | boolean (b : Bool)
  | int32 (n : Int)
  deriving DecidableEq

/-- An element of the table, libCZI_StreamsLib.h:252-260. -/
structure PropInfo where
  name : String
  id : Int
  type : PropType
  deriving DecidableEq

/-- `GetStreamPropertyBagPropertyInfo`, streamsFactory.cpp:131-162 (all streams available). -/
def propTable : List PropInfo :=
  [⟨"CurlHttp_Proxy", 100, .string⟩, ⟨"CurlHttp_UserAgent", 101, .string⟩, ⟨"CurlHttp_Timeout", 102, .int32⟩, ⟨"CurlHttp_ConnectTimeout", 103, .int32⟩,
   ⟨"CurlHttp_Xoauth2Bearer", 104, .string⟩, ⟨"CurlHttp_Cookie", 105, .string⟩, ⟨"CurlHttp_SslVerifyPeer", 106, .boolean⟩,
   ⟨"CurlHttp_SslVerifyHost", 107, .boolean⟩, ⟨"CurlHttp_FollowLocation", 108, .boolean⟩, ⟨"CurlHttp_MaxRedirs", 109, .int32⟩,
   ⟨"CurlHttp_CaInfo", 110, .string⟩, ⟨"CurlHttp_CaInfoBlob", 111, .string⟩, ⟨"AzureBlob_AuthenticationMode", 200, .string⟩]

/-- The value of a property of that type, parameterhelpers.cpp:160-198. -/
def propValue : PropType → Json → Option PropValue
  | .string, j => (asStr (some j)).map .string
  | .boolean, j => (asBool (some j)).map .boolean
  | .int32, j => (asInt (some j)).map .int32

/-- The loop of `TryParseInputStreamCreationPropertyBag`, parameterhelpers.cpp:137-199; `std::map::insert` keeps a value that is there. -/
def bagLoop (table : List PropInfo) : List (List Char × Json) → List (Int × PropValue) → Option (List (Int × PropValue))
  | [], bag => some bag
  | (name, j) :: l, bag =>
    match table.find? fun p => cstr name = p.name.toList with
    | none => none
    | some p => match propValue p.type j with
      | none => none
      | some v => bagLoop table l (mapInsert bag p.id v)

/-- `TryParseInputStreamCreationPropertyBag`, parameterhelpers.cpp:124-203 (`none`: it returns false). -/
def propertyBag (parse : Parser) (table : List PropInfo) (text : List Char) : Option (List (Int × PropValue)) :=
  match parse text with
  | some (.obj m) => bagLoop table m []
  | _ => none

/-- The property bag that `libCZI_CreateInputStream` creates the stream with, libCZIApi.cpp:560-577 (`none`: `InvalidArgument`). -/
def createStreamBag (parse : Parser) (table : List PropInfo) : Option (List Char) → Option (List (Int × PropValue))
  | none => some []
  | some t => if t = [] then some [] else propertyBag parse table t

end Verif.JsonOpt
