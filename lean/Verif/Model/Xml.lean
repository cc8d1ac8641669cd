import Verif.Model.Text

/-!
# The metadata tree: `IXmlNodeRead`, `IXmlNodeRw` (`XmlNodeWrapper.h`, `CziMetadataBuilder.cpp`)

A document is a tree of elements and text nodes: with the flags used (`parse_default`) pugixml keeps elements, PCDATA and CDATA,
and the interfaces create elements and PCDATA only. A node object is represented by the position of the node: the child indices
from the root. Strings are lists of characters; the conversions between UTF-8 and wide strings are not modelled here (for documents: Model/XmlText.lean). Simplification: a
node object that outlives the removal of a node before its own is not described.
-/

namespace Verif.Xml
open Text

/-- A string. -/
abbrev Str := List Char

/-- A node of the document. -/
inductive Node where
  | element (name : Str) (attrs : List (Str × Str)) (children : List Node)
  | text (cdata : Bool) (value : Str)

/-- `first_child`, `next_sibling`, ... of pugixml. -/
def Node.children : Node → List Node
  | .element _ _ cs => cs
  | .text _ _ => []

/-- The attributes. -/
def Node.attrs : Node → List (Str × Str)
  | .element _ as _ => as
  | .text _ _ => []

/-- `name()`. -/
def Node.name : Node → Str
  | .element n _ _ => n
  | .text _ _ => []

/-- `type() == node_element`. -/
def Node.isElement : Node → Bool
  | .element _ _ _ => true
  | .text _ _ => false

/-- `type() == node_pcdata`. -/
def Node.isPcdata : Node → Bool
  | .text false _ => true
  | _ => false

/-- The same node with other children. -/
def Node.setChildren : Node → List Node → Node
  | .element n as _, cs => .element n as cs
  | .text c v, _ => .text c v

/-- The node at a position. -/
def Node.at : Node → List Nat → Option Node
  | n, [] => some n
  | n, i :: p => match n.children[i]? with
    | none => none
    | some c => c.at p

/-- The document with the node at a position changed. -/
def Node.update (f : Node → Node) : List Nat → Node → Node
  | [], n => f n
  | i :: p, n => n.setChildren (n.children.modify i (Node.update f p))

/-! ## Paths -/

/-- `Utilities::Tokenize`, utilities.cpp:157-171: the parts between delimiters, empty ones included; `cur` is the part read so far. -/
def tokenize (delim : Char → Bool) : Str → Str → List Str
  | cur, [] => [cur]
  | cur, c :: s => if delim c then cur :: tokenize delim [] s else tokenize delim (cur ++ [c]) s

/-- `[` or `]`. -/
def isBracket (c : Char) : Bool := c = '[' || c = ']'

/-- `regex_match` with `([^\[\]]+)(\[([^\[\]]*)\])?`, XmlNodeWrapper.h:41 and CziMetadataBuilder.cpp:310: the name and the specifier
(if any). The name is the longest prefix without brackets, so the match is unique. -/
def splitToken (t : Str) : Option (Str × Option Str) :=
  if t.takeWhile (fun c => !isBracket c) = [] then none
  else match t.dropWhile (fun c => !isBracket c) with
    | [] => some (t, none)
    | c :: r =>
      if c = '[' ∧ r.dropWhile (fun c => !isBracket c) = [']'] then
        some (t.takeWhile (fun c => !isBracket c), some (r.takeWhile (fun c => !isBracket c)))
      else none

/-- `regex_match` with `([^=]+)=([^,;]*)`, XmlNodeWrapper.h:81. -/
def splitPair (s : Str) : Option (Str × Str) :=
  match s.dropWhile (fun c => c ≠ '=') with
  | [] => none
  | _ :: v =>
    if s.takeWhile (fun c => c ≠ '=') = [] ∨ v.any (fun c => c = ',' || c = ';') then none
    else some (s.takeWhile (fun c => c ≠ '='), v)

/-- `operator<` of `std::wstring`. -/
def strLt : Str → Str → Bool
  | _, [] => false
  | [], _ :: _ => true
  | a :: as, b :: bs => if a.toNat < b.toNat then true else if b.toNat < a.toNat then false else strLt as bs

/-- `std::map::insert`: nothing happens if the key is there. -/
def mapInsert (k v : Str) : List (Str × Str) → List (Str × Str)
  | [] => [(k, v)]
  | (k', v') :: m =>
    if k = k' then (k', v') :: m
    else if strLt k k' then (k, v) :: (k', v') :: m
    else (k', v') :: mapInsert k v m

/-- The loop of `ParseAttributes`, XmlNodeWrapper.h:82-99. -/
def parsePairs : List Str → List (Str × Str) → Option (List (Str × Str))
  | [], m => some m
  | s :: ss, m => match splitPair s with
    | none => none
    | some (k, v) => parsePairs ss (mapInsert k v m)

/-- `ParseAttributes`, XmlNodeWrapper.h:71-102; `none` = the exception "invalid path". -/
def parseAttributes (s : Str) : Option (List (Str × Str)) := parsePairs (tokenize (fun c => c = ',' || c = ';') [] s) []

/-- `regex_match` with `^\s*\d+\s*$`, XmlNodeWrapper.h:107-108. -/
def isIndex (s : Str) : Bool :=
  let d := s.dropWhile isSpace
  d.takeWhile Char.isDigit ≠ [] && (d.dropWhile Char.isDigit).all isSpace

/-- `std::stoul` of such a text, XmlNodeWrapper.h:111-124: `none` = "invalid path" (the value is not in the range of `uint32_t`). -/
def indexOf (s : Str) : Option Nat :=
  let v := natOf ((s.dropWhile isSpace).takeWhile Char.isDigit)
  if v < 2 ^ 32 then some v else none

/-- The predicate `find_element_node`, XmlNodeWrapper.h:216-229 and CziMetadataBuilder.cpp:400-413. -/
def isNamed (name : Str) (n : Node) : Bool := n.isElement && n.name == name

/-- The value of the first attribute with a name. -/
def attrOf (as : List (Str × Str)) (k : Str) : Option Str := (as.find? (fun a => a.1 == k)).map (·.2)

/-- The predicate `find_element_node_and_attributes`, XmlNodeWrapper.h:163-199 and CziMetadataBuilder.cpp:347-383. -/
def isNamedWith (name : Str) (m : List (Str × Str)) (n : Node) : Bool :=
  isNamed name n && m.all (fun kv => attrOf n.attrs kv.1 == some kv.2)

/-- The index of the `k`-th element of the list with a property, if it exists. -/
def nthIdx (p : Node → Bool) : Nat → List Node → Option Nat
  | _, [] => none
  | k, n :: ns =>
    if p n then
      match k with
      | 0 => some 0
      | k + 1 => (nthIdx p k ns).map (· + 1)
    else (nthIdx p k ns).map (· + 1)

/-- `XmlPathSpecifierUtilities::GetChildElementNodeWithAttributes`, XmlNodeWrapper.h:37-66, with `GetChildElementWithSpecifier`,
104-131, `GetChildElementNodeWithIndex`, 139-159, and the functions at 161-239: the index of the child; `.error` = the exception. -/
def getToken (n : Node) (t : Str) : Except Unit (Option Nat) :=
  match splitToken t with
  | none => .error ()
  | some (name, none) => .ok (nthIdx (isNamed name) 0 n.children)
  | some (name, some spec) =>
    if isIndex spec then
      match indexOf spec with
      | none => .error ()
      | some k => .ok (nthIdx (isNamed name) k n.children)
    else match parseAttributes spec with
      | none => .error ()
      | some m => .ok (nthIdx (isNamedWith name m) 0 n.children)

/-- The loop of `GetChildNodePathMustExist`, CziMetadataBuilder.cpp:90-104, and `GetChildNodeReadonly`, XmlNodeWrapper.h:347-361. -/
def getPath : Node → List Str → Except Unit (Option (List Nat))
  | _, [] => .ok (some [])
  | n, t :: ts =>
    match getToken n t with
    | .error e => .error e
    | .ok none => .ok none
    | .ok (some i) =>
      match n.children[i]? with
      | none => .ok none
      | some c => match getPath c ts with
        | .error e => .error e
        | .ok none => .ok none
        | .ok (some p) => .ok (some (i :: p))

/-- The tokens of a path, and the check of CziMetadataBuilder.cpp:79-88, 236-246 and XmlNodeWrapper.h:333-345. -/
def pathTokens (path : Str) : Option (List Str) :=
  let ts := tokenize (fun c => c = '/') [] path
  if ts.isEmpty || ts.any List.isEmpty then none else some ts

/-- `GetChildNode` and `GetChildNodeReadonly` of the node at `h`, CziMetadataBuilder.cpp:75-117, 142-151, XmlNodeWrapper.h:328-364; `.ok none` = null pointer. -/
def getChildNode (doc : Node) (h : List Nat) (path : Str) : Except Unit (Option (List Nat)) :=
  match pathTokens path, doc.at h with
  | none, _ => .error ()
  | some _, none => .ok none
  | some ts, some n => match getPath n ts with
    | .error e => .error e
    | .ok none => .ok none
    | .ok (some p) => .ok (some (h ++ p))

/-- `GetOrCreateChildElementNode`, CziMetadataBuilder.cpp:398-421, and `GetOrCreateChildElementNodeWithAttributes`, 345-396: the children
afterwards and the index of the child. -/
def findOrAppend (p : Node → Bool) (new : Node) (cs : List Node) : List Node × Nat :=
  match nthIdx p 0 cs with
  | some i => (cs, i)
  | none => (cs ++ [new], cs.length)

/-- `GetOrCreateChildElementNodeWithAttributes`, CziMetadataBuilder.cpp:308-338. -/
def getOrCreateToken (cs : List Node) (t : Str) : Except Unit (List Node × Nat) :=
  match splitToken t with
  | none => .error ()
  | some (name, none) => .ok (findOrAppend (isNamed name) (.element name [] []) cs)
  | some (name, some spec) =>
    match parseAttributes spec with
    | none => .error ()
    | some m => .ok (findOrAppend (isNamedWith name m) (.element name m []) cs)

/-- The loop of `GetOrCreateChildNodeInternal`, CziMetadataBuilder.cpp:248-262: the node afterwards (whether or not an
exception is thrown) and the position of the child. -/
def getOrCreatePath : Node → List Str → Node × Except Unit (List Nat)
  | n, [] => (n, .ok [])
  | n, t :: ts =>
    match getOrCreateToken n.children t with
    | .error e => (n, .error e)
    | .ok (cs, i) =>
      match cs[i]? with
      | none => (n, .error ())   -- not reachable
      | some c =>
        (n.setChildren (cs.set i (getOrCreatePath c ts).1),
          match (getOrCreatePath c ts).2 with
          | .error e => .error e
          | .ok p => .ok (i :: p))

/-- `GetOrCreateChildNode` of the node at `h`, CziMetadataBuilder.cpp:137-140 and 230-265. -/
def getOrCreateChildNode (doc : Node) (h : List Nat) (path : Str) : Node × Except Unit (List Nat) :=
  match pathTokens path, doc.at h with
  | none, _ => (doc, .error ())
  | some _, none => (doc, .error ())
  | some ts, some n =>
    (doc.update (fun _ => (getOrCreatePath n ts).1) h,
      match (getOrCreatePath n ts).2 with
      | .error e => .error e
      | .ok p => .ok (h ++ p))

/-- `AppendChildNode`, CziMetadataBuilder.cpp:23-28. -/
def appendChildNode (doc : Node) (h : List Nat) (name : Str) : Node × List Nat :=
  (doc.update (fun n => n.setChildren (n.children ++ [.element name [] []])) h,
    h ++ [((doc.at h).map (·.children.length)).getD 0])

/-! ## Attributes and values -/

/-- `TryGetAttribute`, CziMetadataBuilder.cpp:30-48 and XmlNodeWrapper.h:264-282. -/
def tryGetAttribute (n : Node) (k : Str) : Option Str := attrOf n.attrs k

/-- `SetAttribute`, CziMetadataBuilder.cpp:281-306, on the list of attributes. -/
def setAttr (k v : Str) : List (Str × Str) → List (Str × Str)
  | [] => [(k, v)]
  | a :: as => if a.1 = k then (k, v) :: as else a :: setAttr k v as

/-- `SetAttribute`. -/
def setAttribute (k v : Str) : Node → Node
  | .element n as cs => .element n (setAttr k v as) cs
  | n => n

/-- `RemoveAttribute`, CziMetadataBuilder.cpp:223-226: the first attribute with the name; `false` if there is none. -/
def removeAttribute (k : Str) : Node → Node × Bool
  | .element n as cs => (.element n (as.eraseP (fun a => a.1 == k)) cs, as.any (fun a => a.1 == k))
  | n => (n, false)

/-- `RemoveChild`, CziMetadataBuilder.cpp:218-221: the first child with the name; `false` if there is none. -/
def removeChild (name : Str) : Node → Node × Bool
  | .element n as cs => (.element n as (cs.eraseP (isNamed name)), cs.any (isNamed name))
  | n => (n, false)

/-- `TryGetValue`, CziMetadataBuilder.cpp:61-73 and XmlNodeWrapper.h:295-308: the first child has to be PCDATA. -/
def tryGetValue (n : Node) : Option Str :=
  match n.children with
  | .text false v :: _ => some v
  | _ => none

/-- `pcdata.set_value` for the first PCDATA child, which is created if there is none (`GetOrCreatePcDataChild`,
CziMetadataBuilder.cpp:270-279). -/
def setText (v : Str) : List Node → List Node
  | [] => [.text false v]
  | .text false _ :: cs => .text false v :: cs
  | c :: cs => c :: setText v cs

/-- `SetValue`, CziMetadataBuilder.cpp:153-165, with `ThrowIfCannotSetValue`, 267-268: `.error` = the exception `CannotSetValueToNode`. -/
def setValue (v : Str) (n : Node) : Except Unit Node :=
  if n.children.any Node.isElement then .error () else .ok (n.setChildren (setText v n.children))

/-- What a reading function comes to: the value, `false`, or it does not return. -/
inductive Read (α : Type) where
  | value (a : α)
  | fails
  | hangs
  deriving DecidableEq, Repr

/-- `wcstoll`, `wcstol`: white space, sign, digits. Sign, digits and the rest of the string; `none`: no conversion. -/
def scanInt (s : Str) : Option (Bool × Str × Str) :=
  let r := s.dropWhile isSpace
  let neg := r.head? = some '-'
  let r := if r.head? = some '-' ∨ r.head? = some '+' then r.drop 1 else r
  if r.takeWhile Char.isDigit = [] then none else some (neg, r.takeWhile Char.isDigit, r.dropWhile Char.isDigit)

/-- The end of `TryConvert`, CziMetadata.cpp:118-127: the loop does not change its variable, so it does not end if the first character
that was not converted is white space. (C++ leaves the behaviour of such a loop undefined.) -/
def finish {α : Type} (a : α) (rest : Str) : Read α :=
  match rest with
  | [] => .value a
  | c :: _ => if isSpace c then .hangs else .fails

/-- `TryConvert` with `std::stoi` or `std::stoll`, CziMetadata.cpp:107-146 and 203-231: `lo`, `hi` are the limits of the type. -/
def readSigned (lo hi : Int) (v : Option Str) : Read Int :=
  match v with
  | none => .fails
  | some s => match scanInt s with
    | none => .fails
    | some (neg, ds, rest) =>
      let x : Int := if neg then -(natOf ds : Int) else natOf ds
      if x < lo ∨ hi < x then .fails else finish x rest

/-- `TryConvert` with `std::stoull`, CziMetadata.cpp:181-201 and 233-245: a number with minus sign is negated modulo 2^64 (if its
absolute value is below 2^64). -/
def readUnsigned (hi : Nat) (v : Option Str) : Read Nat :=
  match v with
  | none => .fails
  | some s => match scanInt s with
    | none => .fails
    | some (neg, ds, rest) =>
      if 2 ^ 64 ≤ natOf ds then .fails
      else
        let x := if neg then (2 ^ 64 - natOf ds) % 2 ^ 64 else natOf ds
        if hi < x then .fails else finish x rest

/-- `TryGetValueAsInt32`. -/
def tryGetInt32 (n : Node) : Read Int := readSigned (-2147483648) 2147483647 (tryGetValue n)
/-- `TryGetValueAsInt64`. -/
def tryGetInt64 (n : Node) : Read Int := readSigned (-9223372036854775808) 9223372036854775807 (tryGetValue n)
/-- `TryGetValueAsUInt32`. -/
def tryGetUInt32 (n : Node) : Read Nat := readUnsigned 4294967295 (tryGetValue n)
/-- `TryGetValueAsUInt64`. -/
def tryGetUInt64 (n : Node) : Read Nat := readUnsigned 18446744073709551615 (tryGetValue n)

/-- `towupper` in the "C" locale. -/
def upper (c : Char) : Char := if 97 ≤ c.toNat ∧ c.toNat ≤ 122 then Char.ofNat (c.toNat - 32) else c

/-- `Utilities::icasecmp`, utilities.cpp:87-93. -/
def icasecmp (a b : Str) : Bool := a.map upper == b.map upper

/-- `TryGetValueAsBool`, CziMetadata.cpp:247-273. -/
def tryGetBool (n : Node) : Read Bool :=
  match tryGetValue n with
  | none => .fails
  | some v =>
    if icasecmp (trim v) "yes".toList || icasecmp (trim v) "true".toList || icasecmp (trim v) "1".toList then .value true
    else if icasecmp (trim v) "no".toList || icasecmp (trim v) "false".toList || icasecmp (trim v) "0".toList then .value false
    else .fails

/-- `SetValueI32`, `SetValueUI32`, `SetValueI64`, `SetValueUI64`, CziMetadataBuilder.cpp:167-185, CziMetadataBuilder.h:88-93. -/
def setInt (v : Int) (n : Node) : Except Unit Node := setValue (printInt v) n

/-- `SetValueBool`, CziMetadataBuilder.cpp:187-190. -/
def setBool (b : Bool) (n : Node) : Except Unit Node := setValue (if b then "true".toList else "false".toList) n

/-- A node object refers to a node of the document (`internal_object()`, CziMetadataBuilder.cpp:16-21): what one of the functions above
does with the node is done to the document; if it throws, nothing has been changed. -/
def onNode (f : Node → Except Unit Node) (doc : Node) (h : List Nat) : Except Unit Node :=
  match doc.at h with
  | none => .ok doc
  | some n => match f n with
    | .error e => .error e
    | .ok n' => .ok (doc.update (fun _ => n') h)

end Verif.Xml
