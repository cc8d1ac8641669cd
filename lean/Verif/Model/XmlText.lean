import Verif.Model.DocInfo

/-!
# The text of an XML document: writing and parsing (`pugixml.cpp`)

pugixml is part of the library (`PUGIXML_WCHAR_MODE`, pugiconfig.hpp:19). It is used with `parse_default` (CziMetadata.cpp:18,
CziMetadataBuilder.cpp:449, SubblockMetadata.cpp:15) and `save` with `format_default` or `format_no_declaration` and `format_indent` or `format_raw` (CziMetadata.cpp:40,
CziMetadataBuilder.cpp:479-480, SubblockMetadata.cpp:81). With `parse_default`, comments, processing instructions, the declaration and the document type do not get
into the tree.

Simplifications: a character (`wchar_t` of 32 bits) is a Unicode scalar value; the strings in a tree are zero-terminated and so contain no zero. Allocation succeeds. The
buffer of the writer (pugixml.cpp:3778-3980) is not modelled: its output is the concatenation of what is written.
-/

namespace Verif.Xml

/-! ## UTF-8 -/

/-- `utf8_writer::any`, pugixml.cpp:1529-1567 (from `convert_buffer_output`, pugixml.cpp:3690-3702, with the decoder of UTF-32). -/
def encodeChar (c : Char) : List UInt8 :=
  let n := c.toNat
  if n < 0x80 then [UInt8.ofNat n]
  else if n < 0x800 then [UInt8.ofNat (0xC0 + n / 64), UInt8.ofNat (0x80 + n % 64)]
  else if n < 0x10000 then [UInt8.ofNat (0xE0 + n / 4096), UInt8.ofNat (0x80 + n / 64 % 64), UInt8.ofNat (0x80 + n % 64)]
  else [UInt8.ofNat (0xF0 + n / 262144), UInt8.ofNat (0x80 + n / 4096 % 64), UInt8.ofNat (0x80 + n / 64 % 64), UInt8.ofNat (0x80 + n % 64)]

/-- The bytes of a text. -/
def encode (s : Str) : List UInt8 := s.flatMap encodeChar

/-- `(data[i] & 0xc0) == 0x80`. -/
def isTail (b : UInt8) : Bool := 0x80 ≤ b.toNat && b.toNat < 0xC0

/-- `utf8_decoder::process`, pugixml.cpp:1679-1739 (from `convert_buffer_generic`, pugixml.cpp:2160-2183): the numbers of the characters. The first argument is the
number of bytes that were already used. Bytes that do not fit are left out. -/
def decodeFrom : Nat → List UInt8 → List Nat
  | _, [] => []
  | k + 1, _ :: s => decodeFrom k s
  | 0, a :: s =>
    let n := a.toNat
    if n < 0x80 then n :: decodeFrom 0 s
    else match s with
      | b :: t =>
        if 0xC0 ≤ n ∧ n < 0xE0 ∧ isTail b = true then ((n - 0xC0) * 64 + b.toNat % 64) :: decodeFrom 1 s
        else match t with
          | c :: u =>
            if 0xE0 ≤ n ∧ n < 0xF0 ∧ isTail b = true ∧ isTail c = true then ((n - 0xE0) * 4096 + b.toNat % 64 * 64 + c.toNat % 64) :: decodeFrom 2 s
            else match u with
              | d :: _ =>
                if 0xF0 ≤ n ∧ n < 0xF8 ∧ isTail b = true ∧ isTail c = true ∧ isTail d = true then
                  ((n - 0xF0) * 262144 + b.toNat % 64 * 4096 + c.toNat % 64 * 64 + d.toNat % 64) :: decodeFrom 3 s
                else decodeFrom 0 s
              | [] => decodeFrom 0 s
          | [] => decodeFrom 0 s
      | [] => decodeFrom 0 s

/-- The character with a number; `none`: not a Unicode scalar value. -/
def charOf (n : Nat) : Option Char := if n.isValidChar then some (Char.ofNat n) else none

/-! ## Kinds of characters (pugixml.cpp:1884-1960) -/

/-- `ct_start_symbol`. -/
def isStartSymbol (c : Char) : Bool :=
  (65 ≤ c.toNat && c.toNat ≤ 90) || (97 ≤ c.toNat && c.toNat ≤ 122) || c = '_' || c = ':' || 128 ≤ c.toNat

/-- `ct_symbol`. -/
def isSymbol (c : Char) : Bool := isStartSymbol c || (48 ≤ c.toNat && c.toNat ≤ 57) || c = '-' || c = '.'

/-- `ctx_special_pcdata` and, in attributes, `ctx_special_attr`. -/
def isSpecial (attr : Bool) (c : Char) : Bool :=
  c = '&' || c = '<' ||
  (if attr then c = '"' || c = '\'' || c.toNat < 32 else c = '>' || (c.toNat < 32 && c ≠ '\t' && c ≠ '\n' && c ≠ '\r'))

/-! ## Writing -/

/-- What `text_output_escaped` writes for one character, pugixml.cpp:3978-4032, with none of the flags `format_attribute_single_quote` and `format_skip_control_chars`. -/
def escapeChar (attr : Bool) (c : Char) : Str :=
  if isSpecial attr c then
    if c = '&' then ['&', 'a', 'm', 'p', ';']
    else if c = '<' then ['&', 'l', 't', ';']
    else if c = '>' then ['&', 'g', 't', ';']
    else if c = '"' then ['&', 'q', 'u', 'o', 't', ';']
    else if c = '\'' then ['\'']
    else ['&', '#', Char.ofNat (c.toNat / 10 + 48), Char.ofNat (c.toNat % 10 + 48), ';']
  else [c]

/-- `text_output_escaped`. -/
def escape (attr : Bool) (s : Str) : Str := s.flatMap (escapeChar attr)

/-- The text of `text_output_cdata`, pugixml.cpp:4042-4063, between the first `<![CDATA[` and the last `]]>`. -/
def cdataBody : Str → Str
  | [] => []
  | c :: s => match c, s with
    | ']', ']' :: '>' :: _ => "]]]]><![CDATA[".toList ++ (cdataBody s).drop 1
    | _, _ => c :: cdataBody s

/-- `text_output_cdata`, pugixml.cpp:4042-4063. -/
def cdataText (s : Str) : Str := "<![CDATA[".toList ++ cdataBody s ++ "]]>".toList

/-- `node_output_attributes`, pugixml.cpp:4144-4173. -/
def attrsText (as : List (Str × Str)) : Str := as.flatMap fun a => ' ' :: (a.1 ++ '=' :: '"' :: (escape true a.2 ++ ['"']))

/-- `format_raw` and the indentation, empty without `format_indent` or with `format_raw` (`indent_length`, pugixml.cpp:4302). -/
structure Format where
  raw : Bool
  indent : Str

/-- `indent_flags`, pugixml.cpp:4294-4298 and 4303. -/
structure Lead where
  newline : Bool
  indent : Bool

/-- pugixml.cpp:4322-4326 and 4380-4384: the white space before a tag. -/
def leadText (f : Format) (depth : Nat) (l : Lead) : Str :=
  (if l.newline && !f.raw then ['\n'] else []) ++ (if l.indent then (List.replicate depth f.indent).flatten else [])

mutual
/-- `node_output`, pugixml.cpp:4300-4396, for one node: the loop with `first_child`, `next_sibling` and `parent` visits the tree in this order. `node_output_start`,
pugixml.cpp:4175-4229, `node_output_end`, 4231-4239, `node_output_simple`, 4241-4292. -/
def printNode (f : Format) (depth : Nat) (l : Lead) : Node → Str
  | .text false v => escape false v
  | .text true v => cdataText v
  | .element n as cs =>
    leadText f depth l ++ '<' :: (n ++ (attrsText as ++
      (if cs.isEmpty then (if f.raw then [] else [' ']) ++ ['/', '>']
       else '>' :: ((printNodes f (depth + 1) ⟨true, true⟩ cs).1 ++ (leadText f depth (printNodes f (depth + 1) ⟨true, true⟩ cs).2 ++ '<' :: '/' :: (n ++ ['>']))))))

/-- The nodes of a list, and `indent_flags` afterwards. -/
def printNodes (f : Format) (depth : Nat) (l : Lead) : List Node → Str × Lead
  | [] => ([], l)
  | c :: cs =>
    let r := printNodes f depth (match c with | .text _ _ => ⟨false, false⟩ | .element _ _ _ => ⟨true, true⟩) cs
    (printNode f depth l c ++ r.1, r.2)
end

/-- `xml_document::save`, pugixml.cpp:7775-7801, for the children of the document. -/
def saveText (declaration : Bool) (f : Format) (doc : List Node) : Str :=
  (if declaration then "<?xml version=\"1.0\"?>".toList ++ (if f.raw then [] else ['\n']) else []) ++
  ((printNodes f 0 ⟨false, true⟩ doc).1 ++ (if (printNodes f 0 ⟨false, true⟩ doc).2.newline && !f.raw then ['\n'] else []))

/-- `ICziMetadataBuilder::GetXml`, CziMetadataBuilder.cpp:467-482. -/
def builderXml (withIndent : Bool) (doc : List Node) : List UInt8 :=
  encode (saveText false (if withIndent then ⟨false, [' ', ' ']⟩ else ⟨true, []⟩) doc)

/-- `ICziMetadata::GetXml`, CziMetadata.cpp:32-43, and `ISubBlockMetadata::GetXml`, SubblockMetadata.cpp:72-85. -/
def metadataXml (doc : List Node) : List UInt8 := encode (saveText true ⟨false, [' ']⟩ doc)

/-! ## Parsing -/

/-- `xml_parse_status`. `outside`: the text has a character that is not a Unicode scalar value, which is outside of this model. -/
inductive XErr where
  | noDocumentElement
  | unrecognizedTag
  | badPi
  | badComment
  | badCdata
  | badDoctype
  | badStartElement
  | badAttribute
  | badEndElement
  | endElementMismatch
  | outside
  deriving DecidableEq, Repr

/-- The value of the digits of a number with this base, modulo 2^32 (`unsigned int`), pugixml.cpp:2519-2533 and 2543-2554. -/
def digitsMod (base : Nat) (ds : List Nat) : Nat := ds.foldl (fun a d => (a * base + d) % 4294967296) 0

/-- The digits at the beginning of a text, followed by `;`: their value and the number of characters, with the `;`. -/
def numberRef (digit : Char → Option Nat) (base : Nat) (s : Str) : Option (Nat × Nat) :=
  let ds := s.takeWhile (fun c => (digit c).isSome)
  if ds.isEmpty then none
  else match s.drop ds.length with
    | ';' :: _ => some (digitsMod base (ds.filterMap digit), ds.length + 1)
    | _ => none

/-- A decimal digit. -/
def decDigit (c : Char) : Option Nat := if 48 ≤ c.toNat ∧ c.toNat ≤ 57 then some (c.toNat - 48) else none

/-- `strconv_escape`, pugixml.cpp:2505-2640: the reference after a `&`: the number of the character and the number of characters it takes. If the text is not a
reference, the code continues behind the part that looked like one; all its characters stay as they are, so that it is the same to continue after the `&`. -/
def reference (s : Str) : Option (Nat × Nat) :=
  match s with
  | '#' :: 'x' :: t => (numberRef hexDigit 16 t).map fun r => (r.1, r.2 + 2)
  | '#' :: t => (numberRef decDigit 10 t).map fun r => (r.1, r.2 + 1)
  | 'a' :: 'm' :: 'p' :: ';' :: _ => some (38, 4)
  | 'a' :: 'p' :: 'o' :: 's' :: ';' :: _ => some (39, 5)
  | 'g' :: 't' :: ';' :: _ => some (62, 3)
  | 'l' :: 't' :: ';' :: _ => some (60, 3)
  | 'q' :: 'u' :: 'o' :: 't' :: ';' :: _ => some (34, 5)
  | _ => none

/-- Put a character before what follows. -/
def before {α : Type} (c : Char) (r : Except XErr (Str × α)) : Except XErr (Str × α) := r.map fun x => (c :: x.1, x.2)

/-- `strconv_pcdata_impl`, pugixml.cpp:2711-2768, without trimming: the text, and what follows, from the `<` or from the end. The first argument is the number of
characters that were already used. -/
def pcdata : Nat → Str → Except XErr (Str × Str)
  | _, [] => .ok ([], [])
  | k + 1, _ :: s => pcdata k s
  | 0, c :: s =>
    if c = '<' then .ok ([], c :: s)
    else if c = '\r' then before '\n' (pcdata (if s.head? = some '\n' then 1 else 0) s)
    else if c = '&' then
      match reference s with
      | none => before '&' (pcdata 0 s)
      | some (n, k) => match charOf n with
        | none => .error .outside
        | some d => before d (pcdata k s)
    else before c (pcdata 0 s)

/-- `strconv_attribute_impl::parse_wconv`, pugixml.cpp:2849-2886: the value, and what follows the quote. -/
def attrString (q : Char) : Nat → Str → Except XErr (Str × Str)
  | _, [] => .error .badAttribute
  | k + 1, _ :: s => attrString q k s
  | 0, c :: s =>
    if c = q then .ok ([], s)
    else if c = '\r' then before ' ' (attrString q (if s.head? = some '\n' then 1 else 0) s)
    else if c = '\n' ∨ c = '\t' then before ' ' (attrString q 0 s)
    else if c = '&' then
      match reference s with
      | none => before '&' (attrString q 0 s)
      | some (n, k) => match charOf n with
        | none => .error .outside
        | some d => before d (attrString q k s)
    else before c (attrString q 0 s)

/-- `strconv_cdata`, pugixml.cpp:2680-2706: the text, and what follows `]]>`. -/
def cdata : Str → Except XErr (Str × Str)
  | [] => .error .badCdata
  | c :: s =>
    if c = '\r' then (match s with
      | '\n' :: _ => cdata s
      | _ => before '\n' (cdata s))
    else match c, s with
      | ']', ']' :: '>' :: r => .ok ([], r)
      | _, _ => before c (cdata s)

/-- A value is a zero-terminated string. -/
def zeroTerminated (s : Str) : Str := s.takeWhile (· ≠ '\x00')

/-- White space, `PUGI_IMPL_SKIPWS`, pugixml.cpp:2643. -/
def skipWs (s : Str) : Str := s.dropWhile isPugiSpace

/-- Go behind the first occurrence of a text, `PUGI_IMPL_SCANFOR`, pugixml.cpp:2647. `none`: there is none. -/
def behind (pat : Str) : Str → Option Str
  | [] => none
  | c :: s => if pat.isPrefixOf (c :: s) then some ((c :: s).drop pat.length) else behind pat s

/-- One attribute, pugixml.cpp:3312-3356: its name, its value and what follows. -/
def oneAttr (s : Str) : Except XErr ((Str × Str) × Str) :=
  let name := s.takeWhile isSymbol
  match skipWs (s.dropWhile isSymbol) with
  | '=' :: t => match skipWs t with
    | q :: u => if q = '"' ∨ q = '\'' then
        match attrString q 0 u with
        | .error e => .error e
        | .ok (v, r) => if (r.head?.map isStartSymbol).getD false then .error .badAttribute else .ok ((name, zeroTerminated v), r)
      else .error .badAttribute
    | [] => .error .badAttribute
  | _ => .error .badAttribute

/-- The loop `LOC_ATTRIBUTES`, pugixml.cpp:3305-3384: the attributes, whether the tag ends with `/>`, and what follows. The first argument bounds the number of turns. -/
def attributes : Nat → Str → Except XErr (List (Str × Str) × Bool × Str)
  | 0, _ => .error .badStartElement
  | k + 1, s => match skipWs s with
    | [] => .error .badStartElement
    | c :: t =>
      if isStartSymbol c then
        match oneAttr (c :: t) with
        | .error e => .error e
        | .ok (a, r) => (attributes k r).map fun x => (a :: x.1, x.2)
      else if c = '/' then (match t with
        | '>' :: r => .ok ([], true, r)
        | _ => .error .badStartElement)
      else if c = '>' then .ok ([], false, t)
      else .error .badStartElement

/-- `parse_doctype_primitive`, pugixml.cpp:2987-3019. -/
def doctypePrimitive (s : Str) : Option Str :=
  match s with
  | '"' :: t => behind ['"'] t
  | '\'' :: t => behind ['\''] t
  | '<' :: '?' :: t => behind ['?', '>'] t
  | '<' :: '!' :: '-' :: '-' :: t => behind ['-', '-', '>'] t
  | _ => none

/-- `parse_doctype_ignore`, pugixml.cpp:3021-3052, after `<![`. The first argument is the number of characters already used. -/
def doctypeIgnore : Nat → Nat → Str → Option Str
  | _, _, [] => none
  | k + 1, depth, _ :: s => doctypeIgnore k depth s
  | 0, depth, c :: s =>
    if ['<', '!', '['].isPrefixOf (c :: s) then doctypeIgnore 2 (depth + 1) s
    else if [']', ']', '>'].isPrefixOf (c :: s) then (if depth = 0 then some (s.drop 2) else doctypeIgnore 2 (depth - 1) s)
    else doctypeIgnore 0 depth s

/-- `parse_doctype_group`, pugixml.cpp:3054-3101, after `<!`: what follows the `>`. The first argument bounds the number of turns. -/
def doctypeGroup : Nat → Nat → Str → Option Str
  | 0, _, _ => none
  | _ + 1, _, [] => none
  | k + 1, depth, c :: s =>
    if ['<', '!'].isPrefixOf (c :: s) ∧ (s.drop 1).head? ≠ some '-' then
      (if (s.drop 1).head? = some '[' then (doctypeIgnore 0 0 (s.drop 2)).bind fun r => doctypeGroup k depth r
       else doctypeGroup k (depth + 1) (s.drop 1))
    else if c = '<' ∨ c = '"' ∨ c = '\'' then (doctypePrimitive (c :: s)).bind fun r => doctypeGroup k depth r
    else if c = '>' then (if depth = 0 then some s else doctypeGroup k (depth - 1) s)
    else doctypeGroup k depth s

/-- An element that is not yet closed, with its children so far. -/
structure OpenElement where
  name : Str
  attrs : List (Str × Str)
  children : List Node

/-- The state of `parse_tree`: the open elements (`cursor`, innermost first) and the children of the document. -/
structure Parsing where
  opened : List OpenElement
  top : List Node

/-- `append_new_node` for a complete node. -/
def Parsing.add (st : Parsing) (n : Node) : Parsing :=
  match st.opened with
  | [] => { st with top := st.top ++ [n] }
  | e :: es => { st with opened := { e with children := e.children ++ [n] } :: es }

/-- `PUGI_IMPL_PUSHNODE(node_element)`. -/
def Parsing.push (st : Parsing) (name : Str) (as : List (Str × Str)) : Parsing := { st with opened := ⟨name, as, []⟩ :: st.opened }

/-- `parse_exclamation`, pugixml.cpp:3103-3198, after `<!`. -/
def exclamation (st : Parsing) (s : Str) : Except XErr (Parsing × Str) :=
  match s with
  | '-' :: '-' :: t => match behind ['-', '-', '>'] t with
    | none => .error .badComment
    | some r => .ok (st, r)
  | '-' :: _ => .error .badComment
  | '[' :: t =>
    if "CDATA[".toList.isPrefixOf t then match cdata (t.drop 6) with
      | .error e => .error e
      | .ok (v, r) => .ok (st.add (.text true v), r)
    else .error .badCdata
  | _ =>
    if "DOCTYPE".toList.isPrefixOf s then
      (if st.opened.isEmpty = false then .error .badDoctype
       else match doctypeGroup (s.length + 1) 0 s with
        | none => .error .badDoctype
        | some r => .ok (st, r))
    else .error .unrecognizedTag

/-- `parse_question`, pugixml.cpp:3200-3282, after `<?`, without `parse_declaration` and `parse_pi`. -/
def question (s : Str) : Except XErr Str :=
  if (s.head?.map isStartSymbol).getD false then
    match behind ['?', '>'] (s.dropWhile isSymbol) with
    | none => .error .badPi
    | some r => .ok r
  else .error .badPi

/-- The end of an element, pugixml.cpp:3403-3440, after `</`. -/
def endTag (st : Parsing) (s : Str) : Except XErr (Parsing × Str) :=
  match st.opened with
  | [] => .error .endElementMismatch
  | e :: es =>
    if s.takeWhile isSymbol = e.name then
      match skipWs (s.dropWhile isSymbol) with
      | '>' :: r => .ok (({ st with opened := es } : Parsing).add (.element e.name e.attrs e.children), r)
      | _ => .error .badEndElement
    else .error .endElementMismatch

/-- The beginning of an element, pugixml.cpp:3288-3402, after `<`. -/
def startTag (st : Parsing) (s : Str) : Except XErr (Parsing × Str) :=
  let name := s.takeWhile isSymbol
  match s.dropWhile isSymbol with
  | [] => .error .badStartElement
  | c :: t =>
    if c = '>' then .ok (st.push name [], t)
    else if isPugiSpace c then
      match attributes (t.length + 1) t with
      | .error e => .error e
      | .ok (as, closed, r) => .ok (if closed then st.add (.element name as []) else st.push name as, r)
    else if c = '/' then (match t with
      | '>' :: r => .ok (st.add (.element name [] []), r)
      | _ => .error .badStartElement)
    else .error .badStartElement

/-- `LOC_TAG`, pugixml.cpp:3287-3460, after `<`. -/
def tag (st : Parsing) (s : Str) : Except XErr (Parsing × Str) :=
  match s with
  | [] => .error .unrecognizedTag
  | c :: t =>
    if isStartSymbol c then startTag st (c :: t)
    else if c = '/' then endTag st t
    else if c = '?' then (question t).map fun r => (st, r)
    else if c = '!' then exclamation st t
    else .error .unrecognizedTag

/-- One turn of the loop of `parse_tree`, pugixml.cpp:3280-3537. After a text, the code jumps to `LOC_TAG`; here this is another turn, which begins with the `<`. -/
def turn (st : Parsing) (s : Str) : Except XErr (Parsing × Str) :=
  match s with
  | '<' :: t => tag st t
  | _ => match skipWs s with
    | [] => .ok (st, [])
    | '<' :: t => .ok (st, '<' :: t)
    | _ =>
      if st.opened.isEmpty then .ok (st, s.dropWhile (· ≠ '<'))
      else (pcdata 0 s).map fun r => (st.add (.text false (zeroTerminated r.1)), r.2)

/-- `parse_tree`, pugixml.cpp:3268-3543. The first argument bounds the number of turns; it is never used up. -/
def parseTree : Nat → Parsing → Str → Except XErr Parsing
  | _, st, [] => if st.opened.isEmpty then .ok st else .error .endElementMismatch
  | 0, _, _ => .error .endElementMismatch
  | k + 1, st, c :: s => match turn st (c :: s) with
    | .error e => .error e
    | .ok (st', r) => parseTree k st' r

/-- `xml_parser::parse`, pugixml.cpp:3569-3620, for a text that ends with a zero (`convert_buffer_generic`, pugixml.cpp:2160-2183): the children of the document. -/
def parseText (s : Str) : Except XErr (List Node) :=
  let t := zeroTerminated (match s with | '\ufeff' :: r => r | _ => s)
  match parseTree (t.length + 1) ⟨[], []⟩ t with
  | .error e => .error e
  | .ok st => if st.top.any Node.isElement then .ok st.top else .error .noDocumentElement

/-- `load_buffer` with UTF-8, pugixml.cpp:4780-4813. -/
def loadXml (bytes : List UInt8) : Except XErr (List Node) :=
  if bytes.isEmpty then .error .noDocumentElement
  else match (decodeFrom 0 bytes).mapM charOf with
    | none => .error .outside
    | some s => parseText s

end Verif.Xml
