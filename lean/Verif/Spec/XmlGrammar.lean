import Verif.Spec.XmlText
import Verif.Spec.DocInfo

/-!
# Specification of the text of an XML document

Which tree a well-formed text denotes, after the XML recommendation (https://www.w3.org/TR/xml/, not part of the repository), as a grammar: the sections named below are those of the
recommendation. Where it is more restrictive (for instance, that attributes have different names), the grammar here is more general. Not in the grammar: entities that are
declared in the document, and conditional sections of a document type.
-/

namespace Verif.Spec

open Verif.Xml

/-- A decimal digit and its value. -/
def DecDigit (c : Char) (v : Nat) : Prop := '0' ≤ c ∧ c ≤ '9' ∧ v = c.toNat - '0'.toNat

/-- The digits of a number. -/
inductive Numeral (digit : Char → Nat → Prop) (base : Nat) : Str → Nat → Prop
  | one {c : Char} {v : Nat} : digit c v → Numeral digit base [c] v
  | more {s : Str} {n : Nat} {c : Char} {v : Nat} : Numeral digit base s n → digit c v → Numeral digit base (s ++ [c]) (n * base + v)

/-- The text occurs in `t ++ pat` only at the end. -/
def FirstAtEnd (pat t : Str) : Prop := ¬ pat <:+: t ++ pat.dropLast

/-- References to characters and the five predefined entities (sections 4.1, 4.6): the character, and the text. -/
inductive RefText : Char → Str → Prop
  | amp : RefText '&' ['&', 'a', 'm', 'p', ';']
  | lt : RefText '<' ['&', 'l', 't', ';']
  | gt : RefText '>' ['&', 'g', 't', ';']
  | quot : RefText '"' ['&', 'q', 'u', 'o', 't', ';']
  | apos : RefText '\'' ['&', 'a', 'p', 'o', 's', ';']
  | dec {c : Char} {ds : Str} : c ≠ '\x00' → Numeral DecDigit 10 ds c.toNat → RefText c ('&' :: '#' :: (ds ++ [';']))
  | hex {c : Char} {ds : Str} : c ≠ '\x00' → Numeral HexDigit 16 ds c.toNat → RefText c ('&' :: '#' :: 'x' :: (ds ++ [';']))

/-- Character data (section 2.4) with its line ends (section 2.11): the characters it stands for, and the text. -/
inductive CharData : Str → Str → Prop
  | nil : CharData [] []
  | plain {c : Char} {v t : Str} : c ∉ ['<', '&', '\r', '\x00'] → CharData v t → CharData (c :: v) (c :: t)
  | crlf {v t : Str} : CharData v t → CharData ('\n' :: v) ('\r' :: '\n' :: t)
  | cr {v t : Str} : t.head? ≠ some '\n' → CharData v t → CharData ('\n' :: v) ('\r' :: t)
  | ref {c : Char} {r v t : Str} : RefText c r → CharData v t → CharData (c :: v) (r ++ t)

/-- The value of an attribute between quotes `q` (sections 2.3, 3.3.3): white space stands for a blank. -/
inductive AttrData (q : Char) : Str → Str → Prop
  | nil : AttrData q [] []
  | plain {c : Char} {v t : Str} : c ∉ ['<', '&', '\r', '\n', '\t', '\x00', q] → AttrData q v t → AttrData q (c :: v) (c :: t)
  | white {c : Char} {v t : Str} : c ∈ ['\n', '\t'] → AttrData q v t → AttrData q (' ' :: v) (c :: t)
  | crlf {v t : Str} : AttrData q v t → AttrData q (' ' :: v) ('\r' :: '\n' :: t)
  | cr {v t : Str} : t.head? ≠ some '\n' → AttrData q v t → AttrData q (' ' :: v) ('\r' :: t)
  | ref {c : Char} {r v t : Str} : RefText c r → AttrData q v t → AttrData q (c :: v) (r ++ t)

/-- The text of a CDATA section (section 2.7) with its line ends. -/
inductive LineEnds : Str → Str → Prop
  | nil : LineEnds [] []
  | plain {c : Char} {v t : Str} : c ≠ '\r' → LineEnds v t → LineEnds (c :: v) (c :: t)
  | crlf {v t : Str} : LineEnds v t → LineEnds ('\n' :: v) ('\r' :: '\n' :: t)
  | cr {v t : Str} : t.head? ≠ some '\n' → LineEnds v t → LineEnds ('\n' :: v) ('\r' :: t)

/-- What is between the name and the end of a tag (section 3.1): the attributes, and the text. -/
inductive TagAttrs : List (Str × Str) → Str → Prop
  | nil {w : Str} : Blank w → TagAttrs [] w
  | cons {w k b1 b2 v t a : Str} {q : Char} {as : List (Str × Str)} : w ≠ [] → Blank w → XmlName k → Blank b1 → Blank b2 → q ∈ ['"', '\''] → AttrData q v t → TagAttrs as a →
      TagAttrs ((k, v) :: as) (w ++ (k ++ (b1 ++ '=' :: (b2 ++ q :: (t ++ q :: a)))))

/-- The text is at its end, or goes on with markup. -/
def AtMarkup (s : Str) : Prop := s = [] ∨ ∃ t, s = '<' :: t

/-- The content of an element (sections 2.4 - 2.7, 3.1): its nodes, and the text. Character data that is only white space is not a node; comments and processing instructions
are none either. -/
inductive ContentOf : List Node → Str → Prop
  | nil : ContentOf [] []
  | text {v t s : Str} {ns : List Node} : CharData v t → ¬ Blank t → AtMarkup s → ContentOf ns s → ContentOf (.text false v :: ns) (t ++ s)
  | space {w s : Str} {ns : List Node} : Blank w → AtMarkup s → ContentOf ns s → ContentOf ns (w ++ s)
  | cdata {v t s : Str} {ns : List Node} : LineEnds v t → FirstAtEnd [']', ']', '>'] t → ContentOf ns s →
      ContentOf (.text true v :: ns) ("<![CDATA[".toList ++ (t ++ ']' :: ']' :: '>' :: s))
  | comment {t s : Str} {ns : List Node} : FirstAtEnd ['-', '-', '>'] t → ContentOf ns s → ContentOf ns ('<' :: '!' :: '-' :: '-' :: (t ++ '-' :: '-' :: '>' :: s))
  | instruction {n t s : Str} {ns : List Node} : XmlName n → (∀ c ∈ t.head?, c ∈ [' ', '\t', '\n', '\r']) → FirstAtEnd ['?', '>'] t → ContentOf ns s →
      ContentOf ns ('<' :: '?' :: (n ++ (t ++ '?' :: '>' :: s)))
  | empty {n a s : Str} {as : List (Str × Str)} {ns : List Node} : XmlName n → TagAttrs as a → ContentOf ns s →
      ContentOf (.element n as [] :: ns) ('<' :: (n ++ (a ++ '/' :: '>' :: s)))
  | element {n a b w s : Str} {as : List (Str × Str)} {cs ns : List Node} : XmlName n → TagAttrs as a → ContentOf cs b → Blank w → ContentOf ns s →
      ContentOf (.element n as cs :: ns) ('<' :: (n ++ (a ++ '>' :: (b ++ '<' :: '/' :: (n ++ (w ++ '>' :: s))))))

/-- What is in a document type declaration (section 2.8), which may contain other declarations. -/
inductive DoctypeBody : Str → Prop
  | nil : DoctypeBody []
  | char {c : Char} {t : Str} : c ∉ ['<', '>', '"', '\''] → DoctypeBody t → DoctypeBody (c :: t)
  | literal {q : Char} {u t : Str} : q ∈ ['"', '\''] → q ∉ u → DoctypeBody t → DoctypeBody (q :: (u ++ q :: t))
  | comment {u t : Str} : FirstAtEnd ['-', '-', '>'] u → DoctypeBody t → DoctypeBody ('<' :: '!' :: '-' :: '-' :: (u ++ '-' :: '-' :: '>' :: t))
  | instruction {u t : Str} : FirstAtEnd ['?', '>'] u → DoctypeBody t → DoctypeBody ('<' :: '?' :: (u ++ '?' :: '>' :: t))
  | declaration {c : Char} {u t : Str} : c ∉ ['-', '['] → DoctypeBody (c :: u) → DoctypeBody t → DoctypeBody ('<' :: '!' :: c :: (u ++ '>' :: t))

/-- The text of a document with this root element (section 2.1): an XML declaration (it has the form of a processing instruction), comments, a document type declaration or none,
the element, comments. -/
def DocumentText (root : Node) (t : Str) : Prop :=
  root.isElement = true ∧ '\x00' ∉ t ∧
    (ContentOf [root] t ∨
      ∃ m b u, t = m ++ ("<!DOCTYPE".toList ++ (b ++ '>' :: u)) ∧ ContentOf [] m ∧ DoctypeBody b ∧ ContentOf [root] u)

end Verif.Spec
