import Verif.Model.XmlText

/-!
# Specification of writing and loading XML

Which trees can be written so that they are well-formed, and which of them have nothing that XML itself would not preserve.
-/

namespace Verif.Spec

open Verif.Xml

/-- A character with which a name may begin: a letter, `_`, `:` or a character beyond ASCII. -/
def NameStart (c : Char) : Prop := ('A' ≤ c ∧ c ≤ 'Z') ∨ ('a' ≤ c ∧ c ≤ 'z') ∨ c = '_' ∨ c = ':' ∨ '\x80' ≤ c

/-- A character of a name: one with which it may begin, a digit, `-` or `.`. -/
def NameChar (c : Char) : Prop := NameStart c ∨ ('0' ≤ c ∧ c ≤ '9') ∨ c = '-' ∨ c = '.'

/-- A name of an element or attribute. -/
def XmlName (n : List Char) : Prop := ∃ c s, n = c :: s ∧ NameStart c ∧ ∀ d ∈ s, NameChar d

/-- No two pieces of text (other than CDATA) are next to each other. -/
def TextsApart : List Node → Prop
  | a :: b :: cs => (a.isPcdata = true → b.isPcdata = false) ∧ TextsApart (b :: cs)
  | _ => True

mutual
/-- A tree that can be written: names are names, no string contains a zero, text is in one piece, and CDATA sections are such as can be loaded (no carriage return, no `]]>`). -/
def Writable : Node → Prop
  | .text false v => '\x00' ∉ v
  | .text true v => '\x00' ∉ v ∧ '\r' ∉ v ∧ ¬ [']', ']', '>'] <:+: v
  | .element n as cs => XmlName n ∧ (∀ a ∈ as, XmlName a.1 ∧ '\x00' ∉ a.2) ∧ TextsApart cs ∧ AllWritable cs

/-- All nodes of a list. -/
def AllWritable : List Node → Prop
  | [] => True
  | c :: cs => Writable c ∧ AllWritable cs
end

mutual
/-- Text has no carriage return and is not only blanks, tabs and new lines (nor empty). -/
def Preserved : Node → Prop
  | .text false v => '\r' ∉ v ∧ ∃ c ∈ v, c ∉ [' ', '\t', '\n', '\r']
  | .text true _ => True
  | .element _ _ cs => AllPreserved cs

/-- All nodes of a list. -/
def AllPreserved : List Node → Prop
  | [] => True
  | c :: cs => Preserved c ∧ AllPreserved cs
end

mutual
/-- Nowhere in the tree are two pieces of text next to each other. -/
def Separated : Node → Prop
  | .text _ _ => True
  | .element _ _ cs => TextsApart cs ∧ AllSeparated cs

/-- All nodes of a list. -/
def AllSeparated : List Node → Prop
  | [] => True
  | c :: cs => Separated c ∧ AllSeparated cs
end

/-- The children of a document: at least one element, and no text outside of elements. -/
def DocumentNodes (doc : List Node) : Prop := (∀ n ∈ doc, n.isPcdata = false) ∧ ∃ n ∈ doc, n.isElement = true

end Verif.Spec
