import Verif.Spec.XmlGrammar

/-!
# Specification of texts that are not well-formed

A text that begins as a document and then goes on with something that no well-formed document can have there.
-/

namespace Verif.Spec

open Verif.Xml

/-- The beginning of a document, inside of the elements with these names (the innermost first) that are not closed yet. -/
inductive Unfinished : List Str → Str → Prop
  | start {ns : List Node} {t : Str} : ContentOf ns t → (∀ n ∈ ns, n.isPcdata = false) → Unfinished [] t
  | doctype {ns : List Node} {m b u : Str} : ContentOf [] m → DoctypeBody b → ContentOf ns u → (∀ n ∈ ns, n.isPcdata = false) → Unfinished [] (m ++ ("<!DOCTYPE".toList ++ (b ++ '>' :: u)))
  | enter {names : List Str} {t n a b : Str} {as : List (Str × Str)} {cs : List Node} : Unfinished names t → XmlName n → TagAttrs as a → ContentOf cs b →
      Unfinished (n :: names) (t ++ '<' :: (n ++ (a ++ '>' :: b)))

/-- What cannot follow inside of these elements. -/
inductive Wrong : List Str → Str → Prop
  /-- The text ends inside of an element. -/
  | cut {n : Str} {names : List Str} : Wrong (n :: names) []
  /-- The name in an end tag is not that of the innermost element (or there is no element). -/
  | mismatch {names : List Str} {m r : Str} : XmlName m → names.head? ≠ some m → (∀ c ∈ r.head?, ¬ NameChar c) → Wrong names ('<' :: '/' :: (m ++ r))
  /-- After `<`, there is no name and none of `/`, `?` and `!`. -/
  | markup {names : List Str} {r : Str} : (∀ c ∈ r.head?, ¬ NameStart c ∧ c ∉ ['/', '?', '!']) → Wrong names ('<' :: r)
  /-- A comment does not end. -/
  | comment {names : List Str} {r : Str} : ¬ ['-', '-', '>'] <:+: r → Wrong names ('<' :: '!' :: '-' :: '-' :: r)
  /-- A CDATA section does not end. -/
  | cdata {names : List Str} {r : Str} : ¬ [']', ']', '>'] <:+: r → Wrong names ("<![CDATA[".toList ++ r)
  /-- A processing instruction does not end. -/
  | instruction {names : List Str} {r : Str} : ¬ ['?', '>'] <:+: r → Wrong names ('<' :: '?' :: r)
  /-- An attribute has no value. -/
  | noValue {names : List Str} {n a w k b r : Str} {as : List (Str × Str)} : XmlName n → TagAttrs as a → w ≠ [] → Blank w → XmlName k → Blank b →
      (∀ c ∈ r.head?, c ∉ ['=', ' ', '\t', '\n', '\r'] ∧ (b = [] → ¬ NameChar c)) → Wrong names ('<' :: (n ++ (a ++ (w ++ (k ++ (b ++ r))))))
  /-- The value of an attribute has no quotes. -/
  | noQuotes {names : List Str} {n a w k b b2 r : Str} {as : List (Str × Str)} : XmlName n → TagAttrs as a → w ≠ [] → Blank w → XmlName k → Blank b → Blank b2 →
      (∀ c ∈ r.head?, c ∉ ['"', '\'', ' ', '\t', '\n', '\r']) → Wrong names ('<' :: (n ++ (a ++ (w ++ (k ++ (b ++ '=' :: (b2 ++ r)))))))

end Verif.Spec
