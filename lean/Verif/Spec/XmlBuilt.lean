import Verif.Spec.XmlText
import Verif.Spec.Xml

/-!
# Specification: changing a tree through `IXmlNodeRw`
-/

namespace Verif.Spec

open Verif.Xml (Node Str)

/-- A call on the node at a position (`IXmlNodeRw`): get or create a node at a path, append a child, set and remove an attribute, set the value. -/
inductive Change where
  | create (h : List Nat) (path : Str)
  | append (h : List Nat) (name : Str)
  | putAttribute (h : List Nat) (key value : Str)
  | dropAttribute (h : List Nat) (key : Str)
  | value (h : List Nat) (v : Str)

/-- The tree after the call (also if it throws). -/
def Change.run (doc : Node) : Change → Node
  | .create h path => (Xml.getOrCreateChildNode doc h path).1
  | .append h name => (Xml.appendChildNode doc h name).1
  | .putAttribute h k v => doc.update (Xml.setAttribute k v) h
  | .dropAttribute h k => doc.update (fun n => (Xml.removeAttribute k n).1) h
  | .value h v => match Xml.onNode (Xml.setValue v) doc h with
    | .ok d => d
    | .error _ => doc

/-- The attributes of a list have names, and values without zeros. -/
def GoodAttrs (as : List (Str × Str)) : Prop := ∀ a ∈ as, XmlName a.1 ∧ '\x00' ∉ a.2

/-- What the call is given: names are names, strings contain no zero. -/
def Change.Proper : Change → Prop
  | .create _ path => ∃ sels, PathText sels path ∧ ∀ s ∈ sels, XmlName s.name ∧ GoodAttrs s.attrs
  | .append _ name => XmlName name
  | .putAttribute _ k v => XmlName k ∧ '\x00' ∉ v
  | .dropAttribute _ _ => True
  | .value _ v => '\x00' ∉ v

end Verif.Spec
