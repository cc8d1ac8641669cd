import Verif.Model.Xml
import Verif.Spec.Text

/-!
# Specification: paths in the metadata tree

Which texts are paths, and which node a path denotes; independent of the parsing and searching functions.
-/

namespace Verif.Spec
open Verif.Xml (Node Str)

/-- A name in a path: not empty, without slashes and brackets. -/
def NodeName (s : Str) : Prop := s ≠ [] ∧ ∀ c ∈ s, c ∉ ['/', '[', ']']

/-- The name of an attribute in a path. -/
def AttrName (s : Str) : Prop := s ≠ [] ∧ ∀ c ∈ s, c ∉ ['/', '[', ']', '=', ',', ';']

/-- The value of an attribute in a path. -/
def AttrValue (s : Str) : Prop := ∀ c ∈ s, c ∉ ['/', '[', ']', ',', ';']

/-- What a step of a path asks for: the first element with a name, the `k`-th one (counted from 0), or the first one that has certain
attributes. -/
inductive Selector where
  | first (name : Str)
  | nth (name : Str) (k : Nat)
  | having (name : Str) (attrs : List (Str × Str))

/-- The text `a=x,b=y` (or with semicolons). -/
inductive AttrText : List (Str × Str) → Str → Prop where
  | one (k v) : AttrName k → AttrValue v → AttrText [(k, v)] (k ++ '=' :: v)
  | more (k v sep as t) : AttrName k → AttrValue v → sep ∈ [',', ';'] → AttrText as t →
      AttrText ((k, v) :: as) (k ++ '=' :: (v ++ sep :: t))

/-- The conditions of an attribute list: if a name occurs more than once, the first one counts. -/
def firstOf : List (Str × Str) → List (Str × Str)
  | [] => []
  | (k, v) :: as => (k, v) :: (firstOf as).filter (fun a => a.1 ≠ k)

/-- The text of a step: `Name`, `Name[3]`, or `Name[a=x,b=y]`. -/
inductive StepText : Selector → Str → Prop where
  | first (n) : NodeName n → StepText (.first n) n
  | nth (n w ds w') : NodeName n → White w → Digits ds → White w' → digitsValue ds < 4294967296 →
      StepText (.nth n (digitsValue ds)) (n ++ '[' :: (w ++ ds ++ w' ++ [']']))
  | having (n as t) : NodeName n → AttrText as t → StepText (.having n (firstOf as)) (n ++ '[' :: (t ++ [']']))

/-- The text of a path: steps separated by slashes. -/
inductive PathText : List Selector → Str → Prop where
  | one (s t) : StepText s t → PathText [s] t
  | more (s t ss u) : StepText s t → PathText ss u → PathText (s :: ss) (t ++ '/' :: u)

/-- The step does not ask for a certain index. -/
def Selector.NoIndex : Selector → Prop
  | .nth _ _ => False
  | _ => True

/-- The name asked for. -/
def Selector.name : Selector → Str
  | .first n => n
  | .nth n _ => n
  | .having n _ => n

/-- The attributes asked for. -/
def Selector.attrs : Selector → List (Str × Str)
  | .having _ as => as
  | _ => []

/-- How many candidates are skipped. -/
def Selector.skip : Selector → Nat
  | .nth _ k => k
  | _ => 0

/-- The value of an attribute: that of the first one with the name. -/
def attrValue : List (Str × Str) → Str → Option Str
  | [], _ => none
  | (k, v) :: as, x => if k = x then some v else attrValue as x

/-- A node is a candidate for a step: an element with the name and the attributes. -/
def Selector.candidate (s : Selector) : Node → Bool
  | .element n as _ => decide (n = s.name ∧ ∀ kv ∈ s.attrs, attrValue as kv.1 = some kv.2)
  | .text _ _ => false

/-- A step leads from `n` to its child number `i`. -/
def PartSelects (s : Selector) (n : Node) (i : Nat) : Prop :=
  ∃ c, n.children[i]? = some c ∧ s.candidate c = true ∧ ((n.children.take i).filter s.candidate).length = s.skip

/-- A path leads from `n` to the node at position `p` below it. -/
inductive PathDenotes : Node → List Selector → List Nat → Prop where
  | here (n) : PathDenotes n [] []
  | step (n s ss i c p) : PartSelects s n i → n.children[i]? = some c → PathDenotes c ss p → PathDenotes n (s :: ss) (i :: p)

/-- Two nodes have the same kind, name, attributes, text and value (children aside). -/
def SameNode : Node → Node → Prop
  | .element n as cs, .element n' as' cs' => n = n' ∧ as = as' ∧ Xml.tryGetValue (.element n as cs) = Xml.tryGetValue (.element n as cs')
  | .text c v, .text c' v' => c = c' ∧ v = v'
  | _, _ => False

/-- Every node of `a` is still there in `b`, at its position and unchanged. -/
def Keeps (a b : Node) : Prop := ∀ q m, a.at q = some m → ∃ m', b.at q = some m' ∧ SameNode m m'

/-- The nodes of `b` that are not in `a` are elements on the way from the node at `h` to the node at `h ++ p`, and each of them is
what the corresponding step asks for. -/
def OnlyAdds (a b : Node) (h p : List Nat) (sels : List Selector) : Prop :=
  ∀ q m, b.at q = some m → a.at q = none →
    ∃ j s, q = h ++ p.take (j + 1) ∧ j < p.length ∧ sels[j]? = some s ∧ m.isElement = true ∧ m.name = s.name ∧ m.attrs.Perm s.attrs

/-- A path with an empty part: it is empty, begins or ends with a slash, or two slashes follow each other. -/
def EmptyPart (path : Str) : Prop :=
  ∃ a b, path = a ++ b ∧ (a = [] ∨ ∃ a', a = a' ++ ['/']) ∧ (b = [] ∨ ∃ b', b = '/' :: b')

end Verif.Spec
