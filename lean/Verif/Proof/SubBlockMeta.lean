import Verif.Proof.DocInfo
import Verif.Proof.NumConv
import Verif.Props.Xml
import Verif.Spec.SubBlockMeta

/-!
# Proofs: tags in the metadata of a sub-block
-/

namespace Verif.Xml
open Spec

theorem childAt_text {sels : List Selector} {path : Str} (h : PathText sels path) (hx : ∀ s ∈ sels, s.NoIndex) (n : Node) : childAt n path = .ok (resolve n sels) := by
  obtain ⟨r, h1, h2⟩ := C61_get n n [] sels path h rfl
  unfold childAt
  rw [h1]
  cases r with
  | none =>
    dsimp only
    cases hr : resolve n sels with
    | none => rfl
    | some m =>
      obtain ⟨p, e, _⟩ := (resolve_denotes hx n m).1 hr
      exact absurd ((h2 p).2 ⟨p, rfl, e⟩) nofun
  | some x =>
    obtain ⟨p, e1, e2⟩ := (h2 x).1 rfl
    rw [List.nil_append] at e1
    subst e1
    dsimp only
    obtain ⟨m, hm⟩ := denotes_at e2
    rw [hm, (resolve_denotes hx n m).2 ⟨x, e2, hm⟩]

theorem tags_path : PathText (namesPath ["METADATA".toList, "Tags".toList]) "METADATA/Tags".toList := by
  have := slashes_path (parts := ["METADATA".toList, "Tags".toList]) (by simp) (by unfold NodeName; decide +kernel)
  have e : slashes ["METADATA".toList, "Tags".toList] = "METADATA/Tags".toList := by decide +kernel
  rwa [e] at this

theorem tagNode_text {sels : List Selector} {name : Str} (h : PathText sels name) (hx : ∀ s ∈ sels, s.NoIndex) (doc : Node) :
    tagNode doc name = .ok (resolve doc (namesPath ["METADATA".toList, "Tags".toList] ++ sels)) := by
  unfold tagNode
  rw [childAt_text tags_path (noIndex_names _), resolve_append]
  cases resolve doc (namesPath ["METADATA".toList, "Tags".toList]) with
  | none => rfl
  | some t => exact childAt_text h hx t

theorem tagNode_name {name : Str} (h : NodeName name) (doc : Node) : tagNode doc name = .ok (resolve doc (namesPath ["METADATA".toList, "Tags".toList, name])) :=
  tagNode_text (sels := [.first name]) (.one _ _ (.first _ h)) (by intro s hs; rw [List.mem_singleton.1 hs]; trivial) doc

theorem isTag_iff {doc : Node} {name : Str} {n : Node} : IsTag doc name n ↔ resolve doc (namesPath ["METADATA".toList, "Tags".toList, name]) = some n :=
  (resolve_denotes (noIndex_names _) doc n).symm

theorem noTag_iff {doc : Node} {name : Str} : NoTag doc name ↔ resolve doc (namesPath ["METADATA".toList, "Tags".toList, name]) = none := by
  constructor
  · intro h
    cases hr : resolve doc (namesPath ["METADATA".toList, "Tags".toList, name]) with
    | none => rfl
    | some n => exact absurd (isTag_iff.2 hr) (h n)
  · intro h n hn
    rw [isTag_iff, h] at hn
    cases hn

end Verif.Xml
