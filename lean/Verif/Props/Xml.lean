import Verif.Proof.Xml

/-!
# C61: paths to metadata nodes
-/

namespace Verif
open Xml Spec

/-- **C61 (looking up a path).** `GetChildNode` with a path in the documented syntax does not throw; it returns a node if and only if
the path leads to one, and then it returns that node: every step goes to the first child element with the name (and the
attributes) given, or to the one with the index given. -/
theorem C61_get (doc n : Node) (h : List Nat) (sels : List Selector) (path : Str) (hp : PathText sels path) (hn : doc.at h = some n) :
    ∃ r, getChildNode doc h path = .ok r ∧ ∀ x, r = some x ↔ ∃ p, x = h ++ p ∧ PathDenotes n sels p := by
  obtain ⟨ts, et, hs⟩ := pathText_tokens hp
  obtain ⟨r, er, hr⟩ := getPath_spec hs n
  rw [getChildNode, et, hn]
  dsimp only
  rw [er]
  cases r with
  | none =>
    refine ⟨none, rfl, ?_⟩
    intro x
    constructor
    · intro e; cases e
    · rintro ⟨p, _, hd⟩
      exact absurd ((hr p).mpr hd) (by simp)
  | some q =>
    refine ⟨some (h ++ q), rfl, ?_⟩
    intro x
    constructor
    · intro e
      injection e with e
      exact ⟨q, e.symm, (hr q).mp rfl⟩
    · rintro ⟨p, rfl, hd⟩
      have := (hr p).mpr hd
      injection this with this
      rw [this]

/-- **C61 (creating a path).** `GetOrCreateChildNode` with a path in the documented syntax that has no index does not throw. `GetChildNode`
with the same path finds the node returned; the same call again returns the same node and changes nothing; if the path led to a
node before, nothing is changed; every node that was there is still there, unchanged and at its place; and the only new nodes
are elements on the path, each with exactly the name and the attributes that its step asks for. -/
theorem C61_create (doc n : Node) (h : List Nat) (sels : List Selector) (path : Str) (hp : PathText sels path) (hx : ∀ s ∈ sels, s.NoIndex)
    (hn : doc.at h = some n) (he : n.isElement = true) :
    ∃ doc' p, getOrCreateChildNode doc h path = (doc', .ok (h ++ p)) ∧
      getChildNode doc' h path = .ok (some (h ++ p)) ∧
      getOrCreateChildNode doc' h path = (doc', .ok (h ++ p)) ∧
      ((∃ q, PathDenotes n sels q) → doc' = doc) ∧
      Keeps doc doc' ∧ OnlyAdds doc doc' h p sels := by
  obtain ⟨ts, et, hs⟩ := pathText_tokens hp
  obtain ⟨p, ep, cr⟩ := getOrCreatePath_spec hs hx n he
  have e1 : getOrCreateChildNode doc h path = (doc.update (fun _ => (getOrCreatePath n ts).1) h, .ok (h ++ p)) := by
    rw [getOrCreateChildNode, et, hn]
    dsimp only
    rw [ep]
  generalize hn' : (getOrCreatePath n ts).1 = n' at e1 cr
  have hat : (doc.update (fun _ => n') h).at h = some n' := by
    have := at_update (fun _ => n') h doc n hn []
    rw [List.append_nil] at this
    rw [this]; rfl
  refine ⟨_, p, e1, ?_, ?_, ?_, keeps_update _ h doc n hn cr.keeps, adds_update _ h doc n hn cr.adds⟩
  · obtain ⟨r, er, hr⟩ := getPath_spec hs n'
    have := (hr p).mpr cr.found
    subst this
    rw [getChildNode, et, hat]
    dsimp only
    rw [er]
  · rw [getOrCreateChildNode, et, hat]
    dsimp only
    rw [cr.again]
    dsimp only
    rw [update_const h _ n' hat]
  · rintro ⟨q, hq⟩
    rw [cr.same q hq]
    exact update_const h doc n hn

/-- **C61 (what is found is asked for).** Whatever the path: `GetChildNode` returns a node only if the path has the documented syntax,
every step read to its end, and leads to that node. -/
theorem C61_get_syntax (doc n : Node) (h : List Nat) (path : Str) (x : List Nat) (hn : doc.at h = some n) :
    getChildNode doc h path = .ok (some x) ↔ ∃ sels p, PathText sels path ∧ x = h ++ p ∧ PathDenotes n sels p := by
  constructor
  · intro hg
    have hg' := hg
    rw [getChildNode, hn] at hg
    cases ht : pathTokens path with
    | none => rw [ht] at hg; cases hg
    | some ts =>
      rw [ht] at hg
      dsimp only at hg
      obtain ⟨h1, h2⟩ := pathTokens_sound ht
      cases hq : getPath n ts with
      | error e => rw [hq] at hg; cases hg
      | ok r =>
        cases r with
        | none => rw [hq] at hg; cases hg
        | some q =>
          obtain ⟨sels, hs⟩ := getPath_sound ts n q h1 hq
          obtain ⟨r, er, hr⟩ := C61_get doc n h sels path (h2 sels hs) hn
          rw [hg'] at er
          injection er with er
          obtain ⟨p, e, hd⟩ := (hr x).mp er.symm
          exact ⟨sels, p, h2 sels hs, e, hd⟩
  · rintro ⟨sels, p, hp, e, hd⟩
    obtain ⟨r, er, hr⟩ := C61_get doc n h sels path hp hn
    rw [er, (hr x).mpr ⟨p, e, hd⟩]

/-- **C61 (what can be created).** `GetOrCreateChildNode` returns a node if and only if the path has the documented syntax and no
index; for every other path it throws. -/
theorem C61_create_syntax (doc n : Node) (h : List Nat) (path : Str) (hn : doc.at h = some n) (he : n.isElement = true) :
    (∃ x, (getOrCreateChildNode doc h path).2 = .ok x) ↔ ∃ sels, PathText sels path ∧ ∀ s ∈ sels, s.NoIndex := by
  constructor
  · rintro ⟨x, hg⟩
    rw [getOrCreateChildNode, hn] at hg
    cases ht : pathTokens path with
    | none => rw [ht] at hg; cases hg
    | some ts =>
      rw [ht] at hg
      dsimp only at hg
      obtain ⟨h1, h2⟩ := pathTokens_sound ht
      cases hq : (getOrCreatePath n ts).2 with
      | error e => rw [hq] at hg; cases hg
      | ok q =>
        obtain ⟨sels, hs, hx⟩ := getOrCreatePath_sound ts n q h1 hq
        exact ⟨sels, h2 sels hs, hx⟩
  · rintro ⟨sels, hp, hx⟩
    obtain ⟨doc', p, e, _⟩ := C61_create doc n h sels path hp hx hn he
    exact ⟨h ++ p, by rw [e]⟩

/-- **C61 (nothing is lost).** Whatever the path, and whether the call throws or not: `GetOrCreateChildNode` leaves every node of the
document where and as it was. -/
theorem C61_create_keeps (doc : Node) (h : List Nat) (path : Str) : Keeps doc (getOrCreateChildNode doc h path).1 := by
  rw [getOrCreateChildNode]
  split
  · exact keeps_refl doc
  · exact keeps_refl doc
  · rename_i ts n _ hn
    exact keeps_update _ h doc n hn (getOrCreatePath_keeps ts n)

/-- **C61 (empty parts).** A path with an empty part is rejected with an exception by both functions, and the document is not changed. -/
theorem C61_empty_part (doc : Node) (h : List Nat) (path : Str) (hp : EmptyPart path) :
    getChildNode doc h path = .error () ∧ getOrCreateChildNode doc h path = (doc, .error ()) := by
  have := pathTokens_empty hp
  constructor
  · rw [getChildNode, this]
  · rw [getOrCreateChildNode, this]

/-- **C61 (index when creating).** A path with an index is not accepted by `GetOrCreateChildNode`, even if it leads to an existing
node. -/
theorem C61_create_index (doc n : Node) (h : List Nat) (sels : List Selector) (path : Str) (hp : PathText sels path)
    (hx : ∃ s ∈ sels, ¬ s.NoIndex) (hn : doc.at h = some n) : (getOrCreateChildNode doc h path).2 = .error () := by
  obtain ⟨ts, et, hs⟩ := pathText_tokens hp
  rw [getOrCreateChildNode, et, hn]
  dsimp only
  rw [getOrCreatePath_index hs n hx]

/-- **C61 (violation: a failed call is not undone).** If a later step of the path makes the call throw and the first step did not lead
to a node before, the node of the first step is created nevertheless: the document is changed by the call that failed. -/
theorem C61_create_not_atomic (doc n : Node) (h : List Nat) (s : Selector) (ss : List Selector) (path : Str) (hp : PathText (s :: ss) path)
    (hs : s.NoIndex) (hx : ∃ s' ∈ ss, ¬ s'.NoIndex) (hn : doc.at h = some n) (he : n.isElement = true) (hno : ∀ i, ¬ PartSelects s n i) :
    (getOrCreateChildNode doc h path).2 = .error () ∧ (getOrCreateChildNode doc h path).1 ≠ doc ∧
      ∃ n' i, (getOrCreateChildNode doc h path).1.at h = some n' ∧ PartSelects s n' i := by
  obtain ⟨s', hs', hx'⟩ := hx
  have herr := C61_create_index doc n h (s :: ss) path hp ⟨s', by simp [hs'], hx'⟩ hn
  obtain ⟨ts, et, hst⟩ := pathText_tokens hp
  obtain ⟨i, hi⟩ := getOrCreatePath_first hst hs he
  have hat : (getOrCreateChildNode doc h path).1.at h = some (getOrCreatePath n ts).1 := by
    have := at_update (fun _ => (getOrCreatePath n ts).1) h doc n hn []
    rw [List.append_nil] at this
    rw [getOrCreateChildNode, et, hn]
    dsimp only
    rw [this]; rfl
  refine ⟨herr, ?_, _, i, hat, hi⟩
  intro e
  rw [e, hn] at hat
  injection hat with hat
  rw [← hat] at hi
  exact hno i hi

/-- **C61 (appending).** `AppendChildNode` adds an element without attributes and children after the children of the node, returns it,
and changes nothing else. -/
theorem C61_append (doc n : Node) (h : List Nat) (name : Str) (hn : doc.at h = some n) (he : n.isElement = true) :
    ∃ doc', appendChildNode doc h name = (doc', h ++ [n.children.length]) ∧ doc'.at (h ++ [n.children.length]) = some (.element name [] []) ∧
      (∃ n', doc'.at h = some n' ∧ n'.children = n.children ++ [.element name [] []]) ∧ Keeps doc doc' := by
  obtain ⟨nm, as, cs, rfl⟩ : ∃ nm as cs, n = .element nm as cs := by
    cases n with
    | element nm as cs => exact ⟨nm, as, cs, rfl⟩
    | text _ _ => cases he
  refine ⟨_, by rw [appendChildNode, hn]; rfl, ?_, ⟨.element nm as (cs ++ [.element name [] []]), ?_, rfl⟩, ?_⟩
  · rw [at_update _ h doc _ hn, at_cons_some (c := .element name [] [])]
    · rfl
    · simp [Node.setChildren, Node.children]
  · have := at_update (fun n => n.setChildren (n.children ++ [.element name [] []])) h doc _ hn []
    rw [List.append_nil] at this
    rw [this]; rfl
  · exact keeps_update _ h doc _ hn (keeps_append rfl)

/-! ## The hypotheses can be met -/

/-- A document: the root has an element `Channels` with two channels, the first of them with a text. -/
def exampleDoc : Node :=
  .element [] [] [.element "Channels".toList [] [
    .element "Channel".toList [("Id".toList, "1".toList)] [.element "Gain".toList [] [.text false "5".toList]],
    .element "Channel".toList [("Id".toList, "7".toList), ("Name".toList, "DAPI".toList)] []]]

/-- The path `Channels/Channel[Name=DAPI,Id=7]/Gain`. -/
def examplePath : List Selector :=
  [.first "Channels".toList, .having "Channel".toList [("Name".toList, "DAPI".toList), ("Id".toList, "7".toList)], .first "Gain".toList]

/-- The path `Channels/Channel[ 1]`. -/
def exampleIndexPath : List Selector := [.first "Channels".toList, .nth "Channel".toList 1]

theorem examplePath_text : PathText examplePath "Channels/Channel[Name=DAPI,Id=7]/Gain".toList :=
  .more (.first _) "Channels".toList _ "Channel[Name=DAPI,Id=7]/Gain".toList (.first _ (by unfold NodeName; decide))
    (.more (.having _ _) "Channel[Name=DAPI,Id=7]".toList _ "Gain".toList
      (.having "Channel".toList _ "Name=DAPI,Id=7".toList (by unfold NodeName; decide)
        (.more "Name".toList "DAPI".toList ',' _ "Id=7".toList (by unfold AttrName; decide) (by unfold AttrValue; decide) (by decide)
          (.one "Id".toList "7".toList (by unfold AttrName; decide) (by unfold AttrValue; decide))))
      (.one (.first _) _ (.first _ (by unfold NodeName; decide))))

theorem exampleIndexPath_text : PathText exampleIndexPath "Channels/Channel[ 1]".toList :=
  .more (.first _) "Channels".toList _ "Channel[ 1]".toList (.first _ (by unfold NodeName; decide))
    (.one (.nth _ _) _ (.nth "Channel".toList [' '] ['1'] [] (by unfold NodeName; decide) (by unfold White; decide) (by unfold Digits IsDigit; decide)
      (by unfold White; decide) (by decide)))

example : (getChildNode exampleDoc [] "Channels/Channel[Id=7,Id=1]".toList).toOption = some (some [0, 1]) := by decide
example : (getChildNode exampleDoc [] "Channels/Channel[1] ".toList).toOption = none := by decide
example : (getChildNode exampleDoc [] "Channels/Channel[ 1]".toList).toOption = some (some [0, 1]) := by decide
example : (getChildNode exampleDoc [] "Channels/Channel[Name=DAPI,Id=7]/Gain".toList).toOption = some none := by decide
example : (getOrCreateChildNode exampleDoc [] "Channels/Channel[Name=DAPI,Id=7]/Gain".toList).2.toOption = some [0, 1, 0] := by decide

example := C61_get exampleDoc exampleDoc [] _ _ exampleIndexPath_text rfl
example := C61_create exampleDoc exampleDoc [] _ _ examplePath_text (by simp [examplePath, Selector.NoIndex]) rfl rfl
example := C61_create_index exampleDoc exampleDoc [] _ _ exampleIndexPath_text (by simp [exampleIndexPath, Selector.NoIndex]) rfl
example := C61_create_not_atomic (.element [] [] []) (.element [] [] []) [] _ _ _ exampleIndexPath_text trivial
  ⟨_, List.mem_singleton.mpr rfl, fun h => h⟩ rfl rfl (by rintro i ⟨c, hc, _⟩; simp [Node.children] at hc)
example := C61_empty_part exampleDoc [0] "Channels//Gain".toList ⟨"Channels/".toList, "/Gain".toList, by decide, .inr ⟨"Channels".toList, by decide⟩, .inr ⟨"Gain".toList, by decide⟩⟩
example := C61_append exampleDoc _ [0] "Channel".toList rfl rfl

end Verif
