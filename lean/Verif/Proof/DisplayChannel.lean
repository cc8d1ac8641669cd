import Verif.Model.Display
import Verif.Proof.NumConv
import Verif.Proof.DocInfo
import Verif.Props.Colour

/-!
# The node of a channel in the display settings
-/

namespace Verif.Xml
open Spec Flt
open Text (isSpace isSpace_iff rgbToString rgbFromString Rgb8 nibbleToHex trim)

/-! ## Fields -/

/-- A child element with a text. -/
def leafNode (f : Str × Str) : Node := .element f.1 [] [.text false f.2]

theorem nthIdx_all_false {p : Node → Bool} {cs : List Node} (h : ∀ c ∈ cs, p c = false) (k : Nat) : nthIdx p k cs = none := by
  induction cs with
  | nil => simp [nthIdx]
  | cons c cs ih =>
    unfold nthIdx
    rw [h c (List.mem_cons_self ..), ih (fun c hc => h c (List.mem_cons_of_mem _ hc))]
    rfl

theorem pathTokens_name {x : Str} (hx : NodeName x) : pathTokens x = some [x] := by
  have ht : tokenize (fun c => c = '/') [] x = [x] := by
    rw [tokenize_none (by intro c hc; have := hx.2 c hc; simp at this ⊢; exact this.1)]
    rfl
  rw [pathTokens, ht, if_neg]
  simp [hx.1]

theorem getOrCreate_leaf {nm : Str} {as : List (Str × Str)} {cs : List Node} {x : Str} (hx : NodeName x) (hn : ∀ c ∈ cs, isNamed x c = false) :
    getOrCreatePath (.element nm as cs) [x] = (.element nm as (cs ++ [.element x [] []]), .ok [cs.length]) := by
  have hf : getOrCreateToken cs x = .ok (cs ++ [.element x [] []], cs.length) := by
    rw [getOrCreateToken, splitToken_name hx]
    dsimp only
    rw [findOrAppend, nthIdx_all_false hn]
  unfold getOrCreatePath
  have hc : (Node.element nm as cs).children = cs := rfl
  rw [hc, hf]
  dsimp only
  have hg : (cs ++ [Node.element x [] []])[cs.length]? = some (.element x [] []) := by simp
  rw [hg]
  dsimp only
  rw [getOrCreatePath]
  dsimp only [Node.setChildren]
  congr 2
  simp

theorem setValue_new (x t : Str) : setValue t (.element x [] []) = .ok (leafNode (x, t)) := by
  rw [setValue]; rfl

theorem writeAt_leaf {nm : Str} {as : List (Str × Str)} {cs : List Node} {x : Str} (t : Str) (hx : NodeName x) (hn : ∀ c ∈ cs, isNamed x c = false) :
    writeAt (.element nm as cs) x (setValue t) = (.element nm as (cs ++ [leafNode (x, t)]), .ok ()) := by
  have h1 : getOrCreateChildNode (.element nm as cs) [] x = (.element nm as (cs ++ [.element x [] []]), .ok [cs.length]) := by
    rw [getOrCreateChildNode, pathTokens_name hx]
    show (_, _) = _
    rw [getOrCreate_leaf hx hn]
    rfl
  rw [writeAt, h1]
  dsimp only
  have hg : (cs ++ [Node.element x [] []])[cs.length]? = some (.element x [] []) := by simp
  have hat : (Node.element nm as (cs ++ [.element x [] []])).at [cs.length] = some (.element x [] []) := by
    simp only [Node.at, Node.children]
    rw [hg]
  have h2 : onNode (setValue t) (.element nm as (cs ++ [.element x [] []])) [cs.length] = .ok (.element nm as (cs ++ [leafNode (x, t)])) := by
    rw [onNode, hat]
    dsimp only
    rw [setValue_new]
    dsimp only
    congr 1
    simp only [Node.update, Node.children, Node.setChildren]
    congr 1
    rw [List.modify_eq_set_getElem?, hg]
    simp
  rw [h2]

/-- The texts are written one after the other. -/
def writeLeaves (L : List (Str × Str)) : Node → Node × Except Unit Unit := writeAll (L.map (fun f => fun d => writeAt d f.1 (setValue f.2)))

theorem writeLeaves_eq : ∀ (L : List (Str × Str)) (nm : Str) (as : List (Str × Str)) (cs : List Node), (∀ f ∈ L, NodeName f.1) → (L.map (·.1)).Nodup →
    (∀ f ∈ L, ∀ c ∈ cs, isNamed f.1 c = false) → writeLeaves L (.element nm as cs) = (.element nm as (cs ++ L.map leafNode), .ok ()) := by
  intro L
  induction L with
  | nil => intro nm as cs _ _ _; simp [writeLeaves, writeAll]
  | cons f L ih =>
    intro nm as cs hn hd hc
    obtain ⟨hd1, hd2⟩ := List.nodup_cons.1 (show (f.1 :: L.map (·.1)).Nodup from hd)
    rw [writeLeaves, List.map_cons, writeAll, writeAt_leaf f.2 (hn f (List.mem_cons_self ..)) (hc f (List.mem_cons_self ..))]
    dsimp only
    have := ih nm as (cs ++ [leafNode (f.1, f.2)]) (fun g hg => hn g (List.mem_cons_of_mem _ hg)) hd2 (by
      intro g hg c hcc
      rcases List.mem_append.1 hcc with h | h
      · exact hc g (List.mem_cons_of_mem _ hg) c h
      · rw [List.mem_singleton.1 h]
        have hne : g.1 ≠ f.1 := by
          intro e
          apply hd1
          rw [← e]
          exact List.mem_map_of_mem hg
        simp only [isNamed, leafNode, Node.isElement, Node.name, Bool.true_and, beq_eq_false_iff_ne]
        exact fun e => hne e.symm)
    rw [writeLeaves] at this
    rw [this]
    simp [leafNode]

theorem isNamed_leaf (k : Str) (f : Str × Str) : isNamed k (leafNode f) = true ↔ f.1 = k := by
  simp [isNamed, leafNode, Node.isElement, Node.name]

theorem fieldOf_leaves (nm : Str) (as : List (Str × Str)) (L : List (Str × Str)) (k : Str) :
    fieldOf (.element nm as (L.map leafNode)) k = (L.find? (fun f => decide (f.1 = k))).map (·.2) := by
  have : childNamed (.element nm as (L.map leafNode)) k = (L.find? (fun f => decide (f.1 = k))).map leafNode := by
    show (L.map leafNode).find? (isNamed k) = _
    induction L with
    | nil => rfl
    | cons f L ih =>
      rw [List.map_cons, List.find?_cons, List.find?_cons]
      by_cases h : f.1 = k
      · rw [(isNamed_leaf k f).2 h]; simp [h]
      · have : isNamed k (leafNode f) = false := by
          cases hc : isNamed k (leafNode f) with
          | false => rfl
          | true => exact absurd ((isNamed_leaf k f).1 hc) h
        rw [this]; simp only [h, decide_false]; exact ih
  rw [fieldOf, this]
  cases L.find? _ <;> rfl

theorem fieldOf_mem {nm : Str} {as : List (Str × Str)} {L : List (Str × Str)} {k t : Str} (hd : (L.map (·.1)).Nodup) (h : (k, t) ∈ L) :
    fieldOf (.element nm as (L.map leafNode)) k = some t := by
  rw [fieldOf_leaves]
  induction L with
  | nil => cases h
  | cons f L ih =>
    obtain ⟨hd1, hd2⟩ := List.nodup_cons.1 (show (f.1 :: L.map (·.1)).Nodup from hd)
    rw [List.find?_cons]
    rcases List.mem_cons.1 h with h | h
    · subst h; simp
    · have : f.1 ≠ k := by
        intro e
        apply hd1
        rw [e]
        exact List.mem_map_of_mem h
      simp only [this, decide_false]
      exact ih hd2 h

theorem fieldOf_not_mem {nm : Str} {as : List (Str × Str)} {L : List (Str × Str)} {k : Str} (h : k ∉ L.map (·.1)) :
    fieldOf (.element nm as (L.map leafNode)) k = none := by
  rw [fieldOf_leaves, List.find?_eq_none.2]
  · rfl
  · intro f hf
    simp only [decide_eq_true_eq]
    intro e
    exact h (e ▸ List.mem_map_of_mem hf)

/-- A text that survives saving and loading. -/
def Plain (t : Str) : Prop := t = [] ∨ (¬ Blank t ∧ '\r' ∉ t)

theorem reload_leaves (nm : Str) (as : List (Str × Str)) (L : List (Str × Str)) (h : ∀ f ∈ L, Plain f.2) (k : Str) :
    fieldOf (reload (.element nm as (L.map leafNode))) k = fieldOf (.element nm as (L.map leafNode)) k := by
  have hr : ∀ f ∈ L, textIn (reload (leafNode f)).children = f.2 := by
    intro f hf
    rw [leafNode, reload_children]
    show textIn (reloadAll [.text false f.2]) = _
    rcases h f hf with h | h
    · rw [h, textIn_blank (by intro c hc; cases hc)]
    · rw [textIn_written h.1, eol_self h.2]
  have hc : (reload (.element nm as (L.map leafNode))).children = reloadAll (L.map leafNode) := by rw [reload_element]; rfl
  rw [fieldOf, fieldOf, childNamed_eq, childNamed_eq, hc, find_reload]
  show (((L.map leafNode).find? _).map reload).map _ = ((L.map leafNode).find? _).map _
  cases hf : (L.map leafNode).find? (Selector.first k).candidate with
  | none => rfl
  | some c =>
    obtain ⟨f, hf1, hf2⟩ := List.mem_map.1 (List.mem_of_find?_eq_some hf)
    subst hf2
    simp only [Option.map_some]
    rw [hr f hf1]
    rfl

theorem read_congr {a b : Node} (h : ∀ k, fieldOf a k = fieldOf b k) : readChannelSettings a = readChannelSettings b := by
  unfold readChannelSettings readColor readSpline
  simp only [h]

end Verif.Xml
