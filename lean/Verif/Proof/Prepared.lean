import Verif.Spec.Prepared
import Verif.Proof.DocInfo
import Verif.Proof.SubBlock

/-!
# Helper lemmas: the metadata prepared by the writer
-/

namespace Verif.Xml
open Text Spec

/-! ## Paths in two parts -/

theorem update_append (g : Node → Node) (p q : List Nat) (n : Node) : n.update g (p ++ q) = n.update (fun x => x.update g q) p := by
  induction p generalizing n with
  | nil => rfl
  | cons i p ih =>
    rw [List.cons_append, Node.update, Node.update]
    congr 1
    congr 1
    funext x
    exact ih x

theorem getOrCreatePath_cons (n : Node) (t : Str) (ts : List Str) :
    getOrCreatePath n (t :: ts) = match getOrCreateToken n.children t with
      | .error e => (n, .error e)
      | .ok (cs, i) => match cs[i]? with
        | none => (n, .error ())
        | some c => (n.setChildren (cs.set i (getOrCreatePath c ts).1),
          match (getOrCreatePath c ts).2 with
          | .error e => .error e
          | .ok p => .ok (i :: p)) := by
  rw [getOrCreatePath]
  rfl

theorem getOrCreatePath_append (ts us : List Str) : ∀ (n m : Node) (p : List Nat), (getOrCreatePath n ts).2 = .ok p →
    (getOrCreatePath n ts).1.at p = some m →
    getOrCreatePath n (ts ++ us) = ((getOrCreatePath n ts).1.update (fun _ => (getOrCreatePath m us).1) p,
      match (getOrCreatePath m us).2 with
      | .error e => .error e
      | .ok q => .ok (p ++ q)) := by
  induction ts with
  | nil =>
    intro n m p h1 h2
    rw [getOrCreatePath] at h1 h2
    injection h1 with h1
    subst h1
    injection h2 with h2
    subst h2
    rw [List.nil_append, getOrCreatePath]
    dsimp only
    rw [Node.update]
    apply Prod.ext
    · rfl
    · dsimp only
      cases (getOrCreatePath n us).2 <;> rfl
  | cons t ts ih =>
    intro n m p h1 h2
    rw [List.cons_append, getOrCreatePath_cons, getOrCreatePath_cons]
    rw [getOrCreatePath_cons] at h1 h2
    cases hg : getOrCreateToken n.children t with
    | error e => rw [hg] at h1; cases h1
    | ok r =>
      obtain ⟨cs, i⟩ := r
      rw [hg] at h1 h2
      dsimp only at h1 h2 ⊢
      cases hc : cs[i]? with
      | none => rw [hc] at h1; cases h1
      | some c =>
        rw [hc] at h1 h2
        dsimp only at h1 h2 ⊢
        cases hq : (getOrCreatePath c ts).2 with
        | error e => rw [hq] at h1; cases h1
        | ok q =>
          rw [hq] at h1
          injection h1 with h1
          subst h1
          obtain ⟨nm, as, cs0, rfl⟩ : ∃ nm as cs, n = .element nm as cs := by
            cases n with
            | element nm as cs => exact ⟨nm, as, cs, rfl⟩
            | text b v =>
              rw [Node.setChildren, at_cons_none (by simp [Node.children])] at h2
              cases h2
          have hlt : i < cs.length := by
            rw [List.getElem?_eq_some_iff] at hc
            exact hc.1
          have hset : (cs.set i (getOrCreatePath c ts).1)[i]? = some (getOrCreatePath c ts).1 := by
            rw [List.getElem?_set_self hlt]
          rw [Node.setChildren, at_cons_some (c := (getOrCreatePath c ts).1) hset] at h2
          rw [ih c m q hq h2, Node.setChildren, Node.setChildren, update_cons _ q hset, List.set_set]
          apply Prod.ext
          · rfl
          · dsimp only
            cases (getOrCreatePath m us).2 <;> rfl

theorem pathText_append {a b : List Selector} {s t : Str} (ha : PathText a s) (hb : PathText b t) : PathText (a ++ b) (s ++ '/' :: t) := by
  induction ha with
  | one x u hx => exact .more _ _ _ _ hx hb
  | more x u ss v hx _ ih =>
    rw [List.append_assoc, List.cons_append]
    exact .more _ _ _ _ hx ih

theorem pathTokens_append {a b : Str} {ts us : List Str} (ha : pathTokens a = some ts) (hb : pathTokens b = some us) :
    pathTokens (a ++ '/' :: b) = some (ts ++ us) := by
  rw [pathTokens] at ha hb ⊢
  split at ha
  · cases ha
  · split at hb
    · cases hb
    · rename_i h1 h2
      injection ha with ha
      injection hb with hb
      subst ha hb
      rw [tokenize_append (d := fun c => decide (c = '/')) (by simp), if_neg]
      rw [List.any_append]
      simp only [Bool.or_eq_true, not_or, Bool.not_eq_true] at h1 h2 ⊢
      refine ⟨?_, h1.2, h2.2⟩
      rw [List.isEmpty_eq_false_iff] at h1 ⊢
      intro e
      exact h1.1 (List.append_eq_nil_iff.mp e).1

/-- Writing at a valid path: the node is created and changed. -/
theorem writeAt_total {sels : List Selector} {path : Str} (hp : PathText sels path) (hx : ∀ s ∈ sels, s.NoIndex) (doc : Node) (he : doc.isElement = true)
    (g : Node → Node) :
    ∃ ts p n0, pathTokens path = some ts ∧ (getOrCreatePath doc ts).2 = .ok p ∧ p ≠ [] ∧ (getOrCreatePath doc ts).1.at p = some n0 ∧
      n0.isElement = true ∧ writeAt doc path (fun n => .ok (g n)) = ((getOrCreatePath doc ts).1.update (fun _ => g n0) p, .ok ()) := by
  obtain ⟨ts, htk, hst⟩ := pathText_tokens hp
  obtain ⟨p, n0, e1, e2, e3, e4, _⟩ := create_update hst hx doc he
  refine ⟨ts, p, n0, htk, e1, ?_, e3, e4, ?_⟩
  · intro h
    rw [h] at e2
    have : sels = [] := List.length_eq_zero_iff.mp (by simpa using e2.symm)
    subst this
    cases hp
  · rw [writeAt, getOrCreateChildNode, htk]
    simp only [Node.at, e1, Node.update, List.nil_append, onNode, e3]

theorem writeAt_same {sels : List Selector} {path : Str} (hp : PathText sels path) (hx : ∀ s ∈ sels, s.NoIndex) (doc : Node) (he : doc.isElement = true)
    (g : Node → Node) :
    (writeAt doc path (fun n => .ok (g n))).1.isElement = true ∧ (writeAt doc path (fun n => .ok (g n))).1.name = doc.name ∧
      (writeAt doc path (fun n => .ok (g n))).1.attrs = doc.attrs := by
  obtain ⟨ts, p, n0, _, _, hne, _, _, hw⟩ := writeAt_total hp hx doc he g
  obtain ⟨g1, g2, g3⟩ := getOrCreatePath_same ts doc
  rw [hw]
  dsimp only
  obtain ⟨u1, u2, u3⟩ := update_same (n := (getOrCreatePath doc ts).1) hne (fun _ => g n0)
  exact ⟨u1.trans (g1.trans he), u2.trans g2, u3.trans g3⟩

theorem writeAt_append {a b : List Selector} {s t : Str} (ha : PathText a s) (hb : PathText b t) (hxa : ∀ x ∈ a, x.NoIndex) (hxb : ∀ x ∈ b, x.NoIndex)
    (doc : Node) (he : doc.isElement = true) (g : Node → Node) :
    writeAt doc (s ++ '/' :: t) (fun n => .ok (g n)) = writeAt doc s (fun n => .ok (writeAt n t (fun n => .ok (g n))).1) := by
  obtain ⟨ts, p, n0, h1, h2, h3, h4, h5, h6⟩ := writeAt_total ha hxa doc he (fun n => (writeAt n t (fun n => .ok (g n))).1)
  obtain ⟨us, q, m0, k1, k2, k3, k4, k5, k6⟩ := writeAt_total hb hxb n0 h5 g
  have hap := getOrCreatePath_append ts us doc n0 p h2 h4
  rw [k2] at hap
  rw [h6, k6]
  rw [writeAt, getOrCreateChildNode, pathTokens_append h1 k1]
  have hat : (Node.update (fun _ => (getOrCreatePath n0 us).1) p (getOrCreatePath doc ts).1).at (p ++ q) = some m0 := by
    rw [at_update _ p _ n0 h4 q]
    exact k4
  simp only [Node.at, hap, Node.update, List.nil_append, onNode, hat]
  rw [update_append, update_update _ _ p _ n0 h4]

theorem modify_last {α : Type} (l : List α) (x : α) (f : α → α) : (l ++ [x]).modify l.length f = l ++ [f x] := by
  induction l with
  | nil => rfl
  | cons a l ih => rw [List.cons_append, List.length_cons, List.modify_succ_cons, ih, List.cons_append]

/-- Writing at a path of one step to which no child leads. -/
theorem writeAt_new {s : Selector} {t : Str} (h : StepText s t) (hs : s.NoIndex) (n : Node) (he : n.isElement = true)
    (hno : n.children.find? s.candidate = none) (g : Node → Node) :
    ∃ m, m.Perm s.attrs ∧ (writeAt n t (fun n => .ok (g n))).1 = n.setChildren (n.children ++ [g (.element s.name m [])]) := by
  obtain ⟨h1, h2⟩ := stepText_noSlash h
  have htk : pathTokens t = some [t] := by
    rw [pathTokens, tokenize_none (by intro c hc; simp [h2 c hc]), List.nil_append, if_neg]
    simp [h1]
  obtain ⟨m, hp, hc, hg⟩ := createToken_text h hs n.children
  refine ⟨m, hp, ?_⟩
  obtain ⟨nm, as, cs, rfl⟩ : ∃ nm as cs, n = .element nm as cs := by
    cases n with
    | element nm as cs => exact ⟨nm, as, cs, rfl⟩
    | text _ _ => cases he
  have hnth : nthIdx s.candidate 0 cs = none := by
    cases hx : nthIdx s.candidate 0 cs with
    | none => rfl
    | some i =>
      obtain ⟨c, a, b, _⟩ := (nthIdx_iff _ _ _ _).mp hx
      have := List.find?_eq_none.mp hno c (List.mem_of_getElem? a)
      exact absurd b this
  have hg' : getOrCreateToken cs t = .ok (cs ++ [.element s.name m []], cs.length) := by
    have : (Node.element nm as cs).children = cs := rfl
    rw [this] at hg
    rw [hg, findOrAppend, hnth]
  have hget : (cs ++ [Node.element s.name m []])[cs.length]? = some (.element s.name m []) := by simp
  have hcr : getOrCreatePath (.element nm as cs) [t] = (.element nm as (cs ++ [.element s.name m []]), .ok [cs.length]) := by
    rw [getOrCreatePath_cons]
    have : (Node.element nm as cs).children = cs := rfl
    rw [this, hg']
    dsimp only
    rw [hget]
    dsimp only
    rw [getOrCreatePath]
    simp [Node.setChildren]
  rw [writeAt, getOrCreateChildNode, htk]
  simp only [Node.at, hcr, Node.update, List.nil_append, onNode, Node.children, hget, Node.setChildren]
  congr 1
  exact modify_last cs _ _

/-! ## Channels -/

/-- The parts of the path to the channels. -/
def channelsParts : List Str := ["Metadata".toList, "Information".toList, "Image".toList, "Dimensions".toList, "Channels".toList]

/-- The attributes of a channel. -/
def chAttrs (g : Str × Option Str) : List (Str × Str) := ("Id".toList, g.1) :: (g.2.map (fun n => ("Name".toList, n))).toList

/-- The step to a channel. -/
def chSel (g : Str × Option Str) : Selector := .having "Channel".toList (chAttrs g)

/-- The text of the step. -/
def chToken (g : Str × Option Str) : Str :=
  "Channel[Id=".toList ++ g.1 ++ (match g.2 with | none => [] | some n => ",Name=".toList ++ n) ++ "]".toList

/-- The identifier and the name can be used in a path. -/
def GoodName (g : Str × Option Str) : Prop := AttrValue g.1 ∧ ∀ n, g.2 = some n → AttrValue n

theorem channelPath_prefix : "Metadata/Information/Image/Dimensions/Channels/Channel[Id=".toList = slashes channelsParts ++ '/' :: "Channel[Id=".toList := by
  decide +kernel

theorem channelPath_eq (g : Str × Option Str) : channelPath g = slashes channelsParts ++ '/' :: chToken g := by
  unfold channelPath chToken
  rw [channelPath_prefix]
  generalize slashes channelsParts = a
  generalize "Channel[Id=".toList = b
  generalize "]".toList = c
  generalize ",Name=".toList = d
  cases g.2 <;> simp only [List.append_assoc, List.cons_append]

theorem chToken_pre : "Channel[Id=".toList = "Channel".toList ++ '[' :: ("Id".toList ++ ['=']) := by decide +kernel

theorem chToken_mid : ",Name=".toList = ',' :: ("Name".toList ++ ['=']) := by decide +kernel

theorem chToken_eq (i : Str) (n : Option Str) : chToken (i, n) = "Channel".toList ++ '[' :: (("Id".toList ++ '=' :: (i ++
    (match n with | none => [] | some n => ',' :: ("Name".toList ++ '=' :: n)))) ++ [']']) := by
  have h3 : "]".toList = [']'] := by decide +kernel
  unfold chToken
  rw [chToken_pre, chToken_mid, h3]
  generalize "Channel".toList = a
  generalize "Id".toList = b
  generalize "Name".toList = c
  cases n with
  | none => simp only [List.append_assoc, List.cons_append, List.nil_append]
  | some n => simp only [List.append_assoc, List.cons_append, List.nil_append]

theorem chAttrs_nodup (g : Str × Option Str) : ((chAttrs g).map (·.1)).Nodup := by
  obtain ⟨i, n⟩ := g
  cases n with
  | none => simp [chAttrs]
  | some n => simp [chAttrs]

theorem chToken_text {g : Str × Option Str} (h : GoodName g) : StepText (chSel g) (chToken g) := by
  obtain ⟨i, n⟩ := g
  have hn : NodeName "Channel".toList := by unfold NodeName; decide
  have h1 : AttrName "Id".toList := by unfold AttrName; decide
  have h2 : AttrName "Name".toList := by unfold AttrName; decide
  have e : chSel (i, n) = .having "Channel".toList (firstOf (chAttrs (i, n))) := by rw [chSel, firstOf_self (chAttrs_nodup _)]
  rw [e]
  cases n with
  | none =>
    have := StepText.having "Channel".toList (chAttrs (i, none)) _ hn (.one "Id".toList i h1 h.1)
    rw [chToken_eq]
    dsimp only
    rw [List.append_nil]
    exact this
  | some n =>
    have := StepText.having "Channel".toList (chAttrs (i, some n)) _ hn
      (.more "Id".toList i ',' _ _ h1 h.1 (by decide) (.one "Name".toList n h2 (h.2 n rfl)))
    rw [chToken_eq]
    exact this

theorem channelsParts_ok : channelsParts ≠ [] ∧ ∀ s ∈ channelsParts, NodeName s := by
  unfold NodeName channelsParts; decide +kernel

/-- The children of the node with the channels. -/
def chChildren (doc : Node) : List Node := match resolve doc (namesPath channelsParts) with
  | none => []
  | some n => n.children

/-- A node is that of a channel. -/
def IsChannel (g : Str × Option Str) (t : Option Int) (c : Node) : Prop :=
  ∃ m, m.Perm (chAttrs g) ∧ c = appendPixelType t (.element "Channel".toList m [])

theorem append_same (t : Option Int) (n : Node) :
    (appendPixelType t n).isElement = n.isElement ∧ (appendPixelType t n).name = n.name ∧ (appendPixelType t n).attrs = n.attrs := by
  unfold appendPixelType
  split
  · exact ⟨rfl, rfl, rfl⟩
  · cases n <;> exact ⟨rfl, rfl, rfl⟩

theorem isChannel_attr {g : Str × Option Str} {t : Option Int} {c : Node} (h : IsChannel g t c) :
    c.isElement = true ∧ c.name = "Channel".toList ∧ attrValue c.attrs "Id".toList = some g.1 ∧ attrValue c.attrs "Name".toList = g.2 := by
  obtain ⟨m, hp, rfl⟩ := h
  obtain ⟨a1, a2, a3⟩ := append_same t (.element "Channel".toList m [])
  have hn : (m.map (·.1)).Nodup := ((hp.map (·.1)).nodup_iff).mpr (chAttrs_nodup g)
  refine ⟨a1, a2, ?_, ?_⟩
  · rw [a3]
    exact attrValue_mem hn (kv := ("Id".toList, g.1)) (hp.mem_iff.mpr (by simp [chAttrs]))
  · rw [a3]
    obtain ⟨i, n⟩ := g
    cases n with
    | some n => exact attrValue_mem hn (kv := ("Name".toList, n)) (hp.mem_iff.mpr (by simp [chAttrs]))
    | none =>
      have : m = [("Id".toList, i)] := List.perm_singleton.mp hp
      subst this
      rfl

theorem channel_other {g g' : Str × Option Str} {t : Option Int} {c : Node} (h : IsChannel g t c) (hne : g.1 ≠ g'.1) : (chSel g').candidate c = false := by
  obtain ⟨h1, _, h3, _⟩ := isChannel_attr h
  cases c with
  | text _ _ => cases h1
  | element n as cs =>
    rw [Selector.candidate, decide_eq_false_iff_not]
    rintro ⟨_, h⟩
    have := h ("Id".toList, g'.1) (by simp [chSel, Selector.attrs, chAttrs])
    dsimp only [Node.attrs] at h3 this
    rw [h3] at this
    injection this with this
    exact hne this

/-- One channel is written. -/
theorem writeChannel_spec (types : PixelTypes) (gen : Int → Str × Option Str) (ch : Int) (doc : Node) (he : doc.isElement = true) (hg : GoodName (gen ch))
    (hno : (chChildren doc).find? (chSel (gen ch)).candidate = none) :
    (writeChannel types gen ch doc).2 = .ok () ∧ (writeChannel types gen ch doc).1.isElement = true ∧
      (∀ q, Diverge (namesPath channelsParts) q → resolve (writeChannel types gen ch doc).1 q = resolve doc q) ∧
      resolve (writeChannel types gen ch doc).1 (namesPath channelsParts) ≠ none ∧
      ∃ c, IsChannel (gen ch) (mapFind types.perChannel ch) c ∧ chChildren (writeChannel types gen ch doc).1 = chChildren doc ++ [c] := by
  have hst := chToken_text hg
  have hp1 := slashes_path channelsParts_ok.1 channelsParts_ok.2
  have hp2 : PathText [chSel (gen ch)] (chToken (gen ch)) := .one _ _ hst
  have hx1 := noIndex_names channelsParts
  have hx2 : ∀ x ∈ [chSel (gen ch)], x.NoIndex := by
    intro x hx
    rw [List.mem_singleton] at hx
    subst hx
    trivial
  have hkeep : KeepsTarget (fun n => .ok (writeAt n (chToken (gen ch)) (fun n => .ok (appendPixelType (mapFind types.perChannel ch) n))).1) := by
    intro n n' e hn
    injection e with e
    subst e
    obtain ⟨w1, w2, w3⟩ := writeAt_same hp2 hx2 n hn (appendPixelType (mapFind types.perChannel ch))
    exact ⟨w1, w2, fun k _ => by rw [w3]⟩
  have hw : writeChannel types gen ch doc = writeAt doc (slashes channelsParts)
      (fun n => .ok (writeAt n (chToken (gen ch)) (fun n => .ok (appendPixelType (mapFind types.perChannel ch) n))).1) := by
    rw [writeChannel, channelPath_eq, writeAt_append hp1 hp2 hx1 hx2 doc he]
  obtain ⟨n0, k1, k2, k3, k4, _, k6⟩ := writeAt_spec hp1 hx1 (attrs_names channelsParts _) doc he _ hkeep
  rw [← hw] at k3 k4 k6
  obtain ⟨k7, k8⟩ := k6 _ rfl
  have hch : n0.children = chChildren doc := by
    rcases k2 with h | ⟨h, s, m, _, _, h'⟩
    · rw [chChildren, h]
    · rw [chChildren, h, h']; rfl
  obtain ⟨m, hm, hwr⟩ := writeAt_new hst trivial n0 k1 (by rw [hch]; exact hno) (appendPixelType (mapFind types.perChannel ch))
  refine ⟨k7, k3, k4, by rw [k8]; exact Option.some_ne_none _, _, ⟨m, hm, rfl⟩, ?_⟩
  rw [chChildren, k8, hwr]
  cases n0 with
  | element nm as cs =>
    show (Node.setChildren _ _).children = _
    rw [← hch]
    rfl
  | text _ _ => cases k1

/-! ## Pixel types -/

theorem pixelTypeText_eq (t : PixelType) : pixelTypeText t = if Statable t then some (typeName t).toList else none := by
  cases t <;> decide +kernel

theorem stringToPixelType_name {t : PixelType} (h : Statable t) : stringToPixelType (typeName t).toList = some t := by
  cases t <;> first | decide +kernel | exact absurd h (by decide)

theorem typeName_ok {t : PixelType} (h : Statable t) : (typeName t).toList.all isPugiSpace = false ∧ '\r' ∉ (typeName t).toList := by
  cases t <;> first | decide +kernel | exact absurd h (by decide)

/-- What is read for a channel with the entry of the map. -/
def infoOf (g : Str × Option Str) (t : Option Int) : ChannelInfo :=
  ⟨some g.1, g.2, (t.map pixelTypeFromInt).filter (fun t => Statable t)⟩

theorem appendPixelType_eq (t : Option Int) (n : Node) : appendPixelType t n =
    match (t.map pixelTypeFromInt).filter (fun t => Statable t) with
    | none => n
    | some t => n.setChildren (n.children ++ [.element "PixelType".toList [] [.text false (typeName t).toList]]) := by
  unfold appendPixelType
  cases t with
  | none => rfl
  | some k =>
    dsimp only [Option.bind_some, Option.map_some, Option.filter]
    rw [pixelTypeText_eq]
    by_cases h : Statable (pixelTypeFromInt k)
    · rw [if_pos h]
      simp only [h, decide_true, if_true]
    · rw [if_neg h]
      simp [h]

theorem channelInfo_eq {g : Str × Option Str} {t : Option Int} {c : Node} (h : IsChannel g t c) : channelInfo c = infoOf g t ∧ channelInfo (reload c) = infoOf g t := by
  obtain ⟨h1, h2, h3, h4⟩ := isChannel_attr h
  obtain ⟨m, hp, hc⟩ := h
  have hra : (reload c).attrs = c.attrs := by
    cases c with
    | element n as cs => rw [reload_element]; rfl
    | text _ _ => cases h1
  have key : fieldOf c "PixelType".toList = ((t.map pixelTypeFromInt).filter (fun t => Statable t)).map (fun t => (typeName t).toList) ∧
      fieldOf (reload c) "PixelType".toList = ((t.map pixelTypeFromInt).filter (fun t => Statable t)).map (fun t => (typeName t).toList) := by
    rw [appendPixelType_eq] at hc
    cases hs : (t.map pixelTypeFromInt).filter (fun t => Statable t) with
    | none =>
      rw [hs] at hc
      dsimp only at hc
      subst hc
      rw [reload_element]
      exact ⟨rfl, rfl⟩
    | some ty =>
      rw [hs] at hc
      dsimp only at hc
      have hst : Statable ty := by
        have := (Option.filter_eq_some_iff.mp hs).2
        simpa using this
      obtain ⟨b1, b2⟩ := typeName_ok hst
      have e0 : Option.map (fun t => (typeName t).toList) (some ty) = some (typeName ty).toList := rfl
      rw [e0]
      generalize typeName ty = nm at *
      subst hc
      have e : isNamed "PixelType".toList (.element "PixelType".toList [] [.text false nm.toList]) = true := by simp [isNamed, Node.isElement, Node.name]
      constructor
      · rw [fieldOf, childNamed]
        show Option.map _ (List.find? _ [Node.element _ _ _]) = _
        rw [List.find?_cons, e]
        rfl
      · rw [fieldOf, childNamed, reload_children]
        show Option.map _ (List.find? _ (reloadAll [Node.element _ _ _])) = _
        rw [reloadAll_cons, reload_element, reloadAll_cons]
        dsimp only
        rw [b1]
        have e' : isNamed "PixelType".toList (.element "PixelType".toList [] [.text false (eol nm.toList)]) = true := by simp [isNamed, Node.isElement, Node.name]
        show Option.map _ (List.find? _ (Node.element _ _ [.text false (eol nm.toList)] :: [])) = _
        rw [List.find?_cons, e']
        show some (eol nm.toList) = some nm.toList
        rw [eol_self b2]
  have fin : ∀ o : Option PixelType, (∀ t, o = some t → Statable t) → (o.map (fun t => (typeName t).toList)).bind stringToPixelType = o := by
    intro o ho
    cases o with
    | none => rfl
    | some t => exact stringToPixelType_name (ho t rfl)
  have hfin := fin ((t.map pixelTypeFromInt).filter (fun t => Statable t)) (fun t ht => by simpa using (Option.filter_eq_some_iff.mp ht).2)
  constructor
  · rw [channelInfo, attrOf_eq, attrOf_eq, h3, h4, key.1, hfin]; rfl
  · rw [channelInfo, attrOf_eq, attrOf_eq, hra, h3, h4, key.2, hfin]; rfl

theorem isChannel_named {g : Str × Option Str} {t : Option Int} {c : Node} (h : IsChannel g t c) : isNamed "Channel".toList c = true := by
  obtain ⟨h1, h2, _⟩ := isChannel_attr h
  rw [isNamed, h1, h2]
  simp

theorem reload_named (s : Str) (c : Node) : isNamed s (reload c) = isNamed s c := by
  cases c with
  | element n as cs => rw [reload_element]; rfl
  | text _ _ => simp [reload, isNamed, Node.isElement]

/-- Nodes of channels. -/
theorem channels_read (l : List ((Str × Option Str) × Option Int)) : ∀ cs : List Node, List.Forall₂ (fun e c => IsChannel e.1 e.2 c) l cs →
    (cs.filter (isNamed "Channel".toList)).map channelInfo = l.map (fun e => infoOf e.1 e.2) ∧
    ((reloadAll cs).filter (isNamed "Channel".toList)).map channelInfo = l.map (fun e => infoOf e.1 e.2) := by
  intro cs h
  induction h with
  | nil => exact ⟨rfl, rfl⟩
  | cons hc _ ih =>
    rename_i e c l cs _
    have hn := isChannel_named hc
    have hr : reloadAll (c :: cs) = reload c :: reloadAll cs := by
      rw [reloadAll_cons]
      cases c with
      | element n as cs => rfl
      | text _ _ => cases hn
    rw [List.filter_cons_of_pos hn, hr, List.filter_cons_of_pos (by rw [reload_named]; exact hn), List.map_cons, List.map_cons, List.map_cons,
      (channelInfo_eq hc).1, (channelInfo_eq hc).2, ih.1, ih.2]
    exact ⟨rfl, rfl⟩

theorem writeAll_append (a b : List (Node → Node × Except Unit Unit)) : ∀ doc : Node, (writeAll a doc).2 = .ok () →
    writeAll (a ++ b) doc = writeAll b (writeAll a doc).1 := by
  induction a with
  | nil => intro doc _; rfl
  | cons w ws ih =>
    intro doc h
    rw [writeAll_cons] at h
    rw [List.cons_append, writeAll_cons, writeAll_cons]
    cases hw : (w doc).2 with
    | error e => rw [hw] at h; cases h
    | ok u =>
      rw [hw] at h
      exact ih _ h

/-- The channels are written. -/
theorem writeChannels_spec (types : PixelTypes) (gen : Int → Str × Option Str) (hg : ∀ c, GoodName (gen c)) (hi : ∀ c c', (gen c).1 = (gen c').1 → c = c') :
    ∀ (L : List Int) (doc : Node), L.Nodup → doc.isElement = true → (∀ ch ∈ L, (chChildren doc).find? (chSel (gen ch)).candidate = none) →
    (writeAll (L.map (writeChannel types gen)) doc).2 = .ok () ∧ (writeAll (L.map (writeChannel types gen)) doc).1.isElement = true ∧
      (∀ q, Diverge (namesPath channelsParts) q → resolve (writeAll (L.map (writeChannel types gen)) doc).1 q = resolve doc q) ∧
      (L ≠ [] → resolve (writeAll (L.map (writeChannel types gen)) doc).1 (namesPath channelsParts) ≠ none) ∧
      ∃ cs, List.Forall₂ (fun (e : (Str × Option Str) × Option Int) c => IsChannel e.1 e.2 c) (L.map (fun c => (gen c, mapFind types.perChannel c))) cs ∧
        chChildren (writeAll (L.map (writeChannel types gen)) doc).1 = chChildren doc ++ cs := by
  intro L
  induction L with
  | nil => intro doc _ he _; exact ⟨rfl, he, fun _ _ => rfl, fun h => absurd rfl h, [], .nil, (List.append_nil _).symm⟩
  | cons ch L ih =>
    intro doc hn he hno
    obtain ⟨hn1, hn2⟩ := List.nodup_cons.mp hn
    obtain ⟨w1, w2, w3, w4, c, w5, w6⟩ := writeChannel_spec types gen ch doc he (hg ch) (hno ch (List.mem_cons_self ..))
    have hno' : ∀ ch' ∈ L, (chChildren (writeChannel types gen ch doc).1).find? (chSel (gen ch')).candidate = none := by
      intro ch' h'
      rw [w6, List.find?_append, hno ch' (List.mem_cons_of_mem _ h'), Option.none_or, List.find?_cons, channel_other w5]
      · rfl
      · intro e
        exact hn1 (hi _ _ e ▸ h')
    obtain ⟨i1, i2, i3, i4, cs, i5, i6⟩ := ih _ hn2 w2 hno'
    rw [List.map_cons, writeAll_cons, w1]
    dsimp only
    refine ⟨i1, i2, fun q hq => (i3 q hq).trans (w3 q hq), fun _ => ?_, c :: cs, .cons w5 i5, ?_⟩
    · by_cases hL : L = []
      · subst hL; exact w4
      · exact i4 hL
    · rw [i6, w6, List.append_assoc, List.singleton_append]

/-! ## The directory of the writer -/

theorem prepared_fold (es : List Entry) : ∀ s : PreparedState,
    (es.foldl PreparedState.tryAdd s).dir.upd.stats = (acceptedFrom s.dir es).foldl Stats.update s.dir.upd.stats ∧
    (es.foldl PreparedState.tryAdd s).types = (acceptedFrom s.dir es).foldl PixelTypes.add s.types := by
  induction es with
  | nil => intro s; exact ⟨rfl, rfl⟩
  | cons e es ih =>
    intro s
    rw [List.foldl_cons, acceptedFrom]
    obtain ⟨a, b⟩ := ih (s.tryAdd e)
    by_cases h : (s.dir.tryAdd e).2 = true
    · have ht : s.tryAdd e = ⟨(s.dir.tryAdd e).1, s.types.add e⟩ := by rw [PreparedState.tryAdd, if_pos h]
      have hu : (s.dir.tryAdd e).1.upd.stats = s.dir.upd.stats.update e := by
        unfold WriterDir.tryAdd at h ⊢
        split <;> rename_i hs
        · rfl
        · rw [hs] at h; cases h
      rw [if_pos h, List.foldl_cons, List.foldl_cons, a, b, ht]
      dsimp only
      rw [hu]
      exact ⟨rfl, rfl⟩
    · have ht : s.tryAdd e = s := by rw [PreparedState.tryAdd, if_neg h]
      rw [if_neg h, a, b, ht]
      exact ⟨rfl, rfl⟩

theorem types_fold (es : List Entry) : ∀ p : PixelTypes, KeysSorted p.perChannel →
    (es.foldl PixelTypes.add p).noChannel = (p.noChannel <|> (es.find? (fun e => e.coordinate .C = none)).map (·.pixelType)) ∧
    ∀ c, mapFind (es.foldl PixelTypes.add p).perChannel c = (mapFind p.perChannel c <|> (es.find? (fun e => e.coordinate .C = some c)).map (·.pixelType)) := by
  induction es with
  | nil =>
    intro p _
    rw [List.foldl_nil]
    exact ⟨by cases p.noChannel <;> rfl, fun c => by rw [List.find?_nil]; cases mapFind p.perChannel c <;> rfl⟩
  | cons e es ih =>
    intro p hp
    rw [List.foldl_cons]
    cases hc : e.coordinate .C with
    | none =>
      have ha : p.add e = { p with noChannel := some (p.noChannel.getD e.pixelType) } := by
        obtain ⟨nc, pc⟩ := p
        unfold PixelTypes.add
        rw [hc]
        cases nc <;> rfl
      obtain ⟨a, b⟩ := ih (p.add e) (by rw [ha]; exact hp)
      constructor
      · rw [a, ha, List.find?_cons]
        simp only [hc]
        cases p.noChannel <;> rfl
      · intro c
        rw [b, ha, List.find?_cons]
        simp [hc]
    | some k =>
      have ha : p.add e = { p with perChannel := Verif.mapInsert p.perChannel k e.pixelType } := by
        unfold PixelTypes.add
        rw [hc]
      obtain ⟨a, b⟩ := ih (p.add e) (by rw [ha]; exact Verif.mapInsert_sorted _ hp _ _)
      constructor
      · rw [a, ha, List.find?_cons]
        simp [hc]
      · intro c
        rw [b, ha, List.find?_cons]
        dsimp only
        rw [mapFind_insert' _ hp]
        by_cases h : c = k
        · subst h
          simp only [hc]
          cases mapFind p.perChannel c <;> rfl
        · have : decide (e.coordinate .C = some c) = false := by rw [hc]; simp; exact fun e => h e.symm
          rw [this, if_neg h]
where
  mapFind_insert' {α : Type} (m : List (Int × α)) (hs : KeysSorted m) (k : Int) (v : α) (j : Int) :
      mapFind (Verif.mapInsert m k v) j = if j = k then some ((mapFind m j).getD v) else mapFind m j := by
    cases hk : mapFind m k with
    | none =>
      rw [mapFind_insert m hs k v hk]
      by_cases h : j = k
      · subst h; rw [if_pos rfl, if_pos rfl, hk]; rfl
      · rw [if_neg h, if_neg h]
    | some w =>
      have : Verif.mapInsert m k v = m := by
        induction m with
        | nil => cases hk
        | cons q r ih =>
          obtain ⟨k', v'⟩ := q
          obtain ⟨s1, s2⟩ := List.pairwise_cons.mp hs
          rw [mapFind_cons] at hk
          rw [Verif.mapInsert]
          by_cases h : k' = k
          · subst h
            rw [if_neg (by omega), if_pos rfl]
          · rw [if_neg h] at hk
            have hm := mem_of_mapFind hk
            have := s1 _ hm
            dsimp only at this
            rw [if_neg (by omega), if_neg (by omega), ih s2 hk]
      rw [this]
      by_cases h : j = k
      · subst h; rw [if_pos rfl, hk]; rfl
      · rw [if_neg h]

/-! ## The whole document -/

theorem valueIs_iff {doc : Node} {parts : List Str} {v : Str} : ValueIs doc parts v ↔ ∃ n, resolve doc (namesPath parts) = some n ∧ tryGetValue n = some v := by
  constructor
  · rintro ⟨p, n, h1, h2, h3⟩
    exact ⟨n, (resolve_denotes (noIndex_names _) doc n).mpr ⟨p, h1, h2⟩, h3⟩
  · rintro ⟨n, h, h3⟩
    obtain ⟨p, h1, h2⟩ := (resolve_denotes (noIndex_names _) doc n).mp h
    exact ⟨p, n, h1, h2, h3⟩

theorem valueIs_congr {a b : Node} {parts : List Str} {v : Str} (h : resolve a (namesPath parts) = resolve b (namesPath parts)) (hv : ValueIs b parts v) :
    ValueIs a parts v := by
  rw [valueIs_iff] at hv ⊢
  rw [h]
  exact hv

/-- The pixel type of the image. -/
def imageTypeOf (b : Bounds) (types : PixelTypes) : PixelType := match b .C with
  | some (start, size) => firstPixelType types (channelRange start size)
  | none => match types.noChannel with
    | none => .Invalid
    | some k => pixelTypeFromInt k

theorem imagePath_eq : "Metadata/Information/Image/PixelType".toList = slashes (imageField "PixelType") := by decide +kernel

theorem writeImagePixelType_eq (t : PixelType) (doc : Node) : writeImagePixelType t doc = writeText (imageField "PixelType", pixelTypeText t) doc := by
  unfold writeImagePixelType writeText
  cases h : pixelTypeText t with
  | none => rfl
  | some s => rw [imagePath_eq]

theorem pixelType_parts : imageField "PixelType" ≠ [] ∧ ∀ s ∈ imageField "PixelType", NodeName s := by
  apply imageField_names
  unfold NodeName
  decide +kernel

theorem diverge_channels {name : String} (h : name.toList ≠ "Dimensions".toList) : Diverge (namesPath (imageField name)) (namesPath channelsParts) :=
  diverge_names 3 name.toList "Dimensions".toList rfl rfl h rfl

theorem channelRange_nodup (start size : Int) : (channelRange start size).Nodup := by
  unfold channelRange
  rw [List.nodup_map_iff_inj_on List.nodup_range]
  intro a _ b _ h
  omega

/-- Channels and pixel type of the image are written. -/
theorem fillChannels_spec (b : Bounds) (types : PixelTypes) (gen : Int → Str × Option Str) (hg : ∀ c, GoodName (gen c))
    (hi : ∀ c c', (gen c).1 = (gen c').1 → c = c') (doc : Node) (he : doc.isElement = true) (hno : resolve doc (namesPath channelsParts) = none)
    (hpt : resolve doc (namesPath (imageField "PixelType")) = none) :
    (fillChannels b types gen doc).2 = .ok () ∧
    (∀ name : String, name.toList ≠ "Dimensions".toList → name.toList ≠ "PixelType".toList →
      resolve (fillChannels b types gen doc).1 (namesPath (imageField name)) = resolve doc (namesPath (imageField name))) ∧
    (b .C = none → resolve (fillChannels b types gen doc).1 (namesPath channelsParts) = none) ∧
    (∀ start size, b .C = some (start, size) → (0 < size → resolve (fillChannels b types gen doc).1 (namesPath channelsParts) ≠ none) ∧
      List.Forall₂ (fun (e : (Str × Option Str) × Option Int) c => IsChannel e.1 e.2 c)
        ((channelRange start size).map (fun c => (gen c, mapFind types.perChannel c))) (chChildren (fillChannels b types gen doc).1)) ∧
    (∀ s, pixelTypeText (imageTypeOf b types) = some s → ValueIs (fillChannels b types gen doc).1 (imageField "PixelType") s) ∧
    (pixelTypeText (imageTypeOf b types) = none → NoSuchNode (fillChannels b types gen doc).1 (imageField "PixelType")) := by
  have hdt : ("PixelType" : String).toList ≠ "Dimensions".toList := by decide +kernel
  -- the last step
  have last : ∀ (t : PixelType) (d : Node), d.isElement = true → resolve d (namesPath (imageField "PixelType")) = none →
      (writeImagePixelType t d).2 = .ok () ∧
      (∀ q, Diverge (namesPath (imageField "PixelType")) q → resolve (writeImagePixelType t d).1 q = resolve d q) ∧
      (∀ s, pixelTypeText t = some s → ValueIs (writeImagePixelType t d).1 (imageField "PixelType") s) ∧
      (pixelTypeText t = none → NoSuchNode (writeImagePixelType t d).1 (imageField "PixelType")) := by
    intro t d hd hn
    have hto : TextOnly d (imageField "PixelType") := by
      rw [textOnly_iff]
      intro n h
      rw [hn] at h
      cases h
    rw [writeImagePixelType_eq]
    refine ⟨?_, (writeText_other (imageField "PixelType", pixelTypeText t) pixelType_parts d hd).2, ?_, ?_⟩
    · cases h : pixelTypeText t with
      | none => rfl
      | some s => exact (writeText_ok _ s pixelType_parts d hd hto).1
    · intro s h
      rw [h]
      obtain ⟨_, m, h1, rest, h2, _⟩ := writeText_ok _ s pixelType_parts d hd hto
      exact valueIs_of h1 h2
    · intro h
      rw [h, noSuchNode_iff]
      exact hn
  cases hb : b .C with
  | none =>
    have hf : fillChannels b types gen doc = writeImagePixelType (imageTypeOf b types) doc := by
      unfold fillChannels imageTypeOf
      rw [hb]
      dsimp only
      cases types.noChannel <;> rfl
    obtain ⟨l1, l2, l3, l4⟩ := last (imageTypeOf b types) doc he hpt
    rw [← hf] at l1 l2 l3 l4
    refine ⟨l1, fun name h1 h2 => l2 _ (diverge_image (Ne.symm h2)), fun _ => ?_, (by intro _ _ h; cases h), l3, l4⟩
    rw [l2 _ (diverge_channels hdt)]
    exact hno
  | some r =>
    obtain ⟨start, size⟩ := r
    have hch : chChildren doc = [] := by rw [chChildren, hno]
    obtain ⟨w1, w2, w3, w4, cs, w5, w6⟩ := writeChannels_spec types gen hg hi (channelRange start size) doc (channelRange_nodup _ _) he
      (by intro ch _; rw [hch]; rfl)
    have hf : fillChannels b types gen doc =
        writeImagePixelType (imageTypeOf b types) (writeAll ((channelRange start size).map (writeChannel types gen)) doc).1 := by
      unfold fillChannels imageTypeOf
      rw [hb]
      dsimp only
      rw [writeAll_append _ _ doc w1, writeAll_cons]
      cases h : (writeImagePixelType (firstPixelType types (channelRange start size)) (writeAll ((channelRange start size).map (writeChannel types gen)) doc).1).2 with
      | error e => exact Prod.ext rfl h.symm
      | ok u => exact Prod.ext rfl h.symm
    have hpt' : resolve (writeAll ((channelRange start size).map (writeChannel types gen)) doc).1 (namesPath (imageField "PixelType")) = none := by
      rw [w3 _ (diverge_symm (diverge_channels hdt))]
      exact hpt
    obtain ⟨l1, l2, l3, l4⟩ := last (imageTypeOf b types) _ w2 hpt'
    rw [← hf] at l1 l2 l3 l4
    refine ⟨l1, fun name h1 h2 => ?_, (by intro h; cases h), ?_, l3, l4⟩
    · rw [l2 _ (diverge_image (Ne.symm h2)), w3 _ (diverge_symm (diverge_channels h1))]
    · intro st sz e
      injection e with e
      injection e with e1 e2
      subst e1
      subst e2
      have hr := l2 _ (diverge_channels hdt)
      refine ⟨fun hs => ?_, ?_⟩
      · rw [hr]
        apply w4
        intro h
        have : (channelRange start size).length = 0 := by rw [h]; rfl
        simp [channelRange] at this
        omega
      · have : chChildren (fillChannels b types gen doc).1 = cs := by
          rw [chChildren, hr]
          rw [hch, List.nil_append, chChildren] at w6
          exact w6
        rw [this]
        exact w5

end Verif.Xml
