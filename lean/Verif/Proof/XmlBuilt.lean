import Verif.Proof.Xml
import Verif.Proof.DocInfo
import Verif.Proof.XmlLoaded
import Verif.Spec.XmlBuilt

/-!
# Trees that are built through `IXmlNodeRw` are writable
-/

namespace Verif.Xml

open Verif.Spec

theorem allWritable_iff (cs : List Node) : AllWritable cs ↔ ∀ c ∈ cs, Writable c := by
  induction cs with
  | nil => simp [AllWritable]
  | cons c cs ih =>
    rw [AllWritable, ih]
    simp

theorem textsApart_congr : ∀ {cs ds : List Node}, cs.map Node.isPcdata = ds.map Node.isPcdata → TextsApart cs → TextsApart ds
  | _, [], _, _ => trivial
  | _, [_], _, _ => trivial
  | [], d :: e :: ds, h, _ => by cases h
  | [c], d :: e :: ds, h, _ => by simp at h
  | c :: c' :: cs, d :: e :: ds, h, ht => by
    have h' := h
    simp only [List.map_cons, List.cons.injEq] at h
    refine ⟨?_, textsApart_congr (cs := c' :: cs) (by simp [h.2]) ht.2⟩
    rw [← h.1, ← h.2.1]
    exact ht.1

theorem textsApart_append {cs : List Node} {c : Node} (h : TextsApart cs) (hc : c.isPcdata = false) : TextsApart (cs ++ [c]) := by
  induction cs with
  | nil => trivial
  | cons d cs ih =>
    have ih := ih (textsApart_tail h)
    rw [List.cons_append]
    refine textsApart_cons (fun hd x hx => ?_) ih
    cases cs with
    | nil =>
      cases hx
      exact hc
    | cons e es =>
      cases hx
      exact h.1 hd

theorem writable_element {n : Str} {as : List (Str × Str)} {cs : List Node} :
    Writable (.element n as cs) ↔ XmlName n ∧ GoodAttrs as ∧ TextsApart cs ∧ ∀ c ∈ cs, Writable c := by
  rw [Writable, allWritable_iff]
  rfl

/-- Replacing a child by one of the same kind. -/
theorem writable_modify {n : Str} {as : List (Str × Str)} {cs : List Node} (h : Writable (.element n as cs)) (i : Nat) (f : Node → Node)
    (hf : ∀ c, cs[i]? = some c → Writable (f c) ∧ (f c).isPcdata = c.isPcdata) : Writable (.element n as (cs.modify i f)) := by
  rw [writable_element] at h ⊢
  refine ⟨h.1, h.2.1, textsApart_congr ?_ h.2.2.1, ?_⟩
  · apply List.ext_getElem?
    intro j
    rw [List.getElem?_map, List.getElem?_map, List.getElem?_modify]
    by_cases hj : i = j
    · subst hj
      cases hc : cs[i]? with
      | none => rfl
      | some c =>
        have := (hf c hc).2
        simp [this]
    · simp [hj]
  · intro x hx
    obtain ⟨j, hj⟩ := List.getElem?_of_mem hx
    rw [List.getElem?_modify] at hj
    by_cases hij : i = j
    · subst hij
      cases hc : cs[i]? with
      | none => rw [hc] at hj; cases hj
      | some c =>
        rw [hc] at hj
        simp only [Option.map_eq_map, Option.map_some, if_true, Option.some.injEq] at hj
        rw [← hj]
        exact (hf c hc).1
    · cases hc : cs[j]? with
      | none => rw [hc] at hj; cases hj
      | some c =>
        rw [hc] at hj
        simp only [Option.map_eq_map, Option.map_some, if_neg hij, Option.some.injEq] at hj
        rw [← hj]
        exact h.2.2.2 c (List.mem_of_getElem? hc)

theorem writable_update (f : Node → Node) : ∀ (p : List Nat) (n : Node), Writable n →
    (∀ m, n.at p = some m → Writable m → Writable (f m) ∧ (f m).isPcdata = m.isPcdata) → Writable (n.update f p) ∧ (n.update f p).isPcdata = n.isPcdata
  | [], n, h, hf => hf n rfl h
  | i :: p, .text c v, h, _ => ⟨h, rfl⟩
  | i :: p, .element nm as cs, h, hf => by
    refine ⟨writable_modify h i _ (fun c hc => ?_), rfl⟩
    refine writable_update f p c ?_ ?_
    · rw [writable_element] at h
      exact h.2.2.2 c (List.mem_of_getElem? hc)
    · intro m hm hw
      exact hf m (by rw [at_cons_some (n := .element nm as cs) hc]; exact hm) hw

theorem writable_at : ∀ (p : List Nat) (n m : Node), Writable n → n.at p = some m → Writable m
  | [], n, m, h, hm => by
    cases hm
    exact h
  | i :: p, .text c v, m, h, hm => by
    rw [at_cons_none (by rfl)] at hm
    cases hm
  | i :: p, .element nm as cs, m, h, hm => by
    cases hc : cs[i]? with
    | none =>
      rw [at_cons_none (n := .element nm as cs) hc] at hm
      cases hm
    | some c =>
      rw [at_cons_some (n := .element nm as cs) hc] at hm
      rw [writable_element] at h
      exact writable_at p c m (h.2.2.2 c (List.mem_of_getElem? hc)) hm

/-! ## Creating nodes -/

theorem writable_append {n : Str} {as : List (Str × Str)} {cs : List Node} (h : Writable (.element n as cs)) {c : Node} (hc : Writable c) (hp : c.isPcdata = false) :
    Writable (.element n as (cs ++ [c])) := by
  rw [writable_element] at h ⊢
  refine ⟨h.1, h.2.1, textsApart_append h.2.2.1 hp, ?_⟩
  intro x hx
  rcases List.mem_append.1 hx with hx | hx
  · exact h.2.2.2 x hx
  · rw [List.mem_singleton.1 hx]
    exact hc

theorem writable_new {n : Str} {as : List (Str × Str)} (hn : XmlName n) (ha : GoodAttrs as) : Writable (.element n as []) := by
  rw [writable_element]
  exact ⟨hn, ha, trivial, by simp⟩

theorem set_eq_modify {cs : List Node} {i : Nat} (d : Node) : cs.set i d = cs.modify i (fun _ => d) := by
  apply List.ext_getElem?
  intro j
  rw [List.getElem?_set, List.getElem?_modify]
  by_cases h : i = j
  · subst h
    rw [if_pos rfl]
    by_cases hi : i < cs.length
    · rw [if_pos hi, List.getElem?_eq_getElem hi]
      simp
    · rw [if_neg hi, List.getElem?_eq_none (by omega)]
      rfl
  · rw [if_neg h]
    simp [h]

theorem writable_create {sels : List Selector} {ts : List Str} (h : Steps sels ts) : (∀ s ∈ sels, XmlName s.name ∧ GoodAttrs s.attrs) → ∀ (n : Node), Writable n →
    Writable (getOrCreatePath n ts).1 ∧ (getOrCreatePath n ts).1.isPcdata = n.isPcdata := by
  induction h with
  | nil => exact fun _ n hn => ⟨hn, rfl⟩
  | cons s t ss ts hst _ ih =>
    intro hs n hn
    rw [getOrCreatePath]
    split
    · exact ⟨hn, rfl⟩
    · rename_i cs' i htok
      split
      · exact ⟨hn, rfl⟩
      · rename_i c hc
        cases n with
        | text _ _ => exact ⟨hn, rfl⟩
        | element nm as cs =>
          have hw : Writable (.element nm as cs') := by
            by_cases hx : s.NoIndex
            · obtain ⟨m, hp, _, e⟩ := createToken_text hst hx cs
              have e' : getOrCreateToken cs t = .ok (cs', i) := htok
              rw [e] at e'
              injection e' with e'
              have hcs : cs' = (findOrAppend s.candidate (.element s.name m []) cs).1 := by rw [e']
              rw [hcs]
              obtain ⟨h1, h2⟩ := hs s (List.mem_cons_self ..)
              rcases findOrAppend_cases s.candidate (.element s.name m []) cs with e2 | e2
              · rw [e2]
                exact hn
              · rw [e2]
                exact writable_append hn (writable_new h1 (fun a ha => h2 a (hp.mem_iff.1 ha))) rfl
            · rw [createToken_index hst hx] at htok
              cases htok
          refine ⟨?_, rfl⟩
          show Writable (.element nm as (cs'.set i _))
          rw [set_eq_modify]
          refine writable_modify hw i _ (fun d hd => ?_)
          have hd' : d = c := by
            rw [hc] at hd
            injection hd with hd
            exact hd.symm
          subst hd'
          rw [writable_element] at hw
          exact ih (fun s hs' => hs s (List.mem_cons_of_mem _ hs')) d (hw.2.2.2 d (List.mem_of_getElem? hd))

theorem writable_getOrCreate {doc : Node} (hd : Writable doc) (h : List Nat) {path : Str} {sels : List Selector} (hp : PathText sels path)
    (hs : ∀ s ∈ sels, XmlName s.name ∧ GoodAttrs s.attrs) :
    Writable (getOrCreateChildNode doc h path).1 ∧ (getOrCreateChildNode doc h path).1.isPcdata = doc.isPcdata := by
  obtain ⟨ts, e, hst⟩ := pathText_tokens hp
  unfold getOrCreateChildNode
  rw [e]
  cases hn : doc.at h with
  | none => exact ⟨hd, rfl⟩
  | some n =>
    refine writable_update _ h doc hd (fun m hm hw => ?_)
    rw [hn] at hm
    cases hm
    exact writable_create hst hs n hw

/-! ## Values and attributes -/

theorem setText_pcdata {cs : List Node} (h : TextsApart cs) (v : Str) : TextsApart (setText v cs) := by
  by_cases hp : ∃ c ∈ cs, c.isPcdata = true
  · refine textsApart_congr ?_ h
    clear h
    induction cs with
    | nil => obtain ⟨c, hc, _⟩ := hp; cases hc
    | cons d cs ih =>
      cases d with
      | text cd w =>
        cases cd with
        | false => rfl
        | true =>
          obtain ⟨c, hc, hp⟩ := hp
          rcases List.mem_cons.1 hc with rfl | hc
          · cases hp
          · simp only [setText, List.map_cons, ← ih ⟨c, hc, hp⟩]
      | element n as ds =>
        obtain ⟨c, hc, hp⟩ := hp
        rcases List.mem_cons.1 hc with rfl | hc
        · cases hp
        · simp only [setText, List.map_cons, ← ih ⟨c, hc, hp⟩]
  · have e : setText v cs = cs ++ [.text false v] := by
      clear h
      induction cs with
      | nil => rfl
      | cons d cs ih =>
        have ih := ih (fun ⟨c, hc, hp'⟩ => hp ⟨c, List.mem_cons_of_mem _ hc, hp'⟩)
        cases d with
        | text cd w =>
          cases cd with
          | false => exact absurd ⟨_, List.mem_cons_self .., rfl⟩ hp
          | true => rw [setText, ih]; rfl; simp
        | element n as ds => rw [setText, ih]; rfl; simp
    rw [e]
    clear e h
    induction cs with
    | nil => trivial
    | cons d cs ih =>
      rw [List.cons_append]
      refine textsApart_cons (fun hd => absurd ⟨d, List.mem_cons_self .., hd⟩ hp) (ih (fun ⟨c, hc, hp'⟩ => hp ⟨c, List.mem_cons_of_mem _ hc, hp'⟩))

theorem setText_mem (v : Str) : ∀ (cs : List Node) (x : Node), x ∈ setText v cs → x = .text false v ∨ x ∈ cs
  | [], x, h => by
    rw [setText] at h
    exact Or.inl (List.mem_singleton.1 h)
  | .text false w :: cs, x, h => by
    rw [setText] at h
    rcases List.mem_cons.1 h with h | h
    · exact Or.inl h
    · exact Or.inr (List.mem_cons_of_mem _ h)
  | .text true w :: cs, x, h => by
    rw [setText] at h
    · rcases List.mem_cons.1 h with h | h
      · exact Or.inr (h ▸ List.mem_cons_self ..)
      · rcases setText_mem v cs x h with h | h
        · exact Or.inl h
        · exact Or.inr (List.mem_cons_of_mem _ h)
    · simp
  | .element n as ds :: cs, x, h => by
    rw [setText] at h
    · rcases List.mem_cons.1 h with h | h
      · exact Or.inr (h ▸ List.mem_cons_self ..)
      · rcases setText_mem v cs x h with h | h
        · exact Or.inl h
        · exact Or.inr (List.mem_cons_of_mem _ h)
    · simp

theorem writable_setValue {v : Str} (hv : '\x00' ∉ v) {n n' : Node} (hn : Writable n) (h : setValue v n = .ok n') : Writable n' ∧ n'.isPcdata = n.isPcdata := by
  unfold setValue at h
  split at h
  · cases h
  · cases h
    cases n with
    | text c w => exact ⟨hn, rfl⟩
    | element nm as cs =>
      refine ⟨?_, rfl⟩
      show Writable (.element nm as (setText v cs))
      rw [writable_element] at hn ⊢
      refine ⟨hn.1, hn.2.1, setText_pcdata hn.2.2.1 v, ?_⟩
      intro x hx
      rcases setText_mem v cs x hx with rfl | hx
      · exact hv
      · exact hn.2.2.2 x hx

theorem writable_onNode {f : Node → Except Unit Node} (hf : ∀ n n', Writable n → f n = .ok n' → Writable n' ∧ n'.isPcdata = n.isPcdata) {doc d : Node} (hd : Writable doc)
    (h : List Nat) (ho : onNode f doc h = .ok d) : Writable d ∧ d.isPcdata = doc.isPcdata := by
  unfold onNode at ho
  split at ho
  · cases ho
    exact ⟨hd, rfl⟩
  · rename_i n hn
    split at ho
    · cases ho
    · rename_i n' hfn
      cases ho
      refine writable_update _ h doc hd (fun m hm hw => ?_)
      rw [hn] at hm
      cases hm
      exact hf n n' hw hfn

theorem setAttr_good {k v : Str} (hk : XmlName k) (hv : '\x00' ∉ v) {as : List (Str × Str)} (h : GoodAttrs as) : GoodAttrs (setAttr k v as) := by
  induction as with
  | nil =>
    intro a ha
    rw [setAttr, List.mem_singleton] at ha
    subst ha
    exact ⟨hk, hv⟩
  | cons a as ih =>
    have ih := ih (fun x hx => h x (List.mem_cons_of_mem _ hx))
    rw [setAttr]
    split
    · intro x hx
      rcases List.mem_cons.1 hx with rfl | hx
      · exact ⟨hk, hv⟩
      · exact h x (List.mem_cons_of_mem _ hx)
    · intro x hx
      rcases List.mem_cons.1 hx with rfl | hx
      · exact h _ (List.mem_cons_self ..)
      · exact ih x hx

/-- Every proper change of a writable tree gives a writable tree. -/
theorem change_writable {doc : Node} (hd : Writable doc) (c : Change) (hc : c.Proper) : Writable (c.run doc) ∧ (c.run doc).isPcdata = doc.isPcdata := by
  cases c with
  | create h path =>
    obtain ⟨sels, hp, hs⟩ := hc
    exact writable_getOrCreate hd h hp hs
  | append h name =>
    refine writable_update _ h doc hd (fun m _ hw => ?_)
    cases m with
    | text _ _ => exact ⟨hw, rfl⟩
    | element nm as cs => exact ⟨writable_append hw (writable_new hc (by simp [GoodAttrs])) rfl, rfl⟩
  | putAttribute h k v =>
    refine writable_update _ h doc hd (fun m _ hw => ?_)
    cases m with
    | text _ _ => exact ⟨hw, rfl⟩
    | element nm as cs =>
      refine ⟨?_, rfl⟩
      show Writable (.element nm (setAttr k v as) cs)
      rw [writable_element] at hw ⊢
      exact ⟨hw.1, setAttr_good hc.1 hc.2 hw.2.1, hw.2.2⟩
  | dropAttribute h k =>
    refine writable_update _ h doc hd (fun m _ hw => ?_)
    cases m with
    | text _ _ => exact ⟨hw, rfl⟩
    | element nm as cs =>
      refine ⟨?_, rfl⟩
      show Writable (.element nm (as.eraseP _) cs)
      rw [writable_element] at hw ⊢
      exact ⟨hw.1, fun a ha => hw.2.1 a (List.mem_of_mem_eraseP ha), hw.2.2⟩
  | value h v =>
    unfold Change.run
    dsimp only
    split
    · rename_i d ho
      exact writable_onNode (fun n n' hn hf => writable_setValue hc hn hf) hd h ho
    · exact ⟨hd, rfl⟩

theorem changes_writable {doc : Node} (hd : Writable doc) : ∀ (cs : List Change), (∀ c ∈ cs, c.Proper) →
    Writable (cs.foldl Change.run doc) ∧ (cs.foldl Change.run doc).isPcdata = doc.isPcdata := by
  intro cs
  induction cs generalizing doc with
  | nil => exact fun _ => ⟨hd, rfl⟩
  | cons c cs ih =>
    intro h
    obtain ⟨h1, h2⟩ := change_writable hd c (h c (List.mem_cons_self ..))
    obtain ⟨h3, h4⟩ := ih h1 (fun x hx => h x (List.mem_cons_of_mem _ hx))
    exact ⟨h3, h4.trans h2⟩

/-! ## The root stays an element -/

theorem setChildren_isElement (n : Node) (cs : List Node) : (n.setChildren cs).isElement = n.isElement := by
  cases n <;> rfl

theorem update_isElement {f : Node → Node} (hf : ∀ n, (f n).isElement = n.isElement) (p : List Nat) (n : Node) : (n.update f p).isElement = n.isElement := by
  cases p with
  | nil => exact hf n
  | cons i p =>
    rw [Node.update]
    exact setChildren_isElement _ _

theorem update_isElement' {f : Node → Node} {n m : Node} {p : List Nat} (hn : n.at p = some m) (hf : (f m).isElement = m.isElement) : (n.update f p).isElement = n.isElement := by
  cases p with
  | nil =>
    cases hn
    exact hf
  | cons i p =>
    rw [Node.update]
    exact setChildren_isElement _ _

theorem getOrCreatePath_isElement (n : Node) (ts : List Str) : (getOrCreatePath n ts).1.isElement = n.isElement := by
  cases ts with
  | nil => rfl
  | cons t ts =>
    rw [getOrCreatePath]
    split
    · rfl
    · split
      · rfl
      · exact setChildren_isElement _ _

theorem change_isElement (doc : Node) (c : Change) : (c.run doc).isElement = doc.isElement := by
  cases c with
  | create h path =>
    unfold Change.run getOrCreateChildNode
    dsimp only
    split
    · rfl
    · rfl
    · rename_i hn
      exact update_isElement' hn (getOrCreatePath_isElement _ _)
  | append h name => exact update_isElement (fun n => setChildren_isElement _ _) h doc
  | putAttribute h k v => exact update_isElement (fun n => by cases n <;> rfl) h doc
  | dropAttribute h k => exact update_isElement (fun n => by cases n <;> rfl) h doc
  | value h v =>
    unfold Change.run
    dsimp only
    split
    · rename_i d ho
      unfold onNode at ho
      split at ho
      · cases ho
        rfl
      · rename_i n hn
        split at ho
        · cases ho
        · rename_i n' hfn
          cases ho
          refine update_isElement' hn ?_
          unfold setValue at hfn
          split at hfn
          · cases hfn
          · cases hfn
            exact setChildren_isElement _ _
    · rfl

theorem changes_isElement (doc : Node) (cs : List Change) : (cs.foldl Change.run doc).isElement = doc.isElement := by
  induction cs generalizing doc with
  | nil => rfl
  | cons c cs ih =>
    rw [List.foldl_cons, ih, change_isElement]

theorem single_documentNodes {n : Node} (h : n.isElement = true) : DocumentNodes [n] := by
  refine ⟨fun x hx => ?_, n, List.mem_singleton.2 rfl, h⟩
  rw [List.mem_singleton] at hx
  subst hx
  cases x with
  | text _ _ => cases h
  | element _ _ _ => rfl

theorem reloadAll_root {n : Node} (h : n.isElement = true) : reloadAll [n] = [reload n] := by
  cases n with
  | text _ _ => cases h
  | element _ _ _ => rfl

/-! ## What the metadata builder writes -/

theorem writeAt_writable {doc : Node} (hd : Writable doc) {path : Str} {sels : List Selector} (hp : PathText sels path)
    (hs : ∀ s ∈ sels, XmlName s.name ∧ GoodAttrs s.attrs) {v : Str} (hv : '\x00' ∉ v) : Writable (writeAt doc path (setValue v)).1 := by
  have h1 := (writable_getOrCreate hd [] hp hs).1
  unfold writeAt
  split
  · rename_i d e he
    rw [he] at h1
    exact h1
  · rename_i d q he
    rw [he] at h1
    split
    · exact h1
    · rename_i d' ho
      exact (writable_onNode (fun n n' hn hf => writable_setValue hv hn hf) h1 q ho).1

theorem writeText_writable {doc : Node} (hd : Writable doc) (e : List Str × Option Str) (he : e.1 ≠ [] ∧ ∀ s ∈ e.1, NodeName s) (hx : ∀ s ∈ e.1, XmlName s)
    (hv : ∀ v, e.2 = some v → '\x00' ∉ v) : Writable (writeText e doc).1 := by
  obtain ⟨ps, v⟩ := e
  cases v with
  | none => exact hd
  | some v =>
    refine writeAt_writable hd (slashes_path he.1 he.2) ?_ (hv v rfl)
    intro s hs
    obtain ⟨n, hn, rfl⟩ := List.mem_map.1 hs
    exact ⟨hx n hn, by intro a ha; cases ha⟩

theorem writeTexts_writable (L : List (List Str × Option Str)) : ∀ (doc : Node), Writable doc → (∀ e ∈ L, e.1 ≠ [] ∧ ∀ s ∈ e.1, NodeName s) →
    (∀ e ∈ L, ∀ s ∈ e.1, XmlName s) → (∀ e ∈ L, ∀ v, e.2 = some v → '\x00' ∉ v) → Writable (writeTexts L doc).1 := by
  induction L with
  | nil => exact fun doc hd _ _ _ => hd
  | cons e L ih =>
    intro doc hd h1 h2 h3
    have hw := writeText_writable hd e (h1 e (List.mem_cons_self ..)) (h2 e (List.mem_cons_self ..)) (h3 e (List.mem_cons_self ..))
    rw [writeTexts, List.map_cons, writeAll_cons]
    cases (writeText e doc).2 with
    | error _ => exact hw
    | ok _ =>
      exact ih _ hw (fun x hx => h1 x (List.mem_cons_of_mem _ hx)) (fun x hx => h2 x (List.mem_cons_of_mem _ hx)) (fun x hx => h3 x (List.mem_cons_of_mem _ hx))

/-- A computable check. -/
def checkName : Str → Bool
  | [] => false
  | c :: s => isStartSymbol c && s.all isSymbol

theorem checkName_spec {n : Str} (h : checkName n = true) : XmlName n := by
  cases n with
  | nil => cases h
  | cons c s =>
    simp only [checkName, Bool.and_eq_true] at h
    exact ⟨c, s, rfl, (isStartSymbol_iff c).1 h.1, fun d hd => (isSymbol_iff d).1 (List.all_eq_true.1 h.2 d hd)⟩

theorem documentField_names (info : GeneralInfo) : ∀ f ∈ givenFields info, ∀ s ∈ documentField f.1, XmlName s := by
  have key : ∀ n ∈ ["Name", "Title", "UserName", "Description", "Comment", "Keywords", "CreationDate", "Rating"], ∀ s ∈ documentField n, checkName s = true := by
    decide +kernel
  intro f hf s hs
  refine checkName_spec (key f.1 ?_ s hs)
  have hm : f.1 ∈ (givenFields info).map Prod.fst := List.mem_map_of_mem hf
  exact hm

theorem general_writable (info : GeneralInfo) {doc : Node} (hd : Writable doc) (hv : ∀ f ∈ givenFields info, ∀ v, f.2 = some v → '\x00' ∉ v) :
    Writable (writeGeneral info doc).1 := by
  rw [writeGeneral_eq]
  refine writeTexts_writable _ doc hd (generalTexts_ok info).1 ?_ ?_
  · intro e he
    obtain ⟨f, hf, rfl⟩ := List.mem_map.1 he
    exact documentField_names info f hf
  · intro e he
    obtain ⟨f, hf, rfl⟩ := List.mem_map.1 he
    exact hv f hf

end Verif.Xml
