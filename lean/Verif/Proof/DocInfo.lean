import Verif.Proof.Xml
import Verif.Proof.XmlValue
import Verif.Spec.DocInfo
import Mathlib.Tactic.ByContra

/-!
# Helper lemmas for document information
-/

namespace Verif.Xml
open Text Spec

/-- The node a path (without indices) leads to. -/
def resolve : Node → List Selector → Option Node
  | n, [] => some n
  | n, s :: ss => match n.children.find? s.candidate with
    | none => none
    | some c => resolve c ss

/-- No node is a candidate for both. -/
def Apart (s t : Selector) : Prop := ∀ c : Node, s.candidate c = true → t.candidate c = false

/-- Two paths that lead to different branches. -/
def Diverge : List Selector → List Selector → Prop
  | s :: p, t :: q => (s = t ∧ Diverge p q) ∨ Apart s t
  | _, _ => False

theorem apart_name {s t : Selector} (h : s.name ≠ t.name) : Apart s t := by
  intro c hc
  cases c with
  | text _ _ => rfl
  | element n as cs =>
    simp only [Selector.candidate, decide_eq_true_eq] at hc
    simp only [Selector.candidate, decide_eq_false_iff_not]
    rintro ⟨e, _⟩
    exact h (hc.1 ▸ e)

theorem apart_attr {s t : Selector} {k v w : Str} (hs : (k, v) ∈ s.attrs) (ht : (k, w) ∈ t.attrs) (h : v ≠ w) : Apart s t := by
  intro c hc
  cases c with
  | text _ _ => rfl
  | element n as cs =>
    simp only [Selector.candidate, decide_eq_true_eq] at hc
    simp only [Selector.candidate, decide_eq_false_iff_not]
    rintro ⟨_, e⟩
    have h1 := hc.2 _ hs
    have h2 := e _ ht
    rw [h1] at h2
    exact h (Option.some.inj h2)

theorem nthIdx_find (p : Node → Bool) (cs : List Node) : cs.find? p = (nthIdx p 0 cs).bind (fun i => cs[i]?) := by
  induction cs with
  | nil => rfl
  | cons c cs ih =>
    rw [nthIdx_cons, List.find?_cons]
    cases hp : p c with
    | true => simp
    | false =>
      simp only [Bool.false_eq_true, if_false]
      rw [ih]
      cases nthIdx p 0 cs <;> simp

theorem find_set_other {p : Node → Bool} {cs : List Node} {i : Nat} {c c' : Node} (hc : cs[i]? = some c) (h1 : p c = false) (h2 : p c' = false) :
    (cs.set i c').find? p = cs.find? p := by
  induction cs generalizing i with
  | nil => simp
  | cons x xs ih =>
    cases i with
    | zero =>
      simp only [List.getElem?_cons_zero, Option.some.injEq] at hc
      subst hc
      simp [List.find?_cons, h1, h2]
    | succ i =>
      simp only [List.getElem?_cons_succ] at hc
      simp only [List.set_cons_succ, List.find?_cons]
      rw [ih hc]

theorem find_append_other {p : Node → Bool} {cs : List Node} {c : Node} (h : p c = false) : (cs ++ [c]).find? p = cs.find? p := by
  rw [List.find?_append]
  simp [h]

theorem find_at {p : Node → Bool} {cs : List Node} {i : Nat} {c : Node} (hc : cs[i]? = some c) (hp : p c = true) (hn : ((cs.take i).filter p).length = 0) :
    cs.find? p = some c := by
  rw [nthIdx_find, (nthIdx_iff p cs 0 i).mpr ⟨c, hc, hp, hn⟩]
  exact hc

theorem filter_take_set (p : Node → Bool) (cs : List Node) (i : Nat) (c : Node) : ((cs.set i c).take i) = cs.take i := by
  rw [List.take_set_of_le]
  exact Nat.le_refl _

/-- The last step selects the node. -/
def LastOk (sels : List Selector) (m : Node) : Prop := ∀ s, sels.getLast? = some s → s.candidate m = true

/-- The node at the end of the path, or the one that is created for it. -/
def Target (n : Node) (sels : List Selector) (n0 : Node) : Prop :=
  resolve n sels = some n0 ∨ (resolve n sels = none ∧ ∃ s m, sels.getLast? = some s ∧ m.Perm s.attrs ∧ n0 = .element s.name m [])

theorem update_same {n : Node} {p : List Nat} (hp : p ≠ []) (f : Node → Node) :
    (n.update f p).isElement = n.isElement ∧ (n.update f p).name = n.name ∧ (n.update f p).attrs = n.attrs := by
  cases p with
  | nil => exact absurd rfl hp
  | cons i p => cases n <;> exact ⟨rfl, rfl, rfl⟩

/-- What creating a path and replacing the node at its end comes to. -/
theorem create_update {sels : List Selector} {ts : List Str} (h : Steps sels ts) :
    (∀ s ∈ sels, s.NoIndex) → ∀ n : Node, n.isElement = true →
      ∃ p n0, (getOrCreatePath n ts).2 = .ok p ∧ p.length = sels.length ∧ (getOrCreatePath n ts).1.at p = some n0 ∧ n0.isElement = true ∧
        Target n sels n0 ∧ LastOk sels n0 ∧
        ∀ m, LastOk sels m →
          resolve ((getOrCreatePath n ts).1.update (fun _ => m) p) sels = some m ∧
          ∀ q, Diverge sels q → resolve ((getOrCreatePath n ts).1.update (fun _ => m) p) q = resolve n q := by
  induction h with
  | nil =>
    intro _ n hn
    refine ⟨[], n, rfl, rfl, rfl, hn, .inl rfl, (by intro s hs; cases hs), ?_⟩
    intro m _
    refine ⟨rfl, ?_⟩
    intro q hq
    cases hq
  | cons s t ss ts hst hss ih =>
    intro hx n hn
    have hs := hx s (List.mem_cons_self ..)
    have hx' := fun x hm => hx x (List.mem_cons_of_mem _ hm)
    cases n with
    | text _ _ => cases hn
    | element nm as cs =>
      obtain ⟨am, hperm, hcand, htok⟩ := createToken_text hst hs cs
      obtain ⟨c, hc, hcc, hcf, hcase⟩ := findOrAppend_spec (p := s.candidate) (new := .element s.name am []) hcand cs
      have hce := candidate_element hcc
      obtain ⟨p, n0, e1, e2, e3, e4, e5, e6, e7⟩ := ih hx' c hce
      generalize hfo : findOrAppend s.candidate (.element s.name am []) cs = fo at *
      obtain ⟨cs', i⟩ := fo
      dsimp only at hc hcf hcase
      obtain ⟨g1, g2, g3⟩ := getOrCreatePath_same ts c
      have hun : getOrCreatePath (.element nm as cs) (t :: ts) = (.element nm as (cs'.set i (getOrCreatePath c ts).1), .ok (i :: p)) := by
        rw [getOrCreatePath]
        simp only [Node.children, htok, hc, e1, Node.setChildren]
      have hi : i < cs'.length := (List.getElem?_eq_some_iff.mp hc).1
      have hget : (cs'.set i (getOrCreatePath c ts).1)[i]? = some (getOrCreatePath c ts).1 := by simp [hi]
      rw [hun]
      dsimp only
      have hres : resolve (.element nm as cs) (s :: ss) = resolve c ss ∨ (resolve (.element nm as cs) (s :: ss) = none ∧ c = .element s.name am []) := by
        rcases hcase with ⟨a, b⟩ | ⟨_, _, a, b⟩
        · left
          rw [resolve]
          show (match cs.find? s.candidate with | none => none | some c => resolve c ss) = _
          rw [nthIdx_find, b]
          subst a
          simp only [Option.bind_some, hc]
        · right
          refine ⟨?_, a⟩
          rw [resolve]
          show (match cs.find? s.candidate with | none => none | some c => resolve c ss) = _
          rw [nthIdx_find, b]
          rfl
      refine ⟨i :: p, n0, rfl, by simp [e2], ?_, e4, ?_, ?_, ?_⟩
      · exact (at_cons_some (n := .element nm as _) hget p).trans e3
      · -- target
        rcases e5 with e5 | ⟨e5, s', m', l1, l2, l3⟩
        · rcases hres with hr | ⟨hr, hcn⟩
          · exact .inl (hr.trans e5)
          · cases ss with
            | nil =>
              right
              refine ⟨hr, s, am, rfl, hperm, ?_⟩
              rw [resolve] at e5
              rw [← Option.some.inj e5, hcn]
            | cons s2 ss2 =>
              rw [hcn, resolve] at e5
              cases e5
        · right
          constructor
          · rcases hres with hr | ⟨hr, _⟩
            · exact hr.trans e5
            · exact hr
          · cases ss with
            | nil => cases l1
            | cons s2 ss2 => exact ⟨s', m', by simpa using l1, l2, l3⟩
      · intro x hx2
        cases ss with
        | nil =>
          injection hx2 with hx2
          subst hx2
          have : p = [] := List.length_eq_zero_iff.mp (by simpa using e2)
          subst this
          cases hss
          simp only [getOrCreatePath, Node.at] at e3
          rw [← Option.some.inj e3]
          exact hcc
        | cons s2 ss2 => exact e6 x (by simpa using hx2)
      · intro m hm
        rw [update_cons (fun _ => m) p hget, List.set_set]
        generalize hch : Node.update (fun _ => m) p (getOrCreatePath c ts).1 = ch
        have hchc : s.candidate ch = true := by
          cases ss with
          | nil =>
            have : p = [] := List.length_eq_zero_iff.mp (by simpa using e2)
            subst this
            rw [← hch]
            exact hm s rfl
          | cons s2 ss2 =>
            have hp : p ≠ [] := by intro h; rw [h] at e2; simp at e2
            obtain ⟨u1, u2, u3⟩ := update_same (n := (getOrCreatePath c ts).1) hp (fun _ => m)
            rw [hch] at u1 u2 u3
            rw [candidate_congr s (u1.trans g1) (u2.trans g2) (u3.trans g3)]
            exact hcc
        have hm' : LastOk ss m := by
          cases ss with
          | nil => intro x hx; cases hx
          | cons s2 ss2 => intro x hx; exact hm x (by simpa using hx)
        obtain ⟨r1, r2⟩ := e7 m hm'
        rw [hch] at r1 r2
        have hf : (cs'.set i ch).find? s.candidate = some ch :=
          find_at (i := i) (by simp [hi]) hchc (by rw [filter_take_set s.candidate]; exact hcf)
        constructor
        · rw [resolve]
          show (match (cs'.set i ch).find? s.candidate with | none => none | some c => resolve c ss) = _
          rw [hf]
          exact r1
        · intro q hq
          cases q with
          | nil => cases hq
          | cons t2 q =>
            rcases hq with ⟨rfl, hq⟩ | hq
            · rw [resolve]
              show (match (cs'.set i ch).find? s.candidate with | none => none | some c => resolve c q) = _
              rw [hf]
              show resolve ch q = _
              rw [r2 q hq]
              rcases hcase with ⟨a, b⟩ | ⟨_, _, a, b⟩
              · rw [resolve]
                show _ = (match cs.find? s.candidate with | none => none | some c => resolve c q)
                rw [nthIdx_find, b]
                subst a
                simp only [Option.bind_some, hc]
              · rw [resolve]
                show _ = (match cs.find? s.candidate with | none => none | some c => resolve c q)
                rw [nthIdx_find, b, a]
                cases q with
                | nil => cases ss <;> cases hq
                | cons _ _ => rfl
            · have f1 : t2.candidate c = false := hq c hcc
              have f2 : t2.candidate ch = false := hq ch hchc
              rw [resolve, resolve]
              show (match (cs'.set i ch).find? t2.candidate with | none => none | some c => resolve c q) = (match cs.find? t2.candidate with | none => none | some c => resolve c q)
              rw [find_set_other hc f1 f2]
              rcases hcase with ⟨a, _⟩ | ⟨a, _, b, _⟩
              · rw [a]
              · rw [a, find_append_other (by rw [← b]; exact f1)]

/-- An operation that keeps the node selected. -/
def KeepsTarget (f : Node → Except Unit Node) : Prop :=
  ∀ n n', f n = .ok n' → n.isElement = true → n'.isElement = true ∧ n'.name = n.name ∧ ∀ k, k ≠ "Type".toList → attrValue n'.attrs k = attrValue n.attrs k

theorem lastOk_of_keeps {sels : List Selector} {n0 m : Node} (h0 : LastOk sels n0) (he : n0.isElement = true) (he' : m.isElement = true)
    (hn : m.name = n0.name) (ha : ∀ s ∈ sels, ∀ kv ∈ s.attrs, attrValue m.attrs kv.1 = attrValue n0.attrs kv.1) : LastOk sels m := by
  intro s hs
  have := h0 s hs
  cases n0 with
  | text _ _ => cases he
  | element nm as cs =>
    cases m with
    | text _ _ => cases he'
    | element nm' as' cs' =>
      simp only [Selector.candidate, decide_eq_true_eq] at this ⊢
      refine ⟨hn.trans this.1, ?_⟩
      intro kv hkv
      rw [← this.2 kv hkv]
      exact ha s (List.mem_of_getLast? hs) kv hkv

/-- What writing at a path comes to. -/
theorem writeAt_spec {sels : List Selector} {path : Str} (hp : PathText sels path) (hx : ∀ s ∈ sels, s.NoIndex)
    (ht : ∀ s ∈ sels, ∀ kv ∈ s.attrs, kv.1 ≠ "Type".toList) (doc : Node) (he : doc.isElement = true) (f : Node → Except Unit Node) (hf : KeepsTarget f) :
    ∃ n0, n0.isElement = true ∧ Target doc sels n0 ∧ (writeAt doc path f).1.isElement = true ∧
      (∀ q, Diverge sels q → resolve (writeAt doc path f).1 q = resolve doc q) ∧
      (f n0 = .error () → (writeAt doc path f).2 = .error ()) ∧
      (∀ m, f n0 = .ok m → (writeAt doc path f).2 = .ok () ∧ resolve (writeAt doc path f).1 sels = some m) := by
  obtain ⟨ts, htk, hst⟩ := pathText_tokens hp
  obtain ⟨p, n0, e1, e2, e3, e4, e5, e6, e7⟩ := create_update hst hx doc he
  obtain ⟨g1, g2, g3⟩ := getOrCreatePath_same ts doc
  have hne : p ≠ [] := by
    intro h
    rw [h] at e2
    have : sels = [] := List.length_eq_zero_iff.mp (by simpa using e2.symm)
    subst this
    cases hp
  have hg : getOrCreateChildNode doc [] path = ((getOrCreatePath doc ts).1, .ok p) := by
    rw [getOrCreateChildNode, htk]
    simp only [Node.at, e1, Node.update, List.nil_append]
  refine ⟨n0, e4, e5, ?_⟩
  have hw : writeAt doc path f = match f n0 with
      | .error e => ((getOrCreatePath doc ts).1, .error e)
      | .ok n' => (Node.update (fun _ => n') p (getOrCreatePath doc ts).1, .ok ()) := by
    rw [writeAt, hg]
    simp only [onNode, e3]
    cases f n0 <;> rfl
  have hunch : (getOrCreatePath doc ts).1 = Node.update (fun _ => n0) p (getOrCreatePath doc ts).1 := (update_const p _ n0 e3).symm
  cases hfn : f n0 with
  | error e =>
    rw [hfn] at hw
    dsimp only at hw
    refine ⟨by rw [hw]; exact g1.trans he, ?_, ?_, by intro m hm; cases hm⟩
    · rw [hw]
      intro q hq
      dsimp only
      rw [hunch]
      exact (e7 n0 e6).2 q hq
    · intro _; rw [hw]
  | ok m =>
    rw [hfn] at hw
    dsimp only at hw
    obtain ⟨k1, k2, k3⟩ := hf n0 m hfn e4
    have hl : LastOk sels m := lastOk_of_keeps e6 e4 k1 k2 (fun s hs kv hkv => k3 _ (ht s hs kv hkv))
    refine ⟨?_, ?_, (by intro h; cases h), ?_⟩
    · rw [hw]; exact (update_same hne _).1.trans (g1.trans he)
    · rw [hw]; exact (e7 m hl).2
    · intro m' hm'
      injection hm' with hm'
      subst hm'
      rw [hw]
      exact ⟨rfl, (e7 m hl).1⟩

/-! ## Names -/

theorem resolve_cons (n : Node) (s : Selector) (ss : List Selector) :
    resolve n (s :: ss) = (n.children.find? s.candidate).bind (fun c => resolve c ss) := by
  rw [resolve]
  cases n.children.find? s.candidate <;> rfl

theorem resolve_append (n : Node) (a b : List Selector) : resolve n (a ++ b) = (resolve n a).bind (fun c => resolve c b) := by
  induction a generalizing n with
  | nil => rfl
  | cons s a ih =>
    rw [List.cons_append, resolve_cons, resolve_cons]
    cases n.children.find? s.candidate with
    | none => rfl
    | some c => exact ih c

theorem resolve_denotes {sels : List Selector} (hx : ∀ s ∈ sels, s.NoIndex) : ∀ (n m : Node),
    resolve n sels = some m ↔ ∃ p, PathDenotes n sels p ∧ n.at p = some m := by
  induction sels with
  | nil =>
    intro n m
    constructor
    · intro h
      exact ⟨[], .here n, h⟩
    · rintro ⟨p, h, e⟩
      cases h
      exact e
  | cons s ss ih =>
    intro n m
    have hs : s.skip = 0 := by
      have := hx s (List.mem_cons_self ..)
      cases s <;> first | rfl | exact this.elim
    rw [resolve_cons, nthIdx_find]
    constructor
    · intro h
      obtain ⟨c, h1, h2⟩ := Option.bind_eq_some_iff.mp h
      obtain ⟨i, h3, h4⟩ := Option.bind_eq_some_iff.mp h1
      obtain ⟨c', e1, e2, e3⟩ := (nthIdx_iff _ _ _ _).mp h3
      have : c' = c := by rw [h4] at e1; exact (Option.some.inj e1).symm
      subst this
      obtain ⟨p, hp, hm⟩ := (ih (fun x hm => hx x (List.mem_cons_of_mem _ hm)) c' m).mp h2
      exact ⟨i :: p, .step n s ss i c' p ⟨c', h4, e2, by rw [hs]; exact e3⟩ h4 hp, (at_cons_some h4 p).trans hm⟩
    · rintro ⟨p, h, e⟩
      cases h with
      | step _ _ _ i c p hsel hc hp =>
        obtain ⟨c', e1, e2, e3⟩ := hsel
        rw [hs] at e3
        rw [(nthIdx_iff s.candidate n.children 0 i).mpr ⟨c', e1, e2, e3⟩]
        rw [at_cons_some hc] at e
        show Option.bind (n.children[i]?) _ = _
        rw [hc]
        exact (ih (fun x hm => hx x (List.mem_cons_of_mem _ hm)) c m).mpr ⟨p, hp, e⟩

theorem denotes_at {n : Node} {sels : List Selector} {p : List Nat} (h : PathDenotes n sels p) : ∃ m, n.at p = some m := by
  induction h with
  | here n => exact ⟨n, rfl⟩
  | step n s ss i c p _ hc _ ih =>
    obtain ⟨m, hm⟩ := ih
    exact ⟨m, (at_cons_some hc p).trans hm⟩

theorem noIndex_names (parts : List Str) : ∀ s ∈ namesPath parts, s.NoIndex := by
  intro s hs
  obtain ⟨x, _, rfl⟩ := List.mem_map.mp hs
  trivial

theorem attrs_names (parts : List Str) (k : Str) : ∀ s ∈ namesPath parts, ∀ kv ∈ s.attrs, kv.1 ≠ k := by
  intro s hs
  obtain ⟨x, _, rfl⟩ := List.mem_map.mp hs
  intro kv h
  cases h

theorem noSuchNode_iff {doc : Node} {parts : List Str} : NoSuchNode doc parts ↔ resolve doc (namesPath parts) = none := by
  constructor
  · intro h
    cases e : resolve doc (namesPath parts) with
    | none => rfl
    | some m =>
      obtain ⟨p, hp, _⟩ := (resolve_denotes (noIndex_names parts) doc m).mp e
      exact (h p hp).elim
  · intro h p hp
    obtain ⟨m, hm⟩ := denotes_at hp
    have := (resolve_denotes (noIndex_names parts) doc m).mpr ⟨p, hp, hm⟩
    rw [h] at this
    cases this

theorem textOnly_iff {doc : Node} {parts : List Str} :
    TextOnly doc parts ↔ ∀ n, resolve doc (namesPath parts) = some n → ∀ c ∈ n.children, ∃ v, c = .text false v := by
  constructor
  · intro h n hn
    obtain ⟨p, hp, hm⟩ := (resolve_denotes (noIndex_names parts) doc n).mp hn
    exact h p n hp hm
  · intro h p n hp hm
    exact h n ((resolve_denotes (noIndex_names parts) doc n).mpr ⟨p, hp, hm⟩)

theorem containsElement_iff {doc : Node} {parts : List Str} :
    ContainsElement doc parts ↔ ∃ n, resolve doc (namesPath parts) = some n ∧ n.children.any Node.isElement = true := by
  constructor
  · rintro ⟨p, n, c, hp, hm, hc, he⟩
    exact ⟨n, (resolve_denotes (noIndex_names parts) doc n).mpr ⟨p, hp, hm⟩, List.any_eq_true.mpr ⟨c, hc, he⟩⟩
  · rintro ⟨n, hn, ha⟩
    obtain ⟨p, hp, hm⟩ := (resolve_denotes (noIndex_names parts) doc n).mp hn
    obtain ⟨c, hc, he⟩ := List.any_eq_true.mp ha
    exact ⟨p, n, c, hp, hm, hc, he⟩

theorem childNamed_eq (n : Node) (s : Str) : childNamed n s = n.children.find? (Selector.first s).candidate := by
  rw [childNamed]
  congr 1
  funext c
  exact isNamed_first s c

theorem findPath_eq (n : Node) (parts : List Str) : findPath n parts = resolve n (namesPath parts) := by
  induction parts generalizing n with
  | nil => rfl
  | cons s ss ih =>
    show _ = resolve n (.first s :: namesPath ss)
    rw [findPath, childNamed_eq, resolve_cons]
    cases n.children.find? (Selector.first s).candidate with
    | none => rfl
    | some c => exact ih c

theorem resolve_one (n : Node) (s : Str) : resolve n [.first s] = childNamed n s := by
  rw [resolve_cons, childNamed_eq]
  cases n.children.find? (Selector.first s).candidate <;> rfl

/-- The text of the node the names lead to. -/
def textAt (doc : Node) (parts : List Str) : Option Str := (resolve doc (namesPath parts)).map (fun n => textIn n.children)

theorem fieldOf_eq {doc np : Node} {parts : List Str} (h : findPath doc parts = some np) (s : Str) : fieldOf np s = textAt doc (parts ++ [s]) := by
  rw [findPath_eq] at h
  rw [fieldOf, textAt, namesPath, List.map_append]
  show _ = (resolve doc (namesPath parts ++ [.first s])).map _
  rw [resolve_append, h]
  show _ = (resolve np [.first s]).map _
  rw [resolve_one]

theorem textAt_none {doc : Node} {parts : List Str} (h : findPath doc parts = none) (more : List Str) : textAt doc (parts ++ more) = none := by
  rw [findPath_eq] at h
  rw [textAt, namesPath, List.map_append]
  show (resolve doc (namesPath parts ++ namesPath more)).map _ = _
  rw [resolve_append, h]
  rfl

/-! ## Texts of paths -/

/-- Names separated by slashes. -/
def slashes : List Str → Str
  | [] => []
  | [s] => s
  | s :: t :: ss => s ++ '/' :: slashes (t :: ss)

theorem slashes_path {parts : List Str} (h : parts ≠ []) (hn : ∀ s ∈ parts, NodeName s) : PathText (namesPath parts) (slashes parts) := by
  induction parts with
  | nil => exact absurd rfl h
  | cons s ss ih =>
    cases ss with
    | nil => exact .one _ _ (.first s (hn s (List.mem_cons_self ..)))
    | cons t ts =>
      exact .more _ _ _ _ (.first s (hn s (List.mem_cons_self ..))) (ih (by simp) (fun x hx => hn x (List.mem_cons_of_mem _ hx)))

theorem diverge_symm {a b : List Selector} (h : Diverge a b) : Diverge b a := by
  induction a generalizing b with
  | nil => cases h
  | cons s p ih =>
    cases b with
    | nil => cases h
    | cons t q =>
      rcases h with ⟨rfl, h⟩ | h
      · exact .inl ⟨rfl, ih h⟩
      · right
        intro c hc
        cases hs : s.candidate c with
        | false => rfl
        | true => rw [h c hs] at hc; cases hc

theorem diverge_names {a b : List Str} (i : Nat) (x y : Str) (hx : a[i]? = some x) (hy : b[i]? = some y) (hne : x ≠ y) (ht : a.take i = b.take i) :
    Diverge (namesPath a) (namesPath b) := by
  induction i generalizing a b with
  | zero =>
    cases a with
    | nil => cases hx
    | cons s p =>
      cases b with
      | nil => cases hy
      | cons t q =>
        right
        apply apart_name
        simp only [List.getElem?_cons_zero, Option.some.injEq] at hx hy
        rw [← hx, ← hy] at hne
        exact hne
  | succ i ih =>
    cases a with
    | nil => cases hx
    | cons s p =>
      cases b with
      | nil => cases hy
      | cons t q =>
        simp only [List.take_succ_cons, List.cons.injEq] at ht
        simp only [List.getElem?_cons_succ] at hx hy
        exact .inl ⟨by rw [ht.1], ih hx hy ht.2⟩

/-! ## Writing texts -/

theorem setValue_ok {v : Str} {n n' : Node} (h : setValue v n = .ok n') : n.children.any Node.isElement = false ∧ n' = n.setChildren (setText v n.children) := by
  rw [setValue] at h
  split at h
  · cases h
  · rename_i hh
    injection h with h
    exact ⟨by simpa using hh, h.symm⟩

theorem keeps_setValue (v : Str) : KeepsTarget (setValue v) := by
  intro n n' h he
  obtain ⟨_, rfl⟩ := setValue_ok h
  cases n with
  | text _ _ => cases he
  | element nm as cs => exact ⟨rfl, rfl, fun _ _ => rfl⟩

theorem textIn_setText {cs : List Node} (h : ∀ c ∈ cs, ∃ v, c = .text false v) (v : Str) :
    ∃ rest, setText v cs = .text false v :: rest ∧ (∀ c ∈ rest, ∃ v, c = .text false v) ∧ rest = cs.tail := by
  cases cs with
  | nil => exact ⟨[], rfl, by simp, rfl⟩
  | cons c cs =>
    obtain ⟨w, rfl⟩ := h c (List.mem_cons_self ..)
    exact ⟨cs, rfl, fun x hx => h x (List.mem_cons_of_mem _ hx), rfl⟩

/-- Writing an optional text to the node the names lead to. -/
def writeText (e : List Str × Option Str) (doc : Node) : Node × Except Unit Unit :=
  match e.2 with
  | none => (doc, .ok ())
  | some v => writeAt doc (slashes e.1) (setValue v)

/-- The node after writing a text. -/
def Written (doc : Node) (parts : List Str) (v : Str) (m : Node) : Prop :=
  ∃ rest, m.children = .text false v :: rest ∧
    (resolve doc (namesPath parts) = none → rest = []) ∧ ∀ n, resolve doc (namesPath parts) = some n → rest = n.children.tail

theorem writeText_other (e : List Str × Option Str) (he : e.1 ≠ [] ∧ ∀ s ∈ e.1, NodeName s) (doc : Node) (hd : doc.isElement = true) :
    (writeText e doc).1.isElement = true ∧ ∀ q, Diverge (namesPath e.1) q → resolve (writeText e doc).1 q = resolve doc q := by
  rw [writeText]
  cases e.2 with
  | none => exact ⟨hd, fun _ _ => rfl⟩
  | some v =>
    obtain ⟨n0, _, _, h3, h4, _⟩ := writeAt_spec (slashes_path he.1 he.2) (noIndex_names _) (attrs_names _ _) doc hd (setValue v) (keeps_setValue v)
    exact ⟨h3, h4⟩

theorem writeText_ok (parts : List Str) (v : Str) (he : parts ≠ [] ∧ ∀ s ∈ parts, NodeName s) (doc : Node) (hd : doc.isElement = true)
    (ht : TextOnly doc parts) :
    (writeText (parts, some v) doc).2 = .ok () ∧ ∃ m, resolve (writeText (parts, some v) doc).1 (namesPath parts) = some m ∧ Written doc parts v m := by
  obtain ⟨n0, h1, h2, h3, h4, h5, h6⟩ := writeAt_spec (slashes_path he.1 he.2) (noIndex_names _) (attrs_names _ _) doc hd (setValue v) (keeps_setValue v)
  have hn0 : ∀ c ∈ n0.children, ∃ v, c = .text false v := by
    rcases h2 with h2 | ⟨_, s, m, _, _, h⟩
    · exact textOnly_iff.mp ht n0 h2
    · rw [h]; intro c hc; cases hc
  have hok : setValue v n0 = .ok (n0.setChildren (setText v n0.children)) := by
    rw [setValue, if_neg]
    intro h
    obtain ⟨c, hc, hce⟩ := List.any_eq_true.mp h
    obtain ⟨w, rfl⟩ := hn0 c hc
    cases hce
  obtain ⟨k1, k2⟩ := h6 _ hok
  refine ⟨k1, _, k2, ?_⟩
  obtain ⟨rest, r1, _, r3⟩ := textIn_setText hn0 v
  refine ⟨rest, ?_, ?_, ?_⟩
  · cases n0 with
    | text _ _ => cases h1
    | element nm as cs => exact r1
  · intro hnone
    rcases h2 with h2 | ⟨_, s, m, _, _, h⟩
    · rw [hnone] at h2; cases h2
    · rw [r3, h]; rfl
  · intro n hn
    rcases h2 with h2 | ⟨hh, _⟩
    · rw [hn] at h2
      rw [r3, Option.some.inj h2]
    · rw [hn] at hh; cases hh

theorem writeText_error (parts : List Str) (v : Str) (he : parts ≠ [] ∧ ∀ s ∈ parts, NodeName s) (doc : Node) (hd : doc.isElement = true)
    (ht : ContainsElement doc parts) : (writeText (parts, some v) doc).2 = .error () := by
  obtain ⟨n0, h1, h2, h3, h4, h5, h6⟩ := writeAt_spec (slashes_path he.1 he.2) (noIndex_names _) (attrs_names _ _) doc hd (setValue v) (keeps_setValue v)
  obtain ⟨n, hn, ha⟩ := containsElement_iff.mp ht
  have : n0 = n := by
    rcases h2 with h2 | ⟨hh, _⟩
    · rw [hn] at h2; exact (Option.some.inj h2).symm
    · rw [hn] at hh; cases hh
  subst this
  apply h5
  rw [setValue, if_pos ha]

theorem writeAll_cons (w : Node → Node × Except Unit Unit) (ws : List (Node → Node × Except Unit Unit)) (doc : Node) :
    writeAll (w :: ws) doc = match (w doc).2 with
      | .error e => ((w doc).1, .error e)
      | .ok () => writeAll ws (w doc).1 := by
  rw [writeAll]
  generalize w doc = r
  obtain ⟨d, r⟩ := r
  cases r <;> rfl

/-- Writing several texts. -/
def writeTexts (L : List (List Str × Option Str)) : Node → Node × Except Unit Unit := writeAll (L.map writeText)

theorem writeTexts_other (L : List (List Str × Option Str)) (hL : ∀ e ∈ L, e.1 ≠ [] ∧ ∀ s ∈ e.1, NodeName s) :
    ∀ doc : Node, doc.isElement = true →
    (writeTexts L doc).1.isElement = true ∧ ∀ q, (∀ e ∈ L, Diverge (namesPath e.1) q) → resolve (writeTexts L doc).1 q = resolve doc q := by
  induction L with
  | nil => intro doc hd; exact ⟨hd, fun _ _ => rfl⟩
  | cons e L ih =>
    intro doc hd
    obtain ⟨a1, a2⟩ := writeText_other e (hL e (List.mem_cons_self ..)) doc hd
    obtain ⟨b1, b2⟩ := ih (fun x hx => hL x (List.mem_cons_of_mem _ hx)) (writeText e doc).1 a1
    rw [writeTexts, List.map_cons, writeAll_cons]
    cases (writeText e doc).2 with
    | error e' => exact ⟨a1, fun q hq => a2 q (hq e (List.mem_cons_self ..))⟩
    | ok u =>
      refine ⟨b1, fun q hq => ?_⟩
      exact (b2 q (fun x hx => hq x (List.mem_cons_of_mem _ hx))).trans (a2 q (hq e (List.mem_cons_self ..)))

theorem textOnly_congr {a b : Node} {parts : List Str} (h : resolve a (namesPath parts) = resolve b (namesPath parts)) (ht : TextOnly b parts) : TextOnly a parts := by
  rw [textOnly_iff] at *
  rw [h]
  exact ht

theorem writeTexts_ok (L : List (List Str × Option Str)) (hL : ∀ e ∈ L, e.1 ≠ [] ∧ ∀ s ∈ e.1, NodeName s)
    (hp : L.Pairwise (fun a b => Diverge (namesPath a.1) (namesPath b.1))) :
    ∀ doc : Node, doc.isElement = true → (∀ e ∈ L, e.2 ≠ none → TextOnly doc e.1) →
    (writeTexts L doc).2 = .ok () ∧
    ∀ e ∈ L, (e.2 = none → resolve (writeTexts L doc).1 (namesPath e.1) = resolve doc (namesPath e.1)) ∧
      ∀ v, e.2 = some v → ∃ m, resolve (writeTexts L doc).1 (namesPath e.1) = some m ∧ Written doc e.1 v m := by
  induction L with
  | nil => intro doc hd _; exact ⟨rfl, by intro e he; cases he⟩
  | cons e L ih =>
    intro doc hd ht
    rw [List.pairwise_cons] at hp
    obtain ⟨a1, a2⟩ := writeText_other e (hL e (List.mem_cons_self ..)) doc hd
    have hL' := fun x (hx : x ∈ L) => hL x (List.mem_cons_of_mem _ hx)
    have hsame : ∀ x ∈ L, resolve (writeText e doc).1 (namesPath x.1) = resolve doc (namesPath x.1) := fun x hx => a2 _ (hp.1 x hx)
    obtain ⟨b1, b2⟩ := ih hL' hp.2 (writeText e doc).1 a1 (fun x hx hv => textOnly_congr (hsame x hx) (ht x (List.mem_cons_of_mem _ hx) hv))
    obtain ⟨c1, c2⟩ := writeTexts_other L hL' (writeText e doc).1 a1
    have hkeep : resolve (writeTexts L (writeText e doc).1).1 (namesPath e.1) = resolve (writeText e doc).1 (namesPath e.1) :=
      c2 _ (fun x hx => diverge_symm (hp.1 x hx))
    have hfirst : (writeText e doc).2 = .ok () ∧ ((e.2 = none → resolve (writeText e doc).1 (namesPath e.1) = resolve doc (namesPath e.1)) ∧
        ∀ v, e.2 = some v → ∃ m, resolve (writeText e doc).1 (namesPath e.1) = some m ∧ Written doc e.1 v m) := by
      obtain ⟨parts, o⟩ := e
      cases o with
      | none => exact ⟨rfl, fun _ => rfl, by intro v hv; cases hv⟩
      | some v =>
        obtain ⟨k1, k2⟩ := writeText_ok parts v (hL _ (List.mem_cons_self ..)) doc hd (ht _ (List.mem_cons_self ..) (by simp))
        exact ⟨k1, (by intro h; cases h), (by intro v' hv'; cases hv'; exact k2)⟩
    have hw : writeTexts (e :: L) doc = writeTexts L (writeText e doc).1 := by
      rw [writeTexts, List.map_cons, writeAll_cons, hfirst.1]
      rfl
    rw [hw]
    refine ⟨b1, ?_⟩
    intro x hx
    rcases List.mem_cons.mp hx with rfl | hx
    · rw [hkeep]
      exact hfirst.2
    · obtain ⟨d1, d2⟩ := b2 x hx
      refine ⟨fun h => (d1 h).trans (hsame x hx), ?_⟩
      intro v hv
      obtain ⟨m, m1, m2⟩ := d2 v hv
      refine ⟨m, m1, ?_⟩
      rw [Written, hsame x hx] at m2
      exact m2

theorem writeTexts_error (L : List (List Str × Option Str)) (hL : ∀ e ∈ L, e.1 ≠ [] ∧ ∀ s ∈ e.1, NodeName s)
    (hp : L.Pairwise (fun a b => Diverge (namesPath a.1) (namesPath b.1))) :
    ∀ doc : Node, doc.isElement = true → (∃ e ∈ L, e.2 ≠ none ∧ ContainsElement doc e.1) → (writeTexts L doc).2 = .error () := by
  induction L with
  | nil => rintro doc hd ⟨e, he, _⟩; cases he
  | cons e L ih =>
    intro doc hd ht
    rw [List.pairwise_cons] at hp
    obtain ⟨a1, a2⟩ := writeText_other e (hL e (List.mem_cons_self ..)) doc hd
    rw [writeTexts, List.map_cons, writeAll_cons]
    cases hr : (writeText e doc).2 with
    | error u => rfl
    | ok u =>
      obtain ⟨x, hx, hv, hc⟩ := ht
      rcases List.mem_cons.mp hx with rfl | hx
      · obtain ⟨parts, o⟩ := x
        cases o with
        | none => exact absurd rfl hv
        | some v =>
          rw [writeText_error parts v (hL _ (List.mem_cons_self ..)) doc hd hc] at hr
          cases hr
      · apply ih (fun x hx => hL x (List.mem_cons_of_mem _ hx)) hp.2 _ a1
        refine ⟨x, hx, hv, ?_⟩
        rw [containsElement_iff] at hc ⊢
        rw [a2 _ (hp.1 x hx)]
        exact hc

theorem written_text {doc m : Node} {parts : List Str} {v : Str} (h : Written doc parts v m) : textIn m.children = v := by
  obtain ⟨rest, h, _⟩ := h
  rw [h]
  rfl

theorem writeTexts_textAt (L : List (List Str × Option Str)) (hL : ∀ e ∈ L, e.1 ≠ [] ∧ ∀ s ∈ e.1, NodeName s)
    (hp : L.Pairwise (fun a b => Diverge (namesPath a.1) (namesPath b.1))) (doc : Node) (hd : doc.isElement = true)
    (ht : ∀ e ∈ L, e.2 ≠ none → TextOnly doc e.1) : ∀ e ∈ L, textAt (writeTexts L doc).1 e.1 = (e.2 <|> textAt doc e.1) := by
  intro e he
  obtain ⟨h1, h2⟩ := (writeTexts_ok L hL hp doc hd ht).2 e he
  cases hv : e.2 with
  | none => rw [textAt, h1 hv]; rfl
  | some v =>
    obtain ⟨m, m1, m2⟩ := h2 v hv
    rw [textAt, m1]
    show some (textIn m.children) = _
    rw [written_text m2]
    rfl

/-! ## The general document information -/

/-- What is written, as a list of texts. -/
def generalTexts (i : GeneralInfo) : List (List Str × Option Str) := (givenFields i).map (fun f => (documentField f.1, f.2))

theorem generalTexts_ok (i : GeneralInfo) : (∀ e ∈ generalTexts i, e.1 ≠ [] ∧ ∀ s ∈ e.1, NodeName s) ∧
    (generalTexts i).Pairwise (fun a b => Diverge (namesPath a.1) (namesPath b.1)) := by
  have names : ∀ s ∈ ["Metadata".toList, "Information".toList, "Document".toList, "Name".toList, "Title".toList, "UserName".toList, "Description".toList,
      "Comment".toList, "Keywords".toList, "CreationDate".toList, "Rating".toList], NodeName s := by
    unfold NodeName
    decide
  constructor
  · intro e he
    simp only [generalTexts, givenFields, List.map_cons, List.map_nil, List.mem_cons, List.not_mem_nil, or_false] at he
    rcases he with rfl | rfl | rfl | rfl | rfl | rfl | rfl | rfl <;>
      refine ⟨by simp [documentField], fun s hs => names s ?_⟩ <;>
      simp only [documentField, List.mem_cons, List.not_mem_nil, or_false] at hs ⊢ <;>
      rcases hs with h | h | h | h <;> simp [h]
  · have div : ∀ a b : String, a.toList ≠ b.toList → Diverge (namesPath (documentField a)) (namesPath (documentField b)) := by
      intro a b h
      exact diverge_names 3 a.toList b.toList rfl rfl h rfl
    rw [generalTexts, List.pairwise_map]
    have h : ((givenFields i).map (·.1)).Pairwise (fun a b => a.toList ≠ b.toList) := by
      show (["Name", "Title", "UserName", "Description", "Comment", "Keywords", "CreationDate", "Rating"] : List String).Pairwise _
      decide
    rw [List.pairwise_map] at h
    exact h.imp (fun {a b} hab => div a.1 b.1 hab)

theorem writeGeneral_eq (i : GeneralInfo) (doc : Node) : writeGeneral i doc = writeTexts (generalTexts i) doc := by
  rw [writeGeneral, writeTexts]
  congr 1
  have hf : ∀ (v : Option Str) (n : String), setField v n.toList = writeText (documentField n, v) := by
    intro v n
    funext d
    cases v <;> rfl
  have hr : setRating i.rating = writeText (documentField "Rating", i.rating.map printInt) := by
    funext d
    cases i.rating <;> rfl
  rw [hr]
  simp only [hf]
  rfl

theorem getGeneral_eq (doc : Node) : getGeneral doc =
    ⟨textAt doc (documentField "Name"), textAt doc (documentField "Title"), textAt doc (documentField "UserName"), textAt doc (documentField "Description"),
      textAt doc (documentField "Comment"), textAt doc (documentField "Keywords"), textAt doc (documentField "CreationDate"),
      (textAt doc (documentField "Rating")).map asInt⟩ := by
  rw [getGeneral]
  cases h : findPath doc ["Metadata".toList, "Information".toList, "Document".toList] with
  | none =>
    have : ∀ s : String, textAt doc (documentField s) = none := fun s => textAt_none h [s.toList]
    simp only [this]
    rfl
  | some np =>
    have : ∀ s : String, fieldOf np s.toList = textAt doc (documentField s) := fun s => fieldOf_eq h s.toList
    simp only [this]

/-! ## Numbers -/

theorem pugiSpace_iff (c : Char) : isPugiSpace c = true ↔ c ∈ [' ', '\t', '\n', '\r'] := by
  simp [isPugiSpace, or_assoc]

theorem blank_iff (s : Str) : s.all isPugiSpace = true ↔ Blank s := by
  simp only [List.all_eq_true, pugiSpace_iff, Blank]

theorem dropWhile_zeros (ds : Str) : digitsValue (ds.dropWhile (· = '0')) = digitsValue ds := by
  induction ds with
  | nil => rfl
  | cons c cs ih =>
    rw [List.dropWhile_cons]
    split
    · rename_i h
      rw [ih, of_decide_eq_true h, digitsValue_zero]
    · rfl

theorem mem_dropWhile {p : Char → Bool} {ds : Str} {c : Char} (h : c ∈ ds.dropWhile p) : c ∈ ds := (List.dropWhile_sublist p).mem h

/-- The number, if it is not too large. -/
theorem pugiDigits_spec {ds : Str} (h : ∀ c ∈ ds, IsDigit c) :
    (pugiDigits ds).2 = true ∧ 2 ^ 32 ≤ digitsValue ds ∨ (pugiDigits ds).2 = false ∧ (pugiDigits ds).1 = digitsValue ds ∧ digitsValue ds < 2 ^ 32 := by
  have hnx : ¬ (ds.head? = some '0' ∧ (ds[1]? = some 'x' ∨ ds[1]? = some 'X')) := by
    rintro ⟨_, h2 | h2⟩
    · exact absurd (h _ (List.mem_of_getElem? h2)) (by unfold IsDigit; decide)
    · exact absurd (h _ (List.mem_of_getElem? h2)) (by unfold IsDigit; decide)
  have htw : (ds.dropWhile (· = '0')).takeWhile Char.isDigit = ds.dropWhile (· = '0') := by
    have := (takeWhile_all (p := Char.isDigit) (a := ds.dropWhile (· = '0')) (fun c hc => (isDigit_iff c).mpr (h c (mem_dropWhile hc))) [] (by intro c cs hh; cases hh)).1
    rwa [List.append_nil] at this
  rw [pugiDigits, if_neg hnx]
  dsimp only
  rw [htw, natOf_eq, dropWhile_zeros]
  generalize hes : ds.dropWhile (· = '0') = es
  have he : ∀ c ∈ es, IsDigit c := fun c hc => h c (mem_dropWhile (hes ▸ hc))
  have hv : digitsValue es = digitsValue ds := by rw [← hes, dropWhile_zeros]
  have hlead : ∀ c cs, es = c :: cs → c ≠ '0' := by
    intro c cs e
    have := List.head?_dropWhile_not (fun x => decide (x = '0')) ds
    rw [show List.dropWhile (fun x => decide (x = '0')) ds = es from hes, e] at this
    simpa using this
  rw [← hv]
  clear hv htw hnx h hes
  rcases Nat.lt_or_ge es.length 10 with hn | hn
  · right
    have h1 := digitsValue_lt es he
    have h2 : 10 ^ es.length ≤ 10 ^ 9 := Nat.pow_le_pow_right (by decide) (by omega)
    refine ⟨?_, Nat.mod_eq_of_lt (by omega), by omega⟩
    rw [decide_eq_false (by omega)]
    rfl
  · cases es with
    | nil => simp at hn
    | cons c cs =>
      have hc := digit_range (he c (List.mem_cons_self ..))
      rcases Nat.lt_or_ge 10 (c :: cs).length with hn' | hn'
      · left
        have h1 := digitsValue_ge c cs (he c (List.mem_cons_self ..)) (hlead c cs rfl)
        have h2 : 10 ^ 10 ≤ 10 ^ cs.length := Nat.pow_le_pow_right (by decide) (by simp only [List.length_cons] at hn'; omega)
        refine ⟨?_, by omega⟩
        rw [decide_eq_true (by omega), decide_eq_false (p := (c :: cs).length = 10) (by omega)]
        rfl
      · have hlen : (c :: cs).length = 10 := by omega
        have hlen' : cs.length = 9 := by simpa using hlen
        have h1 := digitsValue_lt cs (fun x hx => he x (List.mem_cons_of_mem _ hx))
        rw [hlen'] at h1
        have h2 : digitsValue (c :: cs) = (c.toNat - 48) * 10 ^ 9 + digitsValue cs := by
          rw [digitsValue, hlen']
          rfl
        rw [decide_eq_true (p := (c :: cs).length ≥ 10) (by omega), decide_eq_true (p := (c :: cs).length = 10) hlen, List.headD_cons]
        simp only [Bool.true_and]
        rcases Nat.lt_or_ge c.toNat 52 with hl | hl
        · right
          have : c.toNat - 48 ≤ 3 := by omega
          have h3 := Nat.mul_le_mul_right (10 ^ 9) this
          refine ⟨?_, Nat.mod_eq_of_lt (by omega), by omega⟩
          rw [decide_eq_true hl]
          rfl
        · rcases Nat.eq_or_lt_of_le hl with hl' | hl'
          · have hc4 : c = '4' := toNat_inj hl'.symm
            have hval : digitsValue (c :: cs) = 4 * 10 ^ 9 + digitsValue cs := by rw [h2, ← hl']
            rw [decide_eq_false (p := c.toNat < 52) (by omega), decide_eq_true hc4]
            simp only [Bool.false_or, Bool.true_and]
            rcases Nat.lt_or_ge (digitsValue (c :: cs)) (2 ^ 32) with hs | hs
            · right
              rw [Nat.mod_eq_of_lt hs]
              refine ⟨?_, rfl, hs⟩
              rw [decide_eq_true (by omega)]
              rfl
            · left
              refine ⟨?_, hs⟩
              rw [decide_eq_false (by omega)]
              rfl
          · left
            have : 5 ≤ c.toNat - 48 := by omega
            have h3 := Nat.mul_le_mul_right (10 ^ 9) this
            refine ⟨?_, by omega⟩
            rw [decide_eq_false (p := c.toNat < 52) (by omega), decide_eq_false (p := c = '4') (by intro hc4; rw [hc4] at hl'; exact absurd hl' (by decide))]
            rfl

/-- `as_int` on a decimal number: the number, brought into the range of `int`. -/
theorem asInt_text {t : Str} {x : Int} (h : XmlInt t x) :
    asInt t = if x < -2147483648 then -2147483648 else if 2147483647 < x then 2147483647 else x := by
  obtain ⟨w, sign, ds, rfl, hw, hs, hd, hx⟩ := h
  have hdig : ∀ c, c ∈ ds → isPugiSpace c = false ∧ c ≠ '-' ∧ c ≠ '+' := by
    intro c hc
    have := digit_range (hd.2 c hc)
    refine ⟨?_, ?_, ?_⟩
    · cases hp : isPugiSpace c with
      | false => rfl
      | true =>
        have := (pugiSpace_iff c).mp hp
        simp only [List.mem_cons, List.not_mem_nil, or_false] at this
        rcases this with rfl | rfl | rfl | rfl <;> revert this <;> decide
    · rintro rfl; revert this; decide
    · rintro rfl; revert this; decide
  obtain ⟨d, ds', rfl⟩ : ∃ d ds', ds = d :: ds' := by
    cases ds with
    | nil => exact absurd rfl hd.1
    | cons d ds' => exact ⟨d, ds', rfl⟩
  obtain ⟨s1, s2, s3⟩ := hdig d (List.mem_cons_self ..)
  have hr : (w ++ (sign ++ d :: ds')).dropWhile isPugiSpace = sign ++ d :: ds' := by
    apply (takeWhile_all (p := isPugiSpace) (fun c hc => (pugiSpace_iff c).mpr (hw c hc)) _ _).2
    intro c cs e
    simp only [List.mem_cons, List.not_mem_nil, or_false] at hs
    rcases hs with rfl | rfl | rfl
    · injection e with e1 e2; rw [← e1]; exact s1
    · injection e with e1 e2; rw [← e1]; decide
    · injection e with e1 e2; rw [← e1]; decide
  rw [asInt, hr]
  have hp := pugiDigits_spec hd.2
  generalize digitsValue (d :: ds') = D at *
  simp only [List.mem_cons, List.not_mem_nil, or_false] at hs
  rcases hs with rfl | rfl | rfl
  · simp only [List.nil_append, List.head?_cons, Option.some.injEq, s2, s3, or_self, if_false, Bool.false_eq_true]
    rw [if_neg (by simp)] at hx
    generalize pugiDigits (d :: ds') = P at *
    rcases hp with ⟨p1, p2⟩ | ⟨p1, p2, p3⟩
    · rw [if_pos (Or.inl p1)]; split <;> first | omega | (split <;> omega)
    · rw [p1, p2]
      simp only [Bool.false_eq_true, false_or]
      split <;> split <;> first | omega | (split <;> omega)
  · simp only [List.singleton_append, List.head?_cons, Option.some.injEq, List.drop_succ_cons, List.drop_zero]
    rw [if_neg (by simp)] at hx
    simp only [show ('+' = '-') = False by decide, or_true, if_true, if_false]
    generalize pugiDigits (d :: ds') = P at *
    rcases hp with ⟨p1, p2⟩ | ⟨p1, p2, p3⟩
    · rw [if_pos (Or.inl p1)]; split <;> first | omega | (split <;> omega)
    · rw [p1, p2]
      simp only [Bool.false_eq_true, false_or]
      split <;> split <;> first | omega | (split <;> omega)
  · simp only [List.singleton_append, List.head?_cons, Option.some.injEq, List.drop_succ_cons, List.drop_zero]
    rw [if_pos rfl] at hx
    simp only [true_or, if_true]
    generalize pugiDigits (d :: ds') = P at *
    rcases hp with ⟨p1, p2⟩ | ⟨p1, p2, p3⟩
    · rw [if_pos (Or.inl p1)]; split <;> first | omega | (split <;> omega)
    · rw [p1, p2]
      simp only [Bool.false_eq_true, false_or]
      split <;> split <;> first | omega | (split <;> omega)

theorem printInt_xml (v : Int) : XmlInt (printInt v) v := by
  obtain ⟨a, b, _⟩ := decimal_spec v.natAbs
  rw [printInt]
  split
  · exact ⟨[], ['-'], decimal v.natAbs, rfl, by simp [Blank], by simp, a, by rw [if_pos rfl, b]; omega⟩
  · exact ⟨[], [], decimal v.natAbs, rfl, by simp [Blank], by simp, a, by rw [if_neg (by simp), b]; omega⟩

theorem asInt_print {v : Int} (h : Spec.IsInt32 v) : asInt (printInt v) = v := by
  rw [asInt_text (printInt_xml v)]
  obtain ⟨h1, h2⟩ := h
  rw [if_neg (by omega), if_neg (by omega)]

/-! ## Saving and loading -/

theorem reloadAll_cons (c : Node) (cs : List Node) : reloadAll (c :: cs) = match c with
    | .text false v => if v.all isPugiSpace then reloadAll cs else .text false (eol v) :: reloadAll cs
    | _ => reload c :: reloadAll cs := by
  cases c with
  | element n as cs' => rw [reloadAll]; simp
  | text b v => cases b <;> rw [reloadAll] <;> simp

theorem reload_element (n : Str) (as : List (Str × Str)) (cs : List Node) : reload (.element n as cs) = .element n as (reloadAll cs) := by
  rw [reload]

theorem reload_candidate (s : Selector) (c : Node) : s.candidate (reload c) = s.candidate c := by
  cases c with
  | element n as cs => rw [reload_element]; rfl
  | text b v => rw [reload]

theorem find_reload (s : Selector) (cs : List Node) : (reloadAll cs).find? s.candidate = (cs.find? s.candidate).map reload := by
  induction cs with
  | nil => rw [reloadAll]; rfl
  | cons c cs ih =>
    rw [reloadAll_cons]
    cases c with
    | element n as cs' =>
      show (reload (.element n as cs') :: reloadAll cs).find? _ = _
      rw [List.find?_cons, List.find?_cons, reload_candidate]
      cases s.candidate (.element n as cs') with
      | true => rfl
      | false => exact ih
    | text b v =>
      have hr : (Node.text b v :: cs).find? s.candidate = cs.find? s.candidate := rfl
      rw [hr]
      cases b with
      | true =>
        show (reload (.text true v) :: reloadAll cs).find? _ = _
        rw [reload]
        exact ih
      | false =>
        show (if v.all isPugiSpace then reloadAll cs else .text false (eol v) :: reloadAll cs).find? _ = _
        split
        · exact ih
        · exact ih

theorem reload_children (n : Node) : (reload n).children = reloadAll n.children := by
  cases n with
  | element n as cs => rw [reload_element]; rfl
  | text b v => rw [reload]; show [] = reloadAll []; rw [reloadAll]

theorem resolve_reload (sels : List Selector) (n : Node) : resolve (reload n) sels = (resolve n sels).map reload := by
  induction sels generalizing n with
  | nil => rfl
  | cons s ss ih =>
    rw [resolve_cons, resolve_cons, reload_children, find_reload]
    cases n.children.find? s.candidate with
    | none => rfl
    | some c => exact ih c

theorem eol_self {v : Str} (h : '\r' ∉ v) : eol v = v := by
  induction v with
  | nil => rfl
  | cons c cs ih =>
    have hc : c ≠ '\r' := fun e => h (e ▸ List.mem_cons_self ..)
    have h' : '\r' ∉ cs := fun e => h (List.mem_cons_of_mem _ e)
    rw [eol]
    · rw [if_neg hc, ih h']
    · intro s e; exact absurd e hc

theorem eol_none (v : Str) : '\r' ∉ eol v := by
  induction v using eol.induct with
  | case1 => simp [eol]
  | case2 s ih => rw [eol]; simp [ih]
  | case3 c s h ih =>
    rw [eol]
    · intro hm
      rcases List.mem_cons.mp hm with hm | hm
      · split at hm
        · cases hm
        · rename_i hne; exact hne hm.symm
      · exact ih hm
    · exact h

theorem textIn_written {rest : List Node} {v : Str} (h : ¬ Blank v) : textIn (reloadAll (.text false v :: rest)) = eol v := by
  rw [reloadAll_cons]
  show textIn (if v.all isPugiSpace then _ else _) = _
  rw [if_neg (by rw [blank_iff]; exact h)]
  rfl

theorem textIn_blank {v : Str} (h : Blank v) : textIn (reloadAll [.text false v]) = [] := by
  rw [reloadAll_cons]
  show textIn (if v.all isPugiSpace then _ else _) = _
  rw [if_pos ((blank_iff v).mpr h), reloadAll]
  rfl

/-- What is read after saving and loading. -/
theorem textAt_reload (L : List (List Str × Option Str)) (hL : ∀ e ∈ L, e.1 ≠ [] ∧ ∀ s ∈ e.1, NodeName s)
    (hp : L.Pairwise (fun a b => Diverge (namesPath a.1) (namesPath b.1))) (doc : Node) (hd : doc.isElement = true)
    (ht : ∀ e ∈ L, e.2 ≠ none → TextOnly doc e.1) : ∀ e ∈ L,
      (e.2 = none → textAt (reload (writeTexts L doc).1) e.1 = textAt (reload doc) e.1) ∧
      (∀ v, e.2 = some v → ¬ Blank v → textAt (reload (writeTexts L doc).1) e.1 = some (eol v)) ∧
      (∀ v, e.2 = some v → Blank v → NoSuchNode doc e.1 → textAt (reload (writeTexts L doc).1) e.1 = some []) := by
  intro e he
  obtain ⟨h1, h2⟩ := (writeTexts_ok L hL hp doc hd ht).2 e he
  simp only [textAt, resolve_reload]
  refine ⟨fun hv => by rw [h1 hv], ?_, ?_⟩
  · intro v hv hb
    obtain ⟨m, m1, rest, m2, _⟩ := h2 v hv
    rw [m1]
    show some (textIn (reload m).children) = _
    rw [reload_children, m2, textIn_written hb]
  · intro v hv hb hn
    obtain ⟨m, m1, rest, m2, m3, _⟩ := h2 v hv
    rw [m1]
    show some (textIn (reload m).children) = _
    rw [reload_children, m2, m3 (noSuchNode_iff.mp hn), textIn_blank hb]

/-! ## Custom values -/

theorem isLetter_iff (c : Char) : isLetter c = true ↔ Identifier.IsLetter c := by
  simp only [isLetter, Identifier.IsLetter, Bool.or_eq_true, Bool.and_eq_true, decide_eq_true_eq]

theorem isStart_iff (c : Char) : isStart c = true ↔ c = '_' ∨ Identifier.IsLetter c := by
  simp only [isStart, Bool.or_eq_true, decide_eq_true_eq, isLetter_iff]

theorem isWord_iff (c : Char) : isWord c = true ↔ c = '_' ∨ Identifier.IsLetter c ∨ IsDigit c := by
  simp only [isWord, Bool.or_eq_true, decide_eq_true_eq, isLetter_iff, isDigit_iff, or_assoc]

theorem validKey_iff (k : Str) : validKey k = true ↔ Identifier k ∧ ¬ Reserved k := by
  have h1 : Identifier k ↔ ∃ a r, k = a :: r ∧ isStart a = true ∧ ∀ c ∈ r, isWord c = true := by
    simp only [Identifier, isStart_iff, isWord_iff]
  rw [h1]
  clear h1
  match k with
  | [] => simp [validKey, Reserved]
  | [a] =>
    simp only [validKey, Reserved, Bool.or_false]
    constructor
    · intro h; exact ⟨⟨a, [], rfl, h, by simp⟩, by simp⟩
    · rintro ⟨⟨a', r, e, h, _⟩, _⟩; injection e with e1 e2; rw [e1]; exact h
  | [a, b] =>
    simp only [validKey, Reserved, Bool.or_false, Bool.and_eq_true]
    constructor
    · intro h; exact ⟨⟨a, [b], rfl, h.1, by simpa using h.2⟩, by simp⟩
    · rintro ⟨⟨a', r, e, h, h2⟩, _⟩; injection e with e1 e2; subst e1 e2; exact ⟨h, h2 b (by simp)⟩
  | a :: b :: c :: r =>
    have hR : Reserved (a :: b :: c :: r) ↔ (a = 'x' ∨ a = 'X') ∧ (b = 'm' ∨ b = 'M') ∧ (c = 'l' ∨ c = 'L') := by
      constructor
      · rintro ⟨a', b', c', r', e, h⟩
        injection e with e1 e
        injection e with e2 e
        injection e with e3 e
        subst e1 e2 e3
        exact h
      · intro h; exact ⟨a, b, c, r, rfl, h⟩
    have hI : (∃ a' r', a :: b :: c :: r = a' :: r' ∧ isStart a' = true ∧ ∀ c ∈ r', isWord c = true) ↔
        isStart a = true ∧ isWord b = true ∧ isWord c = true ∧ r.all isWord = true := by
      constructor
      · rintro ⟨a', r', e, h1, h2⟩
        injection e with e1 e
        subst e1 e
        exact ⟨h1, h2 b (by simp), h2 c (by simp), List.all_eq_true.mpr (fun x hx => h2 x (by simp [hx]))⟩
      · rintro ⟨h1, h2, h3, h4⟩
        refine ⟨a, _, rfl, h1, ?_⟩
        intro x hx
        simp only [List.mem_cons] at hx
        rcases hx with rfl | rfl | hx
        · exact h2
        · exact h3
        · exact List.all_eq_true.mp h4 x hx
    rw [hR, hI, validKey]
    simp only [Bool.or_eq_true, Bool.and_eq_true, Bool.not_eq_true', Bool.or_eq_false_iff, decide_eq_false_iff_not, Bool.false_eq_true, or_false, false_or]
    generalize isStart a = A
    generalize isWord b = B
    generalize isWord c = C
    generalize r.all isWord = D
    by_cases x1 : a = 'x' <;> by_cases x2 : a = 'X' <;> by_cases x3 : b = 'm' <;> by_cases x4 : b = 'M' <;> by_cases x5 : c = 'l' <;> by_cases x6 : c = 'L' <;>
      simp only [x1, x2, x3, x4, x5, x6, or_true, true_or, or_self, not_true_eq_false, not_false_eq_true, and_true, true_and, and_false, false_and, or_false, false_or] <;> grind

theorem validKey_name {k : Str} (h : validKey k = true) : NodeName k := by
  obtain ⟨⟨a, r, rfl, ha, hr⟩, _⟩ := (validKey_iff k).mp h
  have hnot : ∀ c : Char, (c = '_' ∨ Identifier.IsLetter c ∨ IsDigit c) → c ∉ ['/', '[', ']'] := by
    intro c hc hm
    simp only [List.mem_cons, List.not_mem_nil, or_false] at hm
    rcases hm with rfl | rfl | rfl <;> revert hc <;> unfold Identifier.IsLetter IsDigit <;> decide
  refine ⟨by simp, ?_⟩
  intro c hc
  rcases List.mem_cons.mp hc with rfl | hc
  · apply hnot
    rcases ha with ha | ha
    · exact .inl ha
    · exact .inr (.inl ha)
  · exact hnot c (hr c hc)

theorem customField_names {k : Str} (h : NodeName k) : customField k ≠ [] ∧ ∀ s ∈ customField k, NodeName s := by
  have names : ∀ s ∈ ["Metadata".toList, "Information".toList, "CustomAttributes".toList, "KeyValue".toList], NodeName s := by
    unfold NodeName
    decide
  refine ⟨by simp [customField], ?_⟩
  intro s hs
  simp only [customField, List.mem_cons, List.not_mem_nil, or_false] at hs
  rcases hs with e | e | e | e | e
  · exact names s (by simp [e])
  · exact names s (by simp [e])
  · exact names s (by simp [e])
  · exact names s (by simp [e])
  · exact e ▸ h

/-- What is done with the node for a key. -/
def setCustomNode (v : CustomValue) (n : Node) : Except Unit Node :=
  match setValue v.text n with
  | .error e => .error e
  | .ok n' => .ok (setAttribute "Type".toList v.type n')

theorem setCustom_eq {k : Str} (h : validKey k = true) (v : CustomValue) (doc : Node) :
    setCustom k v doc = writeAt doc (slashes (customField k)) (setCustomNode v) := by
  rw [setCustom, h]
  rfl

theorem keeps_setCustom (v : CustomValue) : KeepsTarget (setCustomNode v) := by
  intro n n' h he
  rw [setCustomNode] at h
  cases hs : setValue v.text n with
  | error e => rw [hs] at h; cases h
  | ok m =>
    rw [hs] at h
    injection h with h
    subst h
    obtain ⟨a, b, c⟩ := keeps_setValue v.text n m hs he
    cases m with
    | text _ _ => cases a
    | element nm as cs =>
      refine ⟨rfl, b, ?_⟩
      intro k hk
      show attrValue (setAttr _ _ as) k = _
      rw [attrValue_setAttr, if_neg hk]
      exact c k hk

/-- Setting a custom value. -/
theorem setCustom_spec {k : Str} (hk : validKey k = true) (v : CustomValue) (doc : Node) (hd : doc.isElement = true) :
    (setCustom k v doc).1.isElement = true ∧
    (∀ q, Diverge (namesPath (customField k)) q → resolve (setCustom k v doc).1 q = resolve doc q) ∧
    (ContainsElement doc (customField k) → (setCustom k v doc).2 = .error ()) ∧
    (TextOnly doc (customField k) → (setCustom k v doc).2 = .ok () ∧ ∃ m rest, resolve (setCustom k v doc).1 (namesPath (customField k)) = some m ∧
      m.children = .text false v.text :: rest ∧ (∀ c ∈ rest, ∃ v, c = .text false v) ∧ attrValue m.attrs "Type".toList = some v.type) := by
  have hf := customField_names (validKey_name hk)
  obtain ⟨n0, h1, h2, h3, h4, h5, h6⟩ :=
    writeAt_spec (slashes_path hf.1 hf.2) (noIndex_names _) (attrs_names _ _) doc hd (setCustomNode v) (keeps_setCustom v)
  rw [setCustom_eq hk]
  refine ⟨h3, h4, ?_, ?_⟩
  · intro hc
    obtain ⟨n, hn, ha⟩ := containsElement_iff.mp hc
    have : n0 = n := by
      rcases h2 with h2 | ⟨hh, _⟩
      · rw [hn] at h2; exact (Option.some.inj h2).symm
      · rw [hn] at hh; cases hh
    subst this
    apply h5
    rw [setCustomNode, setValue, if_pos ha]
  · intro ht
    have hn0 : ∀ c ∈ n0.children, ∃ v, c = .text false v := by
      rcases h2 with h2 | ⟨_, s, m, _, _, h⟩
      · exact textOnly_iff.mp ht n0 h2
      · rw [h]; intro c hc; cases hc
    have hok : setValue v.text n0 = .ok (n0.setChildren (setText v.text n0.children)) := by
      rw [setValue, if_neg]
      intro h
      obtain ⟨c, hc, hce⟩ := List.any_eq_true.mp h
      obtain ⟨w, rfl⟩ := hn0 c hc
      cases hce
    obtain ⟨rest, r1, r2, _⟩ := textIn_setText hn0 v.text
    cases n0 with
    | text _ _ => cases h1
    | element nm as cs =>
      obtain ⟨k1, k2⟩ := h6 (.element nm (setAttr "Type".toList v.type as) (setText v.text cs)) (by rw [setCustomNode, hok]; rfl)
      refine ⟨k1, _, rest, k2, r1, r2, ?_⟩
      show attrValue (setAttr _ _ as) _ = _
      rw [attrValue_setAttr, if_pos rfl]

theorem customIs_some {doc m : Node} {k t ty : Str} {rest : List Node} (h : resolve doc (namesPath (customField k)) = some m)
    (hc : m.children = .text false t :: rest) (ha : attrValue m.attrs "Type".toList = some ty) : CustomIs doc k (some (t, ty)) := by
  obtain ⟨p, hp, hm⟩ := (resolve_denotes (noIndex_names _) doc m).mp h
  refine ⟨p, m, hp, hm, ?_, ha⟩
  rw [tryGetValue, hc]

theorem customIs_congr {a b : Node} {k : Str} {r : Option (Str × Str)} (h : resolve a (namesPath (customField k)) = resolve b (namesPath (customField k)))
    (hr : CustomIs b k r) : CustomIs a k r := by
  cases r with
  | none => exact noSuchNode_iff.mpr (h.trans (noSuchNode_iff.mp hr))
  | some r =>
    obtain ⟨p, n, h1, h2, h3, h4⟩ := hr
    have := (resolve_denotes (noIndex_names _) b n).mpr ⟨p, h1, h2⟩
    rw [← h] at this
    obtain ⟨p', q1, q2⟩ := (resolve_denotes (noIndex_names _) a n).mp this
    exact ⟨p', n, q1, q2, h3, h4⟩

theorem diverge_custom {k k' : Str} (h : k ≠ k') : Diverge (namesPath (customField k)) (namesPath (customField k')) :=
  diverge_names 4 k k' rfl rfl h rfl

end Verif.Xml

namespace Verif.Xml
open Text Spec

/-! ## Sizes and positions -/

theorem valueIs_of {doc m : Node} {parts : List Str} {v : Str} {rest : List Node} (h : resolve doc (namesPath parts) = some m)
    (hc : m.children = .text false v :: rest) : ValueIs doc parts v := by
  obtain ⟨p, hp, hm⟩ := (resolve_denotes (noIndex_names _) doc m).mp h
  exact ⟨p, m, hp, hm, by rw [tryGetValue, hc]⟩

theorem writeTexts_value (L : List (List Str × Option Str)) (hL : ∀ e ∈ L, e.1 ≠ [] ∧ ∀ s ∈ e.1, NodeName s)
    (hp : L.Pairwise (fun a b => Diverge (namesPath a.1) (namesPath b.1))) (doc : Node) (hd : doc.isElement = true)
    (ht : ∀ e ∈ L, e.2 ≠ none → TextOnly doc e.1) : ∀ e ∈ L, ∀ v, e.2 = some v → ValueIs (writeTexts L doc).1 e.1 v := by
  intro e he v hv
  obtain ⟨m, m1, rest, m2, _⟩ := ((writeTexts_ok L hL hp doc hd ht).2 e he).2 v hv
  exact valueIs_of m1 m2

theorem writeAll_skip {α : Type} (l : List α) (g : α → Option (Node → Node × Except Unit Unit)) (a r : List (Node → Node × Except Unit Unit)) (doc : Node) :
    writeAll (a ++ (l.filterMap g ++ r)) doc = writeAll (a ++ (l.map (fun x => (g x).getD (fun d => (d, .ok ()))) ++ r)) doc := by
  induction a generalizing doc with
  | cons w a ih =>
    rw [List.cons_append, List.cons_append, writeAll_cons, writeAll_cons]
    cases (w doc).2 with
    | error e => rfl
    | ok u => exact ih _
  | nil =>
    simp only [List.nil_append]
    induction l generalizing doc with
    | nil => rfl
    | cons x l ih =>
      rw [List.map_cons, List.cons_append, writeAll_cons]
      cases hx : g x with
      | none =>
        rw [List.filterMap_cons_none hx]
        exact ih doc
      | some w =>
        rw [List.filterMap_cons_some hx, List.cons_append, writeAll_cons]
        dsimp only [Option.getD_some]
        cases (w doc).2 with
        | error e => rfl
        | ok u => exact ih _

/-- What `WriteFillWithSubBlockStatistics` writes. -/
def statTexts (w h : Int) (b : Bounds) (m : Option (Int × Int)) : List (List Str × Option Str) :=
  [(imageField "SizeX", some (printInt w)), (imageField "SizeY", some (printInt h))] ++
    Dim.all.map (fun d => (imageField ("Size" ++ dimName d), (b d).map (fun i => printInt i.2))) ++
    [(imageField "SizeM", m.map (fun r => printInt (r.2 - r.1 + 1)))]

theorem sizePath (d : Dim) : "Metadata/Information/Image/Size".toList ++ [dimensionToChar d] = slashes (imageField ("Size" ++ dimName d)) := by
  cases d <;> decide

theorem writeStatistics_eq (w h : Int) (b : Bounds) (m : Option (Int × Int)) (doc : Node) :
    writeStatistics w h b m doc = writeTexts (statTexts w h b m) doc := by
  unfold writeStatistics
  rw [List.append_assoc, writeAll_skip, writeTexts, statTexts, List.map_append, List.map_append, List.append_assoc]
  have h1 : (Dim.all.map (fun d => (imageField ("Size" ++ dimName d), (b d).map (fun i => printInt i.2)))).map writeText =
      Dim.all.map (fun x => ((b x).map (fun i => writeDimensionSize x i.2)).getD (fun d => (d, .ok ()))) := by
    rw [List.map_map]
    apply List.map_congr_left
    intro d _
    funext n
    show writeText (imageField ("Size" ++ dimName d), (b d).map (fun i => printInt i.2)) n = _
    cases b d with
    | none => rfl
    | some i =>
      show writeAt n _ _ = writeDimensionSize d i.2 n
      rw [writeDimensionSize, sizePath]
      rfl
  rw [h1]
  cases m with
  | none =>
    have : ∀ (l : List (Node → Node × Except Unit Unit)) (d : Node), writeAll (l ++ [writeText (imageField "SizeM", none)]) d = writeAll (l ++ []) d := by
      intro l
      induction l with
      | nil => intro d; rfl
      | cons x l ih =>
        intro d
        rw [List.cons_append, List.cons_append, writeAll_cons, writeAll_cons]
        cases (x d).2 with
        | error e => rfl
        | ok u => exact ih _
    have t := this ([writeText (imageField "SizeX", some (printInt w)), writeText (imageField "SizeY", some (printInt h))] ++
      Dim.all.map (fun x => ((b x).map (fun i => writeDimensionSize x i.2)).getD (fun d => (d, .ok ())))) doc
    rw [List.append_assoc, List.append_assoc] at t
    exact t.symm
  | some r => rfl

theorem imageField_names : ∀ s : String, NodeName s.toList → imageField s ≠ [] ∧ ∀ x ∈ imageField s, NodeName x := by
  have names : ∀ s ∈ ["Metadata".toList, "Information".toList, "Image".toList], NodeName s := by
    unfold NodeName
    decide
  intro s hs
  refine ⟨by simp [imageField], ?_⟩
  intro x hx
  simp only [imageField, List.mem_cons, List.not_mem_nil, or_false] at hx
  rcases hx with e | e | e | e
  · exact names x (by simp [e])
  · exact names x (by simp [e])
  · exact names x (by simp [e])
  · exact e ▸ hs

/-- The names of the sizes. -/
def sizeNames : List String := ["SizeX", "SizeY"] ++ Dim.all.map (fun d => "Size" ++ dimName d) ++ ["SizeM"]

theorem statTexts_fst (w h : Int) (b : Bounds) (m : Option (Int × Int)) : (statTexts w h b m).map (·.1) = sizeNames.map imageField := by
  rw [statTexts, sizeNames, List.map_append, List.map_append, List.map_append, List.map_append, List.map_map, List.map_map]
  rfl

theorem diverge_image {a b : String} (h : a.toList ≠ b.toList) : Diverge (namesPath (imageField a)) (namesPath (imageField b)) :=
  diverge_names 3 a.toList b.toList rfl rfl h rfl

theorem statTexts_ok (w h : Int) (b : Bounds) (m : Option (Int × Int)) : (∀ e ∈ statTexts w h b m, e.1 ≠ [] ∧ ∀ s ∈ e.1, NodeName s) ∧
    (statTexts w h b m).Pairwise (fun a b => Diverge (namesPath a.1) (namesPath b.1)) ∧
    ∀ e ∈ statTexts w h b m, ∀ d, Diverge (namesPath e.1) (namesPath (imageField ("Start" ++ dimName d))) := by
  have hm : ∀ e ∈ statTexts w h b m, ∃ s ∈ sizeNames, e.1 = imageField s := by
    intro e he
    have : e.1 ∈ (statTexts w h b m).map (·.1) := List.mem_map.mpr ⟨e, he, rfl⟩
    rw [statTexts_fst] at this
    obtain ⟨s, hs, e⟩ := List.mem_map.mp this
    exact ⟨s, hs, e.symm⟩
  have hn : ∀ s ∈ sizeNames, NodeName s.toList := by
    unfold NodeName
    decide
  refine ⟨?_, ?_, ?_⟩
  · intro e he
    obtain ⟨s, hs, e'⟩ := hm e he
    rw [e']
    exact imageField_names s (hn s hs)
  · have : ((statTexts w h b m).map (·.1)).Pairwise (fun a b => Diverge (namesPath a) (namesPath b)) := by
      rw [statTexts_fst, List.pairwise_map]
      have : sizeNames.Pairwise (fun a b => a.toList ≠ b.toList) := by decide
      exact this.imp (fun {a b} h => diverge_image h)
    rw [List.pairwise_map] at this
    exact this
  · intro e he d
    obtain ⟨s, hs, e'⟩ := hm e he
    rw [e']
    apply diverge_image
    have : ∀ s ∈ sizeNames, ∀ d ∈ Dim.all, s.toList ≠ ("Start" ++ dimName d).toList := by decide
    exact this s hs d (by cases d <;> decide)

theorem getDimension_eq (doc : Node) (d : Dim) : getDimension doc d =
    match textAt doc (imageField ("Start" ++ dimName d)), textAt doc (imageField ("Size" ++ dimName d)) with
    | none, none => none
    | s, n => some ((match s with | none => (0, false) | some t => (asInt t, true)), (match n with | none => (1, false) | some t => (asInt t, true))) := by
  have e1 : "Start".toList ++ [dimensionToChar d] = ("Start" ++ dimName d).toList := by cases d <;> decide
  have e2 : "Size".toList ++ [dimensionToChar d] = ("Size" ++ dimName d).toList := by cases d <;> decide
  rw [getDimension, e1, e2]
  cases h : findPath doc ["Metadata".toList, "Information".toList, "Image".toList] with
  | none =>
    have : ∀ s : String, textAt doc (imageField s) = none := fun s => textAt_none h [s.toList]
    rw [this, this]
  | some np =>
    have : ∀ s : String, fieldOf np s.toList = textAt doc (imageField s) := fun s => fieldOf_eq h s.toList
    simp only [this]
    cases textAt doc (imageField ("Start" ++ dimName d)) <;> cases textAt doc (imageField ("Size" ++ dimName d)) <;> rfl

/-- A place below `Metadata/Information/Dimensions`. -/
def dimensionsField (rest : List String) : List Str := ["Metadata".toList, "Information".toList, "Dimensions".toList] ++ rest.map String.toList

theorem findPath_congr {a b : Node} {parts : List Str} (h : resolve a (namesPath parts) = resolve b (namesPath parts)) : findPath a parts = findPath b parts := by
  rw [findPath_eq, findPath_eq, h]

theorem diverge_dimensions (rest : List String) (more : List Str) :
    Diverge (namesPath (dimensionsField rest)) (namesPath (["Metadata".toList, "Information".toList, "Image".toList] ++ more)) :=
  diverge_names 2 "Dimensions".toList "Image".toList rfl rfl (by decide) rfl

theorem dimensions_unread {L : List (List Str × Option Str)} (hL : ∀ e ∈ L, ∃ rest, e.1 = dimensionsField rest ∧ ∀ s ∈ rest, NodeName s.toList)
    (doc : Node) (hd : doc.isElement = true) :
    getDimensionT (writeTexts L doc).1 = getDimensionT doc ∧ getDimensionZ (writeTexts L doc).1 = getDimensionZ doc := by
  have names : ∀ s ∈ ["Metadata".toList, "Information".toList, "Dimensions".toList], NodeName s := by
    unfold NodeName
    decide
  have hn : ∀ e ∈ L, e.1 ≠ [] ∧ ∀ s ∈ e.1, NodeName s := by
    intro e he
    obtain ⟨rest, h1, h2⟩ := hL e he
    rw [h1]
    refine ⟨by simp [dimensionsField], ?_⟩
    intro s hs
    rcases List.mem_append.mp hs with hs | hs
    · exact names s hs
    · obtain ⟨x, hx, rfl⟩ := List.mem_map.mp hs
      exact h2 x hx
  obtain ⟨_, h⟩ := writeTexts_other L hn doc hd
  have key : ∀ more : List Str, findPath (writeTexts L doc).1 (["Metadata".toList, "Information".toList, "Image".toList] ++ more) =
      findPath doc (["Metadata".toList, "Information".toList, "Image".toList] ++ more) := by
    intro more
    apply findPath_congr
    apply h
    intro e he
    obtain ⟨rest, h1, _⟩ := hL e he
    rw [h1]
    exact diverge_dimensions rest more
  have k1 := key ["Dimensions".toList, "T".toList]
  have k2 := key ["Dimensions".toList, "Z".toList]
  simp only [List.cons_append, List.nil_append] at k1 k2
  constructor
  · rw [getDimensionT, k1]; rfl
  · rw [getDimensionZ, k2]; rfl

theorem lastSet_append (key k : Str) (v : CustomValue) (ops : List (Str × CustomValue)) :
    lastSet key (ops ++ [(k, v)]) = if k = key then some v else lastSet key ops := by
  induction ops with
  | nil => rfl
  | cons y ys ih =>
    obtain ⟨c, d⟩ := y
    rw [List.cons_append, lastSet, ih, lastSet]
    by_cases h : k = key
    · rw [if_pos h, if_pos h]
    · rw [if_neg h, if_neg h]

theorem shown_eq (v : CustomValue) : (v.text, v.type) = shownAs v := by
  cases v with
  | boolean b => cases b <;> rfl
  | _ => rfl

/-! ## Numbers in arbitrary texts -/

theorem hexDigit_iff (c : Char) (v : Nat) : hexDigit c = some v ↔ HexDigit c v := by
  unfold hexDigit HexDigit
  split
  · simp only [Option.some.injEq]; omega
  · split
    · simp only [Option.some.injEq]; omega
    · split
      · simp only [Option.some.injEq]; omega
      · simp only [reduceCtorEq, false_iff]; omega

theorem hexDigit_lt {c : Char} {v : Nat} (h : HexDigit c v) : v < 16 := by
  unfold HexDigit at h
  omega

theorem hexDigit_unique {c : Char} {v w : Nat} (h : HexDigit c v) (h' : HexDigit c w) : v = w := by
  rw [← hexDigit_iff] at h h'
  exact Option.some.inj (h.symm.trans h')

theorem hexValue_lt {ds : Str} {n : Nat} (h : HexValue ds n) : n < 16 ^ ds.length := by
  induction h with
  | nil => decide
  | cons c v cs n hc _ ih =>
    have := hexDigit_lt hc
    rw [List.length_cons, Nat.pow_succ]
    have : v * 16 ^ cs.length ≤ 15 * 16 ^ cs.length := Nat.mul_le_mul_right _ (by omega)
    omega

theorem hexValue_fold {ds : Str} {n : Nat} (h : HexValue ds n) : ∀ a : Nat,
    ds.foldl (fun n c => (16 * n + (hexDigit c).getD 0) % 2 ^ 32) (a % 2 ^ 32) = (a * 16 ^ ds.length + n) % 2 ^ 32 := by
  induction h with
  | nil => intro a; simp
  | cons c v cs n hc _ ih =>
    intro a
    rw [List.foldl_cons, (hexDigit_iff c v).mpr hc, Option.getD_some]
    have e : (16 * (a % 2 ^ 32) + v) % 2 ^ 32 = (16 * a + v) % 2 ^ 32 := by omega
    rw [e, ih, List.length_cons, show 16 ^ (cs.length + 1) = 16 ^ cs.length * 16 from rfl]
    congr 1
    rw [Nat.add_mul]
    generalize 16 ^ cs.length = p
    have : 16 * a * p = a * (p * 16) := by rw [Nat.mul_comm 16 a, Nat.mul_assoc, Nat.mul_comm 16 p]
    omega

/-- Leading zeros. -/
theorem hexValue_zeros {ds : Str} {n : Nat} (h : HexValue ds n) : HexValue (ds.dropWhile (· = '0')) n := by
  induction h with
  | nil => exact .nil
  | cons c v cs n hc h ih =>
    rw [List.dropWhile_cons]
    split
    · rename_i h0
      have h0 := of_decide_eq_true h0
      subst h0
      have : v = 0 := by
        unfold HexDigit at hc
        have : '0'.toNat = 48 := rfl
        omega
      subst this
      simpa using ih
    · exact .cons c v cs n hc h

theorem hexValue_ge {c : Char} {cs : Str} {n : Nat} (h : HexValue (c :: cs) n) (h0 : c ≠ '0') : 16 ^ cs.length ≤ n := by
  cases h with
  | cons _ v _ n hc h =>
    have : 1 ≤ v := by
      rcases Nat.eq_zero_or_pos v with hv | hv
      · exfalso
        subst hv
        have : c.toNat = 48 := by unfold HexDigit at hc; omega
        apply h0
        exact Char.toNat_inj.mp this
      · exact hv
    have : 1 * 16 ^ cs.length ≤ v * 16 ^ cs.length := Nat.mul_le_mul_right _ this
    omega

theorem dropZeros_append (p : Char → Bool) (hp : p '0' = true) (ds rest : Str) (hd : ∀ c ∈ ds, p c = true) (hr : ∀ c cs, rest = c :: cs → p c = false) :
    ((ds ++ rest).dropWhile (· = '0')).takeWhile p = ds.dropWhile (· = '0') := by
  induction ds with
  | nil =>
    rw [List.nil_append]
    cases rest with
    | nil => rfl
    | cons c cs =>
      have h1 := hr c cs rfl
      have h2 : decide (c = '0') = false := by
        rw [decide_eq_false_iff_not]
        rintro rfl
        rw [hp] at h1
        cases h1
      rw [List.dropWhile_cons, h2]
      simp only [Bool.false_eq_true, if_false, List.takeWhile_cons, h1]
      rfl
  | cons d ds ih =>
    rw [List.cons_append, List.dropWhile_cons, List.dropWhile_cons]
    split
    · exact ih (fun c hc => hd c (List.mem_cons_of_mem _ hc))
    · have := (takeWhile_all (p := p) (a := d :: ds) hd rest hr).1
      exact this

theorem pugiDigits_any {s : Str} {v : Nat} (h : NumberAt s v) :
    (pugiDigits s).2 = true ∧ 2 ^ 32 ≤ v ∨ (pugiDigits s).2 = false ∧ (pugiDigits s).1 = v ∧ v < 2 ^ 32 := by
  rcases h with ⟨x, ds, rest, rfl, hx, hv, hr⟩ | ⟨hno, ds, rest, rfl, hd, hr, rfl⟩
  · have hcond : ('0' :: x :: (ds ++ rest)).head? = some '0' ∧ (('0' :: x :: (ds ++ rest))[1]? = some 'x' ∨ ('0' :: x :: (ds ++ rest))[1]? = some 'X') := by
      refine ⟨rfl, ?_⟩
      rcases hx with rfl | rfl
      · exact .inl rfl
      · exact .inr rfl
    have hall : ∀ c ∈ ds, (hexDigit c).isSome = true := by
      clear hr hcond
      induction hv with
      | nil => intro c hc; cases hc
      | cons c v cs n hc _ ih =>
        intro c' hc'
        rcases List.mem_cons.mp hc' with rfl | h
        · rw [(hexDigit_iff c' v).mpr hc]; rfl
        · exact ih c' h
    have hrest : ∀ c cs, rest = c :: cs → (hexDigit c).isSome = false := by
      intro c cs e
      cases hh : hexDigit c with
      | none => rfl
      | some w => exact absurd ((hexDigit_iff c w).mp hh) (hr c cs e w)
    rw [pugiDigits, if_pos hcond]
    dsimp only
    rw [List.drop_succ_cons, List.drop_succ_cons, List.drop_zero, dropZeros_append (fun c => (hexDigit c).isSome) (by decide) ds rest hall hrest]
    have hz := hexValue_zeros hv
    have hf := hexValue_fold hz 0
    rw [Nat.zero_mod, Nat.zero_mul, Nat.zero_add] at hf
    rw [hf]
    have hlead : ∀ c cs, ds.dropWhile (· = '0') = c :: cs → c ≠ '0' := by
      intro c cs e
      have := List.head?_dropWhile_not (fun x => decide (x = '0')) ds
      rw [show List.dropWhile (fun x => decide (x = '0')) ds = c :: cs from e] at this
      simpa using this
    generalize ds.dropWhile (· = '0') = es at *
    rcases Nat.lt_or_ge 8 es.length with hl | hl
    · left
      rw [decide_eq_true (by omega)]
      refine ⟨rfl, ?_⟩
      cases es with
      | nil => simp at hl
      | cons c cs =>
        have h1 := hexValue_ge hz (hlead c cs rfl)
        have h2 : 16 ^ 8 ≤ 16 ^ cs.length := Nat.pow_le_pow_right (by decide) (by simp only [List.length_cons] at hl; omega)
        omega
    · right
      have h1 := hexValue_lt hz
      have h2 : 16 ^ es.length ≤ 16 ^ 8 := Nat.pow_le_pow_right (by decide) hl
      rw [decide_eq_false (by omega)]
      exact ⟨rfl, Nat.mod_eq_of_lt (by omega), by omega⟩
  · have hc1 : ¬ ((ds ++ rest).head? = some '0' ∧ ((ds ++ rest)[1]? = some 'x' ∨ (ds ++ rest)[1]? = some 'X')) := by
      generalize ds ++ rest = t at hno ⊢
      rintro ⟨h1, h2⟩
      match t, hno, h1, h2 with
      | [], _, h1, _ => cases h1
      | [a], _, _, h2 => rcases h2 with h2 | h2 <;> cases h2
      | a :: b :: r, hno, h1, h2 =>
        injection h1 with h1
        subst h1
        have := hno b r rfl
        rcases h2 with h2 | h2
        · exact this.1 (Option.some.inj h2)
        · exact this.2 (Option.some.inj h2)
    have hc2 : ¬ (ds.head? = some '0' ∧ (ds[1]? = some 'x' ∨ ds[1]? = some 'X')) := by
      rintro ⟨_, h2 | h2⟩
      · exact absurd (hd _ (List.mem_of_getElem? h2)) (by unfold IsDigit; decide)
      · exact absurd (hd _ (List.mem_of_getElem? h2)) (by unfold IsDigit; decide)
    have hd' : ∀ c ∈ ds, Char.isDigit c = true := fun c hc => (isDigit_iff c).mpr (hd c hc)
    have hr' : ∀ c cs, rest = c :: cs → Char.isDigit c = false := by
      intro c cs e
      cases hh : Char.isDigit c with
      | false => rfl
      | true => exact absurd ((isDigit_iff c).mp hh) (hr c cs e)
    have e : pugiDigits (ds ++ rest) = pugiDigits ds := by
      have e1 := dropZeros_append Char.isDigit (by decide) ds rest hd' hr'
      have e2 := dropZeros_append Char.isDigit (by decide) ds [] hd' (by intro c cs h; cases h)
      rw [List.append_nil] at e2
      rw [pugiDigits, if_neg hc1, pugiDigits, if_neg hc2, e1, e2]
    rw [e]
    exact pugiDigits_spec hd

theorem asInt_any {t : Str} {x : Int} (h : IntegerAt t x) :
    asInt t = if x < -2147483648 then -2147483648 else if 2147483647 < x then 2147483647 else x := by
  obtain ⟨w, sign, s, v, rfl, hw, hs, hhead, hv, hx⟩ := h
  have hr : (w ++ (sign ++ s)).dropWhile isPugiSpace = sign ++ s := by
    apply (takeWhile_all (p := isPugiSpace) (fun c hc => (pugiSpace_iff c).mpr (hw c hc)) _ _).2
    intro c cs e
    simp only [List.mem_cons, List.not_mem_nil, or_false] at hs
    rcases hs with rfl | rfl | rfl
    · have := hhead rfl c cs e
      cases hp : isPugiSpace c with
      | false => rfl
      | true =>
        have h2 := (pugiSpace_iff c).mp hp
        simp only [List.mem_cons, List.not_mem_nil, or_false, not_or] at this h2
        rcases h2 with h2 | h2 | h2 | h2
        · exact absurd h2 this.1
        · exact absurd h2 this.2.1
        · exact absurd h2 this.2.2.1
        · exact absurd h2 this.2.2.2.1
    · injection e with e1 e2; rw [← e1]; decide
    · injection e with e1 e2; rw [← e1]; decide
  rw [asInt, hr]
  have hp := pugiDigits_any hv
  simp only [List.mem_cons, List.not_mem_nil, or_false] at hs
  rcases hs with rfl | rfl | rfl
  · have h1 : s.head? ≠ some '-' ∧ s.head? ≠ some '+' := by
      cases s with
      | nil => exact ⟨by simp, by simp⟩
      | cons c cs =>
        have := hhead rfl c cs rfl
        simp only [List.mem_cons, List.not_mem_nil, or_false, not_or] at this
        simp [this]
    rw [List.nil_append]
    simp only [h1.1, h1.2, or_self, if_false]
    rw [if_neg (by simp)] at hx
    generalize pugiDigits s = P at *
    rcases hp with ⟨p1, p2⟩ | ⟨p1, p2, p3⟩
    · rw [if_pos (Or.inl p1)]; split <;> first | omega | (split <;> omega)
    · rw [p1, p2]
      simp only [Bool.false_eq_true, false_or]
      split <;> split <;> first | omega | (split <;> omega)
  · simp only [List.singleton_append, List.head?_cons, Option.some.injEq, List.drop_succ_cons, List.drop_zero]
    rw [if_neg (by simp)] at hx
    simp only [show ('+' = '-') = False by decide, or_true, if_true, if_false]
    generalize pugiDigits s = P at *
    rcases hp with ⟨p1, p2⟩ | ⟨p1, p2, p3⟩
    · rw [if_pos (Or.inl p1)]; split <;> first | omega | (split <;> omega)
    · rw [p1, p2]
      simp only [Bool.false_eq_true, false_or]
      split <;> split <;> first | omega | (split <;> omega)
  · simp only [List.singleton_append, List.head?_cons, Option.some.injEq, List.drop_succ_cons, List.drop_zero]
    rw [if_pos rfl] at hx
    simp only [true_or, if_true]
    generalize pugiDigits s = P at *
    rcases hp with ⟨p1, p2⟩ | ⟨p1, p2, p3⟩
    · rw [if_pos (Or.inl p1)]; split <;> first | omega | (split <;> omega)
    · rw [p1, p2]
      simp only [Bool.false_eq_true, false_or]
      split <;> split <;> first | omega | (split <;> omega)

theorem span_split (p : Char → Bool) (s : Str) : ∃ a b, s = a ++ b ∧ (∀ c ∈ a, p c = true) ∧ ∀ c cs, b = c :: cs → p c = false := by
  induction s with
  | nil => exact ⟨[], [], rfl, by simp, by simp⟩
  | cons c s ih =>
    cases h : p c with
    | false => exact ⟨[], c :: s, rfl, by simp, by intro d ds e; injection e with e _; rw [← e]; exact h⟩
    | true =>
      obtain ⟨a, b, rfl, h1, h2⟩ := ih
      refine ⟨c :: a, b, rfl, ?_, h2⟩
      intro d hd
      rcases List.mem_cons.mp hd with rfl | hd
      · exact h
      · exact h1 d hd

theorem hexValue_exists (ds : Str) (h : ∀ c ∈ ds, (hexDigit c).isSome = true) : ∃ n, HexValue ds n := by
  induction ds with
  | nil => exact ⟨0, .nil⟩
  | cons c cs ih =>
    obtain ⟨n, hn⟩ := ih (fun d hd => h d (List.mem_cons_of_mem _ hd))
    obtain ⟨v, hv⟩ := Option.isSome_iff_exists.mp (h c (List.mem_cons_self ..))
    exact ⟨_, .cons c v cs n ((hexDigit_iff c v).mp hv) hn⟩

theorem numberAt_exists (s : Str) : ∃ v, NumberAt s v := by
  by_cases h : ∃ x r, s = '0' :: x :: r ∧ (x = 'x' ∨ x = 'X')
  · obtain ⟨x, r, rfl, hx⟩ := h
    obtain ⟨a, b, rfl, h1, h2⟩ := span_split (fun c => (hexDigit c).isSome) r
    obtain ⟨n, hn⟩ := hexValue_exists a h1
    refine ⟨n, .inl ⟨x, a, b, rfl, hx, hn, ?_⟩⟩
    intro c cs e w hw
    have := h2 c cs e
    rw [(hexDigit_iff c w).mpr hw] at this
    cases this
  · obtain ⟨a, b, rfl, h1, h2⟩ := span_split Char.isDigit s
    refine ⟨_, .inr ⟨?_, a, b, rfl, fun c hc => (isDigit_iff c).mp (h1 c hc), ?_, rfl⟩⟩
    · intro x r e
      exact ⟨fun hx => h ⟨x, r, e, .inl hx⟩, fun hx => h ⟨x, r, e, .inr hx⟩⟩
    · intro c cs e hd
      have := h2 c cs e
      rw [(isDigit_iff c).mpr hd] at this
      cases this

theorem integerAt_exists (t : Str) : ∃ x, IntegerAt t x := by
  obtain ⟨w, b, rfl, h1, h2⟩ := span_split isPugiSpace t
  have hw : Blank w := fun c hc => (pugiSpace_iff c).mp (h1 c hc)
  by_cases hs : ∃ c cs, b = c :: cs ∧ (c = '+' ∨ c = '-')
  · obtain ⟨c, cs, rfl, hc⟩ := hs
    obtain ⟨v, hv⟩ := numberAt_exists cs
    rcases hc with rfl | rfl
    · exact ⟨_, w, ['+'], cs, v, rfl, hw, by simp, (by intro h; cases h), hv, rfl⟩
    · exact ⟨_, w, ['-'], cs, v, rfl, hw, by simp, (by intro h; cases h), hv, rfl⟩
  · obtain ⟨v, hv⟩ := numberAt_exists b
    refine ⟨_, w, [], b, v, rfl, hw, by simp, ?_, hv, rfl⟩
    intro _ c cs e hm
    have h3 := h2 c cs e
    have h4 : ¬ isPugiSpace c = true := by rw [h3]; simp
    rw [pugiSpace_iff] at h4
    simp only [List.mem_cons, List.not_mem_nil, or_false] at hm h4
    rcases hm with h | h | h | h | h | h
    · exact h4 (.inl h)
    · exact h4 (.inr (.inl h))
    · exact h4 (.inr (.inr (.inl h)))
    · exact h4 (.inr (.inr (.inr h)))
    · exact hs ⟨c, cs, e, .inl h⟩
    · exact hs ⟨c, cs, e, .inr h⟩

end Verif.Xml
