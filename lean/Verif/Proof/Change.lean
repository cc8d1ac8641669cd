import Verif.Proof.DocInfo
import Verif.Model.Scaling

/-!
# What writing at a path does to the tree
-/

namespace Verif.Xml
open Spec

/-- `n'` is `n` with the node that the steps lead to (created if necessary: `n0` is that node before) replaced by `m`. -/
inductive Chg : List Selector → Node → Node → Node → Node → Prop where
  | here (n m : Node) : Chg [] n n m m
  | found (s : Selector) (ss : List Selector) (nm : Str) (as : List (Str × Str)) (a : List Node) (c : Node) (b : List Node) (c' n0 m : Node) :
      (∀ x ∈ a, s.candidate x = false) → s.candidate c = true → s.candidate c' = true → Chg ss c n0 m c' →
      Chg (s :: ss) (.element nm as (a ++ c :: b)) n0 m (.element nm as (a ++ c' :: b))
  | new (s : Selector) (ss : List Selector) (nm : Str) (as : List (Str × Str)) (cs : List Node) (am : List (Str × Str)) (c' n0 m : Node) :
      (∀ x ∈ cs, s.candidate x = false) → s.candidate (.element s.name am []) = true → s.candidate c' = true → Chg ss (.element s.name am []) n0 m c' →
      Chg (s :: ss) (.element nm as cs) n0 m (.element nm as (cs ++ [c']))

/-- The first node, in the order of the document, that the steps lead to. -/
def sel (q : List Selector) (n : Node) : Option Node := selectFirst (q.map Selector.candidate) n

theorem sel_cons (t : Selector) (q : List Selector) (n : Node) : sel (t :: q) n = (n.children.filter t.candidate).findSome? (sel q) := rfl

/-- The first `j` steps lead to the first child each; the rest are searched for. -/
def obs : Nat → List Selector → Node → Option Node
  | 0, q, n => sel q n
  | _ + 1, [], n => some n
  | j + 1, t :: q, n => (n.children.find? t.candidate).bind (obs j q)

theorem obs_resolve (q : List Selector) (n : Node) : obs q.length q n = resolve n q := by
  induction q generalizing n with
  | nil => rfl
  | cons t q ih =>
    rw [resolve_cons, List.length_cons, obs]
    cases n.children.find? t.candidate with
    | none => rfl
    | some c => exact ih c

theorem obs_append (a b : List Selector) (n : Node) : obs a.length (a ++ b) n = (resolve n a).bind (sel b) := by
  induction a generalizing n with
  | nil => rfl
  | cons t q ih =>
    rw [resolve_cons, List.length_cons, List.cons_append, obs]
    cases n.children.find? t.candidate with
    | none => rfl
    | some c => exact ih c

theorem find_none_of {s : Selector} {a : List Node} (h : ∀ x ∈ a, s.candidate x = false) : a.find? s.candidate = none :=
  List.find?_eq_none.2 fun x hx => by rw [h x hx]; exact Bool.false_ne_true

theorem filter_none_of {s : Selector} {a : List Node} (h : ∀ x ∈ a, s.candidate x = false) : a.filter s.candidate = [] :=
  List.filter_eq_nil_iff.2 fun x hx => by rw [h x hx]; exact Bool.false_ne_true

theorem chg_obs_self {sels : List Selector} {n n0 m n' : Node} (h : Chg sels n n0 m n') : ∀ j, obs j sels n' = some m := by
  induction h with
  | here n m => intro j; cases j <;> rfl
  | found s ss nm as a c b c' n0 m h1 h2 h3 _ ih =>
    intro j
    cases j with
    | zero =>
      show sel _ _ = _
      rw [sel_cons]
      show ((a ++ c' :: b).filter s.candidate).findSome? (sel ss) = _
      rw [List.filter_append, filter_none_of h1, List.nil_append, List.filter_cons, if_pos h3, List.findSome?_cons]
      have := ih 0
      rw [obs] at this
      rw [this]
    | succ j =>
      rw [obs]
      show ((a ++ c' :: b).find? s.candidate).bind _ = _
      rw [List.find?_append, find_none_of h1, Option.none_or, List.find?_cons, h3]
      exact ih j
  | new s ss nm as cs am c' n0 m h1 h2 h3 _ ih =>
    intro j
    cases j with
    | zero =>
      show sel _ _ = _
      rw [sel_cons]
      show ((cs ++ [c']).filter s.candidate).findSome? (sel ss) = _
      rw [List.filter_append, filter_none_of h1, List.nil_append, List.filter_cons, if_pos h3, List.findSome?_cons]
      have := ih 0
      rw [obs] at this
      rw [this]
    | succ j =>
      rw [obs]
      show ((cs ++ [c']).find? s.candidate).bind _ = _
      rw [List.find?_append, find_none_of h1, Option.none_or, List.find?_cons, h3]
      exact ih j

theorem sel_leaf {q : List Selector} (hq : q ≠ []) (nm : Str) (as : List (Str × Str)) : sel q (.element nm as []) = none := by
  cases q with
  | nil => exact absurd rfl hq
  | cons t q => rfl

theorem obs_leaf {q : List Selector} (hq : q ≠ []) (nm : Str) (as : List (Str × Str)) (j : Nat) : obs j q (.element nm as []) = none := by
  cases j with
  | zero => exact sel_leaf hq nm as
  | succ j =>
    cases q with
    | nil => exact absurd rfl hq
    | cons t q => rfl

theorem diverge_ne {p q : List Selector} (h : Diverge p q) : q ≠ [] := by
  intro e
  subst e
  cases p <;> cases h

theorem chg_obs_other {sels : List Selector} {n n0 m n' : Node} (h : Chg sels n n0 m n') : ∀ j q, Diverge sels q → obs j q n' = obs j q n := by
  induction h with
  | here n m => intro j q hq; cases hq
  | found s ss nm as a c b c' n0 m h1 h2 h3 _ ih =>
    intro j q hq
    cases q with
    | nil => cases hq
    | cons t q =>
      rcases hq with ⟨rfl, hq⟩ | hq
      · cases j with
        | zero =>
          show sel _ _ = sel _ _
          rw [sel_cons, sel_cons]
          show ((a ++ c' :: b).filter s.candidate).findSome? (sel q) = ((a ++ c :: b).filter s.candidate).findSome? (sel q)
          have := ih 0 q hq
          rw [obs, obs] at this
          rw [List.filter_append, List.filter_append, filter_none_of h1, List.nil_append, List.nil_append, List.filter_cons, List.filter_cons, if_pos h3, if_pos h2,
            List.findSome?_cons, List.findSome?_cons, this]
        | succ j =>
          rw [obs, obs]
          show ((a ++ c' :: b).find? s.candidate).bind _ = ((a ++ c :: b).find? s.candidate).bind _
          rw [List.find?_append, List.find?_append, find_none_of h1, Option.none_or, Option.none_or, List.find?_cons, List.find?_cons, h3, h2]
          exact ih j q hq
      · have e1 := hq c h2
        have e2 := hq c' h3
        cases j with
        | zero =>
          show sel _ _ = sel _ _
          rw [sel_cons, sel_cons]
          show ((a ++ c' :: b).filter t.candidate).findSome? (sel q) = ((a ++ c :: b).filter t.candidate).findSome? (sel q)
          rw [List.filter_append, List.filter_append, List.filter_cons, List.filter_cons, e1, e2]
          rfl
        | succ j =>
          rw [obs, obs]
          show ((a ++ c' :: b).find? t.candidate).bind _ = ((a ++ c :: b).find? t.candidate).bind _
          rw [List.find?_append, List.find?_append, List.find?_cons, List.find?_cons, e1, e2]
  | new s ss nm as cs am c' n0 m h1 h2 h3 _ ih =>
    intro j q hq
    cases q with
    | nil => cases hq
    | cons t q =>
      rcases hq with ⟨rfl, hq⟩ | hq
      · cases j with
        | zero =>
          show sel _ _ = sel _ _
          rw [sel_cons, sel_cons]
          show ((cs ++ [c']).filter s.candidate).findSome? (sel q) = (cs.filter s.candidate).findSome? (sel q)
          have := ih 0 q hq
          rw [obs, obs, sel_leaf (diverge_ne hq)] at this
          rw [List.filter_append, filter_none_of h1, List.nil_append, List.filter_cons, if_pos h3, List.findSome?_cons, this]
          rfl
        | succ j =>
          rw [obs, obs]
          show ((cs ++ [c']).find? s.candidate).bind _ = (cs.find? s.candidate).bind _
          rw [List.find?_append, find_none_of h1, Option.none_or, List.find?_cons, h3]
          show obs j q c' = none
          rw [ih j q hq, obs_leaf (diverge_ne hq)]
      · have e2 := hq c' h3
        cases j with
        | zero =>
          show sel _ _ = sel _ _
          rw [sel_cons, sel_cons]
          show ((cs ++ [c']).filter t.candidate).findSome? (sel q) = (cs.filter t.candidate).findSome? (sel q)
          rw [List.filter_append, List.filter_cons, e2]
          simp
        | succ j =>
          rw [obs, obs]
          show ((cs ++ [c']).find? t.candidate).bind _ = (cs.find? t.candidate).bind _
          rw [find_append_other e2]

theorem chg_target {sels : List Selector} {n n0 m n' : Node} (h : Chg sels n n0 m n') : resolve n sels = some n0 ∨ (resolve n sels = none ∧ n0.children = []) := by
  induction h with
  | here n m => exact .inl rfl
  | found s ss nm as a c b c' n0 m h1 h2 h3 _ ih =>
    rw [resolve_cons]
    show ((a ++ c :: b).find? s.candidate).bind _ = _ ∨ _ ∧ _
    have : (Node.element nm as (a ++ c :: b)).children.find? s.candidate = some c := by
      show (a ++ c :: b).find? s.candidate = _
      rw [List.find?_append, find_none_of h1, Option.none_or, List.find?_cons, h2]
    rw [this]
    have h' : (a ++ c :: b).find? s.candidate = some c := this
    rw [h']
    exact ih
  | new s ss nm as cs am c' n0 m h1 h2 h3 hc ih =>
    rw [resolve_cons]
    have : (Node.element nm as cs).children.find? s.candidate = none := find_none_of h1
    rw [this]
    right
    refine ⟨rfl, ?_⟩
    rcases ih with h | h
    · cases ss with
      | nil => cases hc; rfl
      | cons t q => rw [resolve_cons] at h; cases h
    · exact h.2

/-- Creating a path. -/
theorem create_chg {sels : List Selector} {ts : List Str} (h : Steps sels ts) :
    (∀ s ∈ sels, s.NoIndex) → ∀ n : Node, n.isElement = true →
      ∃ p n0, (getOrCreatePath n ts).2 = .ok p ∧ p.length = sels.length ∧ (getOrCreatePath n ts).1.at p = some n0 ∧ n0.isElement = true ∧ LastOk sels n0 ∧
        ∀ m, LastOk sels m → Chg sels n n0 m ((getOrCreatePath n ts).1.update (fun _ => m) p) := by
  induction h with
  | nil =>
    intro _ n hn
    exact ⟨[], n, rfl, rfl, rfl, hn, (by intro s hs; cases hs), fun m _ => .here n m⟩
  | cons s t ss ts hst hss ih =>
    intro hx n hn
    have hs := hx s (List.mem_cons_self ..)
    have hx' := fun x hm => hx x (List.mem_cons_of_mem _ hm)
    cases n with
    | text _ _ => cases hn
    | element nm as cs =>
      obtain ⟨am, hperm, hcand, htok⟩ := createToken_text hst hs cs
      obtain ⟨c, hc, hcc, hcf, hcase⟩ := findOrAppend_spec (p := s.candidate) (new := .element s.name am []) hcand cs
      have hce := candidate_element hcc
      obtain ⟨p, n0, e1, e2, e3, e4, e6, e7⟩ := ih hx' c hce
      generalize hfo : findOrAppend s.candidate (.element s.name am []) cs = fo at *
      obtain ⟨cs', i⟩ := fo
      dsimp only at hc hcf hcase
      obtain ⟨g1, g2, g3⟩ := getOrCreatePath_same ts c
      have hun : getOrCreatePath (.element nm as cs) (t :: ts) = (.element nm as (cs'.set i (getOrCreatePath c ts).1), .ok (i :: p)) := by
        rw [getOrCreatePath]
        simp only [Node.children, htok, hc, e1, Node.setChildren]
      have hi : i < cs'.length := (List.getElem?_eq_some_iff.mp hc).1
      have hget : (cs'.set i (getOrCreatePath c ts).1)[i]? = some (getOrCreatePath c ts).1 := by simp [hi]
      rw [hun]
      dsimp only
      refine ⟨i :: p, n0, rfl, by simp [e2], (at_cons_some (n := .element nm as _) hget p).trans e3, e4, ?_, ?_⟩
      · intro x hx2
        cases ss with
        | nil =>
          injection hx2 with hx2
          subst hx2
          have : p = [] := List.length_eq_zero_iff.mp (by simpa using e2)
          subst this
          cases hss
          simp only [getOrCreatePath, Node.at] at e3
          rw [← Option.some.inj e3]
          exact hcc
        | cons s2 ss2 => exact e6 x (by simpa using hx2)
      · intro m hm
        rw [update_cons (fun _ => m) p hget, List.set_set]
        have hm' : LastOk ss m := by
          cases ss with
          | nil => intro x hx; cases hx
          | cons s2 ss2 => intro x hx; exact hm x (by simpa using hx)
        have hchg := e7 m hm'
        generalize hch : Node.update (fun _ => m) p (getOrCreatePath c ts).1 = ch at hchg
        have hchc : s.candidate ch = true := by
          cases ss with
          | nil =>
            have : p = [] := List.length_eq_zero_iff.mp (by simpa using e2)
            subst this
            rw [← hch]
            exact hm s rfl
          | cons s2 ss2 =>
            have hp : p ≠ [] := by intro h; rw [h] at e2; simp at e2
            obtain ⟨u1, u2, u3⟩ := update_same (n := (getOrCreatePath c ts).1) hp (fun _ => m)
            rw [hch] at u1 u2 u3
            rw [candidate_congr s (u1.trans g1) (u2.trans g2) (u3.trans g3)]
            exact hcc
        have hno : ∀ x ∈ cs'.take i, s.candidate x = false := by
          intro x hx
          cases hb : s.candidate x with
          | false => rfl
          | true =>
            have : x ∈ (cs'.take i).filter s.candidate := List.mem_filter.2 ⟨hx, hb⟩
            rw [List.length_eq_zero_iff.1 hcf] at this
            cases this
        rcases hcase with ⟨a, b⟩ | ⟨a, b, d, e⟩
        · subst a
          have hsplit : cs' = cs'.take i ++ c :: cs'.drop (i + 1) := by
            have := (List.getElem?_eq_some_iff.mp hc).2
            rw [← this, List.cons_getElem_drop_succ, List.take_append_drop]
          have hset : cs'.set i ch = cs'.take i ++ ch :: cs'.drop (i + 1) := by
            rw [List.set_eq_take_append_cons_drop, if_pos hi]
          have := Chg.found s ss nm as (cs'.take i) c (cs'.drop (i + 1)) ch n0 m hno hcc hchc hchg
          rw [← hsplit, ← hset] at this
          exact this
        · subst a b d
          rw [List.take_left] at hno
          have hset : (cs ++ [Node.element s.name am []]).set cs.length ch = cs ++ [ch] := by
            rw [List.set_append_right _ _ (Nat.le_refl _), Nat.sub_self]; rfl
          rw [hset]
          exact Chg.new s ss nm as cs am ch n0 m hno hcand hchc hchg

/-- Writing at a path. -/
theorem writeAt_chg {sels : List Selector} {path : Str} (hp : PathText sels path) (hx : ∀ s ∈ sels, s.NoIndex)
    (ht : ∀ s ∈ sels, ∀ kv ∈ s.attrs, kv.1 ≠ "Type".toList) (doc : Node) (he : doc.isElement = true) (f : Node → Except Unit Node) (hf : KeepsTarget f) :
    ∃ n0 m, n0.isElement = true ∧ (writeAt doc path f).1.isElement = true ∧ Chg sels doc n0 m (writeAt doc path f).1 ∧
      (f n0 = .error () → m = n0 ∧ (writeAt doc path f).2 = .error ()) ∧ (∀ m', f n0 = .ok m' → m = m' ∧ (writeAt doc path f).2 = .ok ()) := by
  obtain ⟨ts, htk, hst⟩ := pathText_tokens hp
  obtain ⟨p, n0, e1, e2, e3, e4, e6, e7⟩ := create_chg hst hx doc he
  obtain ⟨g1, g2, g3⟩ := getOrCreatePath_same ts doc
  have hne : p ≠ [] := by
    intro h
    rw [h] at e2
    have : sels = [] := List.length_eq_zero_iff.mp (by simpa using e2.symm)
    subst this
    cases hp
  have hg : getOrCreateChildNode doc [] path = ((getOrCreatePath doc ts).1, .ok p) := by
    rw [getOrCreateChildNode, htk]
    simp only [Node.at, e1, Node.update, List.nil_append]
  have hw : writeAt doc path f = match f n0 with
      | .error e => ((getOrCreatePath doc ts).1, .error e)
      | .ok n' => (Node.update (fun _ => n') p (getOrCreatePath doc ts).1, .ok ()) := by
    rw [writeAt, hg]
    simp only [onNode, e3]
    cases f n0 <;> rfl
  have hunch : (getOrCreatePath doc ts).1 = Node.update (fun _ => n0) p (getOrCreatePath doc ts).1 := (update_const p _ n0 e3).symm
  cases hfn : f n0 with
  | error e =>
    rw [hfn] at hw
    dsimp only at hw
    refine ⟨n0, n0, e4, (by rw [hw]; exact g1.trans he), ?_, fun _ => ⟨rfl, (by rw [hw])⟩, (fun m hm => by rw [hfn] at hm; cases hm)⟩
    rw [hw]
    dsimp only
    rw [hunch]
    exact e7 n0 e6
  | ok m =>
    rw [hfn] at hw
    dsimp only at hw
    obtain ⟨k1, k2, k3⟩ := hf n0 m hfn e4
    have hl : LastOk sels m := lastOk_of_keeps e6 e4 k1 k2 (fun s hs kv hkv => k3 _ (ht s hs kv hkv))
    refine ⟨n0, m, e4, (by rw [hw]; exact (update_same hne _).1.trans (g1.trans he)), (by rw [hw]; exact e7 m hl), (fun h => by rw [hfn] at h; cases h), ?_⟩
    intro m' hm'
    rw [hfn] at hm'
    injection hm' with hm'
    exact ⟨hm', by rw [hw]⟩

end Verif.Xml
