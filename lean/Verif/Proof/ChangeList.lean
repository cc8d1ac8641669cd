import Verif.Proof.Change
import Verif.Proof.DisplayDoc
import Verif.Spec.Scaling

/-!
# Writing texts at several paths
-/

namespace Verif.Xml
open Spec

theorem filter_reload_candidate (t : Selector) : ∀ cs : List Node, (reloadAll cs).filter t.candidate = (cs.filter t.candidate).map reload := by
  intro cs
  induction cs with
  | nil => rfl
  | cons c cs ih =>
    have key : ∀ c : Node, (reload c :: reloadAll cs).filter t.candidate = ((c :: cs).filter t.candidate).map reload := by
      intro c
      rw [List.filter_cons, List.filter_cons, reload_candidate]
      split
      · rw [List.map_cons, ih]
      · exact ih
    cases c with
    | element n as ds => rw [reloadAll_cons]; exact key _
    | text b v =>
      cases b with
      | true => rw [reloadAll_cons]; exact key _
      | false =>
        rw [reloadAll_cons]
        dsimp only
        have hn : ∀ u, t.candidate (.text false u) = false := fun _ => rfl
        rw [List.filter_cons_of_neg (by rw [hn]; exact Bool.false_ne_true)]
        split
        · exact ih
        · rw [List.filter_cons_of_neg (by rw [hn]; exact Bool.false_ne_true)]; exact ih

theorem sel_reload (q : List Selector) : ∀ n : Node, sel q (reload n) = (sel q n).map reload := by
  induction q with
  | nil => intro n; rfl
  | cons t q ih =>
    intro n
    rw [sel_cons, sel_cons, reload_children, filter_reload_candidate]
    generalize n.children.filter t.candidate = l
    induction l with
    | nil => rfl
    | cons c l ih2 =>
      rw [List.map_cons, List.findSome?_cons, List.findSome?_cons, ih c]
      cases sel q c with
      | none => exact ih2
      | some d => rfl

theorem obs_reload (j : Nat) (q : List Selector) (n : Node) : obs j q (reload n) = (obs j q n).map reload := by
  induction j generalizing q n with
  | zero => exact sel_reload q n
  | succ j ih =>
    cases q with
    | nil => rfl
    | cons t q =>
      rw [obs, obs, reload_children, find_reload]
      cases n.children.find? t.candidate with
      | none => rfl
      | some c => exact ih q c

theorem onlyText_iff {doc : Node} {sels : List Selector} (hx : ∀ s ∈ sels, s.NoIndex) :
    OnlyText doc sels ↔ ∀ n, resolve doc sels = some n → ∀ c ∈ n.children, ∃ v, c = .text false v := by
  constructor
  · intro h n hn
    obtain ⟨p, h1, h2⟩ := (resolve_denotes hx doc n).1 hn
    exact h p n h1 h2
  · intro h p n h1 h2
    exact h n ((resolve_denotes hx doc n).2 ⟨p, h1, h2⟩)

theorem hasElement_iff {doc : Node} {sels : List Selector} (hx : ∀ s ∈ sels, s.NoIndex) :
    HasElement doc sels ↔ ∃ n, resolve doc sels = some n ∧ n.children.any Node.isElement = true := by
  constructor
  · rintro ⟨p, n, c, h1, h2, h3, h4⟩
    exact ⟨n, (resolve_denotes hx doc n).2 ⟨p, h1, h2⟩, List.any_eq_true.2 ⟨c, h3, h4⟩⟩
  · rintro ⟨n, h1, h2⟩
    obtain ⟨p, h3, h4⟩ := (resolve_denotes hx doc n).1 h1
    obtain ⟨c, h5, h6⟩ := List.any_eq_true.1 h2
    exact ⟨p, n, c, h3, h4, h5, h6⟩

/-- A text to be written (if there is one) at a path. -/
structure Item where
  sels : List Selector
  path : Str
  val : Option Str

/-- The path is one. -/
structure Item.Good (e : Item) : Prop where
  path : PathText e.sels e.path
  noIndex : ∀ s ∈ e.sels, s.NoIndex
  attrs : ∀ s ∈ e.sels, ∀ kv ∈ s.attrs, kv.1 ≠ "Type".toList

/-- Writes the text. -/
def Item.write (e : Item) (doc : Node) : Node × Except Unit Unit :=
  match e.val with
  | none => (doc, .ok ())
  | some v => writeAt doc e.path (setValue v)

/-- What is at the place afterwards. -/
def PutAt (doc : Node) (sels : List Selector) (v : Str) (m : Node) : Prop :=
  ∃ rest, m.children = .text false v :: rest ∧ (resolve doc sels = none → rest = []) ∧ ∀ n, resolve doc sels = some n → rest = n.children.tail

theorem item_write {e : Item} (he : e.Good) (doc : Node) (hd : doc.isElement = true) :
    (e.write doc).1.isElement = true ∧ (∀ j q, (e.val ≠ none → Diverge e.sels q) → obs j q (e.write doc).1 = obs j q doc) ∧
    (e.val = none → (e.write doc).2 = .ok ()) ∧
    (OnlyText doc e.sels → (e.write doc).2 = .ok () ∧ ∀ v, e.val = some v → ∃ m, (∀ j, obs j e.sels (e.write doc).1 = some m) ∧ PutAt doc e.sels v m) ∧
    (e.val ≠ none → HasElement doc e.sels → (e.write doc).2 = .error ()) := by
  cases hv : e.val with
  | none =>
    have hw : e.write doc = (doc, .ok ()) := by rw [Item.write, hv]
    rw [hw]
    exact ⟨hd, fun _ _ _ => rfl, fun _ => rfl, fun _ => ⟨rfl, nofun⟩, fun h => absurd rfl h⟩
  | some v =>
    have hw : e.write doc = writeAt doc e.path (setValue v) := by rw [Item.write, hv]
    rw [hw]
    obtain ⟨n0, m, h1, h2, h3, h4, h5⟩ := writeAt_chg he.path he.noIndex he.attrs doc hd (setValue v) (keeps_setValue v)
    refine ⟨h2, fun j q hq => chg_obs_other h3 j q (hq nofun), nofun, ?_, ?_⟩
    · intro ht
      rw [onlyText_iff he.noIndex] at ht
      have hn : ∀ c ∈ n0.children, ∃ v, c = .text false v := by
        rcases chg_target h3 with h | h
        · exact ht n0 h
        · rw [h.2]; nofun
      have hany : n0.children.any Node.isElement = false := by
        rw [List.any_eq_false]
        intro c hc
        obtain ⟨v, rfl⟩ := hn c hc
        exact Bool.false_ne_true
      obtain ⟨rest, r1, _, r3⟩ := textIn_setText hn v
      have hs : setValue v n0 = .ok (n0.setChildren (setText v n0.children)) := by
        unfold setValue
        rw [hany]
        rfl
      obtain ⟨e1, e2⟩ := h5 _ hs
      refine ⟨e2, ?_⟩
      intro v' hv'
      injection hv' with hv'
      subst hv'
      refine ⟨m, chg_obs_self h3, rest, ?_, ?_, ?_⟩
      · rw [e1]
        cases n0 with
        | text _ _ => cases h1
        | element nm as cs => exact r1
      · intro hr
        rcases chg_target h3 with h | h
        · rw [hr] at h; cases h
        · rw [r3, h.2]; rfl
      · intro n hr
        rcases chg_target h3 with h | h
        · rw [hr] at h; injection h with h; rw [h, r3]
        · rw [hr] at h; cases h.1
    · intro _ hc
      rw [hasElement_iff he.noIndex] at hc
      obtain ⟨n, c1, c2⟩ := hc
      rcases chg_target h3 with h | h
      · rw [c1] at h
        injection h with h
        subst h
        refine (h4 ?_).2
        unfold setValue
        rw [c2]
        rfl
      · rw [c1] at h; cases h.1

theorem items_other (L : List Item) (hL : ∀ e ∈ L, e.Good) : ∀ doc : Node, doc.isElement = true →
    (writeAll (L.map Item.write) doc).1.isElement = true ∧
    ∀ j q, (∀ e ∈ L, e.val ≠ none → Diverge e.sels q) → obs j q (writeAll (L.map Item.write) doc).1 = obs j q doc := by
  induction L with
  | nil => intro doc hd; exact ⟨hd, fun _ _ _ => rfl⟩
  | cons e L ih =>
    intro doc hd
    obtain ⟨h1, h2, _, _, _⟩ := item_write (hL e (List.mem_cons_self ..)) doc hd
    rw [List.map_cons, writeAll_cons]
    cases hw : (e.write doc).2 with
    | error _ => exact ⟨h1, fun j q hq => h2 j q (hq e (List.mem_cons_self ..))⟩
    | ok _ =>
      obtain ⟨i1, i2⟩ := ih (fun x hx => hL x (List.mem_cons_of_mem _ hx)) _ h1
      exact ⟨i1, fun j q hq => (i2 j q (fun x hx => hq x (List.mem_cons_of_mem _ hx))).trans (h2 j q (hq e (List.mem_cons_self ..)))⟩

theorem obs_resolve_congr {q : List Selector} {a b : Node} (h : ∀ j, obs j q a = obs j q b) : resolve a q = resolve b q := by
  rw [← obs_resolve, ← obs_resolve, h]

theorem items_ok (L : List Item) (hL : ∀ e ∈ L, e.Good) (hp : L.Pairwise fun a b => Diverge a.sels b.sels) : ∀ doc : Node, doc.isElement = true →
    (∀ e ∈ L, e.val ≠ none → OnlyText doc e.sels) →
    (writeAll (L.map Item.write) doc).2 = .ok () ∧
    ∀ e ∈ L, ∀ v, e.val = some v → ∃ m, (∀ j, obs j e.sels (writeAll (L.map Item.write) doc).1 = some m) ∧ PutAt doc e.sels v m := by
  induction L with
  | nil => intro doc _ _; exact ⟨rfl, nofun⟩
  | cons e L ih =>
    intro doc hd ht
    obtain ⟨h1, h2, h3, h4, _⟩ := item_write (hL e (List.mem_cons_self ..)) doc hd
    have hL' : ∀ x ∈ L, x.Good := fun x hx => hL x (List.mem_cons_of_mem _ hx)
    have hdiv : ∀ x ∈ L, Diverge e.sels x.sels := (List.pairwise_cons.1 hp).1
    have hok : (e.write doc).2 = .ok () := by
      by_cases hv : e.val = none
      · exact h3 hv
      · exact (h4 (ht e (List.mem_cons_self ..) hv)).1
    have hsame : ∀ x ∈ L, resolve (e.write doc).1 x.sels = resolve doc x.sels := fun x hx => obs_resolve_congr fun j => h2 j x.sels fun _ => hdiv x hx
    have ht' : ∀ x ∈ L, x.val ≠ none → OnlyText (e.write doc).1 x.sels := by
      intro x hx hv
      rw [onlyText_iff (hL' x hx).noIndex, hsame x hx, ← onlyText_iff (hL' x hx).noIndex]
      exact ht x (List.mem_cons_of_mem _ hx) hv
    obtain ⟨i1, i2⟩ := ih hL' (List.pairwise_cons.1 hp).2 _ h1 ht'
    have hw : writeAll ((e :: L).map Item.write) doc = writeAll (L.map Item.write) (e.write doc).1 := by
      rw [List.map_cons, writeAll_cons, hok]
    rw [hw]
    refine ⟨i1, ?_⟩
    intro x hx v hv
    rcases List.mem_cons.1 hx with rfl | hx
    · obtain ⟨m, m1, m2⟩ := (h4 (ht x (List.mem_cons_self ..) (by rw [hv]; nofun))).2 v hv
      refine ⟨m, fun j => ?_, m2⟩
      rw [(items_other L hL' _ h1).2 j x.sels (fun y hy _ => diverge_symm (hdiv y hy))]
      exact m1 j
    · obtain ⟨m, m1, rest, m2, m3, m4⟩ := i2 x hx v hv
      refine ⟨m, m1, rest, m2, ?_, ?_⟩
      · rw [← hsame x hx]; exact m3
      · rw [← hsame x hx]; exact m4

theorem items_error (L : List Item) (hL : ∀ e ∈ L, e.Good) (hp : L.Pairwise fun a b => Diverge a.sels b.sels) : ∀ doc : Node, doc.isElement = true →
    (∃ e ∈ L, e.val ≠ none ∧ HasElement doc e.sels) → (writeAll (L.map Item.write) doc).2 = .error () := by
  induction L with
  | nil => rintro doc _ ⟨e, he, _⟩; cases he
  | cons e L ih =>
    rintro doc hd ⟨x, hx, hv, hc⟩
    obtain ⟨h1, h2, _, _, h5⟩ := item_write (hL e (List.mem_cons_self ..)) doc hd
    have hL' : ∀ x ∈ L, x.Good := fun x hx => hL x (List.mem_cons_of_mem _ hx)
    rw [List.map_cons, writeAll_cons]
    cases hw : (e.write doc).2 with
    | error _ => rfl
    | ok _ =>
      rcases List.mem_cons.1 hx with rfl | hx
      · rw [h5 hv hc] at hw; cases hw
      · refine ih hL' (List.pairwise_cons.1 hp).2 _ h1 ⟨x, hx, hv, ?_⟩
        have hdiv := (List.pairwise_cons.1 hp).1 x hx
        rw [hasElement_iff (hL' x hx).noIndex] at hc ⊢
        rw [obs_resolve_congr fun j => h2 j x.sels fun _ => hdiv]
        exact hc

end Verif.Xml
