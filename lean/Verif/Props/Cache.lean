import Verif.Proof.Cache

/-!
# C29: the sub-block cache
-/

namespace Verif
open Spec

private theorem fits_head {s : LruState} {es : List CEvent} (h : s.Fits es) : (s.contents).bytes < 2 ^ 64 ∧ s.contents.length < 2 ^ 32 := by
  cases es with
  | nil => exact h
  | cons e es => exact h.1

private theorem step_rel {st : CState} {s : LruState} (h : CRel st.cache st.pending s) (e : CEvent) (hok : ∀ k it, e = .start k it → ItemOk it)
    (ht : s.time + 1 < 2 ^ 64) (hfit : (s.contents).bytes < 2 ^ 64 ∧ s.contents.length < 2 ^ 32) (hfit' : ((s.step e).2.contents).bytes < 2 ^ 64 ∧ (s.step e).2.contents.length < 2 ^ 32) :
    ∃ st', st.step e = some ((s.step e).1, st') ∧ CRel st'.cache st'.pending (s.step e).2 := by
  cases e with
  | start k it =>
    refine ⟨_, rfl, ?_⟩
    have hk := hok k it rfl
    exact {
      perm := h.perm
      sorted := h.sorted
      order := h.order
      before := fun q hq => Nat.lt_succ_of_lt (h.before q hq)
      ok := h.ok
      pend := by
        show st.pending ++ [(k, it, st.cache.counter)] = s.pending ++ [(k, it, s.time)]
        rw [h.pend, h.counter]
      pendBefore := by
        intro q hq
        rcases List.mem_append.1 hq with hq | hq
        · exact Nat.lt_succ_of_lt (h.pendBefore q hq)
        · rw [List.mem_singleton.1 hq]
          show st.cache.counter < s.time + 1
          rw [h.counter]
          omega
      pendNew := by
        intro q hq r hr
        rcases List.mem_append.1 hq with hq | hq
        · exact h.pendNew q hq r hr
        · rw [List.mem_singleton.1 hq]
          have := h.before r hr
          show st.cache.counter ≠ r.1
          rw [h.counter]
          omega
      pendDistinct := by
        show List.Pairwise _ (st.pending ++ [(k, it, st.cache.counter)])
        rw [List.pairwise_append]
        refine ⟨h.pendDistinct, by simp, ?_⟩
        intro a ha b hb
        rw [List.mem_singleton.1 hb]
        have := h.pendBefore a ha
        show a.2.2 ≠ st.cache.counter
        rw [h.counter]
        omega
      pendOk := by
        intro q hq
        rcases List.mem_append.1 hq with hq | hq
        · exact h.pendOk q hq
        · rw [List.mem_singleton.1 hq]
          exact hk
      counter := by
        show (st.cache.counter + 1) % 2 ^ 64 = s.time + 1
        rw [h.counter, Nat.mod_eq_of_lt ht]
      size := h.size
      count := h.count }
  | finish i =>
    rw [CState.step, LruState.step] at *
    cases hi : st.pending[i]? with
    | none =>
      rw [← h.pend, hi]
      exact ⟨st, rfl, h⟩
    | some p =>
      rw [← h.pend, hi] at hfit' ⊢
      dsimp only at hfit' ⊢
      obtain ⟨c', e1, e2⟩ := commit_rel h i p hi hfit.1 hfit'
      rw [← h.pend] at e2
      rw [e1]
      exact ⟨⟨c', st.pending.eraseIdx i⟩, rfl, e2⟩
  | get k =>
    obtain ⟨e1, e2⟩ := get_rel h k ht
    exact ⟨⟨(st.cache.get k).2, st.pending⟩, by rw [CState.step, e1], e2⟩
  | prune b n =>
    have hlen : st.cache.entries.length = s.contents.length := by rw [h.perm.length_eq, List.length_map]
    rw [CState.step, Cache.prune]
    by_cases hl : b ≠ 2 ^ 64 - 1 ∨ n ≠ 2 ^ 32 - 1
    · rw [if_pos hl]
      obtain ⟨c', e1, e2⟩ := prune_rel b n st.cache.entries.length h (by omega) hfit
      rw [e1]
      exact ⟨⟨c', st.pending⟩, rfl, e2⟩
    · rw [if_neg hl]
      refine ⟨st, rfl, ?_⟩
      have : (s.contents).prune b n = s.contents := by
        cases hc : s.contents with
        | nil => rfl
        | cons p l =>
          rw [Lru.prune, if_pos]
          rw [← hc]
          exact ⟨by omega, by omega⟩
      rw [LruState.step, this]
      exact h
  | stats =>
    refine ⟨st, ?_, h⟩
    rw [CState.step, h.size, h.count]
    rfl

private theorem run_rel (es : List CEvent) : ∀ {st : CState} {s : LruState}, CRel st.cache st.pending s → (∀ k it, CEvent.start k it ∈ es → ItemOk it) →
    s.time + es.length < 2 ^ 64 → s.Fits es → ∃ st', st.run es = some ((s.run es).1, st') ∧ CRel st'.cache st'.pending (s.run es).2 := by
  induction es with
  | nil => intro st s h _ _ _; exact ⟨st, rfl, h⟩
  | cons e es ih =>
    intro st s h hok ht hfit
    simp only [List.length_cons] at ht
    obtain ⟨st1, e1, r1⟩ := step_rel h e (fun k it hk => hok k it (by rw [hk]; exact List.mem_cons_self)) (by omega) hfit.1 (fits_head hfit.2)
    have htime : (s.step e).2.time ≤ s.time + 1 := by
      cases e <;> simp only [LruState.step]
      · exact Nat.le_refl _
      · split <;> simp
      · split <;> simp
      · simp
      · simp
    obtain ⟨st2, e2, r2⟩ := ih r1 (fun k it hk => hok k it (List.mem_cons_of_mem _ hk)) (by omega) hfit.2
    refine ⟨st2, ?_, r2⟩
    rw [CState.run, e1]
    dsimp only
    rw [e2]
    rfl

private theorem init_rel : CRel (CState.mk Cache.init []).cache [] ⟨[], 0, []⟩ := {
  perm := .refl _
  sorted := List.Pairwise.nil
  order := List.Pairwise.nil
  before := by simp
  ok := by simp
  pend := rfl
  pendBefore := by simp
  pendNew := by simp
  pendDistinct := List.Pairwise.nil
  pendOk := by simp
  counter := rfl
  size := rfl
  count := rfl }

/-- **C29 (any number of threads).** For every interleaving of calls of `Add`, `Get`, `Prune` and `GetStatistics`, every call returns what the specification returns: `Get` the value last stored for the key
unless it was pruned, the statistics the number and the memory of the entries present, `Prune` removes in the order of last use. -/
theorem C29_concurrent_refinement (es : List CEvent) (hok : ∀ k it, CEvent.start k it ∈ es → ItemOk it) (hlen : es.length < 2 ^ 64) (hfit : (LruState.mk [] 0 []).Fits es) :
    ∃ st', (CState.mk Cache.init []).run es = some (((LruState.mk [] 0 []).run es).1, st') := by
  obtain ⟨st', h, _⟩ := run_rel es init_rel hok (by show 0 + _ < _; omega) hfit
  exact ⟨st', h⟩

/-- **C29 (what the specification's `put` means).** A stored value is found, other keys are not affected. -/
theorem C29_put_find (l : Lru) (t : Nat) (k : Int) (it : CItem) (j : Int) (hk : List.Pairwise (fun a b => a.2.1 ≠ b.2.1) l) :
    (l.put t k it).find j = if j = k then some it else l.find j := by
  have hperm := put_perm l t k it
  have nodup : List.Pairwise (fun a b => a.2.1 ≠ b.2.1) ((t, k, it) :: l.filter (fun p => p.2.1 ≠ k)) := by
    rw [List.pairwise_cons]
    refine ⟨fun q hq e => ?_, hk.filter _⟩
    have := (List.mem_filter.1 hq).2
    simp only [ne_eq, decide_not, Bool.not_eq_eq_eq_not, Bool.not_true, decide_eq_false_iff_not] at this
    exact this e.symm
  have unique : ∀ {m : Lru}, List.Pairwise (fun a b => a.2.1 ≠ b.2.1) m → ∀ v, m.find j = some v ↔ ∃ t, (t, j, v) ∈ m := by
    intro m hm v
    induction m with
    | nil => simp [Lru.find]
    | cons p m ih =>
      obtain ⟨h1, h2⟩ := List.pairwise_cons.1 hm
      by_cases hp : p.2.1 = j
      · simp only [Lru.find, List.find?_cons_of_pos (p := fun p : Nat × Int × CItem => decide (p.2.1 = j)) (l := m) (a := p) (by simpa using hp), Option.map_some, Option.some.injEq]
        constructor
        · intro e
          refine ⟨p.1, ?_⟩
          rw [← e, ← hp]
          exact List.mem_cons_self
        · rintro ⟨t, h⟩
          rcases List.mem_cons.1 h with h | h
          · rw [← h]
          · exact absurd hp (h1 _ h)
      · have e : Lru.find (p :: m) j = Lru.find m j := by
          simp [Lru.find, hp]
        rw [e, ih h2]
        constructor
        · rintro ⟨t, h⟩
          exact ⟨t, List.mem_cons_of_mem _ h⟩
        · rintro ⟨t, h⟩
          rcases List.mem_cons.1 h with h | h
          · exact absurd (by rw [← h]) hp
          · exact ⟨t, h⟩
  have hput : List.Pairwise (fun a b => a.2.1 ≠ b.2.1) (l.put t k it) := nodup.perm hperm.symm (fun hab e => hab e.symm)
  refine Option.ext (fun v => ?_)
  rw [unique hput]
  by_cases hj : j = k
  · subst hj
    rw [if_pos rfl, Option.some.injEq]
    constructor
    · rintro ⟨t', h⟩
      rcases List.mem_cons.1 (hperm.mem_iff.1 h) with h | h
      · cases h; rfl
      · have := (List.mem_filter.1 h).2
        simp at this
    · rintro rfl
      exact ⟨t, hperm.mem_iff.2 List.mem_cons_self⟩
  · rw [if_neg hj, unique hk]
    constructor
    · rintro ⟨t', h⟩
      rcases List.mem_cons.1 (hperm.mem_iff.1 h) with h | h
      · cases h; exact absurd rfl hj
      · exact ⟨t', (List.mem_filter.1 h).1⟩
    · rintro ⟨t', h⟩
      refine ⟨t', hperm.mem_iff.2 (List.mem_cons_of_mem _ (List.mem_filter.2 ⟨h, ?_⟩))⟩
      simpa using hj

/-- **C29 (pruning).** Pruning drops a number of least recently used entries: the limits hold afterwards, and dropping fewer entries would not be enough. -/
theorem C29_prune_minimal (l : Lru) (b n : Nat) : ∃ k, l.prune b n = l.drop k ∧ (l.prune b n).Within b n ∧ ∀ j < k, ¬ Lru.Within (l.drop j) b n := by
  induction l with
  | nil => exact ⟨0, rfl, ⟨by simp [Lru.prune, Lru.bytes], by simp [Lru.prune]⟩, by omega⟩
  | cons p l ih =>
    rw [Lru.prune]
    by_cases hw : Lru.Within (p :: l) b n
    · rw [if_pos hw]
      exact ⟨0, rfl, hw, by omega⟩
    · rw [if_neg hw]
      obtain ⟨k, h1, h2, h3⟩ := ih
      refine ⟨k + 1, h1, h2, ?_⟩
      intro j hj
      cases j with
      | zero => exact hw
      | succ j => exact h3 j (by omega)

/-! ## One thread -/

private def untime (l : Lru) : List (Int × CItem) := l.map (·.2)

private theorem untime_filter (l : Lru) (k : Int) : untime (l.filter (fun p => p.2.1 ≠ k)) = (untime l).filter (fun p => p.1 ≠ k) := by
  unfold untime
  rw [List.filter_map]
  rfl

private theorem put_last (l : Lru) (t : Nat) (k : Int) (it : CItem) (h : ∀ p ∈ l, p.1 < t) : untime (l.put t k it) = (untime l).filter (fun p => p.1 ≠ k) ++ [(k, it)] := by
  have hf : ∀ p ∈ l.filter (fun p => p.2.1 ≠ k), decide (p.1 < t) = true := fun p hp => decide_eq_true (h p (List.mem_filter.1 hp).1)
  unfold Lru.put
  rw [← untime_filter]
  revert hf
  generalize l.filter (fun p => p.2.1 ≠ k) = r
  intro hf
  induction r with
  | nil => rfl
  | cons p r ih =>
    have hp := hf p List.mem_cons_self
    rw [List.takeWhile_cons_of_pos (p := fun p : Nat × Int × CItem => decide (p.1 < t)) hp, List.dropWhile_cons_of_pos (p := fun p : Nat × Int × CItem => decide (p.1 < t)) hp, List.cons_append]
    show p.2 :: untime _ = p.2 :: (untime r ++ _)
    rw [ih (fun q hq => hf q (List.mem_cons_of_mem _ hq))]

private theorem untime_prune (l : Lru) (b n : Nat) : untime (l.prune b n) = recencyPrune b n (untime l) := by
  induction l with
  | nil => rfl
  | cons p l ih =>
    have e : recencyBytes (untime (p :: l)) = Lru.bytes (p :: l) := by simp [recencyBytes, Lru.bytes, untime, Function.comp_def]
    have e2 : (untime (p :: l)).length = (p :: l).length := by simp [untime]
    rw [Lru.prune]
    show _ = recencyPrune b n (p.2 :: untime l)
    rw [recencyPrune]
    by_cases hw : Lru.Within (p :: l) b n
    · rw [if_pos hw, if_pos]
      · rfl
      · exact ⟨e ▸ hw.1, e2 ▸ hw.2⟩
    · rw [if_neg hw, if_neg, ih]
      intro hc
      exact hw ⟨e ▸ hc.1, e2 ▸ hc.2⟩

private theorem lru_append (s : LruState) (a b : List CEvent) : s.run (a ++ b) = ((s.run a).1 ++ ((s.run a).2.run b).1, ((s.run a).2.run b).2) := by
  induction a generalizing s with
  | nil => rfl
  | cons e a ih =>
    rw [List.cons_append, LruState.run, ih]
    rfl

private theorem seq_step (s : LruState) (hp : s.pending = []) (hb : ∀ p ∈ s.contents, p.1 < s.time) (o : COp) :
    (s.run o.events).1 = (recencyStep (untime s.contents) o).1 ∧ untime (s.run o.events).2.contents = (recencyStep (untime s.contents) o).2 ∧ (s.run o.events).2.pending = [] ∧
      (∀ p ∈ (s.run o.events).2.contents, p.1 < (s.run o.events).2.time) ∧ (s.run o.events).2.time ≤ s.time + o.events.length := by
  cases o with
  | add k it =>
    have e : s.run (COp.add k it).events = ([.unit, .unit], ⟨s.contents.put s.time k it, s.time + 1, []⟩) := by
      simp [COp.events, LruState.run, LruState.step, hp]
    rw [e]
    refine ⟨rfl, put_last _ _ _ _ hb, rfl, ?_, by simp [COp.events]⟩
    intro p hq
    exact (mem_put hq).elim (fun e => by rw [e]; exact Nat.lt_succ_self _) (fun hq => Nat.lt_succ_of_lt (hb p hq))
  | get k =>
    have hfind : (List.find? (fun p => decide (p.1 = k)) (untime s.contents)).map (·.2) = s.contents.find k := by
      unfold untime Lru.find
      rw [List.find?_map, Option.map_map]
      rfl
    simp only [COp.events, LruState.run, LruState.step, recencyStep]
    cases hf : List.find? (fun p => decide (p.1 = k)) (untime s.contents) with
    | none =>
      rw [hf] at hfind
      simp only [Option.map_none] at hfind
      rw [← hfind]
      exact ⟨rfl, rfl, hp, hb, by simp⟩
    | some q =>
      rw [hf] at hfind
      simp only [Option.map_some] at hfind
      rw [← hfind]
      refine ⟨rfl, put_last _ _ _ _ hb, hp, ?_, by simp⟩
      intro p hq
      exact (mem_put hq).elim (fun e => by rw [e]; exact Nat.lt_succ_self _) (fun hq => Nat.lt_succ_of_lt (hb p hq))
  | prune b n =>
    refine ⟨rfl, untime_prune _ _ _, hp, ?_, by simp [COp.events, LruState.run, LruState.step]⟩
    intro p hq
    obtain ⟨k, h1, _⟩ := C29_prune_minimal s.contents b n
    have hq' : p ∈ (s.contents).prune b n := hq
    rw [h1] at hq'
    exact hb p (List.mem_of_mem_drop hq')
  | stats =>
    refine ⟨?_, rfl, hp, hb, by simp [COp.events, LruState.run, LruState.step]⟩
    simp [COp.events, LruState.run, LruState.step, recencyStep, recencyBytes, Lru.bytes, untime, Function.comp_def]

private theorem untime_bytes (l : Lru) : recencyBytes (untime l) = Lru.bytes l ∧ (untime l).length = l.length := by
  refine ⟨?_, by simp [untime]⟩
  simp [recencyBytes, Lru.bytes, untime, Function.comp_def]

private theorem seq_run (os : List COp) : ∀ (s : LruState), s.pending = [] → (∀ p ∈ s.contents, p.1 < s.time) →
    (s.run (os.flatMap COp.events)).1 = (recencyRun (untime s.contents) os).1 ∧ (recencyFits (untime s.contents) os → s.Fits (os.flatMap COp.events)) := by
  induction os with
  | nil =>
    intro s _ _
    refine ⟨rfl, fun h => ?_⟩
    rw [recencyFits, (untime_bytes _).1, (untime_bytes _).2] at h
    exact h
  | cons o os ih =>
    intro s hp hb
    obtain ⟨h1, h2, h3, h4, _⟩ := seq_step s hp hb o
    obtain ⟨i1, i2⟩ := ih _ h3 h4
    rw [List.flatMap_cons, lru_append, h1, i1, h2]
    refine ⟨rfl, fun h => ?_⟩
    rw [recencyFits, (untime_bytes _).1, (untime_bytes _).2, ← h2] at h
    have hrest := i2 h.2
    have happ : ∀ (a b : List CEvent) (s : LruState), a ≠ [] → ((s.contents).bytes < 2 ^ 64 ∧ s.contents.length < 2 ^ 32) →
        (∀ c d : List CEvent, a = c ++ d → c ≠ [] → d ≠ [] → (((s.run c).2.contents).bytes < 2 ^ 64 ∧ (s.run c).2.contents.length < 2 ^ 32)) → ((s.run a).2).Fits b → s.Fits (a ++ b) := by
      intro a
      induction a with
      | nil => intro b s h; exact absurd rfl h
      | cons e a iha =>
        intro b s _ hs hmid hb
        refine ⟨hs, ?_⟩
        cases a with
        | nil => exact hb
        | cons e' a =>
          refine iha b _ (by simp) (hmid [e] (e' :: a) rfl (by simp) (by simp)) ?_ hb
          intro c d hcd hc hd
          exact hmid (e :: c) d (by rw [hcd]; rfl) (by simp) hd
    refine happ _ _ s ?_ h.1 ?_ hrest
    · cases o <;> simp [COp.events]
    · intro c d hcd hc hd
      cases o with
      | add k it =>
        have hc1 : c = [.start k it] := by
          match c, hc with
          | [x], _ => simp [COp.events] at hcd; rw [← hcd.1]
          | x :: y :: c, _ =>
            simp only [COp.events, List.cons_append, List.cons.injEq] at hcd
            exact absurd (List.append_eq_nil_iff.1 hcd.2.2.symm).2 hd
        subst hc1
        exact h.1
      | get k =>
        cases c with
        | nil => exact absurd rfl hc
        | cons x c => simp [COp.events] at hcd; exact absurd hcd.2.2 hd
      | prune b n =>
        cases c with
        | nil => exact absurd rfl hc
        | cons x c => simp [COp.events] at hcd; exact absurd hcd.2.2 hd
      | stats =>
        cases c with
        | nil => exact absurd rfl hc
        | cons x c => simp [COp.events] at hcd; exact absurd hcd.2.2 hd

/-- **C29 (one thread).** For every history of calls, the cache returns what a recency list returns: `Add` and `Get` move the key to the end, `Prune` drops from the front only as long as a limit is
exceeded, and the statistics are those of the list. -/
theorem C29_sequential_refinement (os : List COp) (hok : ∀ k it, COp.add k it ∈ os → ItemOk it) (hlen : os.length < 2 ^ 63) (hfit : recencyFits [] os) :
    ∃ st', (CState.mk Cache.init []).run (os.flatMap COp.events) = some ((recencyRun [] os).1, st') := by
  obtain ⟨h1, h2⟩ := seq_run os ⟨[], 0, []⟩ rfl (by simp)
  have hl : (os.flatMap COp.events).length < 2 ^ 64 := by
    have : ∀ l : List COp, (l.flatMap COp.events).length ≤ 2 * l.length := by
      intro l
      induction l with
      | nil => simp
      | cons o l ih =>
        rw [List.flatMap_cons, List.length_append, List.length_cons]
        have : o.events.length ≤ 2 := by cases o <;> simp [COp.events]
        omega
    have := this os
    omega
  have hst : ∀ k it, CEvent.start k it ∈ os.flatMap COp.events → ItemOk it := by
    intro k it h
    rw [List.mem_flatMap] at h
    obtain ⟨o, ho, h⟩ := h
    cases o with
    | add k' it' =>
      simp only [COp.events, List.mem_cons, CEvent.start.injEq, List.not_mem_nil, reduceCtorEq, or_false] at h
      obtain ⟨rfl, rfl⟩ := h
      exact hok _ _ ho
    | get k' => simp [COp.events] at h
    | prune b n => simp [COp.events] at h
    | stats => simp [COp.events] at h
  obtain ⟨st', h⟩ := C29_concurrent_refinement _ hst hl (h2 hfit)
  exact ⟨st', by rw [h, h1]; rfl⟩

/-- A small item. -/
def exItem (id : Nat) (masked : Bool) : CItem := ⟨some ⟨id, 10, 20, .Gray16⟩, if masked then some ⟨id, 10, 20⟩ else none⟩

theorem exItem_ok (id : Nat) (masked : Bool) : ItemOk (exItem id masked) := by
  refine ⟨⟨_, rfl, by simp [bytesPerPel]⟩, ?_, ?_⟩
  · intro m hm
    cases masked <;> simp [exItem] at hm
    rw [← hm]
    show 10 + 7 < 2 ^ 32
    decide
  · cases masked <;> simp [exItem, itemBytes, bytesPerPel]

example : recencyFits [] [.add 1 (exItem 0 false), .add 2 (exItem 1 true), .get 1, .add 2 (exItem 2 false), .prune 500 10, .get 1, .stats] := by
  simp [recencyFits, recencyStep, recencyBytes, recencyPrune, itemBytes, exItem, bytesPerPel]

example : ((CState.mk Cache.init []).run (([.add 1 (exItem 0 false), .add 2 (exItem 1 true), .get 1, .prune 500 10, .get 2, .get 1, .stats] : List COp).flatMap COp.events)).map (·.1) =
    some [.unit, .unit, .unit, .unit, .item (exItem 0 false), .unit, .item ⟨none, none⟩, .item (exItem 0 false), .stats 400 1] := by
  decide +kernel

/-- Two calls of `Add` overlap: the one which was started later counts as used later. -/
example : (LruState.mk [] 0 []).Fits [.start 1 (exItem 0 false), .start 2 (exItem 1 true), .finish 1, .finish 0, .prune 500 10, .get 2, .get 1] ∧
    ((LruState.mk [] 0 []).run [.start 1 (exItem 0 false), .start 2 (exItem 1 true), .finish 1, .finish 0, .prune 500 10, .get 2, .get 1]).1 =
      [.unit, .unit, .unit, .unit, .unit, .item (exItem 1 true), .item ⟨none, none⟩] := by
  constructor
  · simp [LruState.Fits, LruState.step, Lru.put, Lru.prune, Lru.bytes, itemBytes, exItem, bytesPerPel, Lru.Within, Lru.find]
  · decide +kernel

/-- **C29 (outside of the specification):** adding an item without bitmap is undefined behaviour. -/
theorem C29_null_bitmap_undefined (c : Cache) (k : Int) (mask : Option CMask) (stamp : Nat) : c.commit k ⟨none, mask⟩ stamp = none := rfl

end Verif
