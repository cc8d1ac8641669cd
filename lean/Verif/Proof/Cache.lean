import Verif.Spec.Cache
import Verif.Proof.Stats

namespace Verif
open Spec

/-- The item's size is computed correctly. -/
theorem itemSize_ok {it : CItem} (h : ItemOk it) : itemSize it = some (itemBytes it) := by
  obtain ⟨⟨b, hb, hp⟩, hm, hs⟩ := h
  cases hn : bytesPerPel b.pixelType with
  | none => exact absurd hn hp
  | some n =>
    have hn0 : 0 < n := by
      revert hn
      cases b.pixelType <;> simp [bytesPerPel] <;> omega
    unfold itemSize
    unfold itemBytes at *
    rw [hb] at hs ⊢
    simp only [hn, Option.getD_some] at hs ⊢
    have h1 : b.w * b.h ≤ b.w * b.h * n := Nat.le_mul_of_pos_right _ hn0
    cases hmk : it.mask with
    | none =>
      rw [hmk] at hs
      dsimp only at hs
      simp only [maskSize]
      rw [Nat.mod_eq_of_lt (show b.w * b.h < 2 ^ 64 by omega), Nat.mod_eq_of_lt (show b.w * b.h * n < 2 ^ 64 by omega), Nat.mod_eq_of_lt (by omega)]
    | some m =>
      rw [hmk] at hs
      dsimp only at hs
      have := hm m hmk
      simp only [maskSize]
      rw [Nat.mod_eq_of_lt (show b.w * b.h < 2 ^ 64 by omega), Nat.mod_eq_of_lt (show b.w * b.h * n < 2 ^ 64 by omega), Nat.mod_eq_of_lt this,
        Nat.mod_eq_of_lt (show (m.w + 7) / 8 * m.h < 2 ^ 64 by omega), Nat.mod_eq_of_lt (by omega)]

/-- An entry of the specification as an entry of the cache. -/
def toEntry (p : Nat × Int × CItem) : Int × CEntry := (p.2.1, ⟨p.2.2, p.1⟩)

theorem mapErase_of_none {α : Type} {m : List (Int × α)} {k : Int} (h : mapFind m k = none) : mapErase m k = m := by
  unfold mapErase
  rw [List.filter_eq_self]
  intro p hp
  unfold mapFind at h
  rw [Option.map_eq_none_iff, List.find?_eq_none] at h
  simpa using h p hp

theorem mapInsert_perm {α : Type} (m : List (Int × α)) (k : Int) (v : α) (h : mapFind m k = none) : (mapInsert m k v).Perm ((k, v) :: m) := by
  induction m with
  | nil => exact .refl _
  | cons p r ih =>
    obtain ⟨k', v'⟩ := p
    rw [mapFind_cons] at h
    split at h
    · cases h
    · rename_i hk
      rw [mapInsert]
      split
      · exact .refl _
      · rw [if_neg (fun e => hk e.symm)]
        exact ((ih h).cons _).trans (.swap _ _ _)

theorem mapSet_erase_perm {α : Type} (m : List (Int × α)) (hs : KeysSorted m) (k : Int) (v e : α) (h : mapFind m k = some e) : (mapSet m k v).Perm ((k, v) :: mapErase m k) := by
  induction m with
  | nil => simp [mapFind] at h
  | cons p r ih =>
    obtain ⟨k', v'⟩ := p
    have hs' : KeysSorted r := (List.pairwise_cons.1 hs).2
    by_cases hk : k' = k
    · subst hk
      have hne : ∀ p ∈ r, p.1 ≠ k' := fun p hp e => by
        have := (List.pairwise_cons.1 hs).1 p hp
        simp only at this
        omega
      have h1 : mapSet r k' v = r := by
        unfold mapSet
        conv => rhs; rw [← List.map_id r]
        refine List.map_congr_left (fun p hp => ?_)
        rw [if_neg (hne p hp)]
        rfl
      have h2 : mapErase ((k', v') :: r) k' = r := by
        unfold mapErase
        rw [List.filter_cons_of_neg (by simp), List.filter_eq_self]
        intro p hp
        simpa using hne p hp
      rw [h2]
      have : mapSet ((k', v') :: r) k' v = (k', v) :: mapSet r k' v := by simp [mapSet]
      rw [this, h1]
    · rw [mapFind_cons, if_neg hk] at h
      have h3 : mapSet ((k', v') :: r) k v = (k', v') :: mapSet r k v := by simp [mapSet, hk]
      have h4 : mapErase ((k', v') :: r) k = (k', v') :: mapErase r k := by
        unfold mapErase
        rw [List.filter_cons_of_pos (by simpa using hk)]
      rw [h3, h4]
      exact ((ih hs' h).cons _).trans (.swap _ _ _)

theorem mapSet_self {α : Type} (m : List (Int × α)) (hs : KeysSorted m) (k : Int) (e : α) (h : mapFind m k = some e) : mapSet m k e = m := by
  unfold mapSet
  conv => rhs; rw [← List.map_id m]
  refine List.map_congr_left (fun p hp => ?_)
  split
  · rename_i hk
    obtain ⟨a, b⟩ := p
    dsimp only at hk
    subst hk
    have := mapFind_of_mem hs hp
    rw [h] at this
    cases this
    rfl
  · rfl

theorem put_perm (l : Lru) (t : Nat) (k : Int) (it : CItem) : (l.put t k it).Perm ((t, k, it) :: l.filter (fun p => p.2.1 ≠ k)) := by
  unfold Lru.put
  refine List.perm_middle.trans ?_
  rw [List.takeWhile_append_dropWhile]

theorem bytes_perm {l l' : Lru} (h : l.Perm l') : l.bytes = l'.bytes := (h.map _).sum_nat

theorem bytes_cons (p : Nat × Int × CItem) (l : Lru) : Lru.bytes (p :: l) = itemBytes p.2.2 + Lru.bytes l := by simp [Lru.bytes]

/-- The relation between the cache and its specification. -/
structure CRel (c : Cache) (pending : List (Int × CItem × Nat)) (s : LruState) : Prop where
  perm : c.entries.Perm (s.contents.map toEntry)
  sorted : KeysSorted c.entries
  order : List.Pairwise (fun a b => a.1 < b.1) s.contents
  before : ∀ p ∈ s.contents, p.1 < s.time
  ok : ∀ p ∈ s.contents, ItemOk p.2.2
  pend : pending = s.pending
  pendBefore : ∀ p ∈ pending, p.2.2 < s.time
  pendNew : ∀ p ∈ pending, ∀ q ∈ s.contents, p.2.2 ≠ q.1
  pendDistinct : List.Pairwise (fun a b => a.2.2 ≠ b.2.2) pending
  pendOk : ∀ p ∈ pending, ItemOk p.2.1
  counter : c.counter = s.time
  size : c.size = s.contents.bytes
  count : c.count = s.contents.length

theorem keys_nodup {c : Cache} {pending : List (Int × CItem × Nat)} {s : LruState} (h : CRel c pending s) : List.Pairwise (fun a b => a.2.1 ≠ b.2.1) s.contents := by
  have h1 : List.Pairwise (fun (a b : Int × CEntry) => a.1 ≠ b.1) c.entries := h.sorted.imp (fun hab e => by omega)
  have h2 : List.Pairwise (fun (a b : Int × CEntry) => a.1 ≠ b.1) (s.contents.map toEntry) := h1.perm h.perm (fun hab => fun e => hab e.symm)
  rw [List.pairwise_map] at h2
  exact h2

theorem erase_perm {c : Cache} {pending : List (Int × CItem × Nat)} {s : LruState} (h : CRel c pending s) (k : Int) :
    (mapErase c.entries k).Perm ((s.contents.filter (fun p => p.2.1 ≠ k)).map toEntry) := by
  have := h.perm.filter (fun p => p.1 ≠ k)
  rw [List.filter_map] at this
  exact this

theorem find_rel {c : Cache} {pending : List (Int × CItem × Nat)} {s : LruState} (h : CRel c pending s) (k : Int) :
    s.contents.find k = (mapFind c.entries k).map (·.item) := by
  cases hf : mapFind c.entries k with
  | none =>
    have he := mapErase_of_none hf
    unfold Lru.find
    rw [Option.map_none, Option.map_eq_none_iff, List.find?_eq_none]
    intro p hp hk
    have : toEntry p ∈ c.entries := h.perm.mem_iff.2 (List.mem_map_of_mem hp)
    rw [← he] at this
    unfold mapErase at this
    rw [List.mem_filter] at this
    simp [toEntry] at this hk
    exact of_decide_eq_true this.2 hk
  | some e =>
    have hm := h.perm.mem_iff.1 (mem_of_mapFind hf)
    rw [List.mem_map] at hm
    obtain ⟨p, hp, he⟩ := hm
    unfold Lru.find
    cases hg : List.find? (fun p => decide (p.2.1 = k)) s.contents with
    | none =>
      rw [List.find?_eq_none] at hg
      have := hg p hp
      simp [toEntry] at he this
      exact absurd he.1 this
    | some q =>
      have hq := List.mem_of_find?_eq_some hg
      have hqk := List.find?_some hg
      have : toEntry q ∈ c.entries := h.perm.mem_iff.2 (List.mem_map_of_mem hq)
      have hqk' : q.2.1 = k := by simpa using hqk
      have h5 := mapFind_of_mem h.sorted (show (q.2.1, (⟨q.2.2, q.1⟩ : CEntry)) ∈ c.entries from this)
      rw [hqk', hf] at h5
      cases h5
      rfl

theorem put_order {l : Lru} (h : List.Pairwise (fun a b => a.1 < b.1) l) (t : Nat) (k : Int) (it : CItem) (ht : ∀ p ∈ l, p.1 ≠ t) :
    List.Pairwise (fun a b => a.1 < b.1) (l.put t k it) := by
  have hf : List.Pairwise (fun a b => a.1 < b.1) (l.filter (fun p => p.2.1 ≠ k)) := h.filter _
  have hne : ∀ p ∈ l.filter (fun p => p.2.1 ≠ k), p.1 ≠ t := fun p hp => ht p (List.mem_filter.1 hp).1
  unfold Lru.put
  revert hf hne
  generalize l.filter (fun p => p.2.1 ≠ k) = r
  intro hf hne
  induction r with
  | nil => simp
  | cons p r ih =>
    obtain ⟨h1, h2⟩ := List.pairwise_cons.1 hf
    by_cases hp : p.1 < t
    · rw [List.takeWhile_cons_of_pos (by simpa using hp), List.dropWhile_cons_of_pos (by simpa using hp), List.cons_append, List.pairwise_cons]
      refine ⟨?_, ih h2 (fun q hq => hne q (List.mem_cons_of_mem _ hq))⟩
      intro q hq
      have hq' := (List.perm_middle (l₁ := r.takeWhile (fun p => p.1 < t))).mem_iff.1 hq
      rw [List.takeWhile_append_dropWhile] at hq'
      rcases List.mem_cons.1 hq' with rfl | hq'
      · exact hp
      · exact h1 q hq'
    · rw [List.takeWhile_cons_of_neg (by simpa using hp), List.dropWhile_cons_of_neg (by simpa using hp), List.nil_append, List.pairwise_cons]
      refine ⟨?_, hf⟩
      intro q hq
      have := hne p List.mem_cons_self
      rcases List.mem_cons.1 hq with rfl | hq
      · show t < q.1; omega
      · have := h1 q hq
        show t < q.1
        omega

theorem mem_put {l : Lru} {t : Nat} {k : Int} {it : CItem} {p : Nat × Int × CItem} (h : p ∈ l.put t k it) : p = (t, k, it) ∨ p ∈ l := by
  have := (put_perm l t k it).mem_iff.1 h
  rcases List.mem_cons.1 this with h | h
  · exact .inl h
  · exact .inr (List.mem_filter.1 h).1

/-- The effect on the entries of storing a value. -/
theorem stored_perm {c : Cache} {pending : List (Int × CItem × Nat)} {s : LruState} (h : CRel c pending s) (k : Int) (it : CItem) (t : Nat) (m' : List (Int × CEntry))
    (hm : m'.Perm ((k, ⟨it, t⟩) :: mapErase c.entries k)) : m'.Perm ((s.contents.put t k it).map toEntry) := by
  refine hm.trans ?_
  refine ((erase_perm h k).cons _).trans ?_
  exact ((put_perm s.contents t k it).map toEntry).symm

/-- Contents = the removed entry and the rest. -/
theorem removed_perm {c : Cache} {pending : List (Int × CItem × Nat)} {s : LruState} (h : CRel c pending s) (k : Int) (e : CEntry) (hf : mapFind c.entries k = some e) :
    (s.contents).bytes = itemBytes e.item + Lru.bytes (s.contents.filter (fun p => p.2.1 ≠ k)) ∧
      s.contents.length = 1 + (s.contents.filter (fun p => p.2.1 ≠ k)).length ∧ ItemOk e.item := by
  have h1 := mapSet_erase_perm c.entries h.sorted k e e hf
  rw [mapSet_self c.entries h.sorted k e hf] at h1
  have h2 : (s.contents.map toEntry).Perm (((e.stamp, k, e.item) :: s.contents.filter (fun p => p.2.1 ≠ k)).map toEntry) :=
    h.perm.symm.trans (h1.trans ((erase_perm h k).cons _))
  have h3 : (s.contents).Perm ((e.stamp, k, e.item) :: s.contents.filter (fun p => p.2.1 ≠ k)) := by
    have hinv : ∀ l : Lru, (l.map toEntry).map (fun p => (p.2.stamp, p.1, p.2.item)) = l := by
      intro l
      rw [List.map_map]
      conv => rhs; rw [← List.map_id l]
      rfl
    have := h2.map (fun p => (p.2.stamp, p.1, p.2.item))
    rw [hinv, hinv] at this
    exact this
  refine ⟨by rw [bytes_perm h3, bytes_cons], by rw [h3.length_eq, List.length_cons]; omega, ?_⟩
  exact h.ok _ (h3.mem_iff.2 List.mem_cons_self)

theorem none_filter {c : Cache} {pending : List (Int × CItem × Nat)} {s : LruState} (h : CRel c pending s) (k : Int) (hf : mapFind c.entries k = none) :
    s.contents.filter (fun p => p.2.1 ≠ k) = s.contents := by
  rw [List.filter_eq_self]
  intro p hp
  have : toEntry p ∈ c.entries := h.perm.mem_iff.2 (List.mem_map_of_mem hp)
  rw [← mapErase_of_none hf] at this
  unfold mapErase at this
  rw [List.mem_filter] at this
  exact decide_eq_true (of_decide_eq_true this.2)

theorem put_sizes (l : Lru) (t : Nat) (k : Int) (it : CItem) :
    (l.put t k it).bytes = itemBytes it + Lru.bytes (l.filter (fun p => p.2.1 ≠ k)) ∧ (l.put t k it).length = 1 + (l.filter (fun p => p.2.1 ≠ k)).length := by
  refine ⟨by rw [bytes_perm (put_perm l t k it), bytes_cons], by rw [(put_perm l t k it).length_eq, List.length_cons]; omega⟩

/-- The locked part of `Add`. -/
theorem commit_rel {c : Cache} {pending : List (Int × CItem × Nat)} {s : LruState} (h : CRel c pending s) (i : Nat) (p : Int × CItem × Nat) (hi : pending[i]? = some p)
    (hfit : (s.contents).bytes < 2 ^ 64) (hfit' : (s.contents.put p.2.2 p.1 p.2.1).bytes < 2 ^ 64 ∧ (s.contents.put p.2.2 p.1 p.2.1).length < 2 ^ 32) :
    ∃ c', c.commit p.1 p.2.1 p.2.2 = some c' ∧ CRel c' (pending.eraseIdx i) ⟨s.contents.put p.2.2 p.1 p.2.1, s.time, s.pending.eraseIdx i⟩ := by
  have hp : p ∈ pending := List.mem_of_getElem? hi
  have hok := h.pendOk p hp
  have hlt := h.pendBefore p hp
  have hnew : ∀ q ∈ s.contents, q.1 ≠ p.2.2 := fun q hq e => h.pendNew p hp q hq e.symm
  have hsub : List.Sublist (pending.eraseIdx i) pending := List.eraseIdx_sublist pending i
  have hlen : i < pending.length := by
    rcases Nat.lt_or_ge i pending.length with h | h
    · exact h
    · rw [List.getElem?_eq_none h] at hi; cases hi
  have hdist : ∀ q ∈ pending.eraseIdx i, q.2.2 ≠ p.2.2 := by
    have e : pending.Perm (p :: pending.eraseIdx i) := by
      have hpi : pending[i] = p := by rw [List.getElem?_eq_getElem hlen] at hi; exact Option.some.inj hi
      rw [← hpi]
      exact (List.getElem_cons_eraseIdx_perm hlen).symm
    have := h.pendDistinct.perm e (fun hab => fun e => hab e.symm)
    intro q hq e
    exact (List.pairwise_cons.1 this).1 q hq e.symm
  have rel : ∀ m' sz cnt, m'.Perm ((p.1, ⟨p.2.1, p.2.2⟩) :: mapErase c.entries p.1) → KeysSorted m' → sz = (s.contents.put p.2.2 p.1 p.2.1).bytes →
      cnt = (s.contents.put p.2.2 p.1 p.2.1).length →
      CRel ⟨m', c.counter, sz, cnt⟩ (pending.eraseIdx i) ⟨s.contents.put p.2.2 p.1 p.2.1, s.time, s.pending.eraseIdx i⟩ := by
    intro m' sz cnt hm hs hsz hcnt
    exact {
      perm := stored_perm h _ _ _ _ hm
      sorted := hs
      order := put_order h.order _ _ _ hnew
      before := fun q hq => (mem_put hq).elim (fun e => by rw [e]; exact hlt) (h.before q)
      ok := fun q hq => (mem_put hq).elim (fun e => by rw [e]; exact hok) (h.ok q)
      pend := by rw [h.pend]
      pendBefore := fun q hq => h.pendBefore q (hsub.subset hq)
      pendNew := fun q hq r hr => (mem_put hr).elim (fun e => by rw [e]; exact hdist q hq) (h.pendNew q (hsub.subset hq) r)
      pendDistinct := h.pendDistinct.sublist hsub
      pendOk := fun q hq => h.pendOk q (hsub.subset hq)
      counter := h.counter
      size := hsz
      count := hcnt }
  obtain ⟨s1, s2⟩ := put_sizes s.contents p.2.2 p.1 p.2.1
  unfold Cache.commit
  rw [itemSize_ok hok]
  dsimp only
  cases hf : mapFind c.entries p.1 with
  | none =>
    refine ⟨_, rfl, rel _ _ _ ?_ (mapInsert_sorted _ h.sorted _ _) ?_ ?_⟩
    · rw [mapErase_of_none hf]; exact mapInsert_perm _ _ _ hf
    · rw [none_filter h _ hf] at s1
      rw [h.size, s1, Nat.mod_eq_of_lt (by omega), Nat.add_comm]
    · rw [none_filter h _ hf] at s2
      rw [h.count, s2, Nat.mod_eq_of_lt (by omega), Nat.add_comm]
  | some e =>
    obtain ⟨r1, r2, r3⟩ := removed_perm h _ e hf
    dsimp only
    rw [itemSize_ok r3]
    refine ⟨_, rfl, rel _ _ _ (mapSet_erase_perm _ h.sorted _ _ _ hf) (mapSet_sorted _ h.sorted _ _) ?_ ?_⟩
    · have := r3.size
      rw [h.size, s1, r1]
      unfold sub64
      omega
    · rw [h.count, s2, r2]

/-- `Get`. -/
theorem get_rel {c : Cache} {pending : List (Int × CItem × Nat)} {s : LruState} (h : CRel c pending s) (k : Int) (ht : s.time + 1 < 2 ^ 64) :
    COut.item (c.get k).1 = (s.step (.get k)).1 ∧ CRel (c.get k).2 pending (s.step (.get k)).2 := by
  have hfind := find_rel h k
  unfold Cache.get
  rw [LruState.step]
  cases hf : mapFind c.entries k with
  | none =>
    rw [hf] at hfind
    simp only [Option.map_none] at hfind
    rw [hfind]
    exact ⟨rfl, h⟩
  | some e =>
    rw [hf] at hfind
    simp only [Option.map_some] at hfind
    rw [hfind]
    refine ⟨rfl, ?_⟩
    obtain ⟨r1, r2, r3⟩ := removed_perm h k e hf
    obtain ⟨s1, s2⟩ := put_sizes s.contents s.time k e.item
    dsimp only
    rw [h.counter]
    exact {
      perm := stored_perm h _ _ _ _ (mapSet_erase_perm _ h.sorted _ _ _ hf)
      sorted := mapSet_sorted _ h.sorted _ _
      order := put_order h.order _ _ _ (fun q hq e => by have := h.before q hq; omega)
      before := fun q hq => (mem_put hq).elim (fun e => by rw [e]; exact Nat.lt_succ_self _) (fun hq => Nat.lt_succ_of_lt (h.before q hq))
      ok := fun q hq => (mem_put hq).elim (fun e => by rw [e]; exact r3) (h.ok q)
      pend := h.pend
      pendBefore := fun q hq => Nat.lt_succ_of_lt (h.pendBefore q hq)
      pendNew := fun q hq r hr => (mem_put hr).elim (fun e => by rw [e]; have := h.pendBefore q hq; exact Nat.ne_of_lt this) (h.pendNew q hq r)
      pendDistinct := h.pendDistinct
      pendOk := h.pendOk
      counter := Nat.mod_eq_of_lt ht
      size := by show c.size = _; rw [h.size, s1, r1]
      count := by show c.count = _; rw [h.count, s2, r2] }

theorem oldest_spec (m : List (Int × CEntry)) : m = [] ∧ oldest m = none ∨ ∃ p, oldest m = some p ∧ p ∈ m ∧ ∀ q ∈ m, p.2.stamp ≤ q.2.stamp := by
  have key : ∀ (xs : List (Int × CEntry)) (x : Int × CEntry),
      let r := xs.foldl (fun best y => if y.2.stamp < best.2.stamp then y else best) x
      (r = x ∨ r ∈ xs) ∧ r.2.stamp ≤ x.2.stamp ∧ ∀ q ∈ xs, r.2.stamp ≤ q.2.stamp := by
    intro xs
    induction xs with
    | nil => intro x; simp
    | cons y ys ih =>
      intro x
      dsimp only
      rw [List.foldl_cons]
      obtain ⟨h1, h2, h3⟩ := ih (if y.2.stamp < x.2.stamp then y else x)
      refine ⟨?_, ?_, ?_⟩
      · rcases h1 with h1 | h1
        · rw [h1]
          split
          · exact .inr List.mem_cons_self
          · exact .inl rfl
        · exact .inr (List.mem_cons_of_mem _ h1)
      · refine h2.trans ?_
        split <;> omega
      · intro q hq
        rcases List.mem_cons.1 hq with rfl | hq
        · refine h2.trans ?_
          split <;> omega
        · exact h3 q hq
  cases m with
  | nil => exact .inl ⟨rfl, rfl⟩
  | cons x xs =>
    obtain ⟨h1, h2, h3⟩ := key xs x
    refine .inr ⟨_, rfl, ?_, ?_⟩
    · rcases h1 with h1 | h1
      · rw [h1]; exact List.mem_cons_self
      · exact List.mem_cons_of_mem _ h1
    · intro q hq
      rcases List.mem_cons.1 hq with rfl | hq
      · exact h2
      · exact h3 q hq

theorem prune_rel (b n : Nat) : ∀ (fuel : Nat) {c : Cache} {pending : List (Int × CItem × Nat)} {s : LruState}, CRel c pending s → s.contents.length ≤ fuel →
    (s.contents).bytes < 2 ^ 64 ∧ s.contents.length < 2 ^ 32 →
    ∃ c', pruneLoop b n fuel c = some c' ∧ CRel c' pending ⟨s.contents.prune b n, s.time, s.pending⟩ := by
  intro fuel
  induction fuel with
  | zero =>
    intro c pending s h hl _
    have : s.contents = [] := List.eq_nil_of_length_eq_zero (by omega)
    refine ⟨c, rfl, ?_⟩
    have e : s = ⟨s.contents, s.time, s.pending⟩ := rfl
    rw [this, Lru.prune, ← this]
    exact h
  | succ fuel ih =>
    intro c pending s h hl hfit
    rw [pruneLoop]
    cases hc : s.contents with
    | nil =>
      have hs0 : c.size = 0 := by rw [h.size, hc]; rfl
      have hc0 : c.count = 0 := by rw [h.count, hc]; rfl
      rw [if_neg (by omega)]
      refine ⟨c, rfl, ?_⟩
      rw [Lru.prune, ← hc]
      exact h
    | cons p l =>
      rw [Lru.prune]
      by_cases hw : Lru.Within (p :: l) b n
      · rw [if_pos hw, ← hc]
        refine ⟨c, ?_, h⟩
        rw [if_neg]
        rw [← hc] at hw
        have h1 := hw.1
        have h2 := hw.2
        rw [h.size, h.count]
        omega
      · rw [if_neg hw]
        have hover : c.size > b ∨ c.count > n := by
          rw [h.size, h.count, hc]
          unfold Lru.Within at hw
          omega
        rw [if_pos hover]
        have horder := h.order
        rw [hc] at horder
        obtain ⟨o1, o2⟩ := List.pairwise_cons.1 horder
        have hkeys := keys_nodup h
        rw [hc] at hkeys
        obtain ⟨k1, k2⟩ := List.pairwise_cons.1 hkeys
        have hpe : toEntry p ∈ c.entries := h.perm.mem_iff.2 (by rw [hc]; exact List.mem_map_of_mem List.mem_cons_self)
        have hold : oldest c.entries = some (toEntry p) := by
          rcases oldest_spec c.entries with ⟨h1, _⟩ | ⟨q, h1, h2, h3⟩
          · rw [h1] at hpe; cases hpe
          · rw [h1]
            have hq := h.perm.mem_iff.1 h2
            rw [List.mem_map] at hq
            obtain ⟨q', hq', rfl⟩ := hq
            rw [hc] at hq'
            rcases List.mem_cons.1 hq' with rfl | hq'
            · rfl
            · have := o1 q' hq'
              have h4 := h3 _ hpe
              simp only [toEntry] at h4
              omega
        rw [hold]
        have hok : ItemOk p.2.2 := h.ok p (by rw [hc]; exact List.mem_cons_self)
        dsimp only
        rw [show (toEntry p).2.item = p.2.2 from rfl, itemSize_ok hok]
        have hbytes : (s.contents).bytes = itemBytes p.2.2 + Lru.bytes l := by rw [hc, bytes_cons]
        have hlen : s.contents.length = l.length + 1 := by rw [hc]; rfl
        have hfl : s.contents.filter (fun q => q.2.1 ≠ p.2.1) = l := by
          rw [hc, List.filter_cons_of_neg (by simp), List.filter_eq_self]
          intro q hq
          simpa using fun e => k1 q hq e.symm
        have hsub : ∀ q, q ∈ l → q ∈ s.contents := fun q hq => by rw [hc]; exact List.mem_cons_of_mem _ hq
        have h' : CRel ⟨mapErase c.entries (toEntry p).1, c.counter, sub64 c.size (itemBytes p.2.2), (c.count + 2 ^ 32 - 1) % 2 ^ 32⟩ pending ⟨l, s.time, s.pending⟩ := {
          perm := by
            have := erase_perm h p.2.1
            rw [hfl] at this
            exact this
          sorted := mapErase_sorted _ h.sorted _
          order := o2
          before := fun q hq => h.before q (hsub q hq)
          ok := fun q hq => h.ok q (hsub q hq)
          pend := h.pend
          pendBefore := h.pendBefore
          pendNew := fun q hq r hr => h.pendNew q hq r (hsub r hr)
          pendDistinct := h.pendDistinct
          pendOk := h.pendOk
          counter := h.counter
          size := by
            have := hok.size
            show sub64 c.size (itemBytes p.2.2) = Lru.bytes l
            rw [h.size]
            unfold sub64
            omega
          count := by
            show (c.count + 2 ^ 32 - 1) % 2 ^ 32 = l.length
            rw [h.count]
            omega }
        exact ih h' (by show l.length ≤ fuel; omega) ⟨by show Lru.bytes l < _; omega, by show l.length < _; omega⟩

end Verif
