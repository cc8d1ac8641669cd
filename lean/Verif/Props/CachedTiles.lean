import Verif.Model.CachedTiles
import Verif.Proof.Cache

/-!
# C30: composition with and without a cache
-/

namespace Verif
open Spec Blit

namespace Spec

/-- What an accessor with the given mask mode puts into the cache for a sub-block. -/
def Honest (repo : Int → Option RepoSub) (maskAware : Bool) (k : Int) (it : CItem) : Prop := ∃ r, repo k = some r ∧ it = r.item maskAware

/-- The events come from accessors (of the same document) with the given mask mode. -/
def HonestEvents (repo : Int → Option RepoSub) (maskAware : Bool) (es : List CEvent) : Prop := ∀ k it, CEvent.start k it ∈ es → Honest repo maskAware k it

/-- The position in the directory agrees with the one in the sub-block. -/
def Consistent (repo : Int → Option RepoSub) : Prop := ∀ k r, repo k = some r → r.dirX = r.segX ∧ r.dirY = r.segY

/-- Bitmaps and masks can be stored in the cache. -/
def Storable (repo : Int → Option RepoSub) (maskAware : Bool) : Prop := ∀ k r, repo k = some r → ItemOk (r.item maskAware)

end Spec

/-- All items in the cache, and on their way to it, are honest. -/
private def Good (repo : Int → Option RepoSub) (m : Bool) (st : CState) : Prop :=
  (∀ p ∈ st.cache.entries, Honest repo m p.1 p.2.item) ∧ ∀ p ∈ st.pending, Honest repo m p.1 p.2.1

private theorem mem_mapInsert {α : Type} (l : List (Int × α)) (k : Int) (v : α) : ∀ p ∈ mapInsert l k v, p = (k, v) ∨ p ∈ l := by
  induction l with
  | nil => intro p hp; simpa [mapInsert] using hp
  | cons q r ih =>
    obtain ⟨k', v'⟩ := q
    intro p hp
    rw [mapInsert] at hp
    split at hp
    · rcases List.mem_cons.1 hp with h | h
      · exact .inl h
      · exact .inr h
    · split at hp
      · exact .inr hp
      · rcases List.mem_cons.1 hp with h | h
        · exact .inr (by rw [h]; exact List.mem_cons_self)
        · rcases ih p h with h | h
          · exact .inl h
          · exact .inr (List.mem_cons_of_mem _ h)

private theorem mem_mapSet {α : Type} (l : List (Int × α)) (k : Int) (v : α) : ∀ p ∈ mapSet l k v, p = (k, v) ∨ p ∈ l := by
  intro p hp
  unfold mapSet at hp
  rw [List.mem_map] at hp
  obtain ⟨q, hq, rfl⟩ := hp
  split
  · exact .inl rfl
  · exact .inr hq

private theorem prune_subset (b n : Nat) : ∀ (fuel : Nat) (c c' : Cache), pruneLoop b n fuel c = some c' → ∀ p ∈ c'.entries, p ∈ c.entries := by
  intro fuel
  induction fuel with
  | zero => intro c c' h; cases h; exact fun p hp => hp
  | succ fuel ih =>
    intro c c' h p hp
    rw [pruneLoop] at h
    split at h
    · cases ho : oldest c.entries with
      | none => rw [ho] at h; cases h; exact hp
      | some q =>
        rw [ho] at h
        dsimp only at h
        cases hs : itemSize q.2.item with
        | none => rw [hs] at h; cases h
        | some s =>
          rw [hs] at h
          have := ih _ _ h p hp
          exact (List.mem_filter.1 this).1
    · cases h; exact hp

private theorem step_good {repo : Int → Option RepoSub} {m : Bool} {st st' : CState} {o : COut} (h : Good repo m st) (e : CEvent)
    (he : ∀ k it, e = .start k it → Honest repo m k it) (hs : st.step e = some (o, st')) : Good repo m st' := by
  cases e with
  | start k it =>
    cases hs
    refine ⟨h.1, ?_⟩
    intro p hp
    rcases List.mem_append.1 hp with hp | hp
    · exact h.2 p hp
    · rw [List.mem_singleton.1 hp]; exact he k it rfl
  | finish i =>
    rw [CState.step] at hs
    cases hi : st.pending[i]? with
    | none => rw [hi] at hs; cases hs; exact h
    | some p =>
      rw [hi] at hs
      dsimp only at hs
      cases hc : st.cache.commit p.1 p.2.1 p.2.2 with
      | none => rw [hc] at hs; cases hs
      | some c =>
        rw [hc] at hs
        cases hs
        have hp := h.2 p (List.mem_of_getElem? hi)
        refine ⟨?_, fun q hq => h.2 q ((List.eraseIdx_sublist st.pending i).subset hq)⟩
        unfold Cache.commit at hc
        split at hc
        · cases hc
        · split at hc
          · cases hc
            intro q hq
            rcases mem_mapInsert _ _ _ q hq with rfl | hq
            · exact hp
            · exact h.1 q hq
          · split at hc
            · cases hc
            · cases hc
              intro q hq
              rcases mem_mapSet _ _ _ q hq with rfl | hq
              · exact hp
              · exact h.1 q hq
  | get k =>
    cases hs
    refine ⟨?_, h.2⟩
    show ∀ p ∈ (st.cache.get k).2.entries, _
    unfold Cache.get
    cases hf : mapFind st.cache.entries k with
    | none => exact h.1
    | some e =>
      intro q hq
      rcases mem_mapSet _ _ _ q hq with rfl | hq
      · exact h.1 (k, e) (mem_of_mapFind hf)
      · exact h.1 q hq
  | prune b n =>
    rw [CState.step] at hs
    cases hc : st.cache.prune b n with
    | none => rw [hc] at hs; cases hs
    | some c =>
      rw [hc] at hs
      cases hs
      refine ⟨?_, h.2⟩
      unfold Cache.prune at hc
      split at hc
      · exact fun p hp => h.1 p (prune_subset b n _ _ _ hc p hp)
      · cases hc; exact h.1
  | stats => cases hs; exact h

private theorem run_good {repo : Int → Option RepoSub} {m : Bool} (es : List CEvent) : ∀ {st st' : CState} {os : List COut}, Good repo m st → HonestEvents repo m es →
    st.run es = some (os, st') → Good repo m st' := by
  induction es with
  | nil => intro st st' os h _ hr; cases hr; exact h
  | cons e es ih =>
    intro st st' os h he hr
    rw [CState.run] at hr
    cases hs : st.step e with
    | none => rw [hs] at hr; cases hr
    | some p =>
      obtain ⟨o, st1⟩ := p
      rw [hs] at hr
      dsimp only at hr
      cases hr1 : st1.run es with
      | none => rw [hr1] at hr; cases hr
      | some q =>
        rw [hr1] at hr
        cases hr
        exact ih (step_good h e (fun k it hk => he k it (by rw [hk]; exact List.mem_cons_self)) hs) (fun k it hk => he k it (List.mem_cons_of_mem _ hk)) hr1

private theorem step_some {repo : Int → Option RepoSub} {m : Bool} {st : CState} (hok : Storable repo m) (h : Good repo m st) (e : CEvent) : ∃ r, st.step e = some r := by
  have size : ∀ k it, Honest repo m k it → ∃ n, itemSize it = some n := by
    rintro k it ⟨r, h1, rfl⟩
    exact ⟨_, itemSize_ok (hok k r h1)⟩
  cases e with
  | start k it => exact ⟨_, rfl⟩
  | finish i =>
    rw [CState.step]
    cases hi : st.pending[i]? with
    | none => exact ⟨_, rfl⟩
    | some p =>
      dsimp only
      obtain ⟨n, hn⟩ := size _ _ (h.2 p (List.mem_of_getElem? hi))
      unfold Cache.commit
      rw [hn]
      dsimp only
      cases hf : mapFind st.cache.entries p.1 with
      | none => exact ⟨_, rfl⟩
      | some e =>
        obtain ⟨n', hn'⟩ := size _ _ (h.1 _ (mem_of_mapFind hf))
        dsimp only at hn' ⊢
        rw [hn']
        exact ⟨_, rfl⟩
  | get k => exact ⟨_, rfl⟩
  | prune b n =>
    have loop : ∀ (fuel : Nat) (c : Cache), (∀ p ∈ c.entries, Honest repo m p.1 p.2.item) → ∃ c', pruneLoop b n fuel c = some c' := by
      intro fuel
      induction fuel with
      | zero => intro c _; exact ⟨c, rfl⟩
      | succ fuel ih =>
        intro c hc
        rw [pruneLoop]
        split
        · rcases oldest_spec c.entries with ⟨_, h2⟩ | ⟨p, h2, h3, _⟩
          · rw [h2]; exact ⟨_, rfl⟩
          · rw [h2]
            obtain ⟨s, hs⟩ := size _ _ (hc p h3)
            dsimp only
            rw [hs]
            exact ih _ (fun q hq => hc q (List.mem_filter.1 hq).1)
        · exact ⟨_, rfl⟩
    rw [CState.step, Cache.prune]
    split
    · obtain ⟨c', hc'⟩ := loop st.cache.entries.length st.cache h.1
      rw [hc']
      exact ⟨_, rfl⟩
    · exact ⟨_, rfl⟩
  | stats => exact ⟨_, rfl⟩

private theorem run_some {repo : Int → Option RepoSub} {m : Bool} (hok : Storable repo m) (es : List CEvent) : ∀ {st : CState}, Good repo m st → HonestEvents repo m es → ∃ r, st.run es = some r := by
  induction es with
  | nil => intro st _ _; exact ⟨_, rfl⟩
  | cons e es ih =>
    intro st h he
    obtain ⟨⟨o, st1⟩, hs⟩ := step_some hok h e
    obtain ⟨r, hr⟩ := ih (step_good h e (fun k it hk => he k it (by rw [hk]; exact List.mem_cons_self)) hs) (fun k it hk => he k it (List.mem_cons_of_mem _ hk))
    rw [CState.run, hs]
    dsimp only
    rw [hr]
    exact ⟨_, rfl⟩

private theorem fetchAll_good {repo : Int → Option RepoSub} {m oc : Bool} {env : Nat → List CEvent} (hok : Storable repo m) (hcons : Consistent repo) (henv : ∀ n, HonestEvents repo m (env n))
    (ks : List Int) : ∀ (n : Nat) (st : CState), Good repo m st → (∀ k ∈ ks, ∃ r, repo k = some r) →
      ∃ ds st', fetchAll repo oc m env ks n st = some (ds, st') ∧ fetchAllUncached repo m ks = some ds := by
  induction ks with
  | nil => intro n st _ _; exact ⟨[], st, rfl, rfl⟩
  | cons k ks ih =>
    intro n st hg hks
    obtain ⟨r, hk⟩ := hks k List.mem_cons_self
    obtain ⟨⟨os, st1⟩, hr⟩ := run_some hok (env n) hg (henv n)
    have hg1 := run_good _ hg (henv n) hr
    have hg2 : Good repo m ⟨(st1.cache.get k).2, st1.pending⟩ := step_good hg1 (.get k) (by intro k it h; cases h) rfl
    have hd : (fetchCached r (st1.cache.get k).1 oc m).1 = fetchUncached r m ∧ ∀ it, (fetchCached r (st1.cache.get k).1 oc m).2 = some it → it = r.item m := by
      unfold Cache.get
      cases hf : mapFind st1.cache.entries k with
      | none =>
        refine ⟨rfl, ?_⟩
        intro it hit
        simp only [fetchCached] at hit
        split at hit
        · exact (Option.some.inj hit).symm
        · cases hit
      | some e =>
        obtain ⟨r', h1, h2⟩ := hg1.1 (k, e) (mem_of_mapFind hf)
        rw [show (k, e).1 = k from rfl, hk] at h1
        cases h1
        have h2 : e.item = r.item m := h2
        simp only [h2, fetchCached, RepoSub.item, fetchUncached, hcons k r hk]
        exact ⟨trivial, fun it h => by cases h⟩
    have hg3 : Good repo m (CState.startAdd ⟨(st1.cache.get k).2, st1.pending⟩ k (fetchCached r (st1.cache.get k).1 oc m).2) := by
      cases hit : (fetchCached r (st1.cache.get k).1 oc m).2 with
      | none => exact hg2
      | some it => exact step_good hg2 (.start k it) (by intro k' it' h; cases h; exact ⟨r, hk, hd.2 it hit⟩) rfl
    obtain ⟨ds, st4, e1, e2⟩ := ih (n + 1) _ hg3 (fun k hk => hks k (List.mem_cons_of_mem _ hk))
    refine ⟨fetchUncached r m :: ds, st4, ?_, ?_⟩
    · rw [fetchAll, hr, hk]
      dsimp only
      rw [e1, hd.1]
    · rw [fetchAllUncached, hk, e2]

/-- **C30 (same mask mode).** If all accessors sharing the cache have the same mask mode, then whatever happened to the cache before and whatever other threads do meanwhile (adding what such accessors add,
getting, pruning), an accessor gets the same data with the cache as without, and so composes the same bitmap. -/
theorem C30_cached_equals_uncached_partial (repo : Int → Option RepoSub) (maskAware onlyCompressed : Bool) (hok : Storable repo maskAware) (hcons : Consistent repo) (history : List CEvent)
    (hh : HonestEvents repo maskAware history) (env : Nat → List CEvent) (henv : ∀ n, HonestEvents repo maskAware (env n)) (ks : List Int) (hks : ∀ k ∈ ks, ∃ r, repo k = some r) :
    ∃ os st ds st', (CState.mk Cache.init []).run history = some (os, st) ∧ fetchAll repo onlyCompressed maskAware env ks 0 st = some (ds, st') ∧
      ∃ us, fetchAllUncached repo maskAware ks = some us ∧ ds = us ∧ ∀ (px : Pixels) (kind : Kind) (xPos yPos : Int) (dst : Bitmap),
        composeTiles kind xPos yPos (ds.map (SubData.tile px)) dst = composeTiles kind xPos yPos (us.map (SubData.tile px)) dst := by
  have h0 : Good repo maskAware ⟨Cache.init, []⟩ := ⟨fun p hp => (by cases hp), fun p hp => (by cases hp)⟩
  obtain ⟨⟨os, st⟩, hr⟩ := run_some hok history h0 hh
  obtain ⟨ds, st', e1, e2⟩ := fetchAll_good (oc := onlyCompressed) hok hcons henv ks 0 st (run_good _ h0 hh hr) hks
  exact ⟨os, st, ds, st', hr, e1, ds, e2, rfl, fun _ _ _ _ _ => rfl⟩

/-- A history after which sub-block `k` is in the cache: an accessor with the given mask mode has read it. -/
def cachedBy (r : RepoSub) (k : Int) (maskAware : Bool) : List CEvent := [.get k, .start k (r.item maskAware), .finish 0]

private theorem cached_get (r : RepoSub) (k : Int) (m : Bool) (hok : ItemOk (r.item m)) :
    ∃ os st, (CState.mk Cache.init []).run (cachedBy r k m) = some (os, st) ∧ (st.cache.get k).1 = r.item m := by
  have hc : (Cache.mk [] 1 0 0).commit k (r.item m) 0 = some ⟨[(k, ⟨r.item m, 0⟩)], 1, (0 + itemBytes (r.item m)) % 2 ^ 64, 1⟩ := by
    unfold Cache.commit
    rw [itemSize_ok hok]
    rfl
  refine ⟨[.item ⟨none, none⟩, .unit, .unit], ⟨⟨[(k, ⟨r.item m, 0⟩)], 1, (0 + itemBytes (r.item m)) % 2 ^ 64, 1⟩, []⟩, ?_, ?_⟩
  · have s1 : (CState.mk Cache.init []).step (.get k) = some (.item ⟨none, none⟩, ⟨Cache.init, []⟩) := rfl
    have s2 : (CState.mk Cache.init []).step (.start k (r.item m)) = some (.unit, ⟨⟨[], 1, 0, 0⟩, [(k, r.item m, 0)]⟩) := rfl
    have s3 : (CState.mk ⟨[], 1, 0, 0⟩ [(k, r.item m, 0)]).step (.finish 0) =
        some (.unit, ⟨⟨[(k, ⟨r.item m, 0⟩)], 1, (0 + itemBytes (r.item m)) % 2 ^ 64, 1⟩, []⟩) := by
      show Option.map _ ((Cache.mk [] 1 0 0).commit k (r.item m) 0) = _
      rw [hc]
      rfl
    unfold cachedBy
    rw [CState.run, s1]
    dsimp only
    rw [CState.run, s2]
    dsimp only
    rw [CState.run, s3]
    rfl
  · simp [Cache.get, mapFind]

/-- **C30 (what is put into the cache).** A sub-block that was not in the cache is added to it, with the bitmap and the mask just read,
unless the option says to add only compressed sub-blocks and it is not compressed; a sub-block that was in the cache is not added again. -/
theorem C30_added (r : RepoSub) (fromCache : CItem) (onlyCompressed maskAware : Bool) (it : CItem) :
    (fetchCached r fromCache onlyCompressed maskAware).2 = some it ↔
      fromCache.bitmap = none ∧ (onlyCompressed = true → r.compressed = true) ∧ it.bitmap = some r.bitmap ∧ it.mask = (if maskAware then r.mask else none) := by
  obtain ⟨ib, im⟩ := it
  unfold fetchCached
  cases fromCache.bitmap <;> cases onlyCompressed <;> cases r.compressed <;> simp [RepoSub.item, eq_comm]

/-- **C30 violated if the mask mode differs.** After an accessor which ignores masks has put a sub-block into the cache, a mask-aware accessor gets it without its mask; after a mask-aware accessor has put
it into the cache, an accessor which ignores masks gets it with the mask (and the compositor applies it). -/
theorem C30_mask_mode_mixed (r : RepoSub) (k : Int) (mask : CMask) (hmask : r.mask = some mask) (m : Bool) (hok : ItemOk (r.item m)) (oc : Bool) :
    ∃ os st, (CState.mk Cache.init []).run (cachedBy r k m) = some (os, st) ∧
      (fetchCached r (st.cache.get k).1 oc (!m)).1.mask ≠ (fetchUncached r (!m)).mask := by
  obtain ⟨os, st, h1, h2⟩ := cached_get r k m hok
  refine ⟨os, st, h1, ?_⟩
  rw [h2]
  cases m <;> simp [RepoSub.item, fetchCached, fetchUncached, hmask]

/-- **C30 violated if directory and sub-block disagree** on the position: a cached tile is placed according to the directory, an uncached one according to the sub-block. -/
theorem C30_position_differs (r : RepoSub) (k : Int) (m oc : Bool) (hok : ItemOk (r.item m)) :
    ∃ os st, (CState.mk Cache.init []).run (cachedBy r k m) = some (os, st) ∧
      (fetchCached r (st.cache.get k).1 oc m).1.x = r.dirX ∧ (fetchUncached r m).x = r.segX := by
  obtain ⟨os, st, h1, h2⟩ := cached_get r k m hok
  refine ⟨os, st, h1, ?_, rfl⟩
  rw [h2]
  rfl

/-- A document with two sub-blocks, the first one masked and compressed. -/
def exRepo (k : Int) : Option RepoSub :=
  if k = 0 then some ⟨⟨0, 4, 4, .Gray8⟩, some ⟨0, 4, 4⟩, 0, 0, 0, 0, true⟩ else if k = 1 then some ⟨⟨1, 4, 4, .Gray8⟩, none, 4, 0, 4, 0, false⟩ else none

theorem exRepo_ok (m : Bool) : Consistent exRepo ∧ Storable exRepo m := by
  constructor
  · intro k r h
    unfold exRepo at h
    split at h
    · cases h; exact ⟨rfl, rfl⟩
    · split at h
      · cases h; exact ⟨rfl, rfl⟩
      · cases h
  · intro k r h
    unfold exRepo at h
    split at h
    · cases h
      refine ⟨⟨_, rfl, by simp [bytesPerPel]⟩, ?_, ?_⟩
      · intro mk hm
        cases m <;> simp [RepoSub.item] at hm
        rw [← hm]
        show 4 + 7 < 2 ^ 32
        decide
      · cases m <;> simp [RepoSub.item, itemBytes, bytesPerPel]
    · split at h
      · cases h
        refine ⟨⟨_, rfl, by simp [bytesPerPel]⟩, ?_, ?_⟩
        · intro mk hm
          cases m <;> simp [RepoSub.item] at hm
        · cases m <;> simp [RepoSub.item, itemBytes, bytesPerPel]
      · cases h

example : (fetchAll exRepo false true (fun n => if n = 2 then [.finish 0, .finish 0, .prune 17 5] else []) [0, 1, 0, 1] 0 ⟨Cache.init, []⟩).map (·.1) = fetchAllUncached exRepo true [0, 1, 0, 1] := by
  decide +kernel

end Verif
