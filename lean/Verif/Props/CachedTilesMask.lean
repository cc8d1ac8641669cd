import Verif.Props.CachedTiles

/-!
# C30: the tiles that are composed
-/

namespace Verif
open Spec Blit

private theorem uncached_tiles {repo : Int → Option RepoSub} {m : Bool} : ∀ {ks : List Int} {us : List SubData}, fetchAllUncached repo m ks = some us →
    us.length = ks.length ∧ ∀ (i : Nat) (k : Int) (r : RepoSub), ks[i]? = some k → repo k = some r → us[i]? = some (fetchUncached r m) := by
  intro ks
  induction ks with
  | nil =>
    intro us h
    cases h
    exact ⟨rfl, fun i k r e => by simp at e⟩
  | cons k ks ih =>
    intro us h
    rw [fetchAllUncached] at h
    cases hk : repo k with
    | none => rw [hk] at h; cases h
    | some r =>
      cases hu : fetchAllUncached repo m ks with
      | none => rw [hk, hu] at h; cases h
      | some vs =>
        rw [hk, hu] at h
        cases h
        obtain ⟨h1, h2⟩ := ih hu
        refine ⟨by simp [h1], fun i k' r' hi hr => ?_⟩
        cases i with
        | zero =>
          rw [List.getElem?_cons_zero] at hi
          cases hi
          rw [hk] at hr
          cases hr
          rfl
        | succ i => exact h2 i k' r' hi hr

/-- **C30 (what is composed, same mask mode).** Under the conditions of `C30_cached_equals_uncached_partial` the tiles that are composed are, in the order of the sub-blocks: the bitmap of the
sub-block at the position of its segment, with the mask of the sub-block if the accessor uses masks, and none otherwise. -/
theorem C30_tiles_partial (repo : Int → Option RepoSub) (maskAware onlyCompressed : Bool) (hok : Storable repo maskAware) (hcons : Consistent repo) (history : List CEvent)
    (hh : HonestEvents repo maskAware history) (env : Nat → List CEvent) (henv : ∀ n, HonestEvents repo maskAware (env n)) (ks : List Int) (hks : ∀ k ∈ ks, ∃ r, repo k = some r) :
    ∃ os st ds st', (CState.mk Cache.init []).run history = some (os, st) ∧ fetchAll repo onlyCompressed maskAware env ks 0 st = some (ds, st') ∧
      ∀ px : Pixels, (ds.map (SubData.tile px)).length = ks.length ∧ ∀ (i : Nat) (k : Int) (r : RepoSub), ks[i]? = some k → repo k = some r →
        (ds.map (SubData.tile px))[i]? = some ⟨r.segX, r.segY, px.bitmap r.bitmap.id, if maskAware then r.mask.map (fun m => px.mask m.id) else none⟩ := by
  obtain ⟨os, st, ds, st', h1, h2, us, h3, rfl, _⟩ := C30_cached_equals_uncached_partial repo maskAware onlyCompressed hok hcons history hh env henv ks hks
  obtain ⟨h4, h5⟩ := uncached_tiles h3
  refine ⟨os, st, ds, st', h1, h2, fun px => ⟨by rw [List.length_map, h4], fun i k r hi hr => ?_⟩⟩
  rw [List.getElem?_map, h5 i k r hi hr, Option.map_some]
  unfold fetchUncached SubData.tile
  cases maskAware <;> rfl

/-- Two sub-blocks, one with a mask, read with masks and an empty cache. -/
example (px : Pixels) : ∃ os st ds st', (CState.mk Cache.init []).run [] = some (os, st) ∧ fetchAll exRepo false true (fun _ => []) [0, 1] 0 st = some (ds, st') ∧
    (ds.map (SubData.tile px))[0]? = some ⟨0, 0, px.bitmap 0, some (px.mask 0)⟩ ∧ (ds.map (SubData.tile px))[1]? = some ⟨4, 0, px.bitmap 1, none⟩ := by
  obtain ⟨os, st, ds, st', h1, h2, h3⟩ := C30_tiles_partial exRepo true false (exRepo_ok true).2 (exRepo_ok true).1 [] (by intro k it h; cases h) (fun _ => []) (by intro n k it h; cases h)
    [0, 1] (by intro k hk; simp only [List.mem_cons, List.not_mem_nil, or_false] at hk; rcases hk with rfl | rfl <;> exact ⟨_, rfl⟩)
  exact ⟨os, st, ds, st', h1, h2, (h3 px).2 0 0 _ rfl rfl, (h3 px).2 1 1 _ rfl rfl⟩

end Verif
