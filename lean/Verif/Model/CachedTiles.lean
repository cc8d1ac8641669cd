import Verif.Model.Cache
import Verif.Model.Blit

/-!
# Reading sub-blocks for composition, with and without a cache (`SingleChannelAccessorBase.cpp`)

The bitmaps are identified by numbers as in `Verif.Model.Cache`; `Pixels` gives the contents.
-/

namespace Verif
open Blit

/-- What the repository knows about a sub-block: the bitmap and the mask (if any) decoded from it, the position in its directory entry, the position in the sub-block itself, whether it is
compressed. -/
structure RepoSub where
  bitmap : CBitmap
  mask : Option CMask
  dirX : Int
  dirY : Int
  segX : Int
  segY : Int
  compressed : Bool

/-- The contents of the bitmaps and masks. -/
structure Pixels where
  bitmap : Nat → Bitmap
  mask : Nat → Mask

/-- `struct SubBlockData`, SingleChannelAccessorBase.h, as far as the composition uses it. -/
structure SubData where
  bitmap : CBitmap
  mask : Option CMask
  x : Int
  y : Int
  deriving DecidableEq

/-- `TryToGetMaskBitmapFromSubBlock` in mask-aware mode, SingleChannelAccessorBase.cpp:162 and 184. -/
def RepoSub.item (r : RepoSub) (maskAware : Bool) : CItem := ⟨some r.bitmap, if maskAware then r.mask else none⟩

/-- The branch without cache, SingleChannelAccessorBase.cpp:157-163. -/
def fetchUncached (r : RepoSub) (maskAware : Bool) : SubData := ⟨r.bitmap, if maskAware then r.mask else none, r.segX, r.segY⟩

/-- The branch with cache, SingleChannelAccessorBase.cpp:164-191, given what `Get` returned: the data, and the item passed to `Add` (if it is called). -/
def fetchCached (r : RepoSub) (fromCache : CItem) (onlyCompressed maskAware : Bool) : SubData × Option CItem :=
  match fromCache.bitmap with
  | some b => (⟨b, fromCache.mask, r.dirX, r.dirY⟩, none)
  | none => (fetchUncached r maskAware, if onlyCompressed = false ∨ r.compressed = true then some (r.item maskAware) else none)

/-- The first part of `Add`, if it is called, SingleChannelAccessorBase.cpp:186-189. -/
def CState.startAdd (st : CState) (k : Int) : Option CItem → CState
  | none => st
  | some it => ⟨st.cache.ticket.2, st.pending ++ [(k, it, st.cache.ticket.1)]⟩

/-- Reading the sub-blocks `ks` for a composition with a shared cache. Before the `n`-th call of `Get`, the events `env n` happen: the calls of other threads, and the second part of own calls of
`Add`. `none`: a sub-block does not exist, or undefined behaviour in the cache. -/
def fetchAll (repo : Int → Option RepoSub) (onlyCompressed maskAware : Bool) (env : Nat → List CEvent) : List Int → Nat → CState → Option (List SubData × CState)
  | [], _, st => some ([], st)
  | k :: ks, n, st =>
    match st.run (env n), repo k with
    | some (_, st1), some r =>
      let g := st1.cache.get k
      let d := fetchCached r g.1 onlyCompressed maskAware
      match fetchAll repo onlyCompressed maskAware env ks (n + 1) (CState.startAdd ⟨g.2, st1.pending⟩ k d.2) with
      | none => none
      | some (ds, st4) => some (d.1 :: ds, st4)
    | _, _ => none

/-- Reading the sub-blocks without a cache. -/
def fetchAllUncached (repo : Int → Option RepoSub) (maskAware : Bool) : List Int → Option (List SubData)
  | [] => some []
  | k :: ks =>
    match repo k, fetchAllUncached repo maskAware ks with
    | some r, some ds => some (fetchUncached r maskAware :: ds)
    | _, _ => none

/-- The tile passed to the compositor, SingleChannelTileAccessor.cpp:79-83 and 109-113. -/
def SubData.tile (px : Pixels) (d : SubData) : Tile := ⟨d.x, d.y, px.bitmap d.bitmap.id, d.mask.map (fun m => px.mask m.id)⟩

end Verif
