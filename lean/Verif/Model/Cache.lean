import Verif.Model.SubBlock

/-!
# The sub-block cache (`subblock_cache.cpp`)

A call of `Add` has two parts: fetching a value of the use counter, and the part under the lock. Other threads may run between the two. All other calls run under the lock as a whole.
`GetStatistics` with both values requested reads them under the lock; the variants which request only one value without taking the lock are not modelled.
-/

namespace Verif

/-- A bitmap in the cache: which one it is (standing for the shared pointer), its size and pixel type. -/
structure CBitmap where
  id : Nat
  w : Nat
  h : Nat
  pixelType : PixelType
  deriving DecidableEq

/-- A bitonal bitmap in the cache. -/
structure CMask where
  id : Nat
  w : Nat
  h : Nat
  deriving DecidableEq

/-- `ISubBlockCacheOperation::CacheItem`, libCZI.h; `none` = null pointer. -/
structure CItem where
  bitmap : Option CBitmap
  mask : Option CMask
  deriving DecidableEq

/-- `struct SubBlockCache::CacheEntry`, subblock_cache.h:22-27. -/
structure CEntry where
  item : CItem
  stamp : Nat
  deriving DecidableEq

/-- The data members of `SubBlockCache`, subblock_cache.h:29-33. -/
structure Cache where
  entries : List (Int × CEntry)
  counter : Nat
  size : Nat
  count : Nat

/-- A new cache. -/
def Cache.init : Cache := ⟨[], 0, 0, 0⟩

/-- `CalculateSizeInBytes(const IBitonalBitmapData*)`, subblock_cache.cpp:113-122 (`size.w + 7` is computed with 32 bits). -/
def maskSize : Option CMask → Nat
  | none => 0
  | some m => (m.w + 7) % 2 ^ 32 / 8 * m.h % 2 ^ 64

/-- `CalculateSizeInBytes(bitmap, mask)`, subblock_cache.cpp:107-127. `none`: the bitmap is null (undefined behaviour) or has an invalid pixel type (exception). -/
def itemSize (it : CItem) : Option Nat :=
  match it.bitmap with
  | none => none
  | some b =>
    match bytesPerPel b.pixelType with
    | none => none
    | some n => some ((b.w * b.h % 2 ^ 64 * n % 2 ^ 64 + maskSize it.mask) % 2 ^ 64)

/-- 64-bit subtraction. -/
def sub64 (a b : Nat) : Nat := (a + 2 ^ 64 - b % 2 ^ 64) % 2 ^ 64

/-- `SubBlockCache::Get`, subblock_cache.cpp:42-53. -/
def Cache.get (c : Cache) (k : Int) : CItem × Cache :=
  match mapFind c.entries k with
  | some e => (e.item, { c with entries := mapSet c.entries k ⟨e.item, c.counter⟩, counter := (c.counter + 1) % 2 ^ 64 })
  | none => (⟨none, none⟩, c)

/-- The first part of `SubBlockCache::Add`, subblock_cache.cpp:57-58: the stamp, and the counter incremented. -/
def Cache.ticket (c : Cache) : Nat × Cache := (c.counter, { c with counter := (c.counter + 1) % 2 ^ 64 })

/-- The second part of `SubBlockCache::Add`, subblock_cache.cpp:60-74. -/
def Cache.commit (c : Cache) (k : Int) (it : CItem) (stamp : Nat) : Option Cache :=
  match itemSize it with
  | none => none
  | some n =>
    match mapFind c.entries k with
    | none => some { c with entries := mapInsert c.entries k ⟨it, stamp⟩, size := (c.size + n) % 2 ^ 64, count := (c.count + 1) % 2 ^ 32 }
    | some e =>
      match itemSize e.item with
      | none => none
      | some old => some { c with entries := mapSet c.entries k ⟨it, stamp⟩, size := (sub64 c.size old + n) % 2 ^ 64 }

/-- `std::min_element` with `CompareForLruValue`, subblock_cache.cpp:95 and 134-137. -/
def oldest : List (Int × CEntry) → Option (Int × CEntry)
  | [] => none
  | x :: xs => some (xs.foldl (fun best y => if y.2.stamp < best.2.stamp then y else best) x)

/-- `PruneByMemoryUsageAndElementCount`, subblock_cache.cpp:87-105. Every iteration removes an entry, so the number of entries is an upper bound for the number of iterations; without
entries the loop is left. -/
def pruneLoop (maxBytes maxCount : Nat) : Nat → Cache → Option Cache
  | 0, c => some c
  | n + 1, c =>
    if c.size > maxBytes ∨ c.count > maxCount then
      match oldest c.entries with
      | none => some c
      | some p =>
        match itemSize p.2.item with
        | none => none
        | some old => pruneLoop maxBytes maxCount n { c with entries := mapErase c.entries p.1, size := sub64 c.size old, count := (c.count + 2 ^ 32 - 1) % 2 ^ 32 }
    else some c

/-- `SubBlockCache::Prune`, subblock_cache.cpp:77-85. -/
def Cache.prune (c : Cache) (maxBytes maxCount : Nat) : Option Cache :=
  if maxBytes ≠ 2 ^ 64 - 1 ∨ maxCount ≠ 2 ^ 32 - 1 then pruneLoop maxBytes maxCount c.entries.length c else some c

/-- What threads do with a cache. `start` and `finish` are the two parts of `Add`; `finish i` completes the `i`-th of the calls that have been started and are not complete. -/
inductive CEvent where
  | start (k : Int) (it : CItem)
  | finish (i : Nat)
  | get (k : Int)
  | prune (maxBytes maxCount : Nat)
  | stats

/-- What the calls return. -/
inductive COut where
  | item (it : CItem)
  | stats (bytes count : Nat)
  | unit
  deriving DecidableEq

/-- The cache and the calls of `Add` which are between their two parts. -/
structure CState where
  cache : Cache
  pending : List (Int × CItem × Nat)

/-- One event. -/
def CState.step (s : CState) : CEvent → Option (COut × CState)
  | .start k it => some (.unit, ⟨s.cache.ticket.2, s.pending ++ [(k, it, s.cache.ticket.1)]⟩)
  | .finish i =>
    match s.pending[i]? with
    | none => some (.unit, s)
    | some p => (s.cache.commit p.1 p.2.1 p.2.2).map (fun c => (.unit, ⟨c, s.pending.eraseIdx i⟩))
  | .get k => some (.item (s.cache.get k).1, ⟨(s.cache.get k).2, s.pending⟩)
  | .prune b n => (s.cache.prune b n).map (fun c => (.unit, ⟨c, s.pending⟩))
  | .stats => some (.stats s.cache.size s.cache.count, s)

/-- A sequence of events, with all outputs. -/
def CState.run (s : CState) : List CEvent → Option (List COut × CState)
  | [] => some ([], s)
  | e :: es =>
    match s.step e with
    | none => none
    | some (o, s') => (s'.run es).map (fun r => (o :: r.1, r.2))

end Verif
