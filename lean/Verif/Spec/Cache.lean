import Verif.Model.Cache

/-!
# What a cache is

The contents are listed in the order of their last use, the least recently used first: the time, the key, the value. The time of an `Add` is the one at which the call was started.
-/

namespace Verif.Spec

/-- The memory taken by an item: the pixels of the bitmap and the rows of the mask, rounded up to bytes. -/
def itemBytes (it : CItem) : Nat :=
  (match it.bitmap with | none => 0 | some b => b.w * b.h * (bytesPerPel b.pixelType).getD 0) +
  (match it.mask with | none => 0 | some m => (m.w + 7) / 8 * m.h)

/-- Items with a bitmap of a valid pixel type, of a size that can exist in memory. -/
structure ItemOk (it : CItem) : Prop where
  bitmap : ∃ b, it.bitmap = some b ∧ bytesPerPel b.pixelType ≠ none
  mask : ∀ m, it.mask = some m → m.w + 7 < 2 ^ 32
  size : itemBytes it < 2 ^ 64

/-- The contents of a cache. -/
abbrev Lru := List (Nat × Int × CItem)

/-- The value for a key. -/
def Lru.find (l : Lru) (k : Int) : Option CItem := (List.find? (fun p => p.2.1 = k) l).map (·.2.2)

/-- The memory used. -/
def Lru.bytes (l : Lru) : Nat := (l.map (fun p => itemBytes p.2.2)).sum

/-- The key gets the value at the given time. -/
def Lru.put (l : Lru) (t : Nat) (k : Int) (it : CItem) : Lru :=
  (l.filter (fun p => p.2.1 ≠ k)).takeWhile (fun p => p.1 < t) ++ (t, k, it) :: (l.filter (fun p => p.2.1 ≠ k)).dropWhile (fun p => p.1 < t)

/-- The limits hold. -/
def Lru.Within (l : Lru) (maxBytes maxCount : Nat) : Prop := l.bytes ≤ maxBytes ∧ l.length ≤ maxCount

instance (l : Lru) (a b : Nat) : Decidable (l.Within a b) := inferInstanceAs (Decidable (_ ∧ _))

/-- Remove the least recently used entries as long as a limit is exceeded. -/
def Lru.prune (maxBytes maxCount : Nat) : Lru → Lru
  | [] => []
  | p :: l => if Lru.Within (p :: l) maxBytes maxCount then p :: l else Lru.prune maxBytes maxCount l

/-- The state of the specification: the contents, the time, the calls of `Add` in progress. -/
structure LruState where
  contents : Lru
  time : Nat
  pending : List (Int × CItem × Nat)

/-- What the events do and return. -/
def LruState.step (s : LruState) : CEvent → COut × LruState
  | .start k it => (.unit, ⟨s.contents, s.time + 1, s.pending ++ [(k, it, s.time)]⟩)
  | .finish i =>
    match s.pending[i]? with
    | none => (.unit, s)
    | some p => (.unit, ⟨s.contents.put p.2.2 p.1 p.2.1, s.time, s.pending.eraseIdx i⟩)
  | .get k =>
    match s.contents.find k with
    | none => (.item ⟨none, none⟩, s)
    | some it => (.item it, ⟨s.contents.put s.time k it, s.time + 1, s.pending⟩)
  | .prune b n => (.unit, ⟨s.contents.prune b n, s.time, s.pending⟩)
  | .stats => (.stats s.contents.bytes s.contents.length, s)

/-- A sequence of events. -/
def LruState.run (s : LruState) : List CEvent → List COut × LruState
  | [] => ([], s)
  | e :: es => ((s.step e).1 :: ((s.step e).2.run es).1, ((s.step e).2.run es).2)

/-- At no time there are 2^32 entries or 2^64 bytes in the cache. -/
def LruState.Fits (s : LruState) : List CEvent → Prop
  | [] => s.contents.bytes < 2 ^ 64 ∧ s.contents.length < 2 ^ 32
  | e :: es => (s.contents.bytes < 2 ^ 64 ∧ s.contents.length < 2 ^ 32) ∧ (s.step e).2.Fits es

end Verif.Spec

namespace Verif.Spec

/-- Calls from one thread. -/
inductive COp where
  | add (k : Int) (it : CItem)
  | get (k : Int)
  | prune (maxBytes maxCount : Nat)
  | stats

/-- The events of the calls. -/
def COp.events : COp → List CEvent
  | .add k it => [.start k it, .finish 0]
  | .get k => [.get k]
  | .prune b n => [.prune b n]
  | .stats => [.stats]

/-- The memory used by the entries of a recency list (the least recently used entry first). -/
def recencyBytes (l : List (Int × CItem)) : Nat := (l.map (fun p => itemBytes p.2)).sum

/-- Drop entries from the front until the limits hold. -/
def recencyPrune (maxBytes maxCount : Nat) : List (Int × CItem) → List (Int × CItem)
  | [] => []
  | p :: l => if recencyBytes (p :: l) ≤ maxBytes ∧ (p :: l).length ≤ maxCount then p :: l else recencyPrune maxBytes maxCount l

/-- What a call does to the recency list, and what it returns: `Add` and a successful `Get` move the key to the end, `Prune` drops entries from the front. -/
def recencyStep (l : List (Int × CItem)) : COp → List COut × List (Int × CItem)
  | .add k it => ([.unit, .unit], l.filter (fun p => p.1 ≠ k) ++ [(k, it)])
  | .get k =>
    match l.find? (fun p => p.1 = k) with
    | none => ([.item ⟨none, none⟩], l)
    | some p => ([.item p.2], l.filter (fun p => p.1 ≠ k) ++ [(k, p.2)])
  | .prune b n => ([.unit], recencyPrune b n l)
  | .stats => ([.stats (recencyBytes l) l.length], l)

/-- A sequence of calls. -/
def recencyRun (l : List (Int × CItem)) : List COp → List COut × List (Int × CItem)
  | [] => ([], l)
  | o :: os => ((recencyStep l o).1 ++ (recencyRun (recencyStep l o).2 os).1, (recencyRun (recencyStep l o).2 os).2)

/-- At no time there are 2^32 entries or 2^64 bytes in the recency list. -/
def recencyFits (l : List (Int × CItem)) : List COp → Prop
  | [] => recencyBytes l < 2 ^ 64 ∧ l.length < 2 ^ 32
  | o :: os => (recencyBytes l < 2 ^ 64 ∧ l.length < 2 ^ 32) ∧ recencyFits (recencyStep l o).2 os

end Verif.Spec
