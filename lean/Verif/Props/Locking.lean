import Verif.Model.Locking

/-! # C44: bitmap locking under concurrency -/

namespace Verif.Spec

open Verif.Locking

/-- In every initial part of the calls of a thread there are at least as many `Lock` as `Unlock` calls: every `Unlock` comes after its own
matching `Lock`. -/
def OwnsItsUnlocks (p : List LOp) : Prop := ∀ n, (p.take n).count .unlock ≤ (p.take n).count .lock

/-- The locks a thread holds after the given outcomes. -/
def heldBy (log : List LEvent) : Int := (log.count .locked : Int) - log.count .unlocked

/-- All locks held. -/
def totalHeld (ts : List Thread) : Int := (ts.map (fun t => heldBy t.log)).sum

/-- The number of threads inside of a failing `Unlock`. -/
def insideFailing (ts : List Thread) : Nat := ts.countP (fun t => t.pending)

/-- What a single thread is to observe: `Unlock` fails exactly if nothing is locked. -/
def soloLog : Nat → List LOp → List LEvent
  | _, [] => []
  | h, .lock :: r => .locked :: soloLog (h + 1) r
  | h, .unlock :: r => if h = 0 then .unlockError :: soloLog 0 r else .unlocked :: soloLog (h - 1) r

end Verif.Spec

namespace Verif

open Locking Spec

theorem sum_set (l : List Int) (i : Nat) (h : i < l.length) (v : Int) : (l.set i v).sum = l.sum - l[i] + v := by
  induction l generalizing i with
  | nil => simp at h
  | cons a l ih =>
    cases i with
    | zero => simp; omega
    | succ i =>
      simp only [List.length_cons, Nat.add_lt_add_iff_right] at h
      simp only [List.set_cons_succ, List.sum_cons, ih i h, List.getElem_cons_succ]
      omega

theorem totalHeld_set (ts : List Thread) (i : Nat) (t t' : Thread) (h : ts[i]? = some t) :
    totalHeld (ts.set i t') = totalHeld ts - heldBy t.log + heldBy t'.log := by
  have hi : i < ts.length := (List.getElem?_eq_some_iff.1 h).1
  have hv : ts[i] = t := (List.getElem?_eq_some_iff.1 h).2
  unfold totalHeld
  rw [List.map_set, sum_set _ i (by simpa using hi)]
  simp [hv]

theorem insideFailing_set (ts : List Thread) (i : Nat) (t t' : Thread) (h : ts[i]? = some t) :
    (insideFailing (ts.set i t') : Int) =
      insideFailing ts - (if t.pending then 1 else 0) + (if t'.pending then 1 else 0) := by
  induction ts generalizing i with
  | nil => simp at h
  | cons a l ih =>
    unfold insideFailing at *
    cases i with
    | zero =>
      simp only [List.length_cons, Nat.zero_lt_succ, List.getElem?_eq_getElem, List.getElem_cons_zero, Option.some.injEq] at h
      subst h
      simp only [List.set_cons_zero, List.countP_cons]
      split <;> split <;> omega
    | succ i =>
      simp only [List.getElem?_cons_succ] at h
      have := ih i h
      simp only [List.set_cons_succ, List.countP_cons]
      omega

theorem heldBy_append (l : List LEvent) (e : LEvent) :
    heldBy (l ++ [e]) = heldBy l + (match e with | .locked => 1 | .unlocked => -1 | .unlockError => 0) := by
  unfold heldBy
  cases e <;> simp [List.count_append] <;> omega

/-- The accounting invariant: it holds for arbitrary programs, well-behaved or not. -/
theorem accounting_step (s : LState) (i : Nat) (h : s.cnt = totalHeld s.threads - insideFailing s.threads)
    (h0 : 0 ≤ totalHeld s.threads) :
    (s.step i).cnt = totalHeld (s.step i).threads - insideFailing (s.step i).threads ∧ 0 ≤ totalHeld (s.step i).threads := by
  unfold LState.step
  split
  · exact ⟨h, h0⟩
  · rename_i t ht
    dsimp only
    rw [totalHeld_set _ _ t _ ht, insideFailing_set _ _ t _ ht]
    unfold Thread.step
    split
    · rename_i hp
      simp only [heldBy_append, hp, if_true, Bool.false_eq_true, if_false]
      constructor <;> omega
    · rename_i hp
      simp only [Bool.not_eq_true] at hp
      split
      · simp only [hp, Bool.false_eq_true, if_false]
        constructor <;> omega
      · simp only [heldBy_append, hp, Bool.false_eq_true, if_false]
        constructor <;> omega
      · split
        · simp only [hp, Bool.false_eq_true, if_false, if_true]
          constructor <;> omega
        · simp only [heldBy_append, hp, Bool.false_eq_true, if_false]
          constructor <;> omega

theorem start_totalHeld (progs : List (List LOp)) : totalHeld (LState.start progs).threads = 0 := by
  unfold totalHeld LState.start
  induction progs with
  | nil => rfl
  | cons p ps ih => simpa [heldBy] using ih

theorem start_insideFailing (progs : List (List LOp)) : insideFailing (LState.start progs).threads = 0 := by
  unfold insideFailing LState.start
  induction progs with
  | nil => rfl
  | cons p ps ih => simpa using ih

/-- **C44 (accounting, any threads).** For arbitrary calls of any number of threads and every schedule: the lock count is the number of
locks held, minus one for each thread that is just inside of a failing `Unlock`; there are never more successful `Unlock` than `Lock` calls.
So when no call is in progress, the count is exactly the number of `Lock` calls minus the successful `Unlock` calls: failed calls leave no
trace. -/
theorem C44_accounting (progs : List (List LOp)) (sched : List Nat) :
    let s := (LState.start progs).run sched
    s.cnt = totalHeld s.threads - insideFailing s.threads ∧ 0 ≤ totalHeld s.threads := by
  intro s
  have key : ∀ (sched : List Nat) (s : LState), s.cnt = totalHeld s.threads - insideFailing s.threads → 0 ≤ totalHeld s.threads →
      (s.run sched).cnt = totalHeld (s.run sched).threads - insideFailing (s.run sched).threads ∧ 0 ≤ totalHeld (s.run sched).threads := by
    intro sched
    induction sched with
    | nil => intro s h h0; exact ⟨h, h0⟩
    | cons i is ih =>
      intro s h h0
      obtain ⟨h1, h2⟩ := accounting_step s i h h0
      exact ih (s.step i) h1 h2
  apply key
  · rw [start_totalHeld, start_insideFailing]; rfl
  · rw [start_totalHeld]; exact Int.le_refl 0

/-- What is known about a well-behaved thread. -/
structure Good (t : Thread) : Prop where
  notPending : t.pending = false
  noError : .unlockError ∉ t.log
  nonneg : 0 ≤ heldBy t.log
  future : ∀ n, ((t.prog.take n).count .unlock : Int) ≤ heldBy t.log + (t.prog.take n).count .lock

theorem good_held_le (ts : List Thread) (hg : ∀ t ∈ ts, Good t) (i : Nat) (t : Thread) (h : ts[i]? = some t) :
    heldBy t.log ≤ totalHeld ts := by
  induction ts generalizing i with
  | nil => simp at h
  | cons a l ih =>
    have hl : 0 ≤ totalHeld l := by
      clear ih h
      induction l with
      | nil => exact Int.le_refl 0
      | cons b l ih2 =>
        have := ih2 (fun t ht => hg t (by simp only [List.mem_cons] at ht ⊢; rcases ht with h | h <;> simp [h]))
        have := (hg b (by simp)).nonneg
        simp only [totalHeld, List.map_cons, List.sum_cons] at *
        omega
    have ha := (hg a (by simp)).nonneg
    have e : totalHeld (a :: l) = heldBy a.log + totalHeld l := by simp [totalHeld]
    cases i with
    | zero =>
      simp at h; subst h; omega
    | succ i =>
      simp only [List.getElem?_cons_succ] at h
      have := ih (fun t ht => hg t (by simp [ht])) i h
      omega

theorem good_step (s : LState) (i : Nat) (hg : ∀ t ∈ s.threads, Good t) (hc : s.cnt = totalHeld s.threads) :
    (∀ t ∈ (s.step i).threads, Good t) ∧ (s.step i).cnt = totalHeld (s.step i).threads := by
  unfold LState.step
  split
  · exact ⟨hg, hc⟩
  · rename_i t ht
    dsimp only
    have hmem : t ∈ s.threads := List.mem_of_getElem? ht
    obtain ⟨g1, g2, g3, g4⟩ := hg t hmem
    have hle := good_held_le s.threads hg i t ht
    have mem : ∀ t' t'', t'' ∈ s.threads.set i t' → t'' = t' ∨ t'' ∈ s.threads := by
      intro t' t'' h
      have := List.mem_or_eq_of_mem_set h
      rcases this with h | h
      · exact Or.inr h
      · exact Or.inl h
    rw [totalHeld_set _ _ t _ ht]
    have gstep : Good (t.step s.cnt).1 ∧ (t.step s.cnt).2 = totalHeld s.threads - heldBy t.log + heldBy (t.step s.cnt).1.log := by
      unfold Thread.step
      rw [if_neg (by simp [g1])]
      split
      · rename_i hp
        exact ⟨⟨g1, g2, g3, g4⟩, by dsimp only; omega⟩
      · rename_i r hp
        refine ⟨⟨g1, by simp [g2], ?_, ?_⟩, ?_⟩
        · dsimp only; rw [heldBy_append]; dsimp only; omega
        · intro n
          have := g4 (n + 1)
          rw [hp] at this
          simp only [List.take_succ_cons, List.count_cons] at this
          dsimp only; rw [heldBy_append]
          simp at this ⊢
          omega
        · dsimp only; rw [heldBy_append]; dsimp only; omega
      · rename_i r hp
        have h1 : 1 ≤ heldBy t.log := by
          have := g4 1
          rw [hp] at this
          simpa using this
        rw [if_neg (by omega)]
        refine ⟨⟨g1, by simp [g2], ?_, ?_⟩, ?_⟩
        · dsimp only; rw [heldBy_append]; dsimp only; omega
        · intro n
          have := g4 (n + 1)
          rw [hp] at this
          simp only [List.take_succ_cons, List.count_cons] at this
          dsimp only; rw [heldBy_append]
          simp at this ⊢
          omega
        · dsimp only; rw [heldBy_append]; dsimp only; omega
    refine ⟨?_, gstep.2⟩
    intro t'' h
    rcases mem _ _ h with h | h
    · rw [h]; exact gstep.1
    · exact hg _ h

/-- **C44 (well-behaved threads).** If in every thread each `Unlock` comes after its own matching `Lock`, then under every schedule no
`Unlock` ever fails (nor is about to), and the lock count is the number of locks held. -/
theorem C44_wellbehaved (progs : List (List LOp)) (hp : ∀ p ∈ progs, OwnsItsUnlocks p) (sched : List Nat) :
    let s := (LState.start progs).run sched
    (∀ t ∈ s.threads, LEvent.unlockError ∉ t.log ∧ t.pending = false) ∧ s.cnt = totalHeld s.threads := by
  intro s
  have key : ∀ (sched : List Nat) (s : LState), (∀ t ∈ s.threads, Good t) → s.cnt = totalHeld s.threads →
      (∀ t ∈ (s.run sched).threads, Good t) ∧ (s.run sched).cnt = totalHeld (s.run sched).threads := by
    intro sched
    induction sched with
    | nil => intro s h h0; exact ⟨h, h0⟩
    | cons i is ih =>
      intro s h h0
      obtain ⟨h1, h2⟩ := good_step s i h h0
      exact ih (s.step i) h1 h2
  have hs : ∀ t ∈ (LState.start progs).threads, Good t := by
    intro t ht
    simp only [LState.start, List.mem_map] at ht
    obtain ⟨p, hpm, rfl⟩ := ht
    refine ⟨rfl, by simp, by simp [heldBy], ?_⟩
    intro n
    have := hp p hpm n
    simp only [heldBy, List.count_nil]
    omega
  obtain ⟨h1, h2⟩ := key sched (LState.start progs) hs (by rw [start_totalHeld]; rfl)
  exact ⟨fun t ht => ⟨(h1 t ht).noError, (h1 t ht).notPending⟩, h2⟩

/-- **C44 (one thread).** With a single thread, `Unlock` throws exactly if nothing is locked, and then has no effect: for every
sequence of calls, once it is finished, the outcomes are those of the specification. -/
theorem C44_single_thread (p : List LOp) (n : Nat) (hn : 2 * p.length ≤ n) :
    ((LState.start [p]).run (List.replicate n 0)).threads = [⟨[], false, soloLog 0 p⟩] := by
  have key : ∀ (p : List LOp) (n h : Nat) (log : List LEvent), 2 * p.length ≤ n →
      (LState.run ⟨[⟨p, false, log⟩], h⟩ (List.replicate n 0)).threads = [⟨[], false, log ++ soloLog h p⟩] := by
    intro p
    induction p with
    | nil =>
      intro n h log _
      have : ∀ n, LState.run ⟨[⟨[], false, log⟩], h⟩ (List.replicate n 0) = ⟨[⟨[], false, log⟩], h⟩ := by
        intro n
        induction n with
        | zero => rfl
        | succ n ih => exact ih
      rw [this]
      simp [soloLog]
    | cons o r ih =>
      intro n h log hn
      simp only [List.length_cons] at hn
      obtain ⟨m, rfl⟩ : ∃ m, n = m + 2 := ⟨n - 2, by omega⟩
      cases o with
      | lock =>
        have := ih (m + 1) (h + 1) (log ++ [.locked]) (by omega)
        simp only [soloLog]
        rw [show log ++ LEvent.locked :: soloLog (h + 1) r = log ++ [.locked] ++ soloLog (h + 1) r by simp, ← this]
        rfl
      | unlock =>
        by_cases h0 : h = 0
        · subst h0
          have := ih m 0 (log ++ [.unlockError]) (by omega)
          simp only [soloLog, if_true]
          rw [show log ++ LEvent.unlockError :: soloLog 0 r = log ++ [.unlockError] ++ soloLog 0 r by simp, ← this]
          rfl
        · have := ih (m + 1) (h - 1) (log ++ [.unlocked]) (by omega)
          simp only [soloLog, if_neg h0]
          rw [show log ++ LEvent.unlocked :: soloLog (h - 1) r = log ++ [.unlocked] ++ soloLog (h - 1) r by simp, ← this]
          rw [List.replicate_succ]
          show (LState.run (LState.step _ 0) _).threads = _
          congr 2
          have hcast : ((h - 1 : Nat) : Int) = (h : Int) - 1 := by omega
          simp only [LState.step, List.getElem?_cons_zero, Thread.step, Bool.false_eq_true, if_false]
          rw [if_neg (by omega), hcast]
          rfl
  have := key p n 0 [] hn
  simpa [LState.start] using this

/-- **C44, violated.** An `Unlock` without a `Lock` can disturb another thread: with the schedule shown, thread 1, which locks and unlocks
correctly, gets an exception from its `Unlock`. -/
theorem C44_rogue_unlock_disturbs :
    ∃ (progs : List (List LOp)) (sched : List Nat), progs[1]? = some [.lock, .unlock] ∧ OwnsItsUnlocks [.lock, .unlock] ∧
      ((LState.start progs).run sched).threads[1]? = some ⟨[], false, [.locked, .unlockError]⟩ := by
  refine ⟨[[.unlock], [.lock, .unlock]], [0, 1, 1, 1], rfl, ?_, by decide⟩
  intro n
  rcases n with _ | _ | n
  · decide
  · decide
  · simp

/-- **C44, violated.** An `Unlock` without a `Lock` is not reported if any other thread holds a lock, whose lock it then takes away. -/
theorem C44_rogue_unlock_unreported (r : List LOp) :
    ((LState.start [.lock :: r, [.unlock]]).run [0, 1]).threads = [⟨r, false, [.locked]⟩, ⟨[], false, [.unlocked]⟩] ∧
    ((LState.start [.lock :: r, [.unlock]]).run [0, 1]).cnt = 0 := by
  constructor <;> rfl

/-! ## Non-vacuity -/

example : OwnsItsUnlocks [.lock, .lock, .unlock, .unlock] := by
  intro n
  rcases n with _ | _ | _ | _ | n
  · decide
  · decide
  · decide
  · decide
  · simp
example : ((LState.start [[.lock, .unlock], [.lock, .lock]]).run [0, 1, 0, 1]).cnt = 2 := by decide
example : soloLog 0 [.unlock, .lock, .unlock, .unlock] = [.unlockError, .locked, .unlocked, .unlockError] := by decide

end Verif
