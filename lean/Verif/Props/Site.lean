import Verif.Proof.Site

/-! # C96 - one site object and one decoder of each kind for the process -/

namespace Verif
open Verif.Site

/-- **C96 (the site that was set first).** If `SetSiteObject` with a site is the first call and returns before any other call begins, as documented, then it is accepted, and in every
schedule of any number of threads after it, every use of the library sees this site, and every further `SetSiteObject` throws. -/
theorem C96_set_first (dflt t x : Nat) (c1 c2 : Call) (sched : List (Nat × Call)) :
    ∃ evs, (run dflt init ([(t, .set (some x)), (t, c1), (t, c2)] ++ sched)).2 = .accepted t (some x) :: evs ∧
      ∀ e ∈ evs, (∃ u, e = .got u (some x)) ∨ ∃ u, e = .threw u := by
  rw [run_append]
  have hs : Stable x (run dflt init [(t, .set (some x)), (t, c1), (t, c2)]).1 := by
    have hpc : ∀ u, (run dflt init [(t, .set (some x)), (t, c1), (t, c2)]).1.pc u = .idle := by
      intro u
      simp [run, step, init, State.goto]
      intro h1
      rw [if_neg h1, if_neg h1]
    refine ⟨?_, fun u => by rw [hpc]; simp, fun u y => by rw [hpc]; simp⟩
    simp [run, step, init, State.goto]
  refine ⟨(run dflt (run dflt init [(t, .set (some x)), (t, c1), (t, c2)]).1 sched).2, ?_, ?_⟩
  · simp [run, step, init, State.goto]
  · intro e he
    obtain ⟨h1, h2⟩ := (stable_run (dflt := dflt) hs sched).2 e he
    cases e with
    | got u v => exact .inl ⟨u, by rw [h1 u v rfl]⟩
    | accepted u v => exact absurd rfl (h2 u v)
    | threw u => exact .inr ⟨u, rfl⟩

/-- A schedule after it, with two threads that use the library and try to set another site. -/
example : (run 0 init ([(1, .set (some 7)), (1, .get), (1, .get)] ++
    [(1, .get), (2, .get), (1, .get), (1, .get), (3, .set (some 9)), (2, .get), (1, .get), (3, .get), (1, .get), (2, .get), (2, .get)])).2 =
      [.accepted 1 (some 7), .threw 3, .got 1 (some 7), .got 2 (some 7)] := by decide

/-- **C96 (no site set).** Without any `SetSiteObject`, in every schedule of any number of threads, every use of the library sees the built-in site. -/
theorem C96_default (dflt : Nat) (sched : List (Nat × Call)) (h : ∀ t c, (t, c) ∈ sched → c = .get) :
    ∀ e ∈ (run dflt init sched).2, ∃ u, e = .got u (some dflt) := by
  have hno : ∀ t y, (t, Call.set y) ∈ sched → ∃ x, y = some x ∧ x = dflt := fun t y hm => by have := h t _ hm; cases this
  -- no thread is in `SetSiteObject`
  have hset := run_inv (dflt := dflt) (I := fun s => ∀ t y, s.pc t ≠ .setTest y ∧ s.pc t ≠ .setAssign y) (E := fun e => ∃ u v, e = .got u v) (ok := fun c => c = .get)
    (fun s t c hs hc => by
      have key : ∀ (s' : State) p, s'.pc = s.pc → (∀ y, p ≠ Pc.setTest y ∧ p ≠ Pc.setAssign y) → ∀ u y, (s'.goto t p).pc u ≠ .setTest y ∧ (s'.goto t p).pc u ≠ .setAssign y := by
        intro s' p hp h1 u y
        rw [goto_pc]
        split
        · exact h1 y
        · rw [hp]; exact hs u y
      unfold step
      split
      · subst hc; exact ⟨key s _ rfl (by simp), by simp⟩
      · split
        · exact ⟨key _ _ rfl (by simp), by simp⟩
        · exact ⟨hs, by simp⟩
        · exact ⟨key s _ rfl (by simp), by simp⟩
      · split <;> exact ⟨key s _ rfl (by simp), by simp⟩
      · exact ⟨key _ _ rfl (by simp), by simp⟩
      · exact ⟨key _ _ rfl (by simp), by simp⟩
      · exact ⟨key s _ rfl (by simp), by simp⟩
      · rename_i y hp; exact absurd hp (hs t y).1
      · rename_i y hp; exact absurd hp (hs t y).2) sched init (by simp [init]) (fun t c hm => h t c hm)
  intro e he
  obtain ⟨u, v, rfl⟩ := hset.2 e he
  obtain ⟨x, rfl, rfl⟩ := (sound_run (A := fun x => x = dflt) rfl (sound_init _) sched hno).2 _ he u v rfl
  exact ⟨u, rfl⟩

example : (run 0 init [(1, .get), (2, .get), (1, .get), (2, .get), (1, .get), (1, .get), (2, .get), (1, .get), (1, .get), (2, .get), (2, .get)]).2 =
    [.got 1 (some 0), .got 2 (some 0)] := by decide

/-- **C96 (after the first use).** Take any schedule of uses and `SetSiteObject` calls with sites (not null), in which some call has returned and after which no call is in progress.
From then on the site is settled: there is one site that every later use sees, in every continuation, and every later `SetSiteObject` throws. -/
theorem C96_settled (dflt : Nat) (sched : List (Nat × Call)) (hnull : ∀ t, (t, Call.set none) ∉ sched)
    (hret : (run dflt init sched).2 ≠ []) (hidle : ∀ t, (run dflt init sched).1.pc t = .idle) :
    ∃ x, (x = dflt ∨ ∃ t, (t, Call.set (some x)) ∈ sched) ∧
      ∀ later, ∃ evs, (run dflt init (sched ++ later)).2 = (run dflt init sched).2 ++ evs ∧
        ∀ e ∈ evs, (∃ u, e = .got u (some x)) ∨ ∃ u, e = .threw u := by
  have hl : ∀ t y, (t, Call.set y) ∈ sched → ∃ x, y = some x ∧ (x = dflt ∨ ∃ t, (t, Call.set (some x)) ∈ sched) := by
    intro t y hm
    cases y with
    | none => exact absurd hm (hnull t)
    | some x => exact ⟨x, rfl, .inr ⟨t, hm⟩⟩
  have hn := returned_site (A := fun x => x = dflt ∨ ∃ t, (t, Call.set (some x)) ∈ sched) (.inl rfl) sched init (sound_init _) hl (.inr hret)
  have hsd := (sound_run (A := fun x => x = dflt ∨ ∃ t, (t, Call.set (some x)) ∈ sched) (dflt := dflt) (.inl rfl) (sound_init _) sched hl).1
  cases hx : (run dflt init sched).1.site with
  | none => exact absurd hx hn
  | some x =>
    refine ⟨x, hsd.allowed x hx, fun later => ?_⟩
    have hs : Stable x (run dflt init sched).1 := ⟨hx, fun t => by rw [hidle]; simp, fun t y => by rw [hidle]; simp⟩
    refine ⟨(run dflt (run dflt init sched).1 later).2, by rw [run_append], fun e he => ?_⟩
    obtain ⟨h1, h2⟩ := (stable_run (dflt := dflt) hs later).2 e he
    cases e with
    | got u v => exact .inl ⟨u, by rw [h1 u v rfl]⟩
    | accepted u v => exact absurd rfl (h2 u v)
    | threw u => exact .inr ⟨u, rfl⟩

/-- Such a schedule, with overlapping calls of `SetSiteObject`. -/
example : (∀ t, (t, Call.set none) ∉ [(1, Call.set (some 7)), (2, .set (some 8)), (1, .get), (2, .get), (2, .get), (1, .get)]) ∧
    (run 0 init [(1, .set (some 7)), (2, .set (some 8)), (1, .get), (2, .get), (2, .get), (1, .get)]).2 = [.accepted 2 (some 8), .accepted 1 (some 7)] ∧
    ∀ t, (run 0 init [(1, .set (some 7)), (2, .set (some 8)), (1, .get), (2, .get), (2, .get), (1, .get)]).1.pc t = .idle := by
  refine ⟨by simp, by decide, fun t => ?_⟩
  simp only [run, step, init, State.goto]
  by_cases h1 : t = 1
  · subst h1; decide
  · by_cases h2 : t = 2
    · subst h2; decide
    · simp [h1, h2]

/-- **C96 (there is always a site).** If no null site is ever passed to `SetSiteObject`, then in every schedule, with overlapping calls of any kind, every use of the library sees a site:
the built-in one or one that was passed to `SetSiteObject`. -/
theorem C96_never_null (dflt : Nat) (sched : List (Nat × Call)) (hnull : ∀ t, (t, Call.set none) ∉ sched) (u : Nat) (v : Option Nat)
    (he : Event.got u v ∈ (run dflt init sched).2) : v = some dflt ∨ ∃ x t, v = some x ∧ (t, Call.set (some x)) ∈ sched := by
  have hl : ∀ t y, (t, Call.set y) ∈ sched → ∃ x, y = some x ∧ (x = dflt ∨ ∃ t, (t, Call.set (some x)) ∈ sched) := by
    intro t y hm
    cases y with
    | none => exact absurd hm (hnull t)
    | some x => exact ⟨x, rfl, .inr ⟨t, hm⟩⟩
  obtain ⟨x, rfl, hx | ⟨t, ht⟩⟩ :=
    (sound_run (A := fun x => x = dflt ∨ ∃ t, (t, Call.set (some x)) ∈ sched) (dflt := dflt) (.inl rfl) (sound_init _) sched hl).2 _ he u v rfl
  · exact .inl (by rw [hx])
  · exact .inr ⟨x, t, rfl, ht⟩

example : Event.got 1 (some 0) ∈ (run 0 init [(1, .get), (1, .get), (1, .get), (1, .get), (1, .get), (1, .get)]).2 := by decide

/-- **C96 (no deadlock).** In every state that any schedule leads to, if some call is in progress, then some thread in a call can take a step: it is not waiting for the initialisation by
another thread. -/
theorem C96_no_deadlock (dflt : Nat) (sched : List (Nat × Call)) (t : Nat) (h : (run dflt init sched).1.pc t ≠ .idle) :
    ∃ u, (run dflt init sched).1.pc u ≠ .idle ∧ ¬ ((run dflt init sched).1.pc u = .enter ∧ (run dflt init sched).1.flag = .running) := by
  by_cases hw : (run dflt init sched).1.pc t = .enter ∧ (run dflt init sched).1.flag = .running
  · obtain ⟨u, hu⟩ := busy_run (dflt := dflt) sched hw.2
    refine ⟨u, ?_, fun hc => ?_⟩
    · rcases hu with hu | hu | hu <;> rw [hu] <;> simp
    · rw [hc.1] at hu
      simp at hu
  · exact ⟨t, h, hw⟩

/-- Thread 2 waits for thread 1. -/
example : (run 0 init [(1, .get), (2, .get), (1, .get), (2, .get)]).1.pc 2 = .enter ∧ (run 0 init [(1, .get), (2, .get), (1, .get), (2, .get)]).1.flag = .running := by decide

/-- **C96 violated: two sites accepted.** Two overlapping calls of `SetSiteObject` can both be accepted: the test and the assignment are not one step. -/
theorem C96_two_sites_violated (dflt x y t u : Nat) (htu : t ≠ u) :
    ∃ sched, (run dflt init sched).2 = [.accepted t (some x), .accepted u (some y)] := by
  refine ⟨[(t, .set (some x)), (u, .set (some y)), (t, .get), (u, .get), (t, .get), (u, .get)], ?_⟩
  simp [run, step, init, State.goto, htu, htu.symm]

/-- **C96 violated: the site changes while it is used.** If `SetSiteObject` overlaps with the first use of the library, it can be accepted although the built-in site is in use: one use
sees the built-in site, the next one the other. -/
theorem C96_changes_violated (dflt x t u : Nat) (htu : t ≠ u) :
    ∃ sched, (run dflt init sched).2 = [.got t (some dflt), .accepted u (some x), .got t (some x)] := by
  refine ⟨[(u, .set (some x)), (u, .get), (t, .get), (t, .get), (t, .get), (t, .get), (t, .get), (t, .get), (u, .get), (t, .get), (t, .get), (t, .get)], ?_⟩
  simp [run, step, init, State.goto, htu, htu.symm]

/-- **C96 violated: the null site.** `SetSiteObject(nullptr)` is accepted (although documented as not allowed), also several times and before another site is set; if it overlaps with the first use
of the library, that use sees a null site. -/
theorem C96_null_violated (dflt x t u : Nat) (htu : t ≠ u) :
    (run dflt init [(t, .set none), (t, .get), (t, .get), (t, .set none), (t, .get), (t, .get), (t, .set (some x)), (t, .get), (t, .get)]).2 =
      [.accepted t none, .accepted t none, .accepted t (some x)] ∧
    ∃ sched, (run dflt init sched).2 = [.accepted u none, .got t none] := by
  refine ⟨by simp [run, step, init, State.goto], ?_⟩
  refine ⟨[(u, .set none), (u, .get), (t, .get), (t, .get), (t, .get), (t, .get), (t, .get), (u, .get), (t, .get)], ?_⟩
  simp [run, step, init, State.goto, htu, htu.symm]

/-- **C96 (decoders).** In every schedule of any number of threads that ask the built-in site for decoders: all requests for the same kind return the same decoder object, it is of that kind
and never null, and for a kind that does not exist null is returned; at most one decoder of each of the three kinds is ever created. -/
theorem C96_decoders (sched : List (Nat × Kind)) :
    (∃ f : Kind → Nat, ∀ t k r, (t, k, r) ∈ (drun dinit sched).2 → r = if k = .other then none else some ⟨k, f k⟩) ∧
    (drun dinit sched).1.created ≤ 3 ∧
    ∀ k d, (drun dinit sched).1.decoder k = some d → k ≠ .other := by
  obtain ⟨h1, -, h3⟩ := drun_inv sched dinit dinv_init
  refine ⟨⟨fun k => match (drun dinit sched).1.decoder k with | some d => d.id | none => 0, fun t k r hm => ?_⟩, ?_, fun k d hd hk => ?_⟩
  · rcases h3 t k r hm with ⟨rfl, rfl⟩ | ⟨hk, hf, rfl⟩
    · rfl
    · rw [if_neg hk]
      obtain ⟨i, hi⟩ := h1.done k hf
      simp only [hi]
  · rw [h1.count]
    exact List.length_filter_le _ _
  · subst hk
    rw [h1.other] at hd
    cases hd

/-- Two threads ask for the same decoder at the same time, a third one for another. -/
example : (drun dinit [(1, .zstd0), (2, .zstd0), (3, .jxr), (2, .jxr), (1, .jxr), (3, .jxr), (2, .jxr), (3, .jxr), (3, .jxr), (3, .jxr), (2, .jxr), (1, .jxr), (2, .jxr), (1, .jxr)]).2 =
    [(3, .jxr, some ⟨.jxr, 1⟩), (2, .zstd0, some ⟨.zstd0, 0⟩), (1, .zstd0, some ⟨.zstd0, 0⟩)] := by decide

end Verif
