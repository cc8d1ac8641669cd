import Verif.Props.Coord

/-!
# C23: what is enumerated for empty intervals
-/

namespace Verif
open Spec EnumAll

/-- The bounds with every empty interval replaced by the interval that contains just its start. -/
def Spec.filled (b : Bounds) : Bounds := fun d => (b d).map fun p => (p.1, if p.2 < 1 then 1 else p.2)

theorem filled_validDims (b : Bounds) : (filled b).validDims = b.validDims := by
  unfold Bounds.validDims filled
  congr 1
  funext d
  cases b d <;> rfl

theorem reset_filled (b : Bounds) : ∀ (ds : List Dim) (c : Coord), reset (filled b) ds c = reset b ds c := by
  intro ds c
  unfold reset
  congr 1
  funext c d
  unfold filled
  cases b d <;> rfl

/-- No value is below the start of its interval. -/
def NotBelow (b : Bounds) (c : Coord) : Prop := ∀ d s n v, b d = some (s, n) → c d = some v → s ≤ v

theorem notBelow_set {b : Bounds} {c : Coord} (h : NotBelow b c) {d : Dim} {x : Int} (hx : ∀ s n, b d = some (s, n) → s ≤ x) : NotBelow b (c.set d x) := by
  intro e s n v he hv
  unfold Coord.set at hv
  by_cases hed : e = d
  · subst hed
    simp at hv
    rw [← hv]; exact hx s n he
  · simp [hed] at hv
    exact h e s n v he hv

theorem notBelow_reset {b : Bounds} : ∀ (ds : List Dim) {c : Coord}, NotBelow b c → NotBelow b (reset b ds c)
  | [], _, h => h
  | d :: ds, c, h => by
    unfold reset
    rw [List.foldl_cons]
    refine notBelow_reset ds ?_
    cases hb : b d with
    | none => exact h
    | some p => exact notBelow_set h (fun s n hs => by rw [hb] at hs; cases hs; exact Int.le_refl _)

theorem advance_filled {b : Bounds} : ∀ (rest done : List Dim) {c : Coord}, NotBelow b c →
    advance (filled b) done rest c = advance b done rest c ∧ ∀ c', advance b done rest c = some c' → NotBelow b c'
  | [], _, c, h => ⟨rfl, by intro c' hc; cases hc; exact h⟩
  | d :: rest, done, c, h => by
    unfold advance
    cases hb : b d with
    | none =>
      have : filled b d = none := by simp [filled, hb]
      rw [this]
      exact ⟨rfl, by intro c' hc; cases hc⟩
    | some p =>
      obtain ⟨s, n⟩ := p
      have : filled b d = some (s, if n < 1 then 1 else n) := by simp [filled, hb]
      rw [this]
      cases hc : c d with
      | none => exact ⟨rfl, by intro c' hc; cases hc⟩
      | some v =>
        have hsv := h d s n v hb hc
        dsimp only
        by_cases hlt : v < s + n - 1
        · rw [if_pos hlt, if_pos (by split <;> omega)]
          refine ⟨rfl, ?_⟩
          intro c' hc'
          cases hc'
          exact notBelow_set h (fun s' n' hs' => by rw [hb] at hs'; cases hs'; omega)
        · rw [if_neg hlt, if_neg (by split <;> omega)]
          by_cases hr : rest = []
          · rw [if_pos hr, if_pos hr]
            exact ⟨rfl, by intro c' hc'; cases hc'⟩
          · rw [if_neg hr, if_neg hr, reset_filled]
            exact advance_filled rest _ (notBelow_reset _ h)

theorem run_filled {b : Bounds} {σ : Type} (f : σ → Nat → Coord → Bool × σ) (dims : List Dim) : ∀ (fuel no : Nat) (c : Coord) (st : σ), NotBelow b c →
    run (filled b) dims f fuel no c st = run b dims f fuel no c st
  | 0, _, _, _, _ => rfl
  | fuel + 1, no, c, st, h => by
    obtain ⟨h1, h2⟩ := advance_filled dims [] h
    unfold run
    dsimp only
    rw [h1]
    split
    · rfl
    · cases ha : advance b [] dims c with
      | none => rfl
      | some c' => exact run_filled f dims fuel (no + 1) c' _ (h2 c' ha)

/-- **C23 (all bounds).** For all bounds with at least one dimension the enumeration presents, to every callback, exactly the coordinates within the bounds in
which each empty interval is replaced by its start: so the property is violated exactly by bounds with an empty interval, for which there are no
coordinates, but some are presented. -/
theorem C23_enumerates_filled (b : Bounds) (hne : ∃ d, (b d).isSome) :
    ∃ L : List Coord, (∀ c, c ∈ L ↔ InBounds (filled b) c) ∧ L.Nodup ∧ L.Pairwise Before ∧
      ∀ (σ : Type) (f : σ → Nat → Coord → Bool × σ) (st : σ) (fuel : Nat), L.length ≤ fuel →
        enumAll b f fuel st = some (present f 0 L st) := by
  obtain ⟨L, h1, h2, h3, h4⟩ := C23_enumerates_exactly_partial (filled b) (by
    obtain ⟨d, hd⟩ := hne
    exact ⟨d, by unfold filled; simpa using hd⟩) (by
    intro d s n h
    unfold filled at h
    cases hb : b d with
    | none => rw [hb] at h; cases h
    | some p =>
      rw [hb] at h
      simp only [Option.map_some, Option.some.injEq, Prod.mk.injEq] at h
      rw [← h.2]
      split <;> omega)
  refine ⟨L, h1, h2, h3, ?_⟩
  intro σ f st fuel hf
  rw [← h4 σ f st fuel hf]
  unfold enumAll
  rw [filled_validDims, reset_filled]
  split
  · rfl
  · refine (run_filled f _ fuel 0 _ st (notBelow_reset _ ?_)).symm
    intro d s n v _ hv
    cases hv

/-- **C23 (violated in general).** Whenever an interval is empty, no coordinate is within the bounds, but the callback is called. -/
theorem C23_empty_interval_violated (b : Bounds) {d : Dim} {s n : Int} (hd : b d = some (s, n)) (hn : n < 1) :
    (∀ c, ¬ InBounds b c) ∧
    ∃ L : List Coord, L ≠ [] ∧ ∀ (σ : Type) (f : σ → Nat → Coord → Bool × σ) (st : σ) (fuel : Nat), L.length ≤ fuel →
      enumAll b f fuel st = some (present f 0 L st) := by
  constructor
  · intro c hc
    have := hc d
    rw [hd] at this
    obtain ⟨v, _, h1, h2⟩ := this
    omega
  · obtain ⟨L, h1, _, _, h4⟩ := C23_enumerates_filled b ⟨d, by rw [hd]; rfl⟩
    refine ⟨L, ?_, h4⟩
    have : (fun e => (b e).map (·.1)) ∈ L := by
      refine (h1 _).2 ?_
      intro e
      unfold filled
      cases hb : b e with
      | none => simp [hb]
      | some p =>
        simp only [Option.map_some]
        exact ⟨p.1, by simp [hb], Int.le_refl _, by split <;> omega⟩
    intro h
    rw [h] at this
    simp at this

/-- A case: "Z0:0 T5:2" has no coordinates, but (Z0,T5) and (Z0,T6) are presented. -/
example : (enumAll (fun d => match d with | .Z => some (0, 0) | .T => some (5, 2) | _ => none)
    (fun (l : List (Option Int × Option Int)) _ c => (true, l ++ [(c .Z, c .T)])) 10 []) = some (true, [(some 0, some 5), (some 0, some 6)]) := by
  decide +kernel

end Verif
