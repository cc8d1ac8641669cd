import Verif.Proof.Machine
import Verif.Props.Compose

/-! # Coverage and visibility with 32-bit integers -/

namespace Verif.Machine
open Blit Accessor Spec

theorem ends_inside {F a : IntRect} (hF : Representable F) (ha : InFrame F a) : Ends a ∧ IsInt a.w ∧ IsInt a.h := by
  unfold Representable at hF
  unfold InFrame at ha
  unfold Ends IsInt at *
  omega

theorem isCompletelyContained_ok {F a b : IntRect} (hF : Representable F) (ha : InFrame F a) (hb : InFrame F b) :
    isCompletelyContained a b = some (Coverage.isCompletelyContained a b) := by
  have ha' := ends_inside hF ha
  have hb' := ends_inside hF hb
  unfold isCompletelyContained Coverage.isCompletelyContained
  rw [i32_ok ha'.1.1, i32_ok ha'.1.2, i32_ok hb'.1.1, i32_ok hb'.1.2]
  simp only [Option.bind_some]
  by_cases h1 : b.x ≥ a.x
  · by_cases h2 : b.x + b.w ≤ a.x + a.w
    · by_cases h3 : b.y ≥ a.y
      · simp [h1, h2, h3]
      · simp [h1, h2, h3]
    · simp [h1, h2]
  · simp [h1]

theorem splitUp_machine {F a b : IntRect} (hF : Representable F) (ha : InFrame F a) (hb : InFrame F b) : splitUp a b = some (Coverage.splitUp a b) := by
  have ha' := ends_inside hF ha
  have hb' := ends_inside hF hb
  unfold Representable IsInt at hF
  unfold InFrame at ha hb
  have e1 : i32 (a.y - b.y) = some (a.y - b.y) := i32_ok (by unfold IsInt; omega)
  have e2 : i32 (a.x - b.x) = some (a.x - b.x) := i32_ok (by unfold IsInt; omega)
  have e3 : i32 (b.x + b.w - a.x) = some (b.x + b.w - a.x) := i32_ok (by unfold IsInt; omega)
  have e4 : i32 (b.x + b.w - a.x - a.w) = some (b.x + b.w - a.x - a.w) := i32_ok (by unfold IsInt; omega)
  have e5 : i32 (b.y + b.h - a.y) = some (b.y + b.h - a.y) := i32_ok (by unfold IsInt; omega)
  have e6 : i32 (b.y + b.h - a.y - a.h) = some (b.y + b.h - a.y - a.h) := i32_ok (by unfold IsInt; omega)
  have e7 : i32 (a.x + a.w - b.x) = some (a.x + a.w - b.x) := i32_ok (by unfold IsInt; omega)
  unfold splitUp stripAbove stripBelow beyond Coverage.splitUp
  simp only [i32_ok ha'.1.1, i32_ok ha'.1.2, i32_ok hb'.1.1, i32_ok hb'.1.2, e1, e2, e3, e4, e5, e6, e7, Option.bind_some]
  by_cases c1 : b.x ≥ a.x ∧ b.x + b.w ≤ a.x + a.w
  · simp only [if_pos c1]
    by_cases c2 : a.y > b.y <;> by_cases c3 : b.y + b.h > a.y + a.h <;> simp [c2, c3]
  · simp only [if_neg c1]
    by_cases c4 : b.x < a.x ∧ b.x + b.w ≤ a.x + a.w
    · simp only [if_pos c4]
      by_cases c2 : b.y < a.y <;> by_cases c3 : b.y + b.h > a.y + a.h <;> simp [c2, c3]
    · simp only [if_neg c4]
      by_cases c5 : b.x ≥ a.x ∧ b.x + b.w > a.x + a.w
      · simp only [if_pos c5]
        by_cases c2 : b.y < a.y <;> by_cases c3 : b.y + b.h > a.y + a.h <;> simp [c2, c3]
      · simp only [if_neg c5]
        by_cases c6 : b.x ≤ a.x ∧ b.x + b.w ≥ a.x + a.w
        · simp only [if_pos c6]
          by_cases c2 : a.y > b.y
          · simp [c2]
          · by_cases c3 : a.y + a.h > b.y
            · by_cases c7 : a.y + a.h < b.y + b.h <;> simp [c2, c3, c7]
            · simp [c2, c3]
        · simp only [if_neg c6]

theorem locate_ok {r : IntRect} (hr : Ends r) : ∀ (S : List IntRect), (∀ s ∈ S, Ends s) →
    locate r S = some ((S.find? (fun s => s.intersectsWith r)).map fun s => (s, S.eraseP (fun s => s.intersectsWith r)))
  | [], _ => rfl
  | s :: S, h => by
    unfold locate
    rw [intersectsWith_ok (h s (by simp)) hr, Option.bind_some, List.find?_cons]
    cases hb : s.intersectsWith r with
    | true => simp [hb]
    | false =>
      rw [if_neg (by simp), locate_ok hr S (fun s' h' => h s' (List.mem_cons_of_mem _ h'))]
      rw [List.eraseP_cons_of_neg (by simp [hb])]
      cases S.find? (fun s => s.intersectsWith r) <;> rfl

theorem inside_within {F b p : IntRect} (hb : InFrame F b) (hv : Valid p) (h : Within b p) : InFrame F p := by
  unfold InFrame Valid Within at *
  omega

theorem inside_valid {F b : IntRect} (hb : InFrame F b) : Valid b := ⟨hb.1, hb.2.1⟩

/-- As long as the unbounded computation succeeds, the machine computes the same. -/
theorem addRectangleFuel_machine {F : IntRect} (hF : Representable F) : ∀ (fuel : Nat) (S : List IntRect) (r : IntRect), (∀ s ∈ S, InFrame F s) → InFrame F r →
    ∀ S', Coverage.addRectangleFuel fuel S r = some S' → addRectangleFuel fuel S r = some S' ∧ ∀ s ∈ S', InFrame F s := by
  intro fuel
  induction fuel with
  | zero => intro S r _ _ S' h; exact absurd h (by simp [Coverage.addRectangleFuel])
  | succ fuel ih =>
    intro S r hS hr S' h
    unfold Coverage.addRectangleFuel at h
    unfold addRectangleFuel
    have hv : r.isValid = true := (isValid_iff r).2 (inside_valid hr)
    rw [hv] at h ⊢
    rw [if_neg (by simp)] at h ⊢
    rw [locate_ok (ends_inside hF hr).1 S (fun s hs => (ends_inside hF (hS s hs)).1), Option.bind_some]
    cases hf : S.find? (fun s => s.intersectsWith r) with
    | none =>
      rw [hf] at h
      cases h
      refine ⟨rfl, ?_⟩
      intro s hs
      rcases List.mem_append.1 hs with hs | hs
      · exact hS s hs
      · rw [List.mem_singleton.1 hs]; exact hr
    | some s =>
      rw [hf] at h
      dsimp only [Option.map_some] at h ⊢
      have hsm := List.mem_of_find?_eq_some hf
      have hsep : ¬ Sep s r := (intersectsWith_iff (inside_valid (hS s hsm)) (inside_valid hr)).1
        (by have := List.find?_some hf; exact this)
      rw [isCompletelyContained_ok hF (hS s hsm) hr, Option.bind_some]
      cases hc1 : Coverage.isCompletelyContained s r with
      | true =>
        rw [hc1, if_pos rfl] at h
        cases h
        exact ⟨rfl, hS⟩
      | false =>
        rw [hc1, if_neg (by simp)] at h
        rw [if_neg (by simp), isCompletelyContained_ok hF hr (hS s hsm), Option.bind_some]
        cases hc2 : Coverage.isCompletelyContained r s with
        | true =>
          rw [hc2, if_pos rfl] at h
          exact ih _ _ (fun s' hs' => hS s' (List.mem_of_mem_eraseP hs')) hr S' h
        | false =>
          rw [hc2, if_neg (by simp)] at h
          rw [if_neg (by simp), splitUp_machine hF (hS s hsm) hr, Option.bind_some]
          have hsp := splitUp_ok (inside_valid (hS s hsm)) (inside_valid hr) hsep
            (fun hw => by rw [(contained_iff s r).2 hw] at hc1; exact absurd hc1 (by simp))
            (fun hw => by rw [(contained_iff r s).2 hw] at hc2; exact absurd hc2 (by simp))
          have hps : ∀ p ∈ Coverage.splitUp s r, InFrame F p := fun p hp => inside_within hr (hsp.valid p hp) (hsp.within p hp)
          clear hsp
          generalize Coverage.splitUp s r = ps at h hps ⊢
          revert hS
          clear hf hsm
          revert h
          generalize S = T
          induction ps generalizing T with
          | nil => intro h hT; cases h; exact ⟨rfl, hT⟩
          | cons p ps ihp =>
            intro h hT
            rw [List.foldlM_cons] at h ⊢
            cases ha : Coverage.addRectangleFuel fuel T p with
            | none => rw [ha] at h; exact absurd h (by simp)
            | some T' =>
              rw [ha] at h
              obtain ⟨g1, g2⟩ := ih T p hT (hps p (by simp)) T' ha
              rw [g1]
              exact ihp (fun q hq => hps q (List.mem_cons_of_mem _ hq)) T' h g2

end Verif.Machine
