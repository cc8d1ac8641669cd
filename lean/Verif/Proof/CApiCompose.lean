import Verif.Spec.CApiCompose
import Verif.Proof.DisplayHelper
import Verif.Proof.MultiMean

namespace Verif.CComp
open Verif.Lut Verif.Czi Verif.Xml Verif.Multi Verif.Helper Verif.Blit Verif.Spec

theorem from_plain (v : ChannelView ℚ) : fromInterop (Interop.plain v) = plainInfo v := by
  unfold fromInterop Interop.plain plainInfo
  cases v.tint with
  | none =>
    simp only [Channel.mk.injEq, true_and, and_true]
    refine ⟨rfl, ?_⟩
    funext i
    unfold bgr
    split
    · rfl
    · split <;> rfl
  | some c => simp

theorem from_lut (v : ChannelView ℚ) (n : Nat) (t : List Nat) :
    fromInterop { Interop.plain v with count := n, lut := some (bytesOf t) } = lutInfo v n t := by
  unfold lutInfo
  rw [← from_plain v]
  rfl

theorem size_of_right {ptOf : Int → PixelType} {sixteen : Int → Bool} {ch : Int} {n : Nat} (h : RightSize ptOf sixteen ch)
    (hn : sizeForLut (ptOf ch) = some n) : n = if sixteen ch then 256 * 256 else 256 := by
  unfold RightSize at h
  cases hs : sixteen ch <;> rw [hs] at h <;> cases hp : ptOf ch <;> rw [hp] at h hn <;> simp_all [sizeForLut]

theorem fill_of_add {pow : ℚ → ℚ → ℚ} {rd : ℚ → ℚ} {solve : Solver} {ptOf : Int → PixelType} {sixteen : Int → Bool} {st st' : State} {ch : Int}
    {v : ChannelView ℚ} (he : v.isEnabled = true) (hr : v.mode ≠ .linear → RightSize ptOf sixteen ch)
    (h : addSetting pow rd solve ptOf st ch v = .ok st') :
    ∃ i, fillView pow rd solve v (sixteen ch) = .ok i ∧ st'.infos = st.infos ++ [fromInterop i] ∧ st'.active = st.active ++ [ch] := by
  unfold addSetting at h
  unfold fillView
  rw [he] at h ⊢
  simp only [Bool.true_eq_false, if_false] at h ⊢
  by_cases hm : v.mode = .linear
  · rw [if_pos hm] at h ⊢
    cases h
    exact ⟨_, rfl, by rw [from_plain], rfl⟩
  · rw [if_neg hm] at h ⊢
    cases hz : sizeForLut (ptOf ch) with
    | none => rw [hz] at h; cases h
    | some n =>
      rw [hz] at h
      obtain ⟨t, ht, h⟩ := bind_ok h
      cases h
      have hn := size_of_right (hr hm) hz
      rw [← hn]
      dsimp only
      rw [ht]
      exact ⟨_, rfl, by rw [from_lut], rfl⟩

theorem fill_of_adds {pow : ℚ → ℚ → ℚ} {rd : ℚ → ℚ} {solve : Solver} {ptOf : Int → PixelType} {sixteen : Int → Bool} :
    ∀ {l : List (Int × ChannelView ℚ)} {st st' : State}, (∀ e ∈ enabled l, e.2.mode ≠ .linear → RightSize ptOf sixteen e.1) →
      addSettings pow rd solve ptOf l st = .ok st' →
      ∃ is : List Interop, st'.infos = st.infos ++ is.map fromInterop ∧ st'.active = st.active ++ (enabled l).map (·.1) ∧ is.length = (enabled l).length ∧
        ∀ (k : Nat) (e : Int × ChannelView ℚ), (enabled l)[k]? = some e → ∃ i, is[k]? = some i ∧ fillView pow rd solve e.2 (sixteen e.1) = .ok i
  | [], st, st', _, h => by
    cases h
    exact ⟨[], by simp, by simp [enabled], by simp [enabled], by intro k e he; simp [enabled] at he⟩
  | e :: l, st, st', hr, h => by
    rw [addSettings] at h
    obtain ⟨st1, h1, h2⟩ := bind_ok h
    have hr' : ∀ e ∈ enabled l, e.2.mode ≠ .linear → RightSize ptOf sixteen e.1 := by
      intro a ha
      refine hr a ?_
      unfold enabled at ha ⊢
      rw [List.filter_cons]
      split
      · exact List.mem_cons_of_mem _ ha
      · exact ha
    obtain ⟨is, a1, a2, a3, a4⟩ := fill_of_adds hr' h2
    cases he : e.2.isEnabled with
    | false =>
      have hen : enabled (e :: l) = enabled l := by unfold enabled; rw [List.filter_cons, he]; simp
      rw [hen]
      have : st1 = st := by
        unfold addSetting at h1
        rw [he] at h1
        simp only [if_true, Outcome.ok.injEq] at h1
        exact h1.symm
      subst this
      exact ⟨is, a1, a2, a3, a4⟩
    | true =>
      have hen : enabled (e :: l) = e :: enabled l := by unfold enabled; rw [List.filter_cons, he]; simp
      rw [hen]
      obtain ⟨i, b1, b2, b3⟩ := fill_of_add he (hr e (by rw [hen]; simp)) h1
      refine ⟨i :: is, by rw [a1, b2]; simp, by rw [a2, b3]; simp, by simp [a3], ?_⟩
      intro k x hk
      cases k with
      | zero =>
        simp only [List.getElem?_cons_zero, Option.some.injEq] at hk
        subst hk
        exact ⟨i, by simp, b1⟩
      | succ k =>
        simp only [List.getElem?_cons_succ] at hk ⊢
        exact a4 k x hk

theorem gather_ok : ∀ (ps : List (Source × Interop)) (acc : List (Source × Channel)) (h' : List Handle) (i' : List Interop),
    gather ps.length (ps.map (fun p => Handle.bitmap p.1) ++ h') (ps.map (·.2) ++ i') acc = .ok (acc ++ ps.map fun p => (p.1, fromInterop p.2))
  | [], acc, _, _ => by simp [gather]
  | p :: ps, acc, h', i' => by
    have := gather_ok ps (acc ++ [(p.1, fromInterop p.2)]) h' i'
    simp only [List.length_cons, List.map_cons, List.cons_append, gather]
    rw [this]
    simp

theorem compose_eq (create : Nat → Nat → Bitmap) (p : Source × Interop) (ps : List (Source × Interop)) :
    composed create (p :: ps) =
      answer (composeMultiChannel none .Bgr24 (create p.1.bm.w p.1.bm.h) (argsOf ((p :: ps).map fun q => (q.1, fromInterop q.2)))) := by
  unfold composed compose
  rw [if_neg (by simp only [List.length_cons]; omega)]
  simp only [Int.toNat_natCast]
  have := gather_ok (p :: ps) [] [] []
  rw [List.append_nil, List.append_nil, List.nil_append] at this
  rw [this]
  simp only [List.map_cons]
  unfold answer argsOf
  simp only [List.map_cons, List.length_cons, List.length_map]
  cases composeMultiChannel none .Bgr24 (create p.1.bm.w p.1.bm.h) _ <;> rfl

theorem gather_invalid : ∀ (ps : List (Source × Interop)) (n : Nat) (h' : List Handle) (i' : List Interop) (acc : List (Source × Channel)), ps.length < n →
    gather n (ps.map (fun p => Handle.bitmap p.1) ++ .invalid :: h') (ps.map (·.2) ++ i') acc = .error .invalidHandle
  | [], n + 1, h', [], acc, _ => by simp [gather]
  | [], n + 1, h', i :: i', acc, _ => by simp [gather]
  | p :: ps, n + 1, h', i', acc, h => by
    simp only [List.map_cons, List.cons_append, gather]
    exact gather_invalid ps n h' i' _ (by simp at h; omega)

theorem SumOf.mono {α : Type} {P Q : α → Int → Prop} : ∀ {l : List α} {t : Int}, (∀ p ∈ l, ∀ a, P p a → Q p a) → SumOf P l t → SumOf Q l t
  | [], _, _, h => h
  | p :: l, _, hpq, ⟨a, t', h1, h2, h3⟩ =>
    ⟨a, t', hpq p (by simp) a h1, SumOf.mono (fun q hq => hpq q (by simp [hq])) h2, h3⟩

theorem composition_mono {alpha : Option UInt8} {R R' : Channel → UInt8 → Int → Prop} {l : List (Source × Channel)} {dst out : Bitmap}
    (hR : ∀ p ∈ l, ∀ v a, R p.2 v a → R' p.2 v a) (h : IsComposition alpha R l dst out) : IsComposition alpha R' l dst out := by
  refine ⟨h.width, h.height, h.stride, ?_, h.alphas, h.padding⟩
  intro x y i hx hy hi
  obtain ⟨t, h1, h2⟩ := h.colours x y i hx hy hi
  refine ⟨t, SumOf.mono ?_ h1, h2⟩
  intro p hp a ⟨v, hv, hr⟩
  exact ⟨v, hv, hR p hp v a hr⟩

theorem exactSum_two {w : ℚ} : ∀ (l : List (Source × Interop)), (∀ q ∈ l, q.2.weight = some w ∨ q.2.weight = some 0) → w ≠ 0 →
    exactSum ((l.map fun q => (q.1, fromInterop q.2)).map (·.2)) = (l.countP fun q => q.2.weight = some w : Nat) * w
  | [], _, _ => by simp [exactSum]
  | q :: l, h, hw => by
    have ih := exactSum_two l (fun r hr => h r (by simp [hr])) hw
    unfold exactSum at ih ⊢
    simp only [List.map_cons, List.sum_cons]
    rw [ih, List.countP_cons]
    have hq : (fromInterop q.2).weight = q.2.weight := rfl
    rcases h q (by simp) with h1 | h1
    · rw [hq, h1]
      simp only [Option.getD_some, decide_true, if_true]
      push_cast
      ring
    · rw [hq, h1]
      have : ¬ ((0 : ℚ) = w) := fun e => hw e.symm
      simp only [Option.getD_some, Option.some.injEq, this, decide_false, Bool.false_eq_true, if_false]
      push_cast
      ring

theorem weighted_scale {n m : Nat} {w : ℚ} {v : UInt8} {a : Int} (hw : w ≠ 0) (h : Weighted n (m * w) w v a) : Weighted n m 1 v a := by
  unfold Weighted at h ⊢
  have e : (n : ℚ) * w / (m * w) = n * 1 / m := by
    rw [mul_one]
    by_cases hm : (m : ℚ) = 0
    · rw [hm]; simp
    · field_simp
  rw [e] at h
  exact h

theorem weighted_zero {n : Nat} {W : ℚ} {v : UInt8} {a : Int} (h : Weighted n W 0 v a) : a = 0 := by
  unfold Weighted at h
  obtain ⟨h0, h1⟩ := h
  simp only [mul_zero, zero_div, sub_zero, zero_mul, add_zero] at h1
  have : ¬ 1 ≤ a := by
    intro h2
    have h3 : (1 : ℚ) ≤ (a : ℚ) := by exact_mod_cast h2
    rw [abs_of_nonneg (by linarith)] at h1
    norm_num at h1
    linarith
  omega

end Verif.CComp
