import Verif.Spec.CApi
import Verif.Proof.AddOverloads
import Verif.Proof.IndexSet
import Mathlib.Data.Nat.Bitwise

/-! # Lemmas about the values that cross the C API -/

namespace Verif.CApi

open Verif.Spec Verif.Czi Verif.Text

/-! ## Coordinates -/

theorem and_shift_zero (x i : Nat) : x &&& (1 <<< i) = 0 ↔ x.testBit i = false := by
  rw [Nat.one_shiftLeft, Nat.and_two_pow]
  cases x.testBit i <;> simp

/-- The values before position `j`. -/
def before {α : Type} (f : Dim → Option α) (ds : List Dim) (j : Nat) : Nat := ((ds.take j).filter fun e => (f e).isSome).length

theorem before_cons_some {α : Type} {f : Dim → Option α} {d : Dim} {ds : List Dim} {v : α} (h : f d = some v) (j : Nat) :
    before f (d :: ds) (j + 1) = before f ds j + 1 := by
  unfold before; rw [List.take_succ_cons, List.filter_cons]; simp [h]

theorem before_cons_none {α : Type} {f : Dim → Option α} {d : Dim} {ds : List Dim} (h : f d = none) (j : Nat) :
    before f (d :: ds) (j + 1) = before f ds j := by
  unfold before; rw [List.take_succ_cons, List.filter_cons]; simp [h]

theorem coordLoop_eq (p : Packed Int) (f : Coord) : ∀ (ds : List Dim) (i k : Nat) (c0 : Coord),
    (∀ j (hj : j < ds.length), p.valid.testBit (i + j) = (f ds[j]).isSome) →
    (∀ j (hj : j < ds.length) v, f ds[j] = some v → p.value (k + before f ds j) = v) → ds.Nodup → (∀ d ∈ ds, c0 d = none) →
    coordLoop p ds i k c0 = fun e => if e ∈ ds then f e else c0 e := by
  intro ds
  induction ds with
  | nil => intro i k c0 _ _ _ _; funext e; simp [coordLoop]
  | cons d ds ih =>
    intro i k c0 hb hv hn hc
    have hn' := List.nodup_cons.1 hn
    unfold coordLoop
    have h0 := hb 0 (by simp)
    simp only [Nat.add_zero, List.getElem_cons_zero] at h0
    cases hd : f d with
    | none =>
      rw [hd] at h0
      rw [if_pos ((and_shift_zero _ _).2 h0), ih (i + 1) k c0 ?_ ?_ hn'.2 (fun e he => hc e (List.mem_cons_of_mem _ he))]
      · funext e
        by_cases he : e = d
        · subst he
          rw [if_neg hn'.1, if_pos (by simp), hd, hc e (by simp)]
        · simp [he]
      · intro j hj
        have := hb (j + 1) (by simpa using hj)
        rw [show i + 1 + j = i + (j + 1) by omega, this]
        simp
      · intro j hj v hfv
        have := hv (j + 1) (by simpa using hj) v (by simpa using hfv)
        rwa [before_cons_none hd] at this
    | some x =>
      rw [hd] at h0
      rw [if_neg (by rw [and_shift_zero, h0]; simp), ih (i + 1) (k + 1) _ ?_ ?_ hn'.2 ?_]
      · funext e
        by_cases he : e = d
        · subst he
          have h1 := hv 0 (by simp) x (by simpa using hd)
          rw [if_neg hn'.1, if_pos (by simp), hd]
          unfold Coord.set
          rw [if_pos rfl]
          unfold before at h1
          simpa using h1
        · simp [he, Coord.set]
      · intro j hj
        have := hb (j + 1) (by simpa using hj)
        rw [show i + 1 + j = i + (j + 1) by omega, this]
        simp
      · intro j hj v hfv
        have := hv (j + 1) (by simpa using hj) v (by simpa using hfv)
        rw [before_cons_some hd] at this
        rwa [show k + 1 + before f ds j = k + (before f ds j + 1) by omega]
      · intro e he
        unfold Coord.set
        rw [if_neg (by intro h; subst h; exact hn'.1 he)]
        exact hc e (List.mem_cons_of_mem _ he)

theorem packLoop_eq {α : Type} (f : Dim → Option α) : ∀ (ds : List Dim) (i k : Nat) (p : Packed α),
    (∀ b, (packLoop f ds i k p).valid.testBit b = (p.valid.testBit b || (decide (i ≤ b) && ((ds[b - i]?).any fun d => (f d).isSome)))) ∧
    (∀ j < k, (packLoop f ds i k p).value j = p.value j) ∧
    (∀ j (hj : j < ds.length) v, f ds[j] = some v → (packLoop f ds i k p).value (k + before f ds j) = v) := by
  intro ds
  induction ds with
  | nil => intro i k p; exact ⟨fun b => by simp [packLoop], fun j _ => rfl, fun j hj => by simp at hj⟩
  | cons d ds ih =>
    intro i k p
    have hbit : ∀ b, ¬ i = b → i ≤ b → (d :: ds)[b - i]? = ds[b - (i + 1)]? := by
      intro b h1 h2
      rw [show b - i = b - (i + 1) + 1 by omega, List.getElem?_cons_succ]
    cases hd : f d with
    | none =>
      have he : packLoop f (d :: ds) i k p = packLoop f ds (i + 1) k p := by rw [packLoop, hd]
      rw [he]
      obtain ⟨h1, h2, h3⟩ := ih (i + 1) k p
      refine ⟨fun b => ?_, h2, fun j hj v hv => ?_⟩
      · rw [h1 b]
        by_cases e : i = b
        · subst e; simp [hd]
        · by_cases e2 : i ≤ b
          · rw [hbit b e e2]
            congr 2
            rw [decide_eq_decide]
            omega
          · rw [decide_eq_false e2, decide_eq_false (by omega : ¬ i + 1 ≤ b)]
            simp
      · cases j with
        | zero => simp [hd] at hv
        | succ j =>
          rw [before_cons_none hd]
          exact h3 j (by simpa using hj) v (by simpa using hv)
    | some x =>
      have he : packLoop f (d :: ds) i k p = packLoop f ds (i + 1) (k + 1) ⟨p.valid ||| (1 <<< i), fun j => if j = k then x else p.value j⟩ := by
        rw [packLoop, hd]
      rw [he]
      obtain ⟨h1, h2, h3⟩ := ih (i + 1) (k + 1) ⟨p.valid ||| (1 <<< i), fun j => if j = k then x else p.value j⟩
      refine ⟨fun b => ?_, fun j hj => ?_, fun j hj v hv => ?_⟩
      · rw [h1 b]
        dsimp only
        rw [Nat.testBit_or, Nat.one_shiftLeft]
        by_cases e : i = b
        · subst e; simp [hd, Nat.testBit_two_pow_self]
        · rw [Nat.testBit_two_pow_of_ne e]
          by_cases e2 : i ≤ b
          · rw [hbit b e e2, decide_eq_true e2, decide_eq_true (by omega : i + 1 ≤ b)]
            simp
          · rw [decide_eq_false e2, decide_eq_false (by omega : ¬ i + 1 ≤ b)]
            simp
      · rw [h2 j (by omega)]
        dsimp only
        rw [if_neg (by omega)]
      · cases j with
        | zero =>
          unfold before
          have : x = v := by simpa [hd] using hv
          subst this
          rw [show k + ((List.take 0 (d :: ds)).filter fun e => (f e).isSome).length = k by simp, h2 k (by omega)]
          simp
        | succ j =>
          rw [before_cons_some hd]
          have := h3 j (by simpa using hj) v (by simpa using hv)
          rwa [show k + 1 + before f ds j = k + (before f ds j + 1) by omega] at this

theorem all_dimBit (d : Dim) : ∃ h : dimBit d < Dim.all.length, Dim.all[dimBit d] = d := by cases d <;> exact ⟨by decide, rfl⟩

theorem all_index : ∀ j (h : j < Dim.all.length), dimBit Dim.all[j] = j := by decide

theorem rank_eq {α : Type} (f : Dim → Option α) (d : Dim) : rank f d = before f Dim.all (dimBit d) := by
  cases d <;> simp [rank, before, Dim.all, dimBit, List.filter_cons]

theorem pack_represents {α : Type} (f : Dim → Option α) (v0 : Nat → α) :
    Represents (packLoop f Dim.all 0 0 ⟨0, v0⟩) f ∧ (packLoop f Dim.all 0 0 ⟨0, v0⟩).valid < 512 := by
  obtain ⟨h1, _, h3⟩ := packLoop_eq f Dim.all 0 0 ⟨0, v0⟩
  refine ⟨⟨fun d => ?_, fun d v hv => ?_⟩, ?_⟩
  · rw [h1]
    obtain ⟨hd, he⟩ := all_dimBit d
    rw [Nat.sub_zero, List.getElem?_eq_getElem hd, he]
    simp
  · obtain ⟨hd, he⟩ := all_dimBit d
    have := h3 (dimBit d) hd v (by rw [he]; exact hv)
    rw [rank_eq]
    simpa using this
  · apply Nat.lt_of_testBit 9 ?_ ?_ ?_
    · rw [h1]; simp [Dim.all]
    · decide
    · intro j hj
      rw [h1]
      have : Dim.all[j - 0]? = none := List.getElem?_eq_none (by show 9 ≤ j - 0; omega)
      rw [this]
      have h9 : (512 : Nat) = 2 ^ 9 := rfl
      rw [h9, Nat.testBit_two_pow_of_ne (by omega)]
      simp

theorem coord_represented {p : Packed Int} {c : Coord} (h : Represents p c) : coordFromInterop p = c := by
  unfold coordFromInterop
  rw [coordLoop_eq p c Dim.all 0 0 Coord.empty ?_ ?_ (by decide) (fun _ _ => rfl)]
  · funext e
    rw [if_pos (by cases e <;> decide)]
  · intro j hj
    have := h.bits Dim.all[j]
    rw [all_index j hj] at this
    rw [Nat.zero_add, this]
  · intro j hj v hv
    have := h.values Dim.all[j] v hv
    rw [rank_eq, all_index j hj] at this
    rw [Nat.zero_add, this]

/-! ## Texts -/

theorem isContinuation_iff (b : UInt8) : isContinuation b = true ↔ 128 ≤ b.toNat ∧ b.toNat < 192 := by
  have tab : ∀ n < 256, isContinuation (UInt8.ofNat n) = decide (128 ≤ n ∧ n < 192) := by decide +kernel
  have := tab b.toNat b.toNat_lt
  rw [UInt8.ofNat_toNat] at this
  rw [this]; simp

theorem firstChars_succ {chars : List (List UInt8)} {k : Nat} (h : k < chars.length) : firstChars chars (k + 1) = firstChars chars k ++ chars[k] := by
  unfold firstChars
  rw [List.take_succ_eq_append_getElem h, List.flatten_append, List.flatten_cons, List.flatten_nil, List.append_nil]

theorem flatten_at {chars : List (List UInt8)} {k : Nat} (h : k < chars.length) {j : Nat} (hj : j < chars[k].length) :
    chars.flatten[(firstChars chars k).length + j]? = chars[k][j]? := by
  have e : chars.flatten = firstChars chars k ++ (chars[k] ++ (chars.drop (k + 1)).flatten) := by
    unfold firstChars
    rw [← List.flatten_cons, ← List.drop_eq_getElem_cons h, ← List.flatten_append, List.take_append_drop]
  rw [e, List.getElem?_append_right (by omega), Nat.add_sub_cancel_left, List.getElem?_append_left hj]

theorem backUp_chars {chars : List (List UInt8)} (hc : ∀ c ∈ chars, Utf8Char c) : ∀ n, n ≤ chars.flatten.length →
    ∃ k, k ≤ chars.length ∧ backUp chars.flatten n = (firstChars chars k).length ∧ (firstChars chars k).length ≤ n ∧
      (k < chars.length → n < (firstChars chars (k + 1)).length) := by
  have hpos : ∀ k (h : k < chars.length), 0 < chars[k].length := by
    intro k h
    obtain ⟨b, rest, e, _⟩ := hc _ (List.getElem_mem h)
    rw [e]; simp
  intro n
  induction n with
  | zero =>
    intro _
    refine ⟨0, by omega, rfl, by simp [firstChars], fun h => ?_⟩
    rw [firstChars_succ h, List.length_append]
    have := hpos 0 h
    omega
  | succ n ih =>
    intro hn
    obtain ⟨k, hk1, hk2, hk3, hk4⟩ := ih (by omega)
    have hk : k < chars.length := by
      by_contra hh
      have : k = chars.length := by omega
      subst this
      unfold firstChars at hk3
      rw [List.take_length] at hk3
      omega
    have hlen : (firstChars chars (k + 1)).length = (firstChars chars k).length + chars[k].length := by rw [firstChars_succ hk, List.length_append]
    have h4 := hk4 hk
    unfold backUp
    obtain ⟨b, rest, eb, hb, hr⟩ := hc _ (List.getElem_mem hk)
    by_cases hlast : n + 1 < (firstChars chars (k + 1)).length
    · -- inside of character k
      have hin : chars.flatten.getD (n + 1) 0 ∈ rest := by
        have hj : n + 1 - (firstChars chars k).length < chars[k].length := by omega
        have := flatten_at hk hj
        rw [show (firstChars chars k).length + (n + 1 - (firstChars chars k).length) = n + 1 by omega] at this
        rw [List.getD_eq_getElem?_getD, this, List.getElem?_eq_getElem hj, Option.getD_some]
        have e0 : n + 1 - (firstChars chars k).length = (n - (firstChars chars k).length) + 1 := by omega
        have hmem : ∀ m (hm : m < chars[k].length), m ≠ 0 → chars[k][m] ∈ rest := by
          rw [eb]
          intro m hm h0
          cases m with
          | zero => omega
          | succ m => simp
        exact hmem _ hj (by omega)
      rw [if_pos ((isContinuation_iff _).2 (hr _ hin))]
      exact ⟨k, hk1, hk2, by omega, fun _ => hlast⟩
    · have heq : n + 1 = (firstChars chars (k + 1)).length := by omega
      have hnc : ¬ isContinuation (chars.flatten.getD (n + 1) 0) = true := by
        rw [isContinuation_iff]
        by_cases hk2' : k + 1 < chars.length
        · have := flatten_at hk2' (hpos _ hk2')
          rw [Nat.add_zero, ← heq] at this
          rw [List.getD_eq_getElem?_getD, this]
          obtain ⟨b', rest', eb', hb', _⟩ := hc _ (List.getElem_mem hk2')
          rw [List.getElem?_eq_getElem (hpos _ hk2'), Option.getD_some]
          have : ∀ (hh : 0 < chars[k + 1].length), chars[k + 1][0] = b' := by rw [eb']; intro _; rfl
          rw [this]
          exact hb'
        · have : k + 1 = chars.length := by omega
          have hl : (firstChars chars (k + 1)).length = chars.flatten.length := by unfold firstChars; rw [this, List.take_length]
          rw [List.getD_eq_getElem?_getD, List.getElem?_eq_none (by omega)]
          decide
      rw [if_neg hnc]
      refine ⟨k + 1, by omega, heq, by omega, fun h => ?_⟩
      rw [firstChars_succ h, List.length_append, heq]
      have := hpos _ h
      omega

end Verif.CApi
