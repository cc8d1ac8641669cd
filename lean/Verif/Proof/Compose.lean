import Verif.Proof.Blit

namespace Verif.Blit
open Verif

theorem getLast?_cons_filter {α : Type} (p : α → Bool) (a : α) (l : List α) :
    ((a :: l).filter p).getLast? = match (l.filter p).getLast? with
      | some b => some b
      | none => if p a then some a else none := by
  by_cases h : p a
  · rw [List.filter_cons_of_pos h, List.getLast?_cons]
    cases hl : (l.filter p).getLast? <;> simp [h]
  · rw [List.filter_cons_of_neg h]
    cases hl : (l.filter p).getLast? <;> simp [h]

theorem expected_cons (k : Kind) (t : Tile) (ts : List Tile) (bg : UInt8) (px py : Int) (j : Nat) :
    expected k (t :: ts) bg px py j =
      expected k ts (if t.paints px py then t.colour k px py j else bg) px py j := by
  unfold expected
  rw [getLast?_cons_filter]
  cases (ts.filter (fun t => t.paints px py)).getLast? with
  | some b => rfl
  | none => by_cases h : t.paints px py = true <;> simp [h]

theorem composeTiles_ok (k : Kind) (xPos yPos : Int) (tiles : List Tile) : ∀ (dst : Bitmap), dst.WF k.db →
    (∀ t ∈ tiles, TileOk k t) →
    ∃ out, composeTiles k xPos yPos tiles dst = some out ∧ out.w = dst.w ∧ out.h = dst.h ∧
      out.stride = dst.stride ∧ out.buf.size = dst.buf.size ∧
      (∀ x y j, x < dst.w → y < dst.h → j < k.db →
        out.byteAt k.db x y j = expected k tiles (dst.byteAt k.db x y j) (xPos + x) (yPos + y) j) ∧
      (∀ i, dst.IsPadding k.db i → out.buf.get i = dst.buf.get i) := by
  induction tiles with
  | nil => intro dst _ _; exact ⟨dst, rfl, rfl, rfl, rfl, rfl, by intros; rfl, by intros; rfl⟩
  | cons t ts ih =>
    intro dst hdst hts
    obtain ⟨h1, h2⟩ := hts t (by simp)
    obtain ⟨mid, hm, hp⟩ := compose_ok k dst t xPos yPos hdst h1 h2
    have hmid : mid.WF k.db := by
      unfold Bitmap.WF; rw [hp.w, hp.h, hp.stride, hp.size]; exact hdst
    obtain ⟨out, ho, e1, e2, e3, e4, e5, e6⟩ := ih mid hmid (fun t ht => hts t (by simp [ht]))
    refine ⟨out, by simp [composeTiles, hm, ho], by rw [e1, hp.w], by rw [e2, hp.h], by rw [e3, hp.stride],
      by rw [e4, hp.size], ?_, ?_⟩
    · intro x y j hx hy hj
      rw [e5 x y j (by rw [hp.w]; exact hx) (by rw [hp.h]; exact hy) hj, expected_cons, hp.inside x y j hx hy hj]
    · intro i hi
      rw [e6 i ?_, hp.outside i hi]
      unfold Bitmap.IsPadding at *
      rw [hp.w, hp.h, hp.stride]; exact hi

theorem filter_getLast_eq {α : Type} {p : α → Bool} {l l1 l2 : List α} {a : α} (hl : l = l1 ++ a :: l2)
    (ha : p a = true) (h2 : ∀ b ∈ l2, p b = false) : (l.filter p).getLast? = some a := by
  subst hl
  rw [List.filter_append, List.filter_cons_of_pos ha]
  have : l2.filter p = [] := by
    rw [List.filter_eq_nil_iff]; intro b hb; simp [h2 b hb]
  rw [this]; simp

/-- selecting an ascending list of indices that contains the topmost one gives the same topmost element -/
theorem select_top {α β : Type} (L : List α) (f : α → β) (vis : List Nat) (p : β → Bool)
    (hasc : vis.Pairwise (· < ·)) (hr : ∀ i ∈ vis, i < L.length)
    (htop : ∀ i, (h : i < L.length) → p (f L[i]) = true →
      (∀ j, i < j → (hj : j < L.length) → p (f L[j]) = false) → i ∈ vis) :
    ((vis.filterMap fun i => (L[i]?).map f).filter p).getLast? = ((L.map f).filter p).getLast? := by
  by_cases hex : ∃ i, ∃ h : i < L.length, p (f L[i]) = true
  · -- topmost index
    obtain ⟨i, hi, hpi, hlast⟩ : ∃ i, ∃ h : i < L.length, p (f L[i]) = true ∧
        ∀ j, i < j → (hj : j < L.length) → p (f L[j]) = false := by
      classical
      let P : Nat → Prop := fun k => ∃ h : k < L.length, p (f L[k]) = true
      obtain ⟨i0, h0, hp0⟩ := hex
      have hP : ∃ k, P (L.length - k) := ⟨L.length - i0, by
        have : L.length - (L.length - i0) = i0 := by omega
        rw [this]; exact ⟨h0, hp0⟩⟩
      obtain ⟨h1, h2⟩ := Nat.find_spec hP
      refine ⟨L.length - Nat.find hP, h1, h2, ?_⟩
      intro j hj1 hj2
      by_contra hc
      have hc : p (f L[j]) = true := by simpa using hc
      refine Nat.find_min hP (m := L.length - j) (by omega) ?_
      have : L.length - (L.length - j) = j := by omega
      rw [this]; exact ⟨hj2, hc⟩
    have hmem := htop i hi hpi hlast
    obtain ⟨v1, v2, hv⟩ := List.append_of_mem hmem
    have hL : L.map f = (L.take i).map f ++ f L[i] :: (L.drop (i+1)).map f := by
      rw [← List.map_cons, ← List.map_append]
      congr 1
      rw [← List.drop_eq_getElem_cons, List.take_append_drop]
    rw [filter_getLast_eq hL hpi]
    · subst hv
      rw [List.filterMap_append, List.filterMap_cons_some (b := f L[i]) (by simp [hi])]
      refine filter_getLast_eq rfl hpi ?_
      intro b hb
      rw [List.mem_filterMap] at hb
      obtain ⟨j, hj, hjb⟩ := hb
      have hjl : j < L.length := hr j (by simp [hj])
      have hij : i < j := by
        have := (List.pairwise_append.1 hasc).2.1
        exact (List.pairwise_cons.1 this).1 j hj
      simp [hjl] at hjb
      rw [← hjb]; exact hlast j hij hjl
    · intro b hb
      rw [List.mem_map] at hb
      obtain ⟨a, ha, rfl⟩ := hb
      rw [List.mem_drop_iff_getElem] at ha
      obtain ⟨m, hm, rfl⟩ := ha
      exact hlast _ (by omega) _
  · have h1 : (L.map f).filter p = [] := by
      rw [List.filter_eq_nil_iff]
      intro b hb
      rw [List.mem_map] at hb
      obtain ⟨a, ha, rfl⟩ := hb
      obtain ⟨i, hi, rfl⟩ := List.getElem_of_mem ha
      intro hc; exact hex ⟨i, hi, hc⟩
    have h2 : (vis.filterMap fun i => (L[i]?).map f).filter p = [] := by
      rw [List.filter_eq_nil_iff]
      intro b hb
      rw [List.mem_filterMap] at hb
      obtain ⟨j, hj, hjb⟩ := hb
      have hjl := hr j hj
      simp [hjl] at hjb
      rw [← hjb]
      intro hc; exact hex ⟨j, hjl, hc⟩
    rw [h1, h2]

theorem checkForVisibility_exact (roi : IntRect) (count : Nat) (rectOf : Nat → IntRect) :
    ∃ vis, Coverage.checkForVisibility roi count rectOf = some vis ∧ vis.Pairwise (· < ·) ∧
      (∀ i ∈ vis, i < count) ∧
      (∀ i, i < count → ∀ px py, roi.Has px py → (rectOf i).Has px py →
        (∀ j, i < j → j < count → ¬ (rectOf j).Has px py) → i ∈ vis) ∧
      ∀ i ∈ vis, ∃ px py, roi.Has px py ∧ (rectOf i).Has px py ∧ ∀ j, i < j → j < count → ¬ (rectOf j).Has px py := by
  unfold Coverage.checkForVisibility
  by_cases hc : count = 0 ∨ !roi.isNonEmpty
  · rw [if_pos hc]
    refine ⟨[], rfl, by simp, by simp, ?_, by simp⟩
    intro i hi px py h1
    exfalso
    rcases hc with hc | hc
    · omega
    · simp [IntRect.isNonEmpty] at hc
      unfold IntRect.Has at h1; omega
  · rw [if_neg hc]
    have hroi : Valid roi := by
      simp [IntRect.isNonEmpty] at hc
      unfold Valid; omega
    obtain ⟨out, h1, h2⟩ := visLoop_ok roi rectOf count hroi count [] 0 [] (le_refl _) ⟨by simp, by simp⟩
      (by
        intro px py
        simp only [Covers, List.not_mem_nil, false_and, exists_false, false_iff, Above]
        rintro ⟨j, a, b, _⟩; omega)
      (by simp [Spec.coveredPixels])
      ⟨by simp, by simp, by intro i a b; omega, by simp⟩
    refine ⟨out.reverse, by rw [h1]; rfl, ?_, ?_, ?_, ?_⟩
    · rw [List.pairwise_reverse]; exact h2.desc
    · intro i hi; exact (h2.range i (by simpa using hi)).2
    · intro i hi px py a b c
      rw [List.mem_reverse]
      refine h2.top i (Nat.zero_le _) hi px py a b ?_
      rintro ⟨j, d, e, f⟩
      exact c j (by omega) e f
    · intro i hi
      rw [List.mem_reverse] at hi
      obtain ⟨px, py, a, b, c⟩ := h2.only i hi
      exact ⟨px, py, a, b, fun j h3 h4 h5 => c ⟨j, by omega, h4, h5⟩⟩

theorem checkForVisibility_ok (roi : IntRect) (count : Nat) (rectOf : Nat → IntRect) :
    ∃ vis, Coverage.checkForVisibility roi count rectOf = some vis ∧ vis.Pairwise (· < ·) ∧
      (∀ i ∈ vis, i < count) ∧
      ∀ i, i < count → ∀ px py, roi.Has px py → (rectOf i).Has px py →
        (∀ j, i < j → j < count → ¬ (rectOf j).Has px py) → i ∈ vis := by
  obtain ⟨vis, h1, h2, h3, h4, _⟩ := checkForVisibility_exact roi count rectOf
  exact ⟨vis, h1, h2, h3, h4⟩

end Verif.Blit
