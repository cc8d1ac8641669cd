import Verif.Spec.Rect
import Mathlib.Algebra.Order.BigOperators.Group.Finset
import Mathlib.Tactic.Linarith
import Mathlib.Tactic.Ring
import Mathlib.Data.Finset.Card

namespace Verif
open IntRect Coverage

/-- Separated by an axis parallel line (or invalid). -/
def Sep (a b : IntRect) : Prop :=
  a.x + a.w ≤ b.x ∨ b.x + b.w ≤ a.x ∨ a.y + a.h ≤ b.y ∨ b.y + b.h ≤ a.y

def Within (outer inner : IntRect) : Prop :=
  outer.x ≤ inner.x ∧ inner.x + inner.w ≤ outer.x + outer.w ∧
  outer.y ≤ inner.y ∧ inner.y + inner.h ≤ outer.y + outer.h

def Valid (r : IntRect) : Prop := 0 ≤ r.w ∧ 0 ≤ r.h

instance (a b) : Decidable (Sep a b) := by unfold Sep; infer_instance

theorem isValid_iff (r : IntRect) : r.isValid = true ↔ Valid r := by
  simp [isValid, Valid]

theorem contained_iff (a b : IntRect) : isCompletelyContained a b = true ↔ Within a b := by
  simp [isCompletelyContained, Within, and_assoc]

theorem intersectsWith_iff {a b : IntRect} (ha : Valid a) (hb : Valid b) :
    a.intersectsWith b = true ↔ ¬ Sep a b := by
  have h1 := (isValid_iff a).2 ha
  have h2 := (isValid_iff b).2 hb
  simp [intersectsWith, h1, h2, Sep, and_assoc]

theorem Sep.symm {a b : IntRect} (h : Sep a b) : Sep b a := by
  unfold Sep at *; omega

theorem Sep.mono_left {a a' b : IntRect} (h : Sep a b) (hw : Within a a') : Sep a' b := by
  unfold Sep Within at *; omega

theorem Sep.mono_right {a b b' : IntRect} (h : Sep a b) (hw : Within b b') : Sep a b' := by
  unfold Sep Within at *; omega

theorem Within.trans {a b c : IntRect} (h : Within a b) (h' : Within b c) : Within a c := by
  unfold Within at *; omega

theorem Within.refl (a : IntRect) : Within a a := by
  unfold Within; omega

theorem Within.has {a b : IntRect} (h : Within a b) {px py} (hb : b.Has px py) : a.Has px py := by
  unfold Within IntRect.Has at *; omega

theorem Sep.not_both {a b : IntRect} (h : Sep a b) {px py} (ha : a.Has px py) (hb : b.Has px py) : False := by
  unfold Sep IntRect.Has at *; omega

/-- All facts about the cut of `b` along `a`. -/
structure SplitOk (a b : IntRect) (ps : List IntRect) : Prop where
  valid : ∀ p ∈ ps, Valid p
  within : ∀ p ∈ ps, Within b p
  sep : ∀ p ∈ ps, Sep a p
  pair : ps.Pairwise Sep
  cover : ∀ px py, b.Has px py → a.Has px py ∨ ∃ p ∈ ps, p.Has px py

theorem splitUp_ok {a b : IntRect} (ha : Valid a) (hb : Valid b) (hs : ¬ Sep a b)
    (h1 : ¬ Within a b) (h2 : ¬ Within b a) : SplitOk a b (splitUp a b) := by
  obtain ⟨ax, ay, aw, ah⟩ := a
  obtain ⟨bx, bY, bw, bh⟩ := b
  simp only [Valid, Sep, Within] at ha hb hs h1 h2
  unfold splitUp
  simp only
  split
  · constructor <;> (repeat' split) <;>
      simp [Valid, Within, Sep, IntRect.Has] <;> intros <;> omega
  split
  · constructor <;> (repeat' split) <;>
      simp [Valid, Within, Sep, IntRect.Has] <;> intros <;> omega
  split
  · constructor <;> (repeat' split) <;>
      simp [Valid, Within, Sep, IntRect.Has] <;> intros <;> omega
  split
  · constructor <;> (repeat' split) <;>
      simp [Valid, Within, Sep, IntRect.Has] <;> intros <;> omega
  · constructor <;> simp [IntRect.Has] <;> intros <;> omega

/-- Invariant of the splitter list. -/
structure Inv (S : List IntRect) : Prop where
  valid : ∀ s ∈ S, Valid s
  pair : S.Pairwise Sep

def Covers (S : List IntRect) (px py : Int) : Prop := ∃ s ∈ S, s.Has px py

/-- number of splitters hit by `r` -/
def hits (S : List IntRect) (r : IntRect) : Nat := S.countP (fun s => !decide (Sep s r))

/-- `S'` arises from `S` by removing elements and appending rectangles within `r`. -/
def Grown (r : IntRect) (S S' : List IntRect) : Prop :=
  ∃ A B, S' = A ++ B ∧ A.Sublist S ∧ ∀ b ∈ B, Within r b

theorem Grown.hits_le {r q : IntRect} {S S' : List IntRect} (h : Grown r S S') (hq : Sep r q) :
    hits S' q ≤ hits S q := by
  obtain ⟨A, B, rfl, hA, hB⟩ := h
  unfold hits
  rw [List.countP_append]
  have hb0 : B.countP (fun s => !decide (Sep s q)) = 0 := by
    rw [List.countP_eq_zero]
    intro b hb
    have := hq.mono_left (hB b hb)
    simp [this]
  rw [hb0]
  simpa using hA.countP_le

theorem Grown.refl (r : IntRect) (S) : Grown r S S := ⟨S, [], by simp, List.Sublist.refl _, by simp⟩

theorem Grown.trans {r : IntRect} {S S' S'' : List IntRect} (h : Grown r S S') (h' : Grown r S' S'') :
    Grown r S S'' := by
  obtain ⟨A, B, rfl, hA, hB⟩ := h
  obtain ⟨A', B', rfl, hA', hB'⟩ := h'
  obtain ⟨l1, l2, rfl, hl1, hl2⟩ := List.sublist_append_iff.1 hA'
  refine ⟨l1, l2 ++ B', by simp, hl1.trans hA, ?_⟩
  intro b hb
  rcases List.mem_append.1 hb with hb | hb
  · exact hB b (hl2.subset hb)
  · exact hB' b hb

theorem Grown.mono {r q : IntRect} {S S' : List IntRect} (h : Grown q S S') (hq : Within r q) : Grown r S S' := by
  obtain ⟨A, B, rfl, hA, hB⟩ := h
  exact ⟨A, B, rfl, hA, fun b hb => hq.trans (hB b hb)⟩

structure AddOk (S : List IntRect) (r : IntRect) (S' : List IntRect) : Prop where
  inv : Inv S'
  cover : ∀ px py, Covers S' px py ↔ (Covers S px py ∨ r.Has px py)
  grown : Grown r S S'

theorem hits_pos_of_mem {S : List IntRect} {s r} (h : s ∈ S) (hs : ¬ Sep s r) : 0 < hits S r := by
  unfold hits
  rw [List.countP_pos_iff]
  exact ⟨s, h, by simp [hs]⟩

theorem find_hit {S : List IntRect} {r : IntRect} (hS : Inv S) (hr : Valid r) {s}
    (h : S.find? (fun s => s.intersectsWith r) = some s) :
    s ∈ S ∧ Valid s ∧ ¬ Sep s r := by
  have hm := List.mem_of_find?_eq_some h
  have hp := List.find?_some h
  exact ⟨hm, hS.valid s hm, (intersectsWith_iff (hS.valid s hm) hr).1 hp⟩

theorem addRectangleFuel_ok (fuel : Nat) : ∀ (S : List IntRect) (r : IntRect), Inv S → Valid r →
    hits S r < fuel → ∃ S', addRectangleFuel fuel S r = some S' ∧ AddOk S r S' := by
  induction fuel with
  | zero => intro S r _ _ h; omega
  | succ fuel ih =>
    intro S r hS hr hf
    have hv := (isValid_iff r).2 hr
    unfold addRectangleFuel
    simp only [hv, Bool.not_true, Bool.false_eq_true, if_false]
    cases hfind : S.find? (fun s => s.intersectsWith r) with
    | none =>
      refine ⟨S ++ [r], rfl, ?_, ?_, ?_⟩
      · constructor
        · intro s hs
          rcases List.mem_append.1 hs with h | h
          · exact hS.valid s h
          · simp at h; subst h; exact hr
        · rw [List.pairwise_append]
          refine ⟨hS.pair, by simp, ?_⟩
          intro a ha b hb
          simp at hb; subst hb
          have := List.find?_eq_none.1 hfind a ha
          by_contra hc
          exact this ((intersectsWith_iff (hS.valid a ha) hr).2 hc)
      · intro px py; simp [Covers, or_and_right, exists_or]
      · exact ⟨S, [r], rfl, List.Sublist.refl _, by simp [Within.refl]⟩
    | some s =>
      obtain ⟨hsm, hsv, hss⟩ := find_hit hS hr hfind
      simp only
      split
      · rename_i hc
        have hc := (contained_iff s r).1 hc
        refine ⟨S, rfl, hS, ?_, Grown.refl _ _⟩
        intro px py
        constructor
        · exact Or.inl
        · rintro (h | h)
          · exact h
          · exact ⟨s, hsm, hc.has h⟩
      · rename_i hnc
        have hnc : ¬ Within s r := fun h => hnc ((contained_iff s r).2 h)
        split
        · rename_i hc
          have hc := (contained_iff r s).1 hc
          -- erase
          obtain ⟨l1, l2, hl1, hSeq⟩ := (List.find?_eq_some_iff_append.1 hfind).2
          have herase : S.eraseP (fun s => s.intersectsWith r) = l1 ++ l2 := by
            subst hl1
            rw [List.eraseP_append_right]
            · rw [List.eraseP_cons_of_pos]
              exact (intersectsWith_iff hsv hr).2 hss
            · intro b hb; simpa using hSeq b hb
          rw [herase]
          have hsub : (l1 ++ l2).Sublist S := by
            subst hl1; exact List.Sublist.append (List.Sublist.refl _) (List.sublist_cons_self _ _)
          have hInv : Inv (l1 ++ l2) := ⟨fun a ha => hS.valid a (hsub.subset ha), hS.pair.sublist hsub⟩
          have hh : hits (l1 ++ l2) r < fuel := by
            have : hits S r = hits (l1 ++ l2) r + 1 := by
              subst hl1; simp [hits, List.countP_append, List.countP_cons, hss]; omega
            omega
          obtain ⟨S', hS', hok⟩ := ih _ _ hInv hr hh
          refine ⟨S', hS', hok.inv, ?_, ?_⟩
          · intro px py
            rw [hok.cover]
            constructor
            · rintro (⟨a, ha, h⟩ | h)
              · exact Or.inl ⟨a, hsub.subset ha, h⟩
              · exact Or.inr h
            · rintro (⟨a, ha, h⟩ | h)
              · subst hl1
                rcases List.mem_append.1 ha with h1 | h1
                · exact Or.inl ⟨a, List.mem_append_left _ h1, h⟩
                · rcases List.mem_cons.1 h1 with rfl | h1
                  · exact Or.inr (hc.has h)
                  · exact Or.inl ⟨a, List.mem_append_right _ h1, h⟩
              · exact Or.inr h
          · obtain ⟨A, B, e, hA, hB⟩ := hok.grown
            exact ⟨A, B, e, hA.trans hsub, hB⟩
        · rename_i hnc2
          have hnc2 : ¬ Within r s := fun h => hnc2 ((contained_iff r s).2 h)
          have hsp := splitUp_ok hsv hr hss hnc hnc2
          -- generalised fold
          have key : ∀ (ps : List IntRect) (T : List IntRect), Inv T → Grown r S T →
              (∀ p ∈ ps, Valid p) → (∀ p ∈ ps, Within r p) → (∀ p ∈ ps, hits T p < fuel) →
              ps.Pairwise Sep →
              ∃ S', ps.foldlM (fun S' q => addRectangleFuel fuel S' q) T = some S' ∧ Inv S' ∧ Grown r S S' ∧
                ∀ px py, Covers S' px py ↔ (Covers T px py ∨ ∃ p ∈ ps, p.Has px py) := by
            intro ps
            induction ps with
            | nil => intro T hT hG _ _ _ _; exact ⟨T, rfl, hT, hG, by simp⟩
            | cons p ps ihp =>
              intro T hT hG hv hw hh hpw
              obtain ⟨T', hT', hok⟩ := ih T p hT (hv p (by simp)) (hh p (by simp))
              have hpw' := List.pairwise_cons.1 hpw
              obtain ⟨S', hS', h1, h2, h3⟩ := ihp T' hok.inv
                (hG.trans (hok.grown.mono (hw p (by simp))))
                (fun q hq => hv q (by simp [hq])) (fun q hq => hw q (by simp [hq]))
                (fun q hq => lt_of_le_of_lt (hok.grown.hits_le (hpw'.1 q hq)) (hh q (by simp [hq])))
                hpw'.2
              refine ⟨S', ?_, h1, h2, ?_⟩
              · simp only [List.foldlM_cons, hT']; exact hS'
              · intro px py
                rw [h3, hok.cover]
                simp [or_assoc]
          obtain ⟨S', hS', h1, h2, h3⟩ := key (splitUp s r) S hS (Grown.refl _ _) hsp.valid hsp.within
            (by
              intro p hp
              have hlt : hits S p < hits S r := by
                obtain ⟨l1, l2, hl⟩ := List.append_of_mem hsm
                subst hl
                have hpw := hsp.within p hp
                have hmono : ∀ l : List IntRect, hits l p ≤ hits l r := by
                  intro l
                  unfold hits
                  apply List.countP_mono_left
                  intro x _ hx
                  simp at hx ⊢
                  exact fun h => hx (h.mono_right hpw)
                have h1 := hmono l1
                have h2 := hmono l2
                have e1 : hits (l1 ++ s :: l2) p = hits l1 p + hits l2 p := by
                  simp [hits, List.countP_append, List.countP_cons, hsp.sep p hp]
                have e2 : hits (l1 ++ s :: l2) r = hits l1 r + hits l2 r + 1 := by
                  simp [hits, List.countP_append, List.countP_cons, hss]; omega
                omega
              omega)
            hsp.pair
          refine ⟨S', hS', h1, ?_, h2⟩
          intro px py
          rw [h3]
          constructor
          · rintro (h | ⟨p, hp, h⟩)
            · exact Or.inl h
            · exact Or.inr ((hsp.within p hp).has h)
          · rintro (h | h)
            · exact Or.inl h
            · rcases hsp.cover px py h with h | h
              · exact Or.inl ⟨s, hsm, h⟩
              · exact Or.inr h

theorem addRectangle_ok (S : List IntRect) (r : IntRect) (hS : Inv S) :
    ∃ S', addRectangle S r = some S' ∧ Inv S' ∧
      ∀ px py, Covers S' px py ↔ (Covers S px py ∨ (r.isValid = true ∧ r.Has px py)) := by
  unfold addRectangle
  by_cases hv : r.isValid = true
  · have hlt : hits S r < S.length + 1 := by
      unfold hits; have := List.countP_le_length (p := fun s => !decide (Sep s r)) (l := S); omega
    obtain ⟨S', h, hok⟩ := addRectangleFuel_ok _ S r hS ((isValid_iff r).1 hv) hlt
    exact ⟨S', h, hok.inv, fun px py => by simp [hok.cover, hv]⟩
  · refine ⟨S, ?_, hS, by simp [hv]⟩
    unfold addRectangleFuel; simp [hv]


/-! ## Area = number of covered pixels -/

open Spec in
theorem mem_pixels (r : IntRect) (p : Int × Int) : p ∈ pixels r ↔ r.Has p.1 p.2 := by
  simp [pixels, IntRect.Has, and_assoc]

open Spec in
theorem card_pixels {r : IntRect} (h : Valid r) : ((pixels r).card : Int) = r.w * r.h := by
  obtain ⟨h1, h2⟩ := h
  simp [pixels, Finset.card_product]
  rw [max_eq_left h1, max_eq_left h2]

theorem intersect_valid {a b : IntRect} : Valid (intersect a b) := by
  unfold intersect Valid
  simp only
  split
  · constructor <;> simp <;> omega
  · simp

theorem intersect_has {a b : IntRect} (px py : Int) :
    (intersect a b).Has px py ↔ (a.Has px py ∧ b.Has px py) := by
  unfold intersect IntRect.Has
  simp only
  split
  · simp only; omega
  · simp only; omega

open Spec in
theorem covered_cons (s : IntRect) (S : List IntRect) (q : IntRect) :
    coveredPixels (s :: S) q = pixels (intersect s q) ∪ coveredPixels S q := by
  ext p
  simp only [coveredPixels, Finset.mem_filter, mem_pixels, Finset.mem_union, intersect_has, List.mem_cons,
    exists_eq_or_imp]
  tauto

open Spec in
theorem covered_disjoint {s : IntRect} {S : List IntRect} {q : IntRect} (h : ∀ t ∈ S, Sep s t) :
    Disjoint (pixels (intersect s q)) (coveredPixels S q) := by
  rw [Finset.disjoint_left]
  intro p hp hp'
  rw [mem_pixels, intersect_has] at hp
  simp only [coveredPixels, Finset.mem_filter] at hp'
  obtain ⟨t, ht, hpt⟩ := hp'.2
  exact (h t ht).not_both hp.1 hpt

open Spec in
theorem area_fold (S : List IntRect) (q : IntRect) (hS : Inv S) (acc : Int) :
    S.foldl (fun area r =>
      let i := IntRect.intersect r q
      if i.isValid then area + i.w * i.h else area) acc = acc + (coveredPixels S q).card := by
  induction S generalizing acc with
  | nil => simp [coveredPixels]
  | cons s S ih =>
    have hp := List.pairwise_cons.1 hS.pair
    have hS' : Inv S := ⟨fun t ht => hS.valid t (by simp [ht]), hp.2⟩
    have hv : (intersect s q).isValid = true := (isValid_iff _).2 intersect_valid
    rw [List.foldl_cons, ih hS', covered_cons, Finset.card_union_of_disjoint (covered_disjoint hp.1)]
    simp only [hv, if_true]
    rw [Nat.cast_add, card_pixels intersect_valid]
    ring

open Spec in
theorem calcArea_eq (S : List IntRect) (q : IntRect) (hS : Inv S) (hq : Valid q) :
    calcArea S q = (coveredPixels S q).card := by
  have hv := (isValid_iff q).2 hq
  unfold calcArea
  rw [area_fold S q hS]
  simp [hv]

/-- adding a whole list of rectangles -/
def addAll (rs : List IntRect) : Option (List IntRect) := rs.foldlM addRectangle []

theorem addAll_ok (rs : List IntRect) : ∃ S, addAll rs = some S ∧ Inv S ∧
    ∀ px py, Covers S px py ↔ ∃ r ∈ rs, r.isValid = true ∧ r.Has px py := by
  have key : ∀ (rs T : List IntRect), Inv T → ∃ S, rs.foldlM addRectangle T = some S ∧ Inv S ∧
      ∀ px py, Covers S px py ↔ (Covers T px py ∨ ∃ r ∈ rs, r.isValid = true ∧ r.Has px py) := by
    intro rs
    induction rs with
    | nil => intro T hT; exact ⟨T, rfl, hT, by simp⟩
    | cons r rs ih =>
      intro T hT
      obtain ⟨T', h1, h2, h3⟩ := addRectangle_ok T r hT
      obtain ⟨S, h4, h5, h6⟩ := ih T' h2
      refine ⟨S, ?_, h5, ?_⟩
      · simp only [List.foldlM_cons, h1]; exact h4
      · intro px py; rw [h6, h3]; simp [or_assoc]
  obtain ⟨S, h1, h2, h3⟩ := key rs [] ⟨by simp, by simp⟩
  exact ⟨S, h1, h2, by intro px py; rw [h3]; simp [Covers]⟩

/-- A pixel of an invalid rectangle does not exist. -/
theorem has_valid {r : IntRect} {px py} (h : r.Has px py) : r.isValid = true := by
  rw [isValid_iff]; unfold IntRect.Has Valid at *; omega

open Spec in
theorem covered_congr {S T : List IntRect} {q : IntRect}
    (h : ∀ px py, Covers S px py ↔ Covers T px py) : coveredPixels S q = coveredPixels T q := by
  unfold coveredPixels
  apply Finset.filter_congr
  intro p _
  exact h p.1 p.2

/-! ## Visibility -/

/-- rectangles of the tiles with index `≥ i`, below `n` -/
def Above (rectOf : Nat → IntRect) (i n : Nat) (px py : Int) : Prop :=
  ∃ j, i ≤ j ∧ j < n ∧ (rectOf j).Has px py

/-- `kept` (ascending) contains for each pixel of the ROI its topmost tile. -/
structure VisOk (roi : IntRect) (rectOf : Nat → IntRect) (lo n : Nat) (kept : List Nat) : Prop where
  range : ∀ k ∈ kept, lo ≤ k ∧ k < n
  desc : kept.Pairwise (· > ·)
  top : ∀ i, lo ≤ i → i < n → ∀ px py, roi.Has px py → (rectOf i).Has px py →
    ¬ Above rectOf (i+1) n px py → i ∈ kept
  only : ∀ i ∈ kept, ∃ px py, roi.Has px py ∧ (rectOf i).Has px py ∧ ¬ Above rectOf (i+1) n px py

open Spec in
theorem visLoop_ok (roi : IntRect) (rectOf : Nat → IntRect) (n : Nat) (hroi : Valid roi) :
    ∀ (i : Nat) (S : List IntRect) (c : Int) (res : List Nat), i ≤ n → Inv S →
      (∀ px py, Covers S px py ↔ Above rectOf i n px py) →
      c = (coveredPixels S roi).card →
      VisOk roi rectOf i n res →
      ∃ out, visLoop roi rectOf i S c res = some out ∧ VisOk roi rectOf 0 n out := by
  intro i
  induction i with
  | zero => intro S c res _ _ _ _ h; exact ⟨res, rfl, h⟩
  | succ i ih =>
    intro S c res hin hS hcov hc hvis
    obtain ⟨S', hadd, hS', hcov'⟩ := addRectangle_ok S (rectOf i) hS
    have hcov2 : ∀ px py, Covers S' px py ↔ Above rectOf i n px py := by
      intro px py
      rw [hcov', hcov]
      constructor
      · rintro (⟨j, h1, h2, h3⟩ | ⟨_, h⟩)
        · exact ⟨j, by omega, h2, h3⟩
        · exact ⟨i, le_refl _, by omega, h⟩
      · rintro ⟨j, h1, h2, h3⟩
        by_cases hj : j = i
        · subst hj; exact Or.inr ⟨has_valid h3, h3⟩
        · exact Or.inl ⟨j, by omega, h2, h3⟩
    have harea := calcArea_eq S' roi hS' hroi
    have hsub : coveredPixels S roi ⊆ coveredPixels S' roi := by
      intro p hp
      simp only [coveredPixels, Finset.mem_filter] at hp ⊢
      exact ⟨hp.1, (hcov' p.1 p.2).2 (Or.inl hp.2)⟩
    have hpush : calcArea S' roi > c → VisOk roi rectOf i n (res ++ [i]) := by
      intro hgt
      constructor
      · intro k hk
        rcases List.mem_append.1 hk with h | h
        · have := hvis.range k h; omega
        · simp at h; omega
      · rw [List.pairwise_append]
        refine ⟨hvis.desc, by simp, ?_⟩
        intro a ha b hb
        simp at hb; subst hb
        have := hvis.range a ha
        show a > b
        omega
      · intro k hk1 hk2 px py h1 h2 h3
        by_cases hki : k = i
        · simp [hki]
        · exact List.mem_append_left _ (hvis.top k (by omega) hk2 px py h1 h2 h3)
      · intro k hk
        rcases List.mem_append.1 hk with h | h
        · exact hvis.only k h
        · simp at h; subst h
          rw [harea, hc] at hgt
          obtain ⟨p, hp1, hp2⟩ := Finset.exists_mem_notMem_of_card_lt_card (show (coveredPixels S roi).card < (coveredPixels S' roi).card by exact_mod_cast hgt)
          simp only [coveredPixels, Finset.mem_filter, mem_pixels] at hp1
          have hn : ¬ Covers S p.1 p.2 := by
            intro hcv
            exact hp2 (by simp only [coveredPixels, Finset.mem_filter, mem_pixels]; exact ⟨hp1.1, hcv⟩)
          refine ⟨p.1, p.2, hp1.1, ?_, fun ha => hn ((hcov _ _).2 ha)⟩
          rcases (hcov' p.1 p.2).1 hp1.2 with h | h
          · exact absurd h hn
          · exact h.2
    unfold visLoop
    rw [hadd]
    simp only
    by_cases hgt : calcArea S' roi > c
    · rw [if_pos hgt]
      have hpush := hpush hgt
      by_cases hfull : calcArea S' roi = roi.w * roi.h
      · rw [if_pos hfull]
        refine ⟨_, rfl, ?_⟩
        refine ⟨fun k hk => ⟨by omega, (hpush.range k hk).2⟩, hpush.desc, ?_, hpush.only⟩
        intro k hk1 hk2 px py h1 h2 h3
        by_cases hki : i ≤ k
        · exact hpush.top k hki hk2 px py h1 h2 h3
        · exfalso
          apply h3
          have hcard : (coveredPixels S' roi).card = (pixels roi).card := by
            have := card_pixels hroi
            have h5 : ((coveredPixels S' roi).card : Int) = (pixels roi).card := by
              rw [this, ← harea, hfull]
            exact_mod_cast h5
          have heq : coveredPixels S' roi = pixels roi :=
            Finset.eq_of_subset_of_card_le (Finset.filter_subset _ _) (le_of_eq hcard.symm)
          have hp : (px, py) ∈ coveredPixels S' roi := by
            rw [heq, mem_pixels]; exact h1
          simp only [coveredPixels, Finset.mem_filter] at hp
          obtain ⟨j, h6, h7, h8⟩ := (hcov2 px py).1 hp.2
          exact ⟨j, by omega, h7, h8⟩
      · rw [if_neg hfull]
        exact ih S' _ _ (by omega) hS' hcov2 harea hpush
    · rw [if_neg hgt]
      have hle : (coveredPixels S' roi).card ≤ (coveredPixels S roi).card := by
        have : calcArea S' roi ≤ c := by omega
        rw [harea, hc] at this
        exact_mod_cast this
      have heq : coveredPixels S roi = coveredPixels S' roi := Finset.eq_of_subset_of_card_le hsub hle
      refine ih S' _ _ (by omega) hS' hcov2 (by rw [hc, heq]) ?_
      refine ⟨fun k hk => ⟨by have := hvis.range k hk; omega, (hvis.range k hk).2⟩, hvis.desc, ?_, hvis.only⟩
      intro k hk1 hk2 px py h1 h2 h3
      by_cases hki : k = i
      · exfalso
        subst hki
        have hp : (px, py) ∈ coveredPixels S' roi := by
          simp only [coveredPixels, Finset.mem_filter, mem_pixels]
          exact ⟨h1, (hcov' px py).2 (Or.inr ⟨has_valid h2, h2⟩)⟩
        rw [← heq] at hp
        simp only [coveredPixels, Finset.mem_filter] at hp
        exact h3 ((hcov px py).1 hp.2)
      · exact hvis.top k (by omega) hk2 px py h1 h2 h3

end Verif
