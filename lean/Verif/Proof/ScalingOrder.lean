import Verif.Model.ScalingAccessor
import Verif.Spec.ScalingAccessor
import Verif.Proof.Float
import Verif.Props.Accessor

/-! # Order and choice of the sub-blocks by the scaling tile accessor -/

namespace Verif.Accessor
open Blit Flt Scale Spec

/-! ## Zoom -/

theorem f32_rel {x : ℚ} (h : 0 ≤ x) : x * (1 - 1 / 2 ^ 24) ≤ f32 x ∧ f32 x ≤ x * (1 + 1 / 2 ^ 24) := by
  have h1 := f32_err x
  rw [abs_of_nonneg h] at h1
  have h2 := abs_le.mp h1
  have e : x / 2 ^ 24 = x * (1 / 2 ^ 24) := by ring
  rw [e] at h2
  constructor <;> linarith [h2.1, h2.2]

/-- Sizes of a sub-block as needed for its zoom. -/
def Sized (e : Entry) : Prop :=
  (0 < e.storedWidth ∧ e.storedWidth ≤ e.width ∧ e.width ≤ 2 ^ 19) ∧ (0 < e.storedHeight ∧ e.storedHeight ≤ e.height ∧ e.height ≤ 2 ^ 19)

theorem f32_size {z : Int} (h : 0 < z) (h2 : z ≤ 2 ^ 19) : f32 (z : ℚ) = z := by
  apply f32_int
  rw [abs_of_pos h]
  have : (2 : Int) ^ 19 ≤ 2 ^ 24 := by norm_num
  omega

theorem zoomOf_eq {e : Entry} (h : Sized e) : zoomOf e = f32 (exactZoom e) := by
  obtain ⟨⟨a, b, c⟩, ⟨d, f, g⟩⟩ := h
  unfold zoomOf exactZoom
  rw [f32_size a (by omega), f32_size (by omega) c, f32_size d (by omega), f32_size (by omega) g]
  split <;> rfl

theorem exactZoom_pos {e : Entry} (h : Sized e) : 0 < exactZoom e := by
  obtain ⟨⟨a, b, c⟩, ⟨d, f, g⟩⟩ := h
  have a' : (0 : ℚ) < e.storedWidth := by exact_mod_cast a
  have d' : (0 : ℚ) < e.storedHeight := by exact_mod_cast d
  have b' : (0 : ℚ) < e.width := by exact_mod_cast (by omega : 0 < e.width)
  have f' : (0 : ℚ) < e.height := by exact_mod_cast (by omega : 0 < e.height)
  unfold exactZoom
  split <;> positivity

theorem exactZoom_layer0 {e : Entry} (h : Sized e) (h0 : OnLayer0 e) : exactZoom e = 1 := by
  obtain ⟨⟨a, b, c⟩, ⟨d, f, g⟩⟩ := h
  have a' : (0 : ℚ) < e.storedWidth := by exact_mod_cast a
  have d' : (0 : ℚ) < e.storedHeight := by exact_mod_cast d
  unfold exactZoom
  rw [h0.1, h0.2, div_self a'.ne', div_self d'.ne']
  split <;> rfl

theorem f32_one : f32 1 = 1 := by
  have := f32_int 1 (by norm_num)
  simpa using this

theorem zoomOf_layer0 {e : Entry} (h : Sized e) (h0 : OnLayer0 e) : zoomOf e = 1 := by
  rw [zoomOf_eq h, exactZoom_layer0 h h0, f32_one]

theorem zoomOf_pos {e : Entry} (h : Sized e) : 0 < zoomOf e := by
  rw [zoomOf_eq h]
  have h1 := (f32_rel (exactZoom_pos h).le).1
  have h2 : 0 < exactZoom e * (1 - 1 / 2 ^ 24) := mul_pos (exactZoom_pos h) (by norm_num)
  linarith

theorem zoomOf_rel {e : Entry} (h : Sized e) :
    exactZoom e * (1 - 1 / 2 ^ 24) ≤ zoomOf e ∧ zoomOf e ≤ exactZoom e * (1 + 1 / 2 ^ 24) := by
  rw [zoomOf_eq h]; exact f32_rel (exactZoom_pos h).le

/-- The zoom of a sub-block whose longer side is not stored in full resolution is less than 1 also as a `float`. -/
theorem zoomOf_ne_one {e : Entry} (h : Sized e) (h1 : exactZoom e ≠ 1) : zoomOf e < 1 := by
  have key : ∀ a b : Int, 0 < a → a ≤ b → b ≤ 2 ^ 19 → (a : ℚ) / b ≠ 1 → (a : ℚ) / b ≤ 1 - 1 / 2 ^ 19 := by
    intro a b ha hab hb hne
    have hbq : (0 : ℚ) < b := by exact_mod_cast (by omega : 0 < b)
    have hlt : a < b := by
      rcases Int.lt_or_eq_of_le hab with h | h
      · exact h
      · exfalso; apply hne; rw [h, div_self hbq.ne']
    rw [div_le_iff₀ hbq]
    have h2 : (a : ℚ) + 1 ≤ b := by exact_mod_cast hlt
    have h3 : (b : ℚ) ≤ 2 ^ 19 := by exact_mod_cast hb
    have h4 : (1 : ℚ) / 2 ^ 19 * b ≤ 1 := by rw [div_mul_eq_mul_div, one_mul, div_le_one (by norm_num)]; exact h3
    linarith
  have hz : exactZoom e ≤ 1 - 1 / 2 ^ 19 := by
    obtain ⟨⟨a, b, c⟩, ⟨d, f, g⟩⟩ := h
    unfold exactZoom at h1 ⊢
    split at h1
    · rename_i hc; rw [if_pos hc]; exact key _ _ a b c h1
    · rename_i hc; rw [if_neg hc]; exact key _ _ d f g h1
  have h2 := (zoomOf_rel h).2
  have h3 : exactZoom e * (1 + 1 / 2 ^ 24) ≤ (1 - 1 / 2 ^ 19) * (1 + 1 / 2 ^ 24) :=
    mul_le_mul_of_nonneg_right hz (by norm_num)
  have h4 : (1 - 1 / 2 ^ 19 : ℚ) * (1 + 1 / 2 ^ 24) < 1 := by norm_num
  linarith

theorem isLayer0_false {e : Entry} (h : e.isLayer0 = false) : ¬ OnLayer0 e := by
  intro h'
  rw [(isLayer0_iff e).2 h'] at h
  cases h

/-! ## The comparison function -/

/-- Under this condition the comparison is by (zoom, m-index of layer 0). -/
def ZoomsDiffer (l : List Item) : Prop := ∀ p ∈ l, Sized p.2 ∧ (¬ OnLayer0 p.2 → exactZoom p.2 ≠ 1)

/-- The m-index for sub-blocks on layer 0. -/
def levelKey (p : Item) : Int := if p.2.isLayer0 then mKey p else 0

theorem zoomLess_iff {l : List Item} (h : ZoomsDiffer l) {a b : Item} (ha : a ∈ l) (hb : b ∈ l) :
    zoomLess a b = true ↔ zoomOf a.2 < zoomOf b.2 ∨ (zoomOf a.2 = zoomOf b.2 ∧ levelKey a < levelKey b) := by
  have hA := h a ha
  have hB := h b hb
  have sep : ∀ p : Item, Sized p.2 → (¬ OnLayer0 p.2 → exactZoom p.2 ≠ 1) → p.2.isLayer0 = false → zoomOf p.2 < 1 :=
    fun p h1 h2 h3 => zoomOf_ne_one h1 (h2 (isLayer0_false h3))
  have one : ∀ p : Item, Sized p.2 → p.2.isLayer0 = true → zoomOf p.2 = 1 := fun p h1 h2 => zoomOf_layer0 h1 ((isLayer0_iff p.2).1 h2)
  unfold zoomLess levelKey
  by_cases h1 : zoomOf a.2 < zoomOf b.2
  · simp [h1]
  · rw [if_neg h1]
    by_cases h2 : zoomOf a.2 > zoomOf b.2
    · rw [if_pos (Or.inl h2)]
      constructor
      · intro h; cases h
      · rintro (h3 | ⟨h3, -⟩)
        · exact absurd h3 h1
        · rw [h3] at h2; exact absurd h2 (lt_irrefl _)
    · have heq : zoomOf a.2 = zoomOf b.2 := le_antisymm (not_lt.mp h2) (not_lt.mp h1)
      cases hla : a.2.isLayer0 with
      | false =>
        have hlb : b.2.isLayer0 = false := by
          cases hlb : b.2.isLayer0 with
          | false => rfl
          | true =>
            have e1 := sep a hA.1 hA.2 hla
            have e2 := one b hB.1 hlb
            rw [heq, e2] at e1
            exact absurd e1 (lt_irrefl _)
        simp [hlb, heq]
      | true =>
        have hlb : b.2.isLayer0 = true := by
          cases hlb : b.2.isLayer0 with
          | true => rfl
          | false =>
            have e1 := sep b hB.1 hB.2 hlb
            have e2 := one a hA.1 hla
            rw [← heq, e2] at e1
            exact absurd e1 (lt_irrefl _)
        simp [hlb, heq]

theorem zoomLess_strictWeak {l : List Item} (h : ZoomsDiffer l) : StrictWeak zoomLess l := by
  have fl : ∀ a ∈ l, ∀ b ∈ l, zoomLess a b = false ↔
      ¬ (zoomOf a.2 < zoomOf b.2 ∨ (zoomOf a.2 = zoomOf b.2 ∧ levelKey a < levelKey b)) := by
    intro a ha b hb
    rw [← zoomLess_iff h ha hb]; simp
  refine ⟨?_, ?_, ?_⟩
  · intro a ha
    rw [fl a ha a ha]
    rintro (h1 | ⟨-, h1⟩)
    · exact lt_irrefl _ h1
    · exact lt_irrefl _ h1
  · intro a ha b hb c hc h1 h2
    rw [zoomLess_iff h ha hb] at h1
    rw [zoomLess_iff h hb hc] at h2
    rw [zoomLess_iff h ha hc]
    rcases h1 with h1 | ⟨h1, h1'⟩ <;> rcases h2 with h2 | ⟨h2, h2'⟩
    · exact Or.inl (h1.trans h2)
    · exact Or.inl (h2 ▸ h1)
    · exact Or.inl (h1 ▸ h2)
    · exact Or.inr ⟨h1.trans h2, h1'.trans h2'⟩
  · intro a ha b hb c hc h1 h2 h3 h4
    rw [fl _ ha _ hb] at h1
    rw [fl _ hb _ ha] at h2
    rw [fl _ hb _ hc] at h3
    rw [fl _ hc _ hb] at h4
    have key : ∀ a b : Item, ¬ (zoomOf a.2 < zoomOf b.2 ∨ (zoomOf a.2 = zoomOf b.2 ∧ levelKey a < levelKey b)) →
        ¬ (zoomOf b.2 < zoomOf a.2 ∨ (zoomOf b.2 = zoomOf a.2 ∧ levelKey b < levelKey a)) →
        zoomOf a.2 = zoomOf b.2 ∧ levelKey a = levelKey b := by
      intro a b k1 k2
      have e1 : zoomOf a.2 = zoomOf b.2 :=
        le_antisymm (not_lt.mp fun h => k2 (Or.inl h)) (not_lt.mp fun h => k1 (Or.inl h))
      exact ⟨e1, le_antisymm (not_lt.mp fun h => k2 (Or.inr ⟨e1.symm, h⟩)) (not_lt.mp fun h => k1 (Or.inr ⟨e1, h⟩))⟩
    obtain ⟨e1, e2⟩ := key a b h1 h2
    obtain ⟨e3, e4⟩ := key b c h3 h4
    rw [fl _ ha _ hc, fl _ hc _ ha, e1, e3, e2, e4]
    simp

/-! ## The sorted list -/

/-- `b` need not be painted before `a`. -/
def NotBelow (tie : Item → Item → Prop) (a b : Item) : Prop :=
  zoomOf a.2 ≤ zoomOf b.2 ∧ (OnLayer0 a.2 → OnLayer0 b.2 → ¬ tie a b)

/-- The order of painting in one scene. -/
def tieOf (sortByM : Bool) (items : List Item) : Item → Item → Prop := if sortByM then byM else byPosition items

theorem zoomOf_total (a b : Item) : (decide (zoomOf a.2 ≤ zoomOf b.2) || decide (zoomOf b.2 ≤ zoomOf a.2)) = true := by
  rw [Bool.or_eq_true, decide_eq_true_eq, decide_eq_true_eq]
  exact le_total _ _

theorem pair_order {α : Type} {a b : α} (hne : a ≠ b) : ∀ {l : List α}, b ∈ l → a ∈ l → [b, a].Sublist l ∨ [a, b].Sublist l := by
  intro l
  induction l with
  | nil => intro h; cases h
  | cons c l ih =>
    intro hb ha
    rw [List.mem_cons] at hb ha
    rcases hb with hb | hb
    · subst hb
      rcases ha with h | ha
      · exact absurd h hne
      · exact Or.inl (List.Sublist.cons_cons _ (List.singleton_sublist.mpr ha))
    · rcases ha with ha | ha
      · subst ha
        exact Or.inr (List.Sublist.cons_cons _ (List.singleton_sublist.mpr hb))
      · exact (ih hb ha).imp (·.cons _) (·.cons _)

theorem pair_unique {α : Type} {a b : α} : ∀ {l : List α}, l.Nodup → [b, a].Sublist l → [a, b].Sublist l → a = b := by
  intro l
  induction l with
  | nil => intro _ h; cases h
  | cons c l ih =>
    intro hn h1 h2
    rw [List.nodup_cons] at hn
    cases h1 with
    | cons _ h1 =>
      cases h2 with
      | cons _ h2 => exact ih hn.2 h1 h2
      | cons_cons _ h2 => exact absurd (h1.subset (by simp)) hn.1
    | cons_cons _ h1 =>
      cases h2 with
      | cons _ h2 => exact absurd (h2.subset (by simp)) hn.1
      | cons_cons _ h2 => rfl

theorem sorted_ok {sort : List Item → List Item} (hsort : SortsWith zoomLess sort) (sortByM : Bool) {items l : List Item}
    (hn : items.Nodup) (hl : l.Sublist items) (h : ∀ p ∈ l, Sized p.2) (hz : sortByM = true → ZoomsDiffer l)
    (hm : ∀ p ∈ l, -2147483648 ≤ p.2.mIndex) :
    (createSortByZoom sort sortByM l).Perm l ∧ (createSortByZoom sort sortByM l).Pairwise (NotBelow (tieOf sortByM items)) := by
  cases sortByM with
  | true =>
    have hz := hz rfl
    obtain ⟨h1, h2⟩ := hsort l (zoomLess_strictWeak hz)
    refine ⟨h1, ?_⟩
    show (sort l).Pairwise _
    refine h2.imp_of_mem ?_
    intro a b ha hb hab
    have ha' := h1.mem_iff.mp ha
    have hb' := h1.mem_iff.mp hb
    have hab' : ¬ (zoomOf b.2 < zoomOf a.2 ∨ (zoomOf b.2 = zoomOf a.2 ∧ levelKey b < levelKey a)) := by
      rw [← zoomLess_iff hz hb' ha']; simp [hab]
    refine ⟨not_lt.mp fun h => hab' (Or.inl h), ?_⟩
    intro la lb
    have e1 := zoomOf_layer0 (h a ha') la
    have e2 := zoomOf_layer0 (h b hb') lb
    have hk : mKey a ≤ mKey b := by
      have : ¬ levelKey b < levelKey a := fun h => hab' (Or.inr ⟨by rw [e1, e2], h⟩)
      unfold levelKey at this
      rw [(isLayer0_iff a.2).2 la, (isLayer0_iff b.2).2 lb, if_pos rfl, if_pos rfl] at this
      omega
    exact mKey_not_above hk (hm a ha')
  | false =>
    have h1 : (createSortByZoom sort false l).Perm l := List.mergeSort_perm _ _
    refine ⟨h1, ?_⟩
    have hs := List.pairwise_mergeSort (le := fun a b : Item => decide (zoomOf a.2 ≤ zoomOf b.2))
      (fun a b c h1 h2 => by simp only [decide_eq_true_eq] at h1 h2 ⊢; exact h1.trans h2) zoomOf_total l
    -- positions: the list is duplicate free
    have hnd : (createSortByZoom sort false l).Nodup := h1.nodup_iff.mpr (hn.sublist hl)
    have hpw : (createSortByZoom sort false l).Pairwise (fun a b => zoomOf a.2 ≤ zoomOf b.2) := by
      show (l.mergeSort _).Pairwise _
      simpa using hs
    have hsub : ∀ a b : Item, [a, b].Sublist (createSortByZoom sort false l) → OnLayer0 a.2 → OnLayer0 b.2 → ¬ byPosition items a b := by
      intro a b hab la lb ⟨hne, hpos⟩
      have ha : a ∈ l := h1.mem_iff.mp (hab.subset (by simp))
      have hb : b ∈ l := h1.mem_iff.mp (hab.subset (by simp))
      -- in `l` the order is that of `items`
      have hbl : [b, a].Sublist l := by
        rcases pair_order hne hb ha with h | h
        · exact h
        · have h3 := h.trans hl
          exact absurd (pair_unique hn hpos h3) (by exact hne)
      have hst := List.sublist_mergeSort (le := fun a b : Item => decide (zoomOf a.2 ≤ zoomOf b.2)) (ys := [b, a])
        (fun a b c h1 h2 => by simp only [decide_eq_true_eq] at h1 h2 ⊢; exact h1.trans h2) zoomOf_total
        (by simp [zoomOf_layer0 (h a ha) la, zoomOf_layer0 (h b hb) lb]) hbl
      exact absurd (pair_unique hnd hst hab) hne
    rw [List.pairwise_iff_forall_sublist]
    intro a b hab
    refine ⟨(List.pairwise_iff_forall_sublist.mp hpw) hab, ?_⟩
    intro la lb
    exact hsub a b hab la lb

/-! ## The range painted -/

theorem takeWhile_filter {α : Type} (key : α → ℚ) (c : ℚ) : ∀ (l : List α), l.Pairwise (fun a b => key a ≤ key b) →
    l.takeWhile (fun p => decide (key p < c)) = l.filter (fun p => decide (key p < c)) := by
  intro l
  induction l with
  | nil => intro _; rfl
  | cons a l ih =>
    intro h
    rw [List.pairwise_cons] at h
    by_cases hc : key a < c
    · rw [List.takeWhile_cons_of_pos (by simpa using hc), List.filter_cons_of_pos (by simpa using hc), ih h.2]
    · rw [List.takeWhile_cons_of_neg (by simpa using hc), List.filter_cons_of_neg (by simpa using hc)]
      symm
      rw [List.filter_eq_nil_iff]
      intro b hb
      have := h.1 b hb
      simp only [decide_eq_true_eq]
      intro h2
      exact hc (lt_of_le_of_lt this h2)

theorem dropWhile_filter {α : Type} (key : α → ℚ) (c : ℚ) : ∀ (l : List α), l.Pairwise (fun a b => key a ≤ key b) →
    l.dropWhile (fun p => decide (key p < c)) = l.filter (fun p => decide (c ≤ key p)) := by
  intro l
  induction l with
  | nil => intro _; rfl
  | cons a l ih =>
    intro h
    rw [List.pairwise_cons] at h
    by_cases hc : key a < c
    · rw [List.dropWhile_cons_of_pos (by simpa using hc), List.filter_cons_of_neg (by simpa using hc), ih h.2]
    · rw [List.dropWhile_cons_of_neg (by simpa using hc), List.filter_cons_of_pos (by simpa using hc)]
      congr 1
      symm
      rw [List.filter_eq_self]
      intro b hb
      have := h.1 b hb
      simp only [decide_eq_true_eq]
      linarith

/-- Lower and upper limit for the zoom. -/
def lowLimit (zoom : ℚ) : ℚ := f32 (zoom / f32 (105 / 100))
def highLimit (z : ℚ) : ℚ := f32 (z * f32 (19 / 10))

theorem f32_c19 : 19 / 10 * (1 - 1 / 2 ^ 24) ≤ f32 (19 / 10) ∧ f32 (19 / 10) ≤ 19 / 10 * (1 + 1 / 2 ^ 24) := f32_rel (by norm_num)
theorem f32_c105 : 105 / 100 * (1 - 1 / 2 ^ 24) ≤ f32 (105 / 100) ∧ f32 (105 / 100) ≤ 105 / 100 * (1 + 1 / 2 ^ 24) :=
  f32_rel (by norm_num)

theorem highLimit_rel {z : ℚ} (h : 0 < z) :
    19 / 10 * z * (1 - 3 / 2 ^ 24) ≤ highLimit z ∧ highLimit z ≤ 19 / 10 * z * (1 + 3 / 2 ^ 24) := by
  obtain ⟨a, b⟩ := f32_c19
  have hp : 0 ≤ z * f32 (19 / 10) := mul_nonneg h.le (le_trans (by norm_num) a)
  obtain ⟨c, d⟩ := f32_rel hp
  have e1 := mul_le_mul_of_nonneg_left a h.le
  have e2 := mul_le_mul_of_nonneg_left b h.le
  unfold highLimit
  constructor
  · have := mul_le_mul_of_nonneg_right e1 (by norm_num : (0 : ℚ) ≤ 1 - 1 / 2 ^ 24)
    refine le_trans (le_trans ?_ this) c
    have : z * (19 / 10 * (1 - 1 / 2 ^ 24)) * (1 - 1 / 2 ^ 24) - 19 / 10 * z * (1 - 3 / 2 ^ 24) =
      z * (19 / 10 * ((1 - 1 / 2 ^ 24) * (1 - 1 / 2 ^ 24) - (1 - 3 / 2 ^ 24))) := by ring
    have h2 : 0 ≤ z * (19 / 10 * ((1 - 1 / 2 ^ 24) * (1 - 1 / 2 ^ 24) - (1 - 3 / 2 ^ 24))) := mul_nonneg h.le (by norm_num)
    linarith
  · have := mul_le_mul_of_nonneg_right e2 (by norm_num : (0 : ℚ) ≤ 1 + 1 / 2 ^ 24)
    refine le_trans d (le_trans this ?_)
    have : 19 / 10 * z * (1 + 3 / 2 ^ 24) - z * (19 / 10 * (1 + 1 / 2 ^ 24)) * (1 + 1 / 2 ^ 24) =
      z * (19 / 10 * ((1 + 3 / 2 ^ 24) - (1 + 1 / 2 ^ 24) * (1 + 1 / 2 ^ 24))) := by ring
    have h2 : 0 ≤ z * (19 / 10 * ((1 + 3 / 2 ^ 24) - (1 + 1 / 2 ^ 24) * (1 + 1 / 2 ^ 24))) := mul_nonneg h.le (by norm_num)
    linarith

theorem highLimit_gt {z : ℚ} (h : 0 < z) : z < highLimit z := by
  have h1 := (highLimit_rel h).1
  have h2 : z * 1 < z * (19 / 10 * (1 - 3 / 2 ^ 24)) := mul_lt_mul_of_pos_left (by norm_num) h
  linarith

theorem highLimit_mono {y z : ℚ} (h : y ≤ z) : highLimit y ≤ highLimit z := by
  unfold highLimit
  apply f32_mono
  exact mul_le_mul_of_nonneg_right h (le_trans (by norm_num) f32_c19.1)

theorem lowLimit_rel {z : ℚ} (h : 0 < z) :
    z / (105 / 100) * (1 - 3 / 2 ^ 24) ≤ lowLimit z ∧ lowLimit z ≤ z / (105 / 100) * (1 + 3 / 2 ^ 24) := by
  obtain ⟨a, b⟩ := f32_c105
  have hc : 0 < f32 (105 / 100) := lt_of_lt_of_le (by norm_num) a
  have hp : 0 ≤ z / f32 (105 / 100) := div_nonneg h.le hc.le
  obtain ⟨c, d⟩ := f32_rel hp
  unfold lowLimit
  constructor
  · refine le_trans ?_ c
    have h1 : z / (105 / 100 * (1 + 1 / 2 ^ 24)) ≤ z / f32 (105 / 100) := div_le_div_of_nonneg_left h.le hc b
    have h2 := mul_le_mul_of_nonneg_right h1 (by norm_num : (0 : ℚ) ≤ 1 - 1 / 2 ^ 24)
    refine le_trans ?_ h2
    have e : z / (105 / 100 * (1 + 1 / 2 ^ 24)) * (1 - 1 / 2 ^ 24) = z * (1 / (105 / 100 * (1 + 1 / 2 ^ 24)) * (1 - 1 / 2 ^ 24)) := by ring
    have e2 : z / (105 / 100) * (1 - 3 / 2 ^ 24) = z * (1 / (105 / 100) * (1 - 3 / 2 ^ 24)) := by ring
    rw [e, e2]
    exact mul_le_mul_of_nonneg_left (by norm_num) h.le
  · refine le_trans d ?_
    have h1 : z / f32 (105 / 100) ≤ z / (105 / 100 * (1 - 1 / 2 ^ 24)) := div_le_div_of_nonneg_left h.le (by norm_num) a
    have h2 := mul_le_mul_of_nonneg_right h1 (by norm_num : (0 : ℚ) ≤ 1 + 1 / 2 ^ 24)
    refine le_trans h2 ?_
    have e : z / (105 / 100 * (1 - 1 / 2 ^ 24)) * (1 + 1 / 2 ^ 24) = z * (1 / (105 / 100 * (1 - 1 / 2 ^ 24)) * (1 + 1 / 2 ^ 24)) := by ring
    have e2 : z / (105 / 100) * (1 + 3 / 2 ^ 24) = z * (1 / (105 / 100) * (1 + 3 / 2 ^ 24)) := by ring
    rw [e, e2]
    exact mul_le_mul_of_nonneg_left (by norm_num) h.le

theorem zoomRange_sublist {zoom : ℚ} {l : List Item} : (zoomRange zoom l).Sublist l := by
  unfold zoomRange
  split
  · exact List.nil_sublist _
  · rename_i p r h
    refine List.Sublist.trans ?_ (h ▸ List.dropWhile_sublist _)
    exact List.Sublist.cons_cons _ (List.takeWhile_sublist _)

theorem zoomRange_mem {zoom : ℚ} {l : List Item} (hs : l.Pairwise (fun a b => zoomOf a.2 ≤ zoomOf b.2))
    (hpos : ∀ p ∈ l, 0 < zoomOf p.2) (p : Item) :
    p ∈ zoomRange zoom l ↔ p ∈ l ∧ lowLimit zoom ≤ zoomOf p.2 ∧
      ∀ q ∈ l, lowLimit zoom ≤ zoomOf q.2 → zoomOf p.2 < highLimit (zoomOf q.2) := by
  unfold zoomRange
  rw [show (fun p : Item => decide (zoomOf p.2 < f32 (zoom / f32 (105 / 100)))) = (fun p => decide (zoomOf p.2 < lowLimit zoom)) from rfl,
    dropWhile_filter (fun p : Item => zoomOf p.2) (lowLimit zoom) l hs]
  have hmem : ∀ q, q ∈ l.filter (fun p => decide (lowLimit zoom ≤ zoomOf p.2)) ↔ q ∈ l ∧ lowLimit zoom ≤ zoomOf q.2 := by
    intro q; rw [List.mem_filter, decide_eq_true_eq]
  have hpw : (l.filter (fun p => decide (lowLimit zoom ≤ zoomOf p.2))).Pairwise (fun a b => zoomOf a.2 ≤ zoomOf b.2) :=
    hs.sublist List.filter_sublist
  cases hf : l.filter (fun p => decide (lowLimit zoom ≤ zoomOf p.2)) with
  | nil =>
    rw [hf] at hmem
    simp only [List.not_mem_nil, false_iff]
    rintro ⟨h1, h2, -⟩
    have := (hmem p).mpr ⟨h1, h2⟩
    cases this
  | cons f r =>
    rw [hf] at hmem hpw
    rw [List.pairwise_cons] at hpw
    dsimp only
    rw [show (fun q : Item => decide (zoomOf q.2 < f32 (zoomOf f.2 * f32 (19 / 10)))) = (fun q => decide (zoomOf q.2 < highLimit (zoomOf f.2))) from rfl,
      takeWhile_filter (fun p : Item => zoomOf p.2) _ r hpw.2]
    have hff := (hmem f).mp (by simp)
    have hf0 := hpos f hff.1
    have hmin : ∀ q ∈ l, lowLimit zoom ≤ zoomOf q.2 → zoomOf f.2 ≤ zoomOf q.2 := by
      intro q hq hq2
      rcases List.mem_cons.mp ((hmem q).mpr ⟨hq, hq2⟩) with rfl | h
      · exact le_refl _
      · exact hpw.1 q h
    have key : p ∈ f :: r.filter (fun q => decide (zoomOf q.2 < highLimit (zoomOf f.2))) ↔
        p ∈ f :: r ∧ zoomOf p.2 < highLimit (zoomOf f.2) := by
      rw [List.mem_cons, List.mem_cons, List.mem_filter, decide_eq_true_eq]
      constructor
      · rintro (rfl | ⟨h1, h2⟩)
        · exact ⟨Or.inl rfl, highLimit_gt hf0⟩
        · exact ⟨Or.inr h1, h2⟩
      · rintro ⟨rfl | h1, h2⟩
        · exact Or.inl rfl
        · exact Or.inr ⟨h1, h2⟩
    rw [key, hmem]
    constructor
    · rintro ⟨⟨h1, h2⟩, h3⟩
      exact ⟨h1, h2, fun q hq hq2 => lt_of_lt_of_le h3 (highLimit_mono (hmin q hq hq2))⟩
    · rintro ⟨h1, h2, h3⟩
      exact ⟨⟨h1, h2⟩, h3 f hff.1 hff.2⟩

/-! ## In terms of the exact zoom -/

theorem low_of {zoom : ℚ} (hz : 0 < zoom) {e : Entry} (h : Sized e) (hl : lowLimit zoom ≤ zoomOf e) :
    zoom / (105 / 100) * (1 - zoomSlack) ≤ exactZoom e := by
  have h1 := (lowLimit_rel hz).1
  have h2 := (zoomOf_rel h).2
  have hp := exactZoom_pos h
  have hq : 0 < zoom / (105 / 100) := by positivity
  by_contra hc
  have h3 : exactZoom e * (1 + 1 / 2 ^ 24) < zoom / (105 / 100) * (1 - zoomSlack) * (1 + 1 / 2 ^ 24) :=
    mul_lt_mul_of_pos_right (not_le.mp hc) (by norm_num)
  have h4 : zoom / (105 / 100) * ((1 - zoomSlack) * (1 + 1 / 2 ^ 24)) ≤ zoom / (105 / 100) * (1 - 3 / 2 ^ 24) :=
    mul_le_mul_of_nonneg_left (by norm_num [zoomSlack]) hq.le
  linarith

theorem low_if {zoom : ℚ} (hz : 0 < zoom) {e : Entry} (h : Sized e) (hl : zoom / (105 / 100) * (1 + zoomSlack) ≤ exactZoom e) :
    lowLimit zoom ≤ zoomOf e := by
  have h1 := (lowLimit_rel hz).2
  have h2 := (zoomOf_rel h).1
  have hq : 0 < zoom / (105 / 100) := by positivity
  have h3 : zoom / (105 / 100) * (1 + zoomSlack) * (1 - 1 / 2 ^ 24) ≤ exactZoom e * (1 - 1 / 2 ^ 24) :=
    mul_le_mul_of_nonneg_right hl (by norm_num)
  have h4 : zoom / (105 / 100) * (1 + 3 / 2 ^ 24) ≤ zoom / (105 / 100) * ((1 + zoomSlack) * (1 - 1 / 2 ^ 24)) :=
    mul_le_mul_of_nonneg_left (by norm_num [zoomSlack]) hq.le
  linarith

theorem high_of {a b : Entry} (ha : Sized a) (hb : Sized b) (h : zoomOf a < highLimit (zoomOf b)) :
    exactZoom a ≤ 19 / 10 * exactZoom b * (1 + zoomSlack) := by
  have h1 := (highLimit_rel (zoomOf_pos hb)).2
  have h2 := (zoomOf_rel ha).1
  have h3 := (zoomOf_rel hb).2
  have hpa := exactZoom_pos ha
  have hpb := exactZoom_pos hb
  by_contra hc
  have h4 : 19 / 10 * exactZoom b * (1 + zoomSlack) * (1 - 1 / 2 ^ 24) < exactZoom a * (1 - 1 / 2 ^ 24) :=
    mul_lt_mul_of_pos_right (not_le.mp hc) (by norm_num)
  have h5 : zoomOf b * (19 / 10 * (1 + 3 / 2 ^ 24)) ≤ exactZoom b * (1 + 1 / 2 ^ 24) * (19 / 10 * (1 + 3 / 2 ^ 24)) :=
    mul_le_mul_of_nonneg_right h3 (by norm_num)
  have h6 : exactZoom b * ((1 + 1 / 2 ^ 24) * (19 / 10 * (1 + 3 / 2 ^ 24))) ≤
      exactZoom b * (19 / 10 * ((1 + zoomSlack) * (1 - 1 / 2 ^ 24))) := mul_le_mul_of_nonneg_left (by norm_num [zoomSlack]) hpb.le
  linarith

theorem high_if {a b : Entry} (ha : Sized a) (hb : Sized b) (h : exactZoom a ≤ 19 / 10 * exactZoom b * (1 - zoomSlack)) :
    zoomOf a < highLimit (zoomOf b) := by
  have h1 := (highLimit_rel (zoomOf_pos hb)).1
  have h2 := (zoomOf_rel ha).2
  have h3 := (zoomOf_rel hb).1
  have hpb := exactZoom_pos hb
  have h4 : exactZoom a * (1 + 1 / 2 ^ 24) ≤ 19 / 10 * exactZoom b * (1 - zoomSlack) * (1 + 1 / 2 ^ 24) :=
    mul_le_mul_of_nonneg_right h (by norm_num)
  have h5 : exactZoom b * (1 - 1 / 2 ^ 24) * (19 / 10 * (1 - 3 / 2 ^ 24)) ≤ zoomOf b * (19 / 10 * (1 - 3 / 2 ^ 24)) :=
    mul_le_mul_of_nonneg_right h3 (by norm_num)
  have h6 : exactZoom b * (19 / 10 * ((1 - zoomSlack) * (1 + 1 / 2 ^ 24))) <
      exactZoom b * ((1 - 1 / 2 ^ 24) * (19 / 10 * (1 - 3 / 2 ^ 24))) := mul_lt_mul_of_pos_left (by norm_num [zoomSlack]) hpb
  linarith

theorem finer_of {a b : Entry} (ha : Sized a) (hb : Sized b) (h : exactZoom b * (1 + zoomSlack) < exactZoom a) : zoomOf b < zoomOf a := by
  have h2 := (zoomOf_rel ha).1
  have h3 := (zoomOf_rel hb).2
  have hpb := exactZoom_pos hb
  have h4 : exactZoom b * (1 + zoomSlack) * (1 - 1 / 2 ^ 24) < exactZoom a * (1 - 1 / 2 ^ 24) :=
    mul_lt_mul_of_pos_right h (by norm_num)
  have h6 : exactZoom b * (1 + 1 / 2 ^ 24) ≤ exactZoom b * ((1 + zoomSlack) * (1 - 1 / 2 ^ 24)) :=
    mul_le_mul_of_nonneg_left (by norm_num [zoomSlack]) hpb.le
  linarith

theorem notBelow_notOver {tie : Item → Item → Prop} {a b : Item} (ha : Sized a.2) (hb : Sized b.2) (h : NotBelow tie a b)
    (hs : SameScene a b) : ¬ Over tie a b := by
  rintro (⟨s, t, h1, h2, h3⟩ | ⟨-, h1⟩ | ⟨-, h1, h2, h3⟩)
  · unfold SameScene at hs
    rw [h1, h2] at hs
    cases hs
    exact lt_irrefl _ h3
  · exact absurd (finer_of ha hb h1) (not_lt.mpr h.1)
  · exact h.2 h1 h2 h3

/-! ## One scene -/

/-- What the list `L` of the sub-blocks painted must satisfy. -/
structure PaintList (zoom : ℚ) (tie : Item → Item → Prop) (cand : Item → Prop) (L : List Item) : Prop where
  selects : Selects zoom cand (· ∈ L)
  order : L.Pairwise (fun a b => ¬ Over tie a b)
  irrefl : ∀ p ∈ L, ¬ Over tie p p

theorem tie_irrefl (sortByM : Bool) (items : List Item) (p : Item) : ¬ tieOf sortByM items p p := by
  cases sortByM with
  | true => rintro ⟨h1, h2⟩; exact lt_irrefl _ (h2 h1)
  | false => rintro ⟨h1, -⟩; exact h1 rfl

theorem over_irrefl {tie : Item → Item → Prop} (ht : ∀ p, ¬ tie p p) {p : Item} (h : Sized p.2) : ¬ Over tie p p := by
  rintro (⟨s, t, h1, h2, h3⟩ | ⟨-, h1⟩ | ⟨-, h1, h2, h3⟩)
  · rw [h1] at h2; cases h2; exact lt_irrefl _ h3
  · exact absurd (finer_of h h h1) (lt_irrefl _)
  · exact ht p h3

theorem scene_list {sort : List Item → List Item} (hsort : SortsWith zoomLess sort) (sortByM : Bool) {items l : List Item} {zoom : ℚ}
    (hz : 0 < zoom) (hn : items.Nodup) (hl : l.Sublist items) (h : ∀ p ∈ l, Sized p.2) (hd : sortByM = true → ZoomsDiffer l)
    (hm : ∀ p ∈ l, -2147483648 ≤ p.2.mIndex) (hs : ∀ p ∈ l, ∀ q ∈ l, SameScene p q) :
    PaintList zoom (tieOf sortByM items) (· ∈ l) (zoomRange zoom (createSortByZoom sort sortByM l)) := by
  obtain ⟨h1, h2⟩ := sorted_ok hsort sortByM hn hl h hd hm
  have hmem := fun p => h1.mem_iff (a := p)
  have hr := zoomRange_mem (zoom := zoom) (h2.imp fun h => h.1) (fun p hp => zoomOf_pos (h p ((hmem p).mp hp)))
  simp only [hmem] at hr
  have hsub : ∀ p, p ∈ zoomRange zoom (createSortByZoom sort sortByM l) → p ∈ l := fun p hp => ((hr p).mp hp).1
  refine ⟨⟨hsub, ?_, ?_, ?_⟩, ?_, fun p hp => over_irrefl (tie_irrefl sortByM items) (h p (hsub p hp))⟩
  · intro p hp
    exact low_of hz (h p (hsub p hp)) ((hr p).mp hp).2.1
  · intro p hp q hq _ hq2
    exact high_of (h p (hsub p hp)) (h q hq) (((hr p).mp hp).2.2 q hq (low_if hz (h q hq) hq2))
  · intro p hp hp2 hp3
    refine (hr p).mpr ⟨hp, low_if hz (h p hp) hp2, ?_⟩
    intro q hq hq2
    exact high_if (h p hp) (h q hq) (hp3 q hq (hs p hp q hq) (low_of hz (h q hq) hq2))
  · refine (h2.sublist zoomRange_sublist).imp_of_mem ?_
    intro a b ha hb hab
    exact notBelow_notOver (h a (hsub a ha)) (h b (hsub b hb)) hab (hs a (hsub a ha) b (hsub b hb))

/-- Several scenes, in ascending order. -/
theorem scenes_list {tie : Item → Item → Prop} {zoom : ℚ} {f : Int → List Item} {cand : Item → Prop} {L : Int → List Item} :
    ∀ {ss : List Int}, ss.Pairwise (· < ·) → (∀ s ∈ ss, PaintList zoom tie (· ∈ f s) (L s)) →
    (∀ s ∈ ss, ∀ p ∈ f s, p.2.coordinate .S = some s) → (∀ p, cand p ↔ ∃ s ∈ ss, p ∈ f s) →
    PaintList zoom tie cand (ss.map L).flatten := by
  intro ss hss hL hS hc
  have hmem : ∀ p, p ∈ (ss.map L).flatten ↔ ∃ s ∈ ss, p ∈ L s := by
    intro p; simp [List.mem_flatten]
  have hLf : ∀ s ∈ ss, ∀ p ∈ L s, p ∈ f s := fun s hs p hp => (hL s hs).selects.candidate p hp
  have same : ∀ s ∈ ss, ∀ t ∈ ss, ∀ p ∈ f s, ∀ q ∈ f t, SameScene p q → s = t := by
    intro s hs t ht p hp q hq h
    unfold SameScene at h
    rw [hS s hs p hp, hS t ht q hq] at h
    exact Option.some.inj h
  refine ⟨⟨?_, ?_, ?_, ?_⟩, ?_, ?_⟩
  · intro p hp
    obtain ⟨s, hs, hp⟩ := (hmem p).mp hp
    exact (hc p).mpr ⟨s, hs, hLf s hs p hp⟩
  · intro p hp
    obtain ⟨s, hs, hp⟩ := (hmem p).mp hp
    exact (hL s hs).selects.fineEnough p hp
  · intro p hp q hq hpq hq2
    obtain ⟨s, hs, hp⟩ := (hmem p).mp hp
    obtain ⟨t, ht, hq⟩ := (hc q).mp hq
    have := same s hs t ht p (hLf s hs p hp) q hq hpq
    subst this
    exact (hL s hs).selects.notTooFine p hp q hq hpq hq2
  · intro p hp hp2 hp3
    obtain ⟨s, hs, hp⟩ := (hc p).mp hp
    exact (hmem p).mpr ⟨s, hs, (hL s hs).selects.complete p hp hp2 fun q hq hpq hq2 => hp3 q ((hc q).mpr ⟨s, hs, hq⟩) hpq hq2⟩
  · rw [List.pairwise_flatten]
    constructor
    · intro l hl
      obtain ⟨s, hs, rfl⟩ := List.mem_map.mp hl
      exact (hL s hs).order
    · rw [List.pairwise_map]
      refine hss.imp_of_mem ?_
      intro s t hs ht hst p hp q hq
      have e1 := hS s hs p (hLf s hs p hp)
      have e2 := hS t ht q (hLf t ht q hq)
      have hne : ¬ SameScene p q := by
        intro h
        have := same s hs t ht p (hLf s hs p hp) q (hLf t ht q hq) h
        omega
      rintro (⟨a, b, h1, h2, h3⟩ | ⟨h1, -⟩ | ⟨h1, -⟩)
      · rw [e1] at h1; rw [e2] at h2; cases h1; cases h2; omega
      · exact hne h1
      · exact hne h1
  · intro p hp
    obtain ⟨s, hs, hp⟩ := (hmem p).mp hp
    exact (hL s hs).irrefl p hp

end Verif.Accessor
