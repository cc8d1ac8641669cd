import Verif.Proof.Stats
import Mathlib.Algebra.Order.Ring.Rat
import Mathlib.Tactic.Linarith

namespace Verif
open Spec

/-! ## Statistics restated -/

theorem StatsInv.exact {s : Stats} {es : List Entry} (h : StatsInv s es) : StatsExact s es where
  count := h.count
  box := h.box.toBoxOf
  boxLayer0 := h.box0.toBoxOf
  dimPresent := fun d => (h.dims d).1
  dimRange := fun d => (h.dims d).2
  mRange := h.m.2
  mNone := h.m.1
  scenePresent := h.sceneNone
  sceneBox := fun k b b0 hb => ⟨(h.sceneBox k b b0 hb).1.toBoxOf, (h.sceneBox k b b0 hb).2.toBoxOf⟩

theorem ofSceneKey_eq (es : List Entry) (k : Int) : ofSceneKey es k = ofKey es k := by
  unfold ofSceneKey ofKey sceneKey
  apply List.filter_congr
  intro e _
  cases e.coordinate .S <;> simp [eq_comm]

theorem PyrInv.exact {p : PyrStats} {es : List Entry} (h : PyrInv p es) : PyramidExact p es := by
  refine ⟨fun k => by rw [ofSceneKey_eq]; exact h.none k, fun k v hv => ?_⟩
  rw [ofSceneKey_eq]
  have := h.layers k v hv
  exact ⟨this.1, this.2, layers_sum v _ this⟩

theorem readerDir_fold (es : List Entry) : ∀ d : ReaderDir,
    es.foldl ReaderDir.add d = ⟨d.subBlks ++ es, ⟨es.foldl Stats.update d.upd.stats, es.foldl PyrStats.update d.upd.pyr⟩⟩ := by
  induction es with
  | nil => intro d; simp
  | cons e es ih => intro d; rw [List.foldl_cons, ih]; simp [ReaderDir.add, Updater.update]

/-! ## Comparators combined -/

/-- A three-way comparison that is a total preorder. -/
structure Cmp {α : Type} (c : α → α → Int) : Prop where
  neg : ∀ a b, c b a = - c a b
  trans : ∀ a b d, c a b ≤ 0 → c b d ≤ 0 → c a d ≤ 0

theorem Cmp.lt_trans {α : Type} {c : α → α → Int} (h : Cmp c) {a b d : α} (h1 : c a b < 0) (h2 : c b d < 0) : c a d < 0 := by
  have t := h.trans a b d (by omega) (by omega)
  by_contra hn
  have e : c a d = 0 := by omega
  have n1 := h.neg a d
  have n2 := h.neg b d
  have := h.trans d a b (by omega) (by omega)
  omega

theorem Cmp.eq_trans {α : Type} {c : α → α → Int} (h : Cmp c) {a b d : α} (h1 : c a b = 0) (h2 : c b d = 0) : c a d = 0 := by
  have t := h.trans a b d (by omega) (by omega)
  have n1 := h.neg a b; have n2 := h.neg b d; have n3 := h.neg a d
  have t2 := h.trans d b a (by omega) (by omega)
  omega

theorem Cmp.then {α : Type} {c d : α → α → Int} (hc : Cmp c) (hd : Cmp d) :
    Cmp (fun a b => if c a b ≠ 0 then c a b else d a b) where
  neg := by
    intro a b
    have := hc.neg a b
    have := hd.neg a b
    split <;> split <;> omega
  trans := by
    intro a b e
    have h1 := hc.trans a b e
    have n1 := hc.neg a b; have n2 := hc.neg b e; have n3 := hc.neg a e
    intro g1 g2
    by_cases z1 : c a b = 0
    · by_cases z2 : c b e = 0
      · have z3 := hc.eq_trans z1 z2
        simp only [z1, z2, z3, ne_eq, not_true_eq_false, if_false] at *
        exact hd.trans a b e g1 g2
      · simp only [z1, z2, ne_eq, not_true_eq_false, not_false_eq_true, if_false, if_true] at g1 g2
        have : c a e < 0 := by
          have := h1 (by omega) g2
          by_contra hne
          have z3 : c a e = 0 := by omega
          exact z2 (hc.eq_trans (by omega : c b a = 0) z3)
        rw [if_pos (by omega)]; omega
    · simp only [z1, ne_eq, not_false_eq_true, if_true] at g1
      by_cases z2 : c b e = 0
      · have : c a e < 0 := by
          have := h1 g1 (by omega)
          by_contra hne
          have z3 : c a e = 0 := by omega
          exact z1 (hc.eq_trans z3 (by omega : c e b = 0))
        rw [if_pos (by omega)]; omega
      · simp only [z2, ne_eq, not_false_eq_true, if_true] at g2
        have := hc.lt_trans (a := a) (b := b) (d := e) (by omega) (by omega)
        rw [if_pos (by omega)]; omega

/-- Comparison by an integer key. -/
def keyCmp {α : Type} (k : α → Int) (a b : α) : Int := if k a < k b then -1 else if k a > k b then 1 else 0

theorem keyCmp_cmp {α : Type} (k : α → Int) : Cmp (keyCmp k) where
  neg := by intro a b; unfold keyCmp; repeat' split <;> omega
  trans := by
    intro a b d h1 h2
    unfold keyCmp at *
    split at h1 <;> split at h2 <;> (repeat' split) <;> (repeat' split at h1) <;> (repeat' split at h2) <;> omega

/-- Comparison by zoom, larger zoom first. -/
def zoomCmp (a b : Entry) : Int := if zoom a > zoom b then -1 else if zoom a < zoom b then 1 else 0

theorem zoomCmp_cmp : Cmp zoomCmp where
  neg := by
    intro a b
    unfold zoomCmp
    rcases lt_trichotomy (zoom a) (zoom b) with h | h | h
    · rw [if_pos h, if_neg (by linarith), if_pos h]
    · rw [if_neg (by linarith), if_neg (by linarith), if_neg (by linarith), if_neg (by linarith)]; rfl
    · rw [if_neg (by linarith), if_pos h, if_pos h]; rfl
  trans := by
    intro a b d h1 h2
    have g1 : zoom b ≤ zoom a := by
      by_contra hn
      unfold zoomCmp at h1
      rw [if_neg (by linarith), if_pos (by linarith)] at h1
      omega
    have g2 : zoom d ≤ zoom b := by
      by_contra hn
      unfold zoomCmp at h2
      rw [if_neg (by linarith), if_pos (by linarith)] at h2
      omega
    unfold zoomCmp
    split
    · omega
    · rw [if_neg (by linarith)]

theorem coordCmp_cmp : Cmp (fun a b : Entry => a.coordinate.compare b.coordinate) where
  neg := fun a b => compareFrom_neg _ _ _
  trans := fun a b d => compareFrom_trans _ _ _ _

/-- The order of the directory: zoom, coordinate, m-index, position, file position. -/
def fullCmp (fp : Bool) : Entry → Entry → Int := fun a b =>
  if zoomCmp a b ≠ 0 then zoomCmp a b else
  if a.coordinate.compare b.coordinate ≠ 0 then a.coordinate.compare b.coordinate else
  if keyCmp (fun e => if e.isMIndexValid then 0 else 1) a b ≠ 0 then keyCmp (fun e => if e.isMIndexValid then 0 else 1) a b else
  if keyCmp (fun e => if e.isMIndexValid then e.mIndex else 0) a b ≠ 0 then keyCmp (fun e => if e.isMIndexValid then e.mIndex else 0) a b else
  if keyCmp (fun e => if e.isMIndexValid then 0 else e.x) a b ≠ 0 then keyCmp (fun e => if e.isMIndexValid then 0 else e.x) a b else
  if keyCmp (fun e => if e.isMIndexValid then 0 else e.y) a b ≠ 0 then keyCmp (fun e => if e.isMIndexValid then 0 else e.y) a b else
  keyCmp (fun e => if fp then (e.filePosition : Int) else 0) a b

theorem fullCmp_cmp (fp : Bool) : Cmp (fullCmp fp) :=
  zoomCmp_cmp.then (coordCmp_cmp.then ((keyCmp_cmp _).then ((keyCmp_cmp _).then ((keyCmp_cmp _).then ((keyCmp_cmp _).then (keyCmp_cmp _))))))

theorem keyCmp_lt {α : Type} (k : α → Int) (a b : α) : keyCmp k a b < 0 ↔ k a < k b := by
  unfold keyCmp; constructor
  · intro h; repeat' split at h <;> omega
  · intro h; rw [if_pos h]; omega

theorem keyCmp_then_lt {α : Type} (k : α → Int) (a b : α) (r : Int) :
    (if keyCmp k a b ≠ 0 then keyCmp k a b else r) < 0 ↔ k a < k b ∨ (k a = k b ∧ r < 0) := by
  unfold keyCmp
  rcases lt_trichotomy (k a) (k b) with h | h | h
  · simp [h]
  · simp [h]
  · have h1 : ¬ k a < k b := by omega
    have h2 : ¬ k a = k b := by omega
    simp [h, h1, h2]

/-- The tolerance does not matter for these two zooms. -/
def ZoomsApart (a b : Entry) : Prop := zoom a = zoom b ∨ |zoom a - zoom b| > 1 / 10000

theorem abs_if (q : Rat) : (if q < 0 then -q else q) = |q| := by
  split
  · rename_i h; rw [abs_of_neg h]
  · rename_i h; rw [abs_of_nonneg (by linarith)]

theorem entryLt_iff (fp : Bool) (a b : Entry) (h : ZoomsApart a b) : entryLt fp a b = true ↔ fullCmp fp a b < 0 := by
  unfold entryLt
  rw [abs_if]
  rcases h with hz | hz
  · have hc : zoomCmp a b = 0 := by unfold zoomCmp; rw [if_neg (by linarith), if_neg (by linarith)]
    rw [if_neg (by rw [hz]; norm_num)]
    unfold fullCmp
    have hc' : ¬ (zoomCmp a b ≠ 0) := by rw [hc]; decide
    simp only [hc', if_false]
    generalize hr : a.coordinate.compare b.coordinate = r
    rcases lt_trichotomy r 0 with h1 | h1 | h1
    · simp [h1, h1.ne]
    · subst h1
      simp only [lt_irrefl, if_false, ne_eq, not_true_eq_false, gt_iff_lt]
      rw [keyCmp_then_lt, keyCmp_then_lt, keyCmp_then_lt, keyCmp_then_lt, keyCmp_lt]
      have hfp : (fp && decide (a.filePosition < b.filePosition)) = true ↔
          (if fp = true then (a.filePosition : Int) else 0) < if fp = true then (b.filePosition : Int) else 0 := by
        cases fp <;> simp
      generalize (fp && decide (a.filePosition < b.filePosition)) = q at *
      rw [← hfp]
      cases ha : a.isMIndexValid <;> cases hb : b.isMIndexValid <;> cases q <;>
        simp only [Bool.not_true, Bool.not_false, Bool.and_true, Bool.and_false, Bool.true_and, Bool.false_and,
          Bool.false_eq_true, if_true, if_false, decide_eq_true_eq, and_true, and_false, or_false]
      all_goals (repeat' split)
      all_goals (try simp only [Bool.false_eq_true, eq_self_iff_true, true_iff, false_iff])
      all_goals (try simp only [true_and, lt_irrefl, false_or, and_true, and_false, or_false])
      all_goals omega
    · have h3 : ¬ r < 0 := by omega
      have h4 : r ≠ 0 := by omega
      simp [h1, h3, h4]
  · rw [if_pos hz]
    have hne : zoom a ≠ zoom b := by
      intro he; rw [he] at hz; norm_num at hz
    unfold fullCmp
    rcases lt_or_gt_of_ne hne with h1 | h1
    · have : zoomCmp a b = 1 := by unfold zoomCmp; rw [if_neg (by linarith), if_pos h1]
      simp only [this]
      simp; linarith
    · have : zoomCmp a b = -1 := by unfold zoomCmp; rw [if_pos h1]
      simp only [this]
      simpa using h1

/-! ## Sorted-set insertion -/

theorem setInsert_spec {α : Type} (lt : α → α → Bool) (c : α → α → Int) (hc : Cmp c) (a : α) :
    ∀ (l : List α), (∀ b ∈ l, (lt a b = true ↔ c a b < 0) ∧ (lt b a = true ↔ c b a < 0)) →
    l.Pairwise (fun x y => c x y < 0) →
    (setInsert lt a l = none ↔ ∃ b ∈ l, c a b = 0) ∧
    ∀ l', setInsert lt a l = some l' → (∀ x, x ∈ l' ↔ x = a ∨ x ∈ l) ∧ l'.length = l.length + 1 ∧ l'.Pairwise (fun x y => c x y < 0) := by
  intro l
  induction l with
  | nil => intro _ _; simp [setInsert]
  | cons b r ih =>
    intro hlt hs
    have hs' := List.pairwise_cons.1 hs
    obtain ⟨ih1, ih2⟩ := ih (fun x hx => hlt x (by simp [hx])) hs'.2
    have hb := hlt b (by simp)
    have hn := hc.neg a b
    unfold setInsert
    by_cases h1 : lt b a = true
    · rw [if_pos h1]
      have h1' := hb.2.1 h1
      constructor
      · rw [Option.map_eq_none_iff, ih1]
        constructor
        · rintro ⟨x, hx, hx'⟩; exact ⟨x, by simp [hx], hx'⟩
        · rintro ⟨x, hx, hx'⟩
          rcases List.mem_cons.1 hx with rfl | hx
          · omega
          · exact ⟨x, hx, hx'⟩
      · intro l' hl'
        rw [Option.map_eq_some_iff] at hl'
        obtain ⟨l'', h2, rfl⟩ := hl'
        obtain ⟨m1, m2, m3⟩ := ih2 l'' h2
        refine ⟨?_, by simp [m2], ?_⟩
        · intro x
          rw [List.mem_cons, m1, List.mem_cons]; tauto
        · refine List.pairwise_cons.2 ⟨?_, m3⟩
          intro x hx
          rcases (m1 x).1 hx with rfl | hx
          · exact h1'
          · exact hs'.1 x hx
    · rw [if_neg h1]
      have h1' : ¬ c b a < 0 := fun h => h1 (hb.2.2 h)
      by_cases h2 : lt a b = true
      · rw [if_pos h2]
        have h2' := hb.1.1 h2
        constructor
        · simp only [reduceCtorEq, false_iff, not_exists, not_and]
          intro x hx hx0
          rcases List.mem_cons.1 hx with rfl | hx
          · omega
          · have := hc.lt_trans h2' (hs'.1 x hx); omega
        · intro l' hl'
          simp only [Option.some.injEq] at hl'
          subst hl'
          refine ⟨by intro x; simp, by simp, ?_⟩
          refine List.pairwise_cons.2 ⟨?_, hs⟩
          intro x hx
          rcases List.mem_cons.1 hx with rfl | hx
          · exact h2'
          · exact hc.lt_trans h2' (hs'.1 x hx)
      · rw [if_neg h2]
        have h2' : ¬ c a b < 0 := fun h => h2 (hb.1.2 h)
        constructor
        · simp only [true_iff]
          exact ⟨b, by simp, by omega⟩
        · intro l' hl'; simp at hl'

theorem keyCmp_zero {α : Type} (k : α → Int) (a b : α) : keyCmp k a b = 0 ↔ k a = k b := by
  unfold keyCmp; constructor
  · intro h; repeat' split at h <;> omega
  · intro h; rw [if_neg (by omega), if_neg (by omega)]

theorem zoomCmp_zero (a b : Entry) : zoomCmp a b = 0 ↔ zoom a = zoom b := by
  unfold zoomCmp
  constructor
  · intro h
    by_contra hne
    rcases lt_or_gt_of_ne hne with h1 | h1
    · rw [if_neg (by linarith), if_pos h1] at h; omega
    · rw [if_pos h1] at h; omega
  · intro h; rw [if_neg (by linarith), if_neg (by linarith)]

theorem fullCmp_zero (fp : Bool) (a b : Entry) : fullCmp fp a b = 0 ↔ SameSlot a b ∧ (fp = true → a.filePosition = b.filePosition) := by
  have hite : ∀ x y : Int, (if x ≠ 0 then x else y) = 0 ↔ x = 0 ∧ y = 0 := by
    intro x y; split <;> simp_all
  unfold fullCmp
  simp only [hite, keyCmp_zero, zoomCmp_zero]
  unfold SameSlot
  have hco : a.coordinate.compare b.coordinate = 0 ↔ ∀ d, a.coordinate d = b.coordinate d := by
    unfold Coord.compare
    rw [compareFrom_eq_zero]
    exact ⟨fun h d => h d (Dim.mem_all d), fun h d _ => h d⟩
  rw [hco, ← isMIndexValid_iff, ← isMIndexValid_iff]
  cases ha : a.isMIndexValid <;> cases hb : b.isMIndexValid <;> cases fp <;> simp <;> tauto

theorem enumerate_eq {σ α : Type} (f : σ → Int → α → Bool × σ) (l : List (Int × α)) : ∀ st, enumerate f l st = presentItems f l st := by
  induction l with
  | nil => intro st; rfl
  | cons p r ih =>
    intro st
    obtain ⟨i, a⟩ := p
    unfold enumerate presentItems
    dsimp only
    cases h : (f st i a).1 <;> simp [ih]

theorem enumerate_filter {σ α : Type} (f : σ → Int → α → Bool × σ) (P : α → Prop) [DecidablePred P] (l : List (Int × α)) : ∀ st,
    enumerate (fun st i a => if P a then f st i a else (true, st)) l st = presentItems f (l.filter (fun p => P p.2)) st := by
  induction l with
  | nil => intro st; rfl
  | cons p r ih =>
    intro st
    obtain ⟨i, a⟩ := p
    unfold enumerate
    by_cases h : P a
    · rw [List.filter_cons_of_pos (by simpa using h)]
      unfold presentItems
      simp only [h, if_true]
      cases h2 : (f st i a).1 <;> simp [ih]
    · rw [List.filter_cons_of_neg (by simpa using h)]
      simp [h, ih]

/-! ## Reader-writer directory -/

structure RWInv (d : RWDir) : Prop where
  sorted : KeysSorted d.subBlks
  below : ∀ p ∈ d.subBlks, p.1 < d.next

theorem mapInsert_append {α : Type} (m : List (Int × α)) (k : Int) (v : α) (h : ∀ p ∈ m, p.1 < k) : mapInsert m k v = m ++ [(k, v)] := by
  induction m with
  | nil => rfl
  | cons p r ih =>
    obtain ⟨k', v'⟩ := p
    have := h _ List.mem_cons_self
    simp only at this
    unfold mapInsert
    rw [if_neg (by omega), if_neg (by omega), ih (fun p hp => h p (by simp [hp]))]
    rfl

theorem rwInv_add {d : RWDir} (h : RWInv d) (e : Entry) : RWInv (d.add e).1 := by
  unfold RWDir.add
  refine ⟨mapInsert_sorted _ h.sorted _ _, ?_⟩
  intro p hp
  dsimp only at hp ⊢
  rcases mapInsert_keys _ _ _ p hp with h1 | h1
  · omega
  · have := h.below p h1; omega

theorem mapSet_keys {α : Type} (m : List (Int × α)) (k : Int) (v : α) (n : Int) (h : ∀ p ∈ m, p.1 < n) : ∀ p ∈ mapSet m k v, p.1 < n := by
  intro p hp
  unfold mapSet at hp
  rw [List.mem_map] at hp
  obtain ⟨q, hq, rfl⟩ := hp
  have := h q hq
  split <;> simp_all

theorem add_lookup {d : RWDir} (h : RWInv d) (e : Entry) (j : Int) : (d.add e).1.tryGet j = if j = (d.add e).2 then some e else d.tryGet j := by
  unfold RWDir.add RWDir.tryGet
  dsimp only
  refine mapFind_insert _ h.sorted _ _ ?_ j
  exact mapFind_none_of_lt _ _ (fun p hp => by have := h.below p hp; omega)

theorem recreate_subBlks (d : RWDir) : d.recreate.subBlks = d.subBlks ∧ d.recreate.next = d.next := ⟨rfl, rfl⟩

theorem getStatistics_dir (d : RWDir) : d.getStatistics.1.subBlks = d.subBlks ∧ d.getStatistics.1.next = d.next := by
  unfold RWDir.getStatistics
  dsimp only
  split <;> exact ⟨rfl, rfl⟩

theorem getPyramidStatistics_dir (d : RWDir) : d.getPyramidStatistics.1.subBlks = d.subBlks ∧ d.getPyramidStatistics.1.next = d.next := by
  unfold RWDir.getPyramidStatistics
  dsimp only
  split <;> exact ⟨rfl, rfl⟩

theorem equalCoordinate_iff (a b : Entry) : a.equalCoordinate b = true ↔ SameTile a b := by
  unfold Entry.equalCoordinate SameTile
  have hco : a.coordinate.compare b.coordinate = 0 ↔ ∀ d, a.coordinate d = b.coordinate d := by
    unfold Coord.compare
    rw [compareFrom_eq_zero]
    exact ⟨fun h d => h d (Dim.mem_all d), fun h d _ => h d⟩
  rw [← isMIndexValid_iff, ← isMIndexValid_iff, ← isLayer0_iff, ← isLayer0_iff, ← hco]
  split
  · split
    · simp_all
      tauto
    · simp_all
  · simp_all

theorem any_same_iff {d : RWDir} (h : RWInv d) (e : Entry) :
    d.subBlks.any (fun p => p.2.equalCoordinate e) = true ↔ ∃ j e', d.tryGet j = some e' ∧ SameTile e' e := by
  rw [List.any_eq_true]
  constructor
  · rintro ⟨⟨k, v⟩, hp, he⟩
    exact ⟨k, v, mapFind_of_mem h.sorted hp, (equalCoordinate_iff _ _).1 he⟩
  · rintro ⟨j, e', h1, h2⟩
    exact ⟨(j, e'), mem_of_mapFind h1, (equalCoordinate_iff _ _).2 h2⟩

/-- One step simulates the key map; `used` are the keys below `next`. -/
theorem rwStep_sim {d : RWDir} (h : RWInv d) (hn : 0 ≤ d.next) (op : RWOp) :
    RWInv (rwStep d op).1 ∧ 0 ≤ (rwStep d op).1.next ∧
    KeyStep d.tryGet (fun j => 0 ≤ j ∧ j < d.next) op (rwStep d op).2 (rwStep d op).1.tryGet (fun j => 0 ≤ j ∧ j < (rwStep d op).1.next) := by
  have hadd : ∀ e, (fun j => 0 ≤ j ∧ j < (d.add e).1.next) = (fun j => j = (d.add e).2 ∨ (0 ≤ j ∧ j < d.next)) := by
    intro e; funext j; simp only [RWDir.add, eq_iff_iff]; omega
  have hlook : ∀ e, (d.add e).1.tryGet = fun j => if j = (d.add e).2 then some e else d.tryGet j := by
    intro e; funext j; exact add_lookup h e j
  have hfresh : ∀ e, ¬ (0 ≤ (d.add e).2 ∧ (d.add e).2 < d.next) := by
    intro e; simp only [RWDir.add]; omega
  cases op with
  | add e =>
    unfold rwStep
    refine ⟨rwInv_add h e, by simp only [RWDir.add]; omega, ?_⟩
    dsimp only
    rw [hadd, hlook]
    exact KeyStep.add _ _ _ _ (hfresh e)
  | tryAdd e =>
    by_cases hany : d.subBlks.any (fun p => p.2.equalCoordinate e) = true
    · simp only [rwStep, RWDir.tryAdd, hany, if_true]
      exact ⟨h, hn, KeyStep.reject _ _ _ ((any_same_iff h e).1 hany)⟩
    · simp only [rwStep, RWDir.tryAdd, hany, if_false, Bool.false_eq_true]
      refine ⟨rwInv_add h e, by simp only [RWDir.add]; omega, ?_⟩
      rw [hadd, hlook]
      exact KeyStep.tryAdd _ _ _ _ (hfresh e) (fun hex => hany ((any_same_iff h e).2 hex))
  | modify k e =>
    cases hf : mapFind d.subBlks k with
    | none =>
      simp only [rwStep, RWDir.tryModify, hf]
      exact ⟨h, hn, KeyStep.modifyNone _ _ _ _ hf⟩
    | some e0 =>
      simp only [rwStep, RWDir.tryModify, hf]
      refine ⟨⟨mapSet_sorted _ h.sorted _ _, mapSet_keys _ _ _ _ h.below⟩, hn, ?_⟩
      have : RWDir.tryGet { d with subBlks := mapSet d.subBlks k e, isModified := true, statsCurrent := false } =
          fun j => if j = k then some e else d.tryGet j := by
        funext j; exact mapFind_set _ _ _ (by simp [hf]) j
      rw [this]
      exact KeyStep.modify _ _ _ _ (by simp [RWDir.tryGet, hf])
  | remove k =>
    cases hf : mapFind d.subBlks k with
    | none =>
      simp only [rwStep, RWDir.tryRemove, hf]
      exact ⟨h, hn, KeyStep.removeNone _ _ _ hf⟩
    | some e0 =>
      simp only [rwStep, RWDir.tryRemove, hf]
      refine ⟨⟨mapErase_sorted _ h.sorted _, fun p hp => h.below p (List.mem_of_mem_filter hp)⟩, hn, ?_⟩
      have : RWDir.tryGet { d with subBlks := mapErase d.subBlks k, isModified := true, statsCurrent := false } =
          fun j => if j = k then none else d.tryGet j := by
        funext j; exact mapFind_erase _ _ j
      rw [this]
      exact KeyStep.remove _ _ _ _ hf
  | get k =>
    cases hf : d.tryGet k with
    | none => simp only [rwStep, hf]; exact ⟨h, hn, KeyStep.getNone _ _ _ hf⟩
    | some e0 => simp only [rwStep, hf]; exact ⟨h, hn, KeyStep.get _ _ _ _ hf⟩
  | statistics =>
    unfold rwStep
    obtain ⟨h1, h2⟩ := getStatistics_dir d
    refine ⟨⟨by rw [h1]; exact h.sorted, by rw [h1, h2]; exact h.below⟩, by rw [h2]; exact hn, ?_⟩
    have : d.getStatistics.1.tryGet = d.tryGet := by funext j; unfold RWDir.tryGet; rw [h1]
    dsimp only
    rw [this, h2]
    exact KeyStep.statistics _ _ _
  | pyramidStatistics =>
    unfold rwStep
    obtain ⟨h1, h2⟩ := getPyramidStatistics_dir d
    refine ⟨⟨by rw [h1]; exact h.sorted, by rw [h1, h2]; exact h.below⟩, by rw [h2]; exact hn, ?_⟩
    have : d.getPyramidStatistics.1.tryGet = d.tryGet := by funext j; unfold RWDir.tryGet; rw [h1]
    dsimp only
    rw [this, h2]
    exact KeyStep.pyramid _ _ _

theorem rwRun_sim (ops : List RWOp) : ∀ (d : RWDir) (hist : List (RWOp × RWOut)), RWInv d → 0 ≤ d.next →
    KeyRun hist d.tryGet (fun j => 0 ≤ j ∧ j < d.next) →
    KeyRun (hist ++ (rwRun d ops).2) (rwRun d ops).1.tryGet (fun j => 0 ≤ j ∧ j < (rwRun d ops).1.next) := by
  induction ops with
  | nil => intro d hist _ _ h; simpa [rwRun] using h
  | cons op ops ih =>
    intro d hist hi hn h
    obtain ⟨s1, s2, s3⟩ := rwStep_sim hi hn op
    have := ih (rwStep d op).1 (hist ++ [(op, (rwStep d op).2)]) s1 s2 (KeyRun.snoc _ _ _ _ _ _ _ h s3)
    unfold rwRun
    simpa using this

/-! Statistics of the reader-writer directory -/

def RWDir.entries (d : RWDir) : List Entry := d.subBlks.map (·.2)

structure RWStatsInv (d : RWDir) : Prop extends RWInv d where
  ok : ∀ e ∈ d.entries, EntryOk e
  stats : d.statsCurrent = true → StatsInv d.upd.stats d.entries

theorem recreate_stats (d : RWDir) (hok : ∀ e ∈ d.entries, EntryOk e) : StatsInv d.recreate.upd.stats d.entries := by
  have : ∀ (l : List (Int × Entry)) (u : Updater), (l.foldl (fun u p => u.update p.2) u).stats = (l.map (·.2)).foldl Stats.update u.stats := by
    intro l
    induction l with
    | nil => intro u; rfl
    | cons p l ih => intro u; rw [List.foldl_cons, ih]; rfl
  unfold RWDir.recreate
  dsimp only
  rw [this]
  exact statsInv_fold _ hok

def opEntryOk : RWOp → Prop
  | .add e => EntryOk e
  | .tryAdd e => EntryOk e
  | .modify _ e => EntryOk e
  | _ => True

theorem rwStats_add {d : RWDir} (h : RWStatsInv d) (e : Entry) (he : EntryOk e) : RWStatsInv (d.add e).1 := by
  have hent : (d.add e).1.entries = d.entries ++ [e] := by
    unfold RWDir.entries RWDir.add
    dsimp only
    rw [mapInsert_append _ _ _ h.below]; simp
  refine ⟨rwInv_add h.toRWInv e, ?_, ?_⟩
  · rw [hent]
    intro e' h'
    rcases List.mem_append.1 h' with h' | h'
    · exact h.ok e' h'
    · rw [List.mem_singleton.1 h']; exact he
  · intro hc
    have hc' : d.statsCurrent = true := hc
    rw [hent]
    have := statsInv_update (h.stats hc') e h.ok he
    unfold RWDir.add
    simpa [hc', Updater.update] using this

theorem rwStats_step {d : RWDir} (h : RWStatsInv d) (op : RWOp) (hop : opEntryOk op) : RWStatsInv (rwStep d op).1 := by
  cases op with
  | add e => exact rwStats_add h e hop
  | tryAdd e =>
    by_cases hany : d.subBlks.any (fun p => p.2.equalCoordinate e) = true
    · simp only [rwStep, RWDir.tryAdd, hany, if_true]; exact h
    · simp only [rwStep, RWDir.tryAdd, hany, if_false, Bool.false_eq_true]; exact rwStats_add h e hop
  | modify k e =>
    cases hf : mapFind d.subBlks k with
    | none => simp only [rwStep, RWDir.tryModify, hf]; exact h
    | some e0 =>
      simp only [rwStep, RWDir.tryModify, hf]
      refine ⟨⟨mapSet_sorted _ h.sorted _ _, mapSet_keys _ _ _ _ h.below⟩, ?_, by simp⟩
      intro e' h'
      unfold RWDir.entries mapSet at h'
      dsimp only at h'
      rw [List.mem_map] at h'
      obtain ⟨p, hp, rfl⟩ := h'
      rw [List.mem_map] at hp
      obtain ⟨q, hq, rfl⟩ := hp
      split
      · exact hop
      · exact h.ok _ (List.mem_map.2 ⟨q, hq, rfl⟩)
  | remove k =>
    cases hf : mapFind d.subBlks k with
    | none => simp only [rwStep, RWDir.tryRemove, hf]; exact h
    | some e0 =>
      simp only [rwStep, RWDir.tryRemove, hf]
      refine ⟨⟨mapErase_sorted _ h.sorted _, fun p hp => h.below p (List.mem_of_mem_filter hp)⟩, ?_, by simp⟩
      intro e' h'
      unfold RWDir.entries mapErase at h'
      dsimp only at h'
      rw [List.mem_map] at h'
      obtain ⟨p, hp, rfl⟩ := h'
      exact h.ok _ (List.mem_map.2 ⟨p, List.mem_of_mem_filter hp, rfl⟩)
  | get k => cases hf : d.tryGet k <;> simp only [rwStep, hf] <;> exact h
  | statistics =>
    unfold rwStep RWDir.getStatistics
    dsimp only
    split
    · exact h
    · exact ⟨⟨h.sorted, h.below⟩, h.ok, fun _ => recreate_stats d h.ok⟩
  | pyramidStatistics =>
    unfold rwStep RWDir.getPyramidStatistics
    dsimp only
    split
    · exact h
    · exact ⟨⟨h.sorted, h.below⟩, h.ok, fun _ => recreate_stats d h.ok⟩

theorem rwStats_run (ops : List RWOp) : ∀ d, RWStatsInv d → (∀ op ∈ ops, opEntryOk op) → RWStatsInv (rwRun d ops).1 := by
  induction ops with
  | nil => intro d h _; exact h
  | cons op ops ih =>
    intro d h hops
    exact ih _ (rwStats_step h op (hops op (by simp))) (fun o ho => hops o (by simp [ho]))

/-! ## Coordinate checks -/

theorem checkDims_spec (b : Bounds) (c : Coord) (ds : List Dim) : ∀ n,
    (∀ k, checkDims b c ds n = .ok k ↔ k = n + (ds.filter (fun d => (b d).isSome)).length ∧
      ∀ d ∈ ds, ∀ s z, b d = some (s, z) → ∃ v, c d = some v ∧ s ≤ v ∧ v < s + z) ∧
    (checkDims b c ds n = .error .OutOfBounds → ∃ d s z v, b d = some (s, z) ∧ c d = some v ∧ ¬ (s ≤ v ∧ v < s + z)) ∧
    (checkDims b c ds n = .error .InsufficientCoordinate → ∃ d, (b d).isSome ∧ c d = none) ∧
    checkDims b c ds n ≠ .error .UnexpectedCoordinate ∧ checkDims b c ds n ≠ .error .Ok := by
  induction ds with
  | nil => intro n; simp only [checkDims, List.filter_nil, List.length_nil, Nat.add_zero, Except.ok.injEq, List.not_mem_nil]; simp; intro k; exact eq_comm
  | cons d ds ih =>
    intro n
    unfold checkDims
    cases hb : b d with
    | none =>
      dsimp only
      obtain ⟨i1, i2, i3, i4, i5⟩ := ih n
      refine ⟨?_, i2, i3, i4, i5⟩
      intro k
      rw [i1, List.filter_cons_of_neg (by simp [hb])]
      simp [hb]
    | some p =>
      obtain ⟨s, z⟩ := p
      dsimp only
      cases hc : c d with
      | none =>
        dsimp only
        refine ⟨?_, by simp, fun _ => ⟨d, by simp [hb], hc⟩, by simp, by simp⟩
        intro k
        simp only [reduceCtorEq, List.mem_cons, forall_eq_or_imp, false_iff, not_and]
        intro _ h
        have := h s z hb
        simp [hc] at this
      | some v =>
        dsimp only
        split
        · rename_i hv
          refine ⟨?_, fun _ => ⟨d, s, z, v, hb, hc, by omega⟩, by simp, by simp, by simp⟩
          intro k
          simp only [reduceCtorEq, List.mem_cons, forall_eq_or_imp, false_iff, not_and]
          intro _ h
          obtain ⟨w, hw, h1, h2⟩ := h s z hb
          rw [hc] at hw; cases hw; omega
        · rename_i hv
          obtain ⟨i1, i2, i3, i4, i5⟩ := ih (n + 1)
          refine ⟨?_, i2, i3, i4, i5⟩
          intro k
          rw [i1, List.filter_cons_of_pos (p := fun d => (b d).isSome) (by simp [hb])]
          simp only [List.length_cons, List.mem_cons, forall_eq_or_imp, hb, Option.some.injEq, Prod.mk.injEq]
          constructor
          · rintro ⟨h1, h2⟩
            refine ⟨by omega, ?_, h2⟩
            rintro s' z' ⟨rfl, rfl⟩
            exact ⟨v, hc, by omega⟩
          · rintro ⟨h1, _, h2⟩
            exact ⟨by omega, h2⟩

theorem checkPlaneDims_spec (b : Bounds) (c : Coord) (ds : List Dim) :
    (checkPlaneDims b c ds = none ↔ ∀ d ∈ ds,
      (c d = none → ∀ s n, b d = some (s, n) → n ≤ 1) ∧
      (∀ v, c d = some v → ∃ s n, b d = some (s, n) ∧ s ≤ v ∧ v < s + n)) ∧
    (checkPlaneDims b c ds = some .MissingDimension → ∃ d ∈ ds, c d = none ∧ ∃ s n, b d = some (s, n) ∧ 1 < n) ∧
    (checkPlaneDims b c ds = some .CoordinateOutOfRange → ∃ d ∈ ds, ∃ v s n, c d = some v ∧ b d = some (s, n) ∧ ¬ (s ≤ v ∧ v < s + n)) ∧
    (checkPlaneDims b c ds = some .SurplusDimension → ∃ d ∈ ds, (c d).isSome ∧ b d = none) ∧
    checkPlaneDims b c ds ≠ some .InvalidDimension := by
  induction ds with
  | nil => simp [checkPlaneDims]
  | cons d ds ih =>
    obtain ⟨i1, i2, i3, i4, i5⟩ := ih
    have lift : ∀ {P : Dim → Prop}, (∃ d ∈ ds, P d) → ∃ d' ∈ d :: ds, P d' := by
      rintro P ⟨d', h1, h2⟩; exact ⟨d', by simp [h1], h2⟩
    unfold checkPlaneDims
    cases hb : b d with
    | none =>
      dsimp only
      cases hc : c d with
      | none =>
        simp only [Option.isSome_none, Bool.false_eq_true, if_false]
        refine ⟨?_, fun h => lift (i2 h), fun h => lift (i3 h), fun h => lift (i4 h), i5⟩
        rw [i1]
        simp [hb, hc]
      | some v =>
        simp only [Option.isSome_some, if_true]
        refine ⟨?_, by simp, by simp, fun _ => ⟨d, by simp, by simp [hc], hb⟩, by simp⟩
        simp [hb, hc]
    | some p =>
      obtain ⟨s, n⟩ := p
      dsimp only
      cases hc : c d with
      | none =>
        dsimp only
        split
        · rename_i hn
          refine ⟨?_, fun _ => ⟨d, by simp, hc, s, n, hb, hn⟩, by simp, by simp, by simp⟩
          simp only [reduceCtorEq, List.mem_cons, forall_eq_or_imp, false_iff, not_and]
          rintro ⟨h1, _⟩
          have := h1 hc s n hb
          omega
        · rename_i hn
          refine ⟨?_, fun h => lift (i2 h), fun h => lift (i3 h), fun h => lift (i4 h), i5⟩
          rw [i1]
          simp [hb, hc]
          omega
      | some v =>
        dsimp only
        split
        · rename_i hv
          refine ⟨?_, by simp, fun _ => ⟨d, by simp, v, s, n, hc, hb, by omega⟩, by simp, by simp⟩
          simp only [reduceCtorEq, List.mem_cons, forall_eq_or_imp, false_iff, not_and]
          rintro ⟨_, h1⟩
          obtain ⟨s', n', h2, h3⟩ := h1 v hc
          rw [hb] at h2; cases h2; omega
        · rename_i hv
          refine ⟨?_, fun h => lift (i2 h), fun h => lift (i3 h), fun h => lift (i4 h), i5⟩
          rw [i1]
          simp [hb, hc]
          omega

end Verif
