import Verif.Spec.SubBlock
import Verif.Proof.Coord

namespace Verif
open Spec

theorem isLayer0_iff (e : Entry) : e.isLayer0 = true ↔ OnLayer0 e := by
  simp [Entry.isLayer0, OnLayer0]

theorem isMIndexValid_iff (e : Entry) : e.isMIndexValid = true ↔ HasM e := by
  simp [Entry.isMIndexValid, HasM]

/-! ## Bounding boxes -/

theorem isBox_single (e : Entry) : IsBox e.rect [e] := by
  simp [IsBox, Entry.rect]

theorem isBox_snoc {r : IntRect} {es : List Entry} (h : IsBox r es) (hne : es ≠ []) (e : Entry)
    (hv : ∀ e ∈ es, 0 ≤ e.width ∧ 0 ≤ e.height) (hw : 0 ≤ e.width ∧ 0 ≤ e.height) :
    IsBox (updateBoundingBox r e) (es ++ [e]) := by
  obtain ⟨h0, ⟨a1, m1, h1⟩, ⟨a2, m2, h2⟩, ⟨a3, m3, h3⟩, ⟨a4, m4, h4⟩⟩ := h
  have q1 := h0 _ m1
  have v1 := hv _ m1
  have hvalid : r.isValid = true := by
    simp only [IntRect.isValid, Bool.and_eq_true, decide_eq_true_eq]; omega
  have key : (updateBoundingBox r e).x = min r.x e.x ∧ (updateBoundingBox r e).y = min r.y e.y ∧
      (updateBoundingBox r e).x + (updateBoundingBox r e).w = max (r.x + r.w) (e.x + e.width) ∧
      (updateBoundingBox r e).y + (updateBoundingBox r e).h = max (r.y + r.h) (e.y + e.height) := by
    unfold updateBoundingBox
    rw [if_pos hvalid]
    simp only [IntRect.isValid, Bool.and_eq_true, decide_eq_true_eq] at hvalid
    dsimp only
    by_cases c1 : r.x > e.x <;> by_cases c2 : r.y > e.y <;> simp only [c1, c2, if_true, if_false] <;>
      (split <;> (try dsimp only) <;> split <;> (try dsimp only at *) <;> omega)
  obtain ⟨k1, k2, k3, k4⟩ := key
  refine ⟨?_, ?_, ?_, ?_, ?_⟩
  · intro e' he'
    rw [List.mem_append, List.mem_singleton] at he'
    rcases he' with he' | rfl
    · have := h0 e' he'; omega
    · omega
  · rw [k1]
    by_cases c : r.x ≤ e.x
    · exact ⟨a1, by simp [m1], by omega⟩
    · exact ⟨e, by simp, by omega⟩
  · rw [k2]
    by_cases c : r.y ≤ e.y
    · exact ⟨a2, by simp [m2], by omega⟩
    · exact ⟨e, by simp, by omega⟩
  · rw [k3]
    by_cases c : e.x + e.width ≤ r.x + r.w
    · exact ⟨a3, by simp [m3], by omega⟩
    · exact ⟨e, by simp, by omega⟩
  · rw [k4]
    by_cases c : e.y + e.height ≤ r.y + r.h
    · exact ⟨a4, by simp [m4], by omega⟩
    · exact ⟨e, by simp, by omega⟩

/-- The model's box: exactly `invalidRect` if nothing is there. -/
def BoxOf' (r : IntRect) (es : List Entry) : Prop := (es = [] → r = invalidRect) ∧ (es ≠ [] → IsBox r es)

theorem BoxOf'.toBoxOf {r : IntRect} {es : List Entry} (h : BoxOf' r es) : BoxOf r es :=
  ⟨fun he => by rw [h.1 he]; rfl, h.2⟩

theorem boxOf_snoc {r : IntRect} {es : List Entry} (h : BoxOf' r es) (e : Entry)
    (hv : ∀ e ∈ es, 0 ≤ e.width ∧ 0 ≤ e.height) (hw : 0 ≤ e.width ∧ 0 ≤ e.height) :
    BoxOf' (updateBoundingBox r e) (es ++ [e]) := by
  refine ⟨by simp, fun _ => ?_⟩
  by_cases he : es = []
  · subst he
    rw [h.1 rfl]
    exact isBox_single e
  · exact isBox_snoc (h.2 he) he e hv hw

theorem isBox_unique {r r' : IntRect} {es es' : List Entry} (hm : ∀ e, e ∈ es ↔ e ∈ es') (h : IsBox r es) (h' : IsBox r' es') :
    r = r' := by
  obtain ⟨h0, ⟨a1, m1, h1⟩, ⟨a2, m2, h2⟩, ⟨a3, m3, h3⟩, ⟨a4, m4, h4⟩⟩ := h
  obtain ⟨g0, ⟨b1, n1, g1⟩, ⟨b2, n2, g2⟩, ⟨b3, n3, g3⟩, ⟨b4, n4, g4⟩⟩ := h'
  have p1 := g0 _ ((hm _).1 m1); have p2 := g0 _ ((hm _).1 m2); have p3 := g0 _ ((hm _).1 m3); have p4 := g0 _ ((hm _).1 m4)
  have q1 := h0 _ ((hm _).2 n1); have q2 := h0 _ ((hm _).2 n2); have q3 := h0 _ ((hm _).2 n3); have q4 := h0 _ ((hm _).2 n4)
  cases r; cases r'
  simp only [IntRect.mk.injEq] at *
  omega

theorem boxOf'_unique {r r' : IntRect} {es es' : List Entry} (hm : ∀ e, e ∈ es ↔ e ∈ es') (h : BoxOf' r es) (h' : BoxOf' r' es') :
    r = r' := by
  by_cases he : es = []
  · have he' : es' = [] := by
      cases es' with
      | nil => rfl
      | cons a l => subst he; have := (hm a).2 (by simp); simp at this
    rw [h.1 he, h'.1 he']
  · have he' : es' ≠ [] := by
      rintro rfl
      cases es with
      | nil => exact he rfl
      | cons a l => have := (hm a).1 (by simp); simp at this
    exact isBox_unique hm (h.2 he) (h'.2 he')

/-! ## Maps -/

def KeysSorted {α : Type} (m : List (Int × α)) : Prop := m.Pairwise (fun p q => p.1 < q.1)

theorem mapFind_cons {α : Type} (k' : Int) (v' : α) (r : List (Int × α)) (k : Int) :
    mapFind ((k', v') :: r) k = if k' = k then some v' else mapFind r k := by
  unfold mapFind
  by_cases h : k' = k
  · simp [h]
  · simp [h]

theorem mapFind_none_of_lt {α : Type} (m : List (Int × α)) (k : Int) (h : ∀ p ∈ m, p.1 ≠ k) : mapFind m k = none := by
  unfold mapFind
  rw [Option.map_eq_none_iff, List.find?_eq_none]
  intro p hp
  simpa using h p hp

theorem mapFind_insert {α : Type} (m : List (Int × α)) (hs : KeysSorted m) (k : Int) (v : α) (hk : mapFind m k = none) (j : Int) :
    mapFind (mapInsert m k v) j = if j = k then some v else mapFind m j := by
  induction m with
  | nil => simp only [mapInsert, mapFind_cons]; by_cases h : k = j <;> simp [h, eq_comm]
  | cons p r ih =>
    obtain ⟨k', v'⟩ := p
    rw [mapFind_cons] at hk
    split at hk
    · simp at hk
    · rename_i hne
      unfold mapInsert
      split
      · rw [mapFind_cons]; by_cases h : k = j <;> simp [h, eq_comm]
      · rw [if_neg (fun h => hne h.symm), mapFind_cons, ih (List.Pairwise.of_cons hs) hk, mapFind_cons]
        by_cases h1 : k' = j
        · subst h1; simp [hne]
        · simp [h1]

theorem mapInsert_keys {α : Type} (m : List (Int × α)) (k : Int) (v : α) : ∀ p ∈ mapInsert m k v, p.1 = k ∨ p ∈ m := by
  induction m with
  | nil => intro p hp; simp [mapInsert] at hp; left; rw [hp]
  | cons q r ih =>
    obtain ⟨k', v'⟩ := q
    intro p hp
    unfold mapInsert at hp
    split at hp
    · rcases List.mem_cons.1 hp with rfl | h
      · left; rfl
      · right; exact h
    · split at hp
      · right; exact hp
      · rcases List.mem_cons.1 hp with rfl | h
        · right; simp
        · rcases ih p h with h | h
          · left; exact h
          · right; simp [h]

theorem mapInsert_sorted {α : Type} (m : List (Int × α)) (hs : KeysSorted m) (k : Int) (v : α) : KeysSorted (mapInsert m k v) := by
  induction m with
  | nil => simp [mapInsert, KeysSorted]
  | cons q r ih =>
    obtain ⟨k', v'⟩ := q
    have hs' := List.pairwise_cons.1 hs
    unfold mapInsert
    split
    · rename_i h
      refine List.pairwise_cons.2 ⟨?_, hs⟩
      intro p hp
      rcases List.mem_cons.1 hp with rfl | hp
      · exact h
      · have := hs'.1 p hp; simp only at *; omega
    · split
      · exact hs
      · refine List.pairwise_cons.2 ⟨?_, ih hs'.2⟩
        intro p hp
        rcases mapInsert_keys _ _ _ p hp with h | h
        · simp only; omega
        · exact hs'.1 p h

theorem mapFind_set {α : Type} (m : List (Int × α)) (k : Int) (v : α) (hk : (mapFind m k).isSome) (j : Int) :
    mapFind (mapSet m k v) j = if j = k then some v else mapFind m j := by
  induction m with
  | nil => simp [mapFind] at hk
  | cons p r ih =>
    obtain ⟨k', v'⟩ := p
    rw [mapFind_cons] at hk
    unfold mapSet at *
    rw [List.map_cons]
    by_cases h : k' = k
    · subst h
      simp only [if_true, mapFind_cons]
      by_cases h2 : k' = j
      · simp [h2]
      · have hj : ¬ j = k' := fun h => h2 h.symm
        simp only [h2, hj, if_false]
        clear ih hk
        induction r with
        | nil => rfl
        | cons q r ih2 =>
          obtain ⟨a, b⟩ := q
          rw [List.map_cons]
          by_cases h3 : a = k'
          · subst h3
            simp only [if_true, mapFind_cons, h2, if_false]
            exact ih2
          · simp only [h3, if_false, mapFind_cons, ih2]
    · simp only [h, if_false] at hk ⊢
      rw [mapFind_cons, mapFind_cons, ih hk]
      by_cases h2 : k' = j
      · subst h2; simp [h]
      · simp [h2]

theorem mapSet_sorted {α : Type} (m : List (Int × α)) (hs : KeysSorted m) (k : Int) (v : α) : KeysSorted (mapSet m k v) := by
  unfold KeysSorted mapSet at *
  rw [List.pairwise_map]
  refine hs.imp ?_
  intro a b hab
  by_cases h1 : a.1 = k <;> by_cases h2 : b.1 = k <;> simp only [h1, h2, if_true, if_false] <;> omega

theorem mapFind_erase {α : Type} (m : List (Int × α)) (k : Int) (j : Int) :
    mapFind (mapErase m k) j = if j = k then none else mapFind m j := by
  unfold mapErase
  induction m with
  | nil => simp [mapFind]
  | cons p r ih =>
    obtain ⟨k', v'⟩ := p
    by_cases h : k' = k
    · subst h
      rw [List.filter_cons_of_neg (by simp), ih, mapFind_cons]
      by_cases h2 : j = k'
      · simp [h2]
      · have : ¬ k' = j := fun h => h2 h.symm
        simp [h2, this]
    · rw [List.filter_cons_of_pos (by simpa using h), mapFind_cons, ih, mapFind_cons]
      by_cases h2 : k' = j
      · subst h2; simp [h]
      · simp [h2]

theorem mapErase_sorted {α : Type} (m : List (Int × α)) (hs : KeysSorted m) (k : Int) : KeysSorted (mapErase m k) :=
  List.Pairwise.filter _ hs

theorem mem_of_mapFind {α : Type} {m : List (Int × α)} {k : Int} {v : α} (h : mapFind m k = some v) : (k, v) ∈ m := by
  unfold mapFind at h
  rw [Option.map_eq_some_iff] at h
  obtain ⟨p, hp, rfl⟩ := h
  have h1 := List.find?_some hp
  have h2 := List.mem_of_find?_eq_some hp
  simp only [beq_iff_eq] at h1
  rw [← h1]; exact h2

theorem mapFind_of_mem {α : Type} {m : List (Int × α)} (hs : KeysSorted m) {k : Int} {v : α} (h : (k, v) ∈ m) : mapFind m k = some v := by
  induction m with
  | nil => simp at h
  | cons p r ih =>
    obtain ⟨k', v'⟩ := p
    have hs' := List.pairwise_cons.1 hs
    rw [mapFind_cons]
    rcases List.mem_cons.1 h with h | h
    · simp only [Prod.mk.injEq] at h; simp [h.1, h.2]
    · have := hs'.1 _ h
      simp only at this
      rw [if_neg (by omega)]
      exact ih hs'.2 h

theorem map_ext {α : Type} {m m' : List (Int × α)} (hs : KeysSorted m) (hs' : KeysSorted m') (h : ∀ k, mapFind m k = mapFind m' k) :
    m = m' := by
  induction m generalizing m' with
  | nil =>
    cases m' with
    | nil => rfl
    | cons p r =>
      obtain ⟨k, v⟩ := p
      have := h k
      rw [mapFind_cons, if_pos rfl] at this
      simp [mapFind] at this
  | cons p r ih =>
    obtain ⟨k, v⟩ := p
    cases m' with
    | nil =>
      have := h k
      rw [mapFind_cons, if_pos rfl] at this
      simp [mapFind] at this
    | cons p' r' =>
      obtain ⟨k', v'⟩ := p'
      have s1 := List.pairwise_cons.1 hs
      have s2 := List.pairwise_cons.1 hs'
      have e1 := h k
      have e2 := h k'
      rw [mapFind_cons, mapFind_cons, if_pos rfl] at e1
      rw [mapFind_cons, mapFind_cons, if_pos rfl] at e2
      have hk : k = k' := by
        by_contra hne
        rw [if_neg (fun h => hne h.symm)] at e1
        rw [if_neg hne] at e2
        have t1 := s2.1 _ (mem_of_mapFind e1.symm)
        have t2 := s1.1 _ (mem_of_mapFind e2)
        simp only at t1 t2
        omega
      subst hk
      rw [if_pos rfl] at e1
      simp only [Option.some.injEq] at e1
      subst e1
      congr 1
      refine ih s1.2 s2.2 ?_
      intro j
      have := h j
      rw [mapFind_cons, mapFind_cons] at this
      by_cases hj : k = j
      · subst hj
        rw [mapFind_none_of_lt r k (fun p hp => by have := s1.1 p hp; simp only at this; omega),
          mapFind_none_of_lt r' k (fun p hp => by have := s2.1 p hp; simp only at this; omega)]
      · simpa [hj] using this

/-! ## Dimension bounds and m-index -/

/-- The interval reported for a dimension. -/
def IntervalOf (b : Option (Int × Int)) (vs : List Int) : Prop :=
  (b = none ↔ vs = []) ∧ ∀ s n, b = some (s, n) → MinMax vs s (s + n - 1)

theorem updateInterval_apply (b : Bounds) (d e : Dim) (v : Int) :
    updateInterval b d v e = if e = d then updateInterval b d v d else b e := by
  by_cases h : e = d
  · subst h; simp
  · simp only [h, if_false]
    unfold updateInterval
    cases b d with
    | none => simp [Bounds.set, h]
    | some p =>
      dsimp only
      split
      · simp [Bounds.set, h]
      · split <;> simp [Bounds.set, h]

theorem updateInterval_congr {b b' : Bounds} {d : Dim} (h : b d = b' d) (v : Int) :
    updateInterval b d v d = updateInterval b' d v d := by
  unfold updateInterval
  rw [h]
  cases hb : b' d with
  | none => simp [Bounds.set]
  | some p =>
    rw [hb] at h
    dsimp only
    split
    · simp [Bounds.set]
    · split
      · simp [Bounds.set]
      · rw [h, hb]

theorem intervalOf_snoc (b : Bounds) (d : Dim) (v : Int) (vs : List Int) (h : IntervalOf (b d) vs) :
    IntervalOf (updateInterval b d v d) (vs ++ [v]) := by
  unfold updateInterval
  cases hb : b d with
  | none =>
    have hvs := h.1.1 hb
    subst hvs
    simp only [Bounds.set, if_true]
    refine ⟨by simp, ?_⟩
    intro s n hs
    simp only [Option.some.injEq, Prod.mk.injEq] at hs
    refine ⟨by simp; omega, by simp; omega, ?_⟩
    intro w hw
    simp at hw
    omega
  | some p =>
    obtain ⟨s, n⟩ := p
    obtain ⟨h1, h2, h3⟩ := h.2 s n hb
    have hsn := h3 _ h1
    have hsn2 := h3 _ h2
    dsimp only
    split
    · refine ⟨by simp [Bounds.set], ?_⟩
      intro s' n' hs
      simp only [Bounds.set, if_true, Option.some.injEq, Prod.mk.injEq] at hs
      obtain ⟨rfl, rfl⟩ := hs
      refine ⟨by simp, ?_, ?_⟩
      · rw [show v + (n + (s - v)) - 1 = s + n - 1 by omega]
        simp [h2]
      · intro w hw
        rw [List.mem_append, List.mem_singleton] at hw
        rcases hw with hw | rfl
        · have := h3 w hw; omega
        · omega
    · split
      · refine ⟨by simp [Bounds.set], ?_⟩
        intro s' n' hs
        simp only [Bounds.set, if_true, Option.some.injEq, Prod.mk.injEq] at hs
        obtain ⟨rfl, rfl⟩ := hs
        refine ⟨by simp [h1], ?_, ?_⟩
        · rw [show s + (1 + v - s) - 1 = v by omega]
          simp
        · intro w hw
          rw [List.mem_append, List.mem_singleton] at hw
          rcases hw with hw | rfl
          · have := h3 w hw; omega
          · omega
      · refine ⟨by simp [hb], ?_⟩
        intro s' n' hs
        rw [hb] at hs
        simp only [Option.some.injEq, Prod.mk.injEq] at hs
        obtain ⟨rfl, rfl⟩ := hs
        refine ⟨by simp [h1], by simp [h2], ?_⟩
        intro w hw
        rw [List.mem_append, List.mem_singleton] at hw
        rcases hw with hw | rfl
        · exact h3 w hw
        · omega

theorem intervalOf_unique {b b' : Option (Int × Int)} {vs vs' : List Int} (hm : ∀ v, v ∈ vs ↔ v ∈ vs')
    (h : IntervalOf b vs) (h' : IntervalOf b' vs') : b = b' := by
  cases b with
  | none =>
    cases b' with
    | none => rfl
    | some p =>
      obtain ⟨s, n⟩ := p
      have h1 := h.1.1 rfl
      have h2 := (h'.2 s n rfl).1
      rw [← hm, h1] at h2
      simp at h2
  | some p =>
    obtain ⟨s, n⟩ := p
    have h1 := h.2 s n rfl
    cases b' with
    | none =>
      have h2 := h'.1.1 rfl
      have h3 := h1.1
      rw [hm, h2] at h3
      simp at h3
    | some p' =>
      obtain ⟨s', n'⟩ := p'
      have h2 := h'.2 s' n' rfl
      have a1 := h2.2.2 _ ((hm _).1 h1.1)
      have a2 := h2.2.2 _ ((hm _).1 h1.2.1)
      have b1 := h1.2.2 _ ((hm _).2 h2.1)
      have b2 := h1.2.2 _ ((hm _).2 h2.2.1)
      simp only [Option.some.injEq, Prod.mk.injEq]
      omega

/-- The m-index range reported: `INT_MAX`,`INT_MIN` if none occurs. -/
def MRange (lo hi : Int) (ms : List Int) : Prop :=
  (ms = [] → lo = intMax ∧ hi = intMin) ∧ (ms ≠ [] → MinMax ms lo hi)

def mStep (e : Entry) (p : Int × Int) : Int × Int :=
  if e.isMIndexValid then (if e.mIndex < p.1 then e.mIndex else p.1, if e.mIndex > p.2 then e.mIndex else p.2) else p

theorem mStep_idem (e : Entry) (p : Int × Int) : mStep e (mStep e p) = mStep e p := by
  obtain ⟨a, b⟩ := p
  unfold mStep
  split
  · simp only [Prod.mk.injEq]
    constructor <;> (repeat' split) <;> omega
  · rfl

theorem updateDim_parts (e : Entry) (s : Stats) (d : Dim) :
    updateDim e s d = match e.coordinate d with
      | none => s
      | some v => { s with dimBounds := updateInterval s.dimBounds d v,
                           minM := (mStep e (s.minM, s.maxM)).1, maxM := (mStep e (s.minM, s.maxM)).2 } := by
  unfold updateDim mStep
  cases e.coordinate d with
  | none => rfl
  | some v => dsimp only; split <;> rfl

theorem foldDims (e : Entry) (ds : List Dim) : ds.Nodup → ∀ s : Stats, (∀ d ∈ ds, (e.coordinate d).isSome) →
    ds.foldl (updateDim e) s =
      { s with
        dimBounds := fun d => if d ∈ ds then updateInterval s.dimBounds d ((e.coordinate d).getD 0) d else s.dimBounds d,
        minM := if ds = [] then s.minM else (mStep e (s.minM, s.maxM)).1,
        maxM := if ds = [] then s.maxM else (mStep e (s.minM, s.maxM)).2 } := by
  induction ds with
  | nil => intro _ s _; simp
  | cons d ds ih =>
    intro hnd s hv
    have hnd' := List.nodup_cons.1 hnd
    rw [List.foldl_cons, updateDim_parts]
    obtain ⟨v, hd⟩ := Option.isSome_iff_exists.1 (hv d (by simp))
    rw [hd]
    dsimp only
    rw [ih hnd'.2 _ (fun d' h' => hv d' (by simp [h']))]
    have hm := mStep_idem e (s.minM, s.maxM)
    cases s with
    | mk c mi ma bb b0 db sc =>
      simp only [reduceCtorEq, if_false, Stats.mk.injEq, true_and, and_true]
      refine ⟨?_, ?_, ?_⟩
      · split
        · rfl
        · exact congrArg Prod.fst hm
      · split
        · rfl
        · exact congrArg Prod.snd hm
      · funext x
        by_cases hx : x ∈ ds
        · have hne : x ≠ d := fun h => hnd'.1 (h ▸ hx)
          simp only [hx, if_true, List.mem_cons, hne, false_or]
          refine updateInterval_congr ?_ _
          rw [updateInterval_apply, if_neg hne]
        · simp only [hx, if_false, List.mem_cons, or_false]
          rw [updateInterval_apply]
          by_cases hxd : x = d
          · subst hxd; simp [hd]
          · simp [hxd]

theorem mRange_snoc (lo hi : Int) (ms : List Int) (h : MRange lo hi ms) (e : Entry) (hm : HasM e)
    (hb : e.mIndex ≤ intMax ∧ intMin ≤ e.mIndex) :
    MRange (mStep e (lo, hi)).1 (mStep e (lo, hi)).2 (ms ++ [e.mIndex]) := by
  unfold mStep
  rw [if_pos ((isMIndexValid_iff e).2 hm)]
  refine ⟨by simp, fun _ => ?_⟩
  dsimp only
  by_cases he : ms = []
  · obtain ⟨rfl, rfl⟩ := h.1 he
    subst he
    have : e.mIndex ≠ intMin := hm
    refine ⟨?_, ?_, ?_⟩
    · simp only [List.nil_append, List.mem_singleton]; split <;> omega
    · simp only [List.nil_append, List.mem_singleton]; split <;> omega
    · intro v hv
      simp at hv; subst hv
      split <;> split <;> omega
  · obtain ⟨h1, h2, h3⟩ := h.2 he
    have hl := h3 _ h1
    refine ⟨?_, ?_, ?_⟩
    · split <;> simp [h1]
    · split <;> simp [h2]
    · intro v hv
      rw [List.mem_append, List.mem_singleton] at hv
      rcases hv with hv | rfl
      · have := h3 v hv
        split <;> split <;> omega
      · split <;> split <;> omega

theorem mRange_unique {lo hi lo' hi' : Int} {ms ms' : List Int} (hm : ∀ v, v ∈ ms ↔ v ∈ ms') (h : MRange lo hi ms) (h' : MRange lo' hi' ms') :
    lo = lo' ∧ hi = hi' := by
  by_cases he : ms = []
  · have he' : ms' = [] := by
      cases ms' with
      | nil => rfl
      | cons a l => subst he; have := (hm a).2 (by simp); simp at this
    have := h.1 he; have := h'.1 he'; omega
  · have he' : ms' ≠ [] := by
      rintro rfl
      cases ms with
      | nil => exact he rfl
      | cons a l => have := (hm a).1 (by simp); simp at this
    obtain ⟨a1, a2, a3⟩ := h.2 he
    obtain ⟨b1, b2, b3⟩ := h'.2 he'
    have := b3 _ ((hm _).1 a1); have := b3 _ ((hm _).1 a2)
    have := a3 _ ((hm _).2 b1); have := a3 _ ((hm _).2 b2)
    omega

/-! ## The statistics invariant -/

structure StatsInv (s : Stats) (es : List Entry) : Prop where
  count : s.count = es.length
  m : MRange s.minM s.maxM (mIndices es)
  box : BoxOf' s.bbox es
  box0 : BoxOf' s.bbox0 (layer0 es)
  dims : ∀ d, IntervalOf (s.dimBounds d) (values es d)
  sorted : KeysSorted s.scenes
  sceneNone : ∀ k, mapFind s.scenes k = none ↔ ofScene es k = []
  sceneBox : ∀ k b b0, mapFind s.scenes k = some (b, b0) → BoxOf' b (ofScene es k) ∧ BoxOf' b0 (layer0 (ofScene es k))

theorem statsInv_init : StatsInv Stats.init [] where
  count := rfl
  m := ⟨fun _ => ⟨rfl, rfl⟩, fun h => absurd rfl h⟩
  box := ⟨fun _ => rfl, fun h => absurd rfl h⟩
  box0 := ⟨fun _ => rfl, fun h => absurd rfl h⟩
  dims := fun d => ⟨by simp [Stats.init, values], by simp [Stats.init]⟩
  sorted := List.Pairwise.nil
  sceneNone := by simp [Stats.init, mapFind, ofScene]
  sceneBox := by simp [Stats.init, mapFind]

theorem layer0_snoc (es : List Entry) (e : Entry) : layer0 (es ++ [e]) = layer0 es ++ if e.isLayer0 then [e] else [] := by
  unfold layer0
  rw [List.filter_append]
  congr 1
  by_cases h : e.isLayer0 = true
  · have := (isLayer0_iff e).1 h
    simp [h, this]
  · have : ¬ OnLayer0 e := fun h' => h ((isLayer0_iff e).2 h')
    simp [h, this]

theorem ofScene_snoc (es : List Entry) (e : Entry) (k : Int) :
    ofScene (es ++ [e]) k = ofScene es k ++ if e.coordinate .S = some k then [e] else [] := by
  unfold ofScene
  rw [List.filter_append]
  congr 1
  by_cases h : e.coordinate .S = some k <;> simp [h]

theorem mIndices_snoc (es : List Entry) (e : Entry) :
    mIndices (es ++ [e]) = mIndices es ++ if e.isMIndexValid then [e.mIndex] else [] := by
  unfold mIndices
  rw [List.filter_append, List.map_append]
  congr 1
  by_cases h : e.isMIndexValid = true
  · have := (isMIndexValid_iff e).1 h
    simp [h, this]
  · have : ¬ HasM e := fun h' => h ((isMIndexValid_iff e).2 h')
    simp [h, this]

theorem values_snoc (es : List Entry) (e : Entry) (d : Dim) :
    values (es ++ [e]) d = values es d ++ (e.coordinate d).toList := by
  unfold values
  rw [List.filterMap_append]
  congr 1

theorem boxOf'_cond {r : IntRect} {es : List Entry} (h : BoxOf' r es) (e : Entry) (hv : ∀ e ∈ es, 0 ≤ e.width ∧ 0 ≤ e.height)
    (hw : 0 ≤ e.width ∧ 0 ≤ e.height) (c : Bool) :
    BoxOf' (if c then updateBoundingBox r e else r) (es ++ if c then [e] else []) := by
  cases c with
  | true => simpa using boxOf_snoc h e hv hw
  | false => simpa using h

theorem statsInv_update {s : Stats} {es : List Entry} (h : StatsInv s es) (e : Entry) (hes : ∀ e ∈ es, EntryOk e) (he : EntryOk e) :
    StatsInv (s.update e) (es ++ [e]) := by
  have hsz : ∀ e ∈ es, 0 ≤ e.width ∧ 0 ≤ e.height := fun e' h' => (hes e' h').1
  have hfold := foldDims e e.coordinate.validDims (Dim.nodup_all.sublist List.filter_sublist)
    { s with bbox := updateBoundingBox s.bbox e, bbox0 := if e.isLayer0 then updateBoundingBox s.bbox0 e else s.bbox0 }
    (by intro d hd; unfold Coord.validDims at hd; simp at hd; exact hd.2)
  unfold Stats.update
  dsimp only
  rw [hfold]
  have hmemv : ∀ d, d ∈ e.coordinate.validDims ↔ (e.coordinate d).isSome := by
    intro d; unfold Coord.validDims; simp [Dim.mem_all]
  constructor
  · simp [h.count]
  · dsimp only
    rw [mIndices_snoc]
    by_cases hm : e.isMIndexValid = true
    · have hm' := (isMIndexValid_iff e).1 hm
      obtain ⟨d, hd⟩ := he.2.2 hm'
      have hne : e.coordinate.validDims ≠ [] := by
        intro h0
        have := (hmemv d).2 hd
        rw [h0] at this; simp at this
      simp only [hne, if_false, hm, if_true]
      exact mRange_snoc _ _ _ h.m e hm' he.2.1
    · have : ∀ p, mStep e p = p := by intro p; unfold mStep; simp [hm]
      simp only [this, ite_self, hm, Bool.false_eq_true, if_false, List.append_nil]
      exact h.m
  · exact boxOf_snoc h.box e hsz he.1
  · rw [layer0_snoc]
    exact boxOf'_cond h.box0 e (fun e' h' => hsz e' (List.mem_of_mem_filter h')) he.1 _
  · intro d
    dsimp only
    rw [values_snoc]
    by_cases hd : d ∈ e.coordinate.validDims
    · obtain ⟨v, hv⟩ := Option.isSome_iff_exists.1 ((hmemv d).1 hd)
      simp only [hd, if_true, hv, Option.getD_some, Option.toList_some]
      exact intervalOf_snoc _ _ _ _ (h.dims d)
    · have : e.coordinate d = none := by
        rw [hmemv] at hd; simpa using hd
      simp only [hd, if_false, this, Option.toList_none, List.append_nil]
      exact h.dims d
  · dsimp only
    unfold updateScenes
    cases hS : e.coordinate .S with
    | none => exact h.sorted
    | some sc =>
      dsimp only
      cases hf : mapFind s.scenes sc with
      | none => exact mapInsert_sorted _ h.sorted _ _
      | some p => exact mapSet_sorted _ h.sorted _ _
  · intro k
    dsimp only
    rw [ofScene_snoc]
    unfold updateScenes
    cases hS : e.coordinate .S with
    | none => simpa using h.sceneNone k
    | some sc =>
      dsimp only
      cases hf : mapFind s.scenes sc with
      | none =>
        dsimp only
        rw [mapFind_insert _ h.sorted _ _ hf]
        by_cases hk : k = sc
        · subst hk; simp
        · have hk' : ¬ sc = k := fun h => hk h.symm
          simpa [hk, hk'] using h.sceneNone k
      | some p =>
        obtain ⟨b, b0⟩ := p
        dsimp only
        rw [mapFind_set _ _ _ (by simp [hf])]
        by_cases hk : k = sc
        · subst hk; simp
        · have hk' : ¬ sc = k := fun h => hk h.symm
          simpa [hk, hk'] using h.sceneNone k
  · intro k b b0 hb
    dsimp only at hb
    rw [ofScene_snoc]
    have hszS : ∀ k, ∀ e ∈ ofScene es k, 0 ≤ e.width ∧ 0 ≤ e.height := fun k e' h' => hsz e' (List.mem_of_mem_filter h')
    unfold updateScenes at hb
    cases hS : e.coordinate .S with
    | none => rw [hS] at hb; simpa using h.sceneBox k b b0 hb
    | some sc =>
      rw [hS] at hb
      dsimp only at hb
      cases hf : mapFind s.scenes sc with
      | none =>
        rw [hf] at hb
        dsimp only at hb
        rw [mapFind_insert _ h.sorted _ _ hf] at hb
        by_cases hk : k = sc
        · subst hk
          have hnil := (h.sceneNone k).1 hf
          simp only [if_true, Option.some.injEq, Prod.mk.injEq] at hb
          obtain ⟨rfl, rfl⟩ := hb
          simp only [hnil, List.nil_append, if_true]
          refine ⟨⟨by simp, fun _ => isBox_single e⟩, ?_⟩
          have := layer0_snoc [] e
          rw [List.nil_append] at this
          rw [this]
          by_cases hl : e.isLayer0 = true
          · simp only [hl, if_true, layer0, List.filter_nil, List.nil_append]
            exact ⟨by simp, fun _ => isBox_single e⟩
          · simp only [hl, if_false, layer0, List.filter_nil, List.nil_append, Bool.false_eq_true]
            exact ⟨fun _ => rfl, fun h => absurd rfl h⟩
        · have hk' : ¬ sc = k := fun h => hk h.symm
          simp only [hk, if_false] at hb
          simpa [hk'] using h.sceneBox k b b0 hb
      | some p =>
        obtain ⟨c, c0⟩ := p
        rw [hf] at hb
        dsimp only at hb
        rw [mapFind_set _ _ _ (by simp [hf])] at hb
        by_cases hk : k = sc
        · subst hk
          simp only [if_true, Option.some.injEq, Prod.mk.injEq] at hb
          obtain ⟨rfl, rfl⟩ := hb
          have := h.sceneBox k c c0 hf
          simp only [if_true]
          refine ⟨boxOf_snoc this.1 e (hszS k) he.1, ?_⟩
          rw [layer0_snoc]
          exact boxOf'_cond this.2 e (fun e' h' => hszS k e' (List.mem_of_mem_filter h')) he.1 _
        · have hk' : ¬ sc = k := fun h => hk h.symm
          simp only [hk, if_false] at hb
          simpa [hk'] using h.sceneBox k b b0 hb

theorem statsInv_fold (es : List Entry) (hes : ∀ e ∈ es, EntryOk e) : StatsInv (es.foldl Stats.update Stats.init) es := by
  have key : ∀ es' pre s, StatsInv s pre → (∀ e ∈ pre ++ es', EntryOk e) → StatsInv (es'.foldl Stats.update s) (pre ++ es') := by
    intro es'
    induction es' with
    | nil => intro pre s h _; simpa using h
    | cons e es' ih =>
      intro pre s h hok
      rw [List.foldl_cons, show pre ++ e :: es' = (pre ++ [e]) ++ es' by simp]
      refine ih _ _ (statsInv_update h e (fun e' h' => hok e' (by simp [h'])) (hok e (by simp))) ?_
      intro e' h'
      exact hok e' (by simpa using h')
  simpa using key es [] _ statsInv_init (by simpa using hes)

theorem mem_layer0_congr {es es' : List Entry} (hm : ∀ e, e ∈ es ↔ e ∈ es') : ∀ e, e ∈ layer0 es ↔ e ∈ layer0 es' := by
  intro e; unfold layer0; rw [List.mem_filter, List.mem_filter, hm]

theorem statsInv_unique {s s' : Stats} {es es' : List Entry} (hl : es.length = es'.length) (hm : ∀ e, e ∈ es ↔ e ∈ es')
    (h : StatsInv s es) (h' : StatsInv s' es') : s = s' := by
  have hsc : ∀ k, ∀ e, e ∈ ofScene es k ↔ e ∈ ofScene es' k := by
    intro k e; unfold ofScene; rw [List.mem_filter, List.mem_filter, hm]
  have hmm : ∀ v, v ∈ mIndices es ↔ v ∈ mIndices es' := by
    intro v; unfold mIndices; simp only [List.mem_map, List.mem_filter, hm]
  have hv : ∀ d v, v ∈ values es d ↔ v ∈ values es' d := by
    intro d v; unfold values; simp only [List.mem_filterMap, hm]
  have e1 := mRange_unique hmm h.m h'.m
  have e2 := boxOf'_unique hm h.box h'.box
  have e3 := boxOf'_unique (mem_layer0_congr hm) h.box0 h'.box0
  have e4 : s.dimBounds = s'.dimBounds := by
    funext d; exact intervalOf_unique (hv d) (h.dims d) (h'.dims d)
  have e5 : s.scenes = s'.scenes := by
    refine map_ext h.sorted h'.sorted ?_
    intro k
    have hnil : ofScene es k = [] ↔ ofScene es' k = [] := by
      rw [List.eq_nil_iff_forall_not_mem, List.eq_nil_iff_forall_not_mem]
      simp only [hsc]
    cases hf : mapFind s.scenes k with
    | none => exact ((h'.sceneNone k).2 (hnil.1 ((h.sceneNone k).1 hf))).symm
    | some p =>
      obtain ⟨b, b0⟩ := p
      cases hf' : mapFind s'.scenes k with
      | none =>
        have := (h.sceneNone k).2 (hnil.2 ((h'.sceneNone k).1 hf'))
        rw [hf] at this; simp at this
      | some p' =>
        obtain ⟨c, c0⟩ := p'
        have q := h.sceneBox k b b0 hf
        have q' := h'.sceneBox k c c0 hf'
        rw [boxOf'_unique (hsc k) q.1 q'.1, boxOf'_unique (mem_layer0_congr (hsc k)) q.2 q'.2]
  have e6 : s.count = s'.count := by rw [h.count, h'.count, hl]
  cases s; cases s'
  simp_all

/-! ## Pyramid statistics -/

/-- Exact counts of one scene's layer list. -/
def LayersOf (v : List (LayerInfo × Nat)) (es : List Entry) : Prop :=
  (v.map (·.1)).Nodup ∧ ∀ l n, (l, n) ∈ v ↔ 0 < n ∧ n = (es.filter (fun e => layerInfo e = l)).length

theorem updateLayerList_mem (v : List (LayerInfo × Nat)) (l : LayerInfo) (hn : (v.map (·.1)).Nodup) :
    ((updateLayerList v l).map (·.1)).Nodup ∧ (∀ l', l' ∈ (updateLayerList v l).map (·.1) ↔ l' = l ∨ l' ∈ v.map (·.1)) ∧
    ∀ l' n, (l', n) ∈ updateLayerList v l ↔ (l' ≠ l ∧ (l', n) ∈ v) ∨ (l' = l ∧ ((l ∉ v.map (·.1) ∧ n = 1) ∨ ∃ m, (l, m) ∈ v ∧ n = m + 1)) := by
  induction v with
  | nil => simp [updateLayerList]
  | cons p r ih =>
    obtain ⟨k, c⟩ := p
    rw [List.map_cons, List.nodup_cons] at hn
    obtain ⟨i1, i2, i3⟩ := ih hn.2
    unfold updateLayerList
    split
    · rename_i hk
      subst hk
      refine ⟨by simpa using hn, by intro l'; simp, ?_⟩
      intro l' n
      by_cases h : l' = l
      · subst h
        have : ∀ m, (l', m) ∉ r := fun m hm => hn.1 (List.mem_map.2 ⟨_, hm, rfl⟩)
        simp [this]
      · simp [h]
    · rename_i hk
      refine ⟨?_, ?_, ?_⟩
      · rw [List.map_cons, List.nodup_cons]
        refine ⟨?_, i1⟩
        rw [i2]
        rintro (h | h)
        · exact hk h.symm
        · exact hn.1 h
      · intro l'
        simp only [List.map_cons, List.mem_cons, i2]
        tauto
      · intro l' n
        rw [List.mem_cons, i3]
        simp only [List.map_cons, List.mem_cons, Prod.mk.injEq, hk, false_or, false_and]
        by_cases h : l' = l
        · subst h
          have hkn : ¬ (l' = k) := hk
          simp [hkn]
        · simp [h]

theorem layersOf_snoc (v : List (LayerInfo × Nat)) (es : List Entry) (h : LayersOf v es) (e : Entry) :
    LayersOf (updateLayerList v (layerInfo e)) (es ++ [e]) := by
  obtain ⟨u1, u2, u3⟩ := updateLayerList_mem v (layerInfo e) h.1
  refine ⟨u1, ?_⟩
  intro l n
  rw [u3, List.filter_append, List.length_append]
  by_cases hl : l = layerInfo e
  · subst hl
    simp only [ne_eq, not_true_eq_false, false_and, true_and, false_or]
    rw [List.filter_cons_of_pos (p := fun e' => decide (layerInfo e' = layerInfo e)) (by simp)]
    simp only [List.filter_nil, List.length_singleton]
    constructor
    · rintro (⟨h1, rfl⟩ | ⟨m, h1, rfl⟩)
      · refine ⟨by omega, ?_⟩
        have : (es.filter (fun e' => layerInfo e' = layerInfo e)).length = 0 := by
          by_contra hne
          refine h1 (List.mem_map.2 ⟨(_, (es.filter (fun e' => layerInfo e' = layerInfo e)).length), (h.2 _ _).2 ⟨by omega, rfl⟩, rfl⟩)
        omega
      · have := (h.2 _ _).1 h1
        omega
    · rintro ⟨h1, h2⟩
      by_cases hz : (es.filter (fun e' => layerInfo e' = layerInfo e)).length = 0
      · left
        refine ⟨?_, by omega⟩
        intro hm
        rw [List.mem_map] at hm
        obtain ⟨⟨l', n'⟩, hm, hl'⟩ := hm
        dsimp only at hl'
        subst hl'
        have := (h.2 _ _).1 hm
        omega
      · right
        exact ⟨_, (h.2 _ _).2 ⟨by omega, rfl⟩, h2⟩
  · have hl' : ¬ layerInfo e = l := fun h => hl h.symm
    rw [List.filter_cons_of_neg (by simpa using hl')]
    simp only [hl, not_false_eq_true, true_and, false_and, or_false, ne_eq, List.filter_nil, List.length_nil, Nat.add_zero]
    exact h.2 l n

/-- Entries with the given scene key. -/
def ofKey (es : List Entry) (k : Int) : List Entry := es.filter (fun e => sceneKey e = k)

structure PyrInv (p : PyrStats) (es : List Entry) : Prop where
  sorted : KeysSorted p
  none : ∀ k, mapFind p k = none ↔ ofKey es k = []
  layers : ∀ k v, mapFind p k = some v → LayersOf v (ofKey es k)

theorem pyrInv_init : PyrInv [] [] := ⟨List.Pairwise.nil, by simp [mapFind, ofKey], by simp [mapFind]⟩

theorem ofKey_snoc (es : List Entry) (e : Entry) (k : Int) :
    ofKey (es ++ [e]) k = ofKey es k ++ if sceneKey e = k then [e] else [] := by
  unfold ofKey
  rw [List.filter_append]
  congr 1
  by_cases h : sceneKey e = k <;> simp [h]

theorem pyrInv_update {p : PyrStats} {es : List Entry} (h : PyrInv p es) (e : Entry) : PyrInv (p.update e) (es ++ [e]) := by
  unfold PyrStats.update
  cases hf : mapFind p (sceneKey e) with
  | none =>
    dsimp only
    refine ⟨mapInsert_sorted _ h.sorted _ _, ?_, ?_⟩
    · intro k
      rw [mapFind_insert _ h.sorted _ _ hf, ofKey_snoc]
      by_cases hk : k = sceneKey e
      · simp [hk]
      · have hk' : ¬ sceneKey e = k := fun h => hk h.symm
        simpa [hk, hk'] using h.none k
    · intro k v hv
      rw [mapFind_insert _ h.sorted _ _ hf] at hv
      rw [ofKey_snoc]
      by_cases hk : k = sceneKey e
      · subst hk
        simp only [if_true, Option.some.injEq] at hv
        subst hv
        simp only [if_true]
        refine layersOf_snoc _ _ ?_ e
        rw [(h.none _).1 hf]
        exact ⟨by simp, by simp; omega⟩
      · have hk' : ¬ sceneKey e = k := fun h => hk h.symm
        simp only [hk, if_false] at hv
        simpa [hk'] using h.layers k v hv
  | some w =>
    dsimp only
    have hsome : (mapFind p (sceneKey e)).isSome := by simp [hf]
    refine ⟨mapSet_sorted _ h.sorted _ _, ?_, ?_⟩
    · intro k
      rw [mapFind_set _ _ _ hsome, ofKey_snoc]
      by_cases hk : k = sceneKey e
      · simp [hk]
      · have hk' : ¬ sceneKey e = k := fun h => hk h.symm
        simpa [hk, hk'] using h.none k
    · intro k v hv
      rw [mapFind_set _ _ _ hsome] at hv
      rw [ofKey_snoc]
      by_cases hk : k = sceneKey e
      · subst hk
        simp only [if_true, Option.some.injEq] at hv
        subst hv
        simp only [if_true]
        exact layersOf_snoc _ _ (h.layers _ w hf) e
      · have hk' : ¬ sceneKey e = k := fun h => hk h.symm
        simp only [hk, if_false] at hv
        simpa [hk'] using h.layers k v hv

theorem pyrInv_fold (es : List Entry) : PyrInv (es.foldl PyrStats.update []) es := by
  have key : ∀ es' pre p, PyrInv p pre → PyrInv (es'.foldl PyrStats.update p) (pre ++ es') := by
    intro es'
    induction es' with
    | nil => intro pre s h; simpa using h
    | cons e es' ih =>
      intro pre s h
      rw [List.foldl_cons, show pre ++ e :: es' = (pre ++ [e]) ++ es' by simp]
      exact ih _ _ (pyrInv_update h e)
  simpa using key es [] _ pyrInv_init

/-- The counts of the layers add up to the number of entries. -/
theorem layers_sum (v : List (LayerInfo × Nat)) : ∀ (es : List Entry), LayersOf v es → (v.map (·.2)).sum = es.length := by
  induction v with
  | nil =>
    intro es h
    cases es with
    | nil => rfl
    | cons e es =>
      have := (h.2 (layerInfo e) (((e :: es).filter (fun e' => layerInfo e' = layerInfo e)).length)).2 ⟨by simp, rfl⟩
      simp at this
  | cons p r ih =>
    intro es h
    obtain ⟨l, n⟩ := p
    have hnd := h.1
    rw [List.map_cons, List.nodup_cons] at hnd
    have h1 := (h.2 l n).1 (by simp)
    have h2 := ih (es.filter (fun e => ¬ layerInfo e = l)) ⟨hnd.2, ?_⟩
    · rw [List.map_cons, List.sum_cons, h2, h1.2]
      have := List.length_eq_length_filter_add (l := es) (fun e => decide (layerInfo e = l))
      rw [this]
      simp only [decide_not]
    · intro l' n'
      by_cases hl : l' = l
      · subst hl
        have a : (l', n') ∉ r := fun hm => hnd.1 (List.mem_map.2 ⟨_, hm, rfl⟩)
        have b : (es.filter (fun e => ¬ layerInfo e = l')).filter (fun e => layerInfo e = l') = [] := by
          rw [List.filter_filter, List.filter_eq_nil_iff]; intro e _; simp
        simp only [a, false_iff]
        rw [b]; simp; omega
      · have b : (es.filter (fun e => ¬ layerInfo e = l)).filter (fun e => layerInfo e = l') = es.filter (fun e => layerInfo e = l') := by
          rw [List.filter_filter]
          apply List.filter_congr
          intro e _
          by_cases hh : layerInfo e = l' <;> simp [hh, hl]
        rw [b, ← h.2 l' n']
        simp [hl]

end Verif
