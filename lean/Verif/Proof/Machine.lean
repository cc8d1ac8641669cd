import Verif.Model.Machine
import Verif.Spec.Machine
import Verif.Proof.Rect
import Verif.Proof.SubBlock

/-! # Helper lemmas for the functions with 32-bit integers -/

namespace Verif.Machine
open Blit Accessor Spec

theorem i32_ok {v : Int} (h : IsInt v) : i32 v = some v := if_pos h

theorem i32_some {v w : Int} (h : i32 v = some w) : IsInt v ∧ w = v := by
  unfold i32 at h
  split at h
  · rename_i hv
    exact ⟨hv, by cases h; rfl⟩
  · exact absurd h (by simp)

theorem i32_none {v : Int} (h : ¬ IsInt v) : i32 v = none := if_neg h

theorem i64_ok {v : Int} (h : -9223372036854775808 ≤ v ∧ v ≤ 9223372036854775807) : i64 v = some v := if_pos h

theorem asInt_ok {n : Nat} (h : IsInt n) : asInt n = n := by
  unfold IsInt at h
  unfold asInt
  rw [if_pos (by omega)]
  omega

/-! ## Rectangles -/

/-- Sizes and end points of the rectangle are values of type `int`. -/
def Ends (a : IntRect) : Prop := IsInt (a.x + a.w) ∧ IsInt (a.y + a.h)

theorem intersect_ok {a b : IntRect} (ha : Ends a) (hb : Ends b) (hw : IsInt a.w) (hh : IsInt a.h) : intersect a b = some (a.intersect b) := by
  unfold intersect IntRect.intersect
  rw [i32_ok ha.1, i32_ok hb.1, i32_ok ha.2, i32_ok hb.2]
  simp only [Option.bind_eq_bind, Option.bind_some]
  split
  · rename_i h
    unfold IsInt at hw hh
    rw [i32_ok (by unfold IsInt; omega)]
    simp only [Option.bind_some]
    rw [i32_ok (by unfold IsInt; omega)]
    rfl
  · rfl

theorem intersect_undefined {a b : IntRect} (h : ¬ Ends a ∨ ¬ Ends b) : intersect a b = none := by
  unfold intersect
  cases h1 : i32 (a.x + a.w) with
  | none => rfl
  | some v1 =>
    cases h2 : i32 (b.x + b.w) with
    | none => rfl
    | some v2 =>
      cases h3 : i32 (a.y + a.h) with
      | none => rfl
      | some v3 =>
        cases h4 : i32 (b.y + b.h) with
        | none => rfl
        | some v4 =>
          exfalso
          rcases h with h | h
          · exact h ⟨(i32_some h1).1, (i32_some h3).1⟩
          · exact h ⟨(i32_some h2).1, (i32_some h4).1⟩

theorem doIntersect_ok {a b : IntRect} (ha : Ends a) (hb : Ends b) (hw : IsInt a.w) (hh : IsInt a.h) : doIntersect a b = some (a.doIntersect b) := by
  unfold doIntersect
  rw [intersect_ok ha hb hw hh]
  rfl

theorem doIntersect_undefined {a b : IntRect} (h : ¬ Ends a ∨ ¬ Ends b) : doIntersect a b = none := by
  unfold doIntersect
  rw [intersect_undefined h]
  rfl

theorem intersectsWith_ok {a b : IntRect} (ha : Ends a) (hb : Ends b) : intersectsWith a b = some (a.intersectsWith b) := by
  unfold intersectsWith IntRect.intersectsWith
  rw [i32_ok ha.1, i32_ok hb.1, i32_ok ha.2, i32_ok hb.2]
  simp only [Option.bind_some]
  split
  · rfl
  · split
    · rename_i h; simp [h]
    · split
      · rename_i h; simp [h]
      · split
        · rename_i h; simp [h]
        · split
          · rename_i h; simp [h]
          · rename_i h1 h2 h3 h4; simp [h1, h2, h3, h4]

/-! ## Bounding boxes -/

theorem extend_ok {lo n x w ex ew : Int} (hlo : IsInt lo) (hn : IsInt n) (hs : IsInt (lo + n)) (hw : 0 ≤ w) (hx : lo ≤ x) (hxw : x + w ≤ lo + n)
    (hew : 0 ≤ ew) (hex : lo ≤ ex) (hexw : ex + ew ≤ lo + n) :
    extendLeft x w ex = some (if x > ex then (ex, w + (x - ex)) else (x, w)) ∧
    ∀ x' w', (x' = x ∧ w' = w ∨ x > ex ∧ x' = ex ∧ w' = w + (x - ex)) → extendRight x' w' ex ew = some (if x' + w' < ex + ew then ex + ew - x' else w') := by
  unfold IsInt at hlo hn hs
  constructor
  · unfold extendLeft
    split
    · rw [i32_ok (by unfold IsInt; omega)]
      simp only [Option.bind_some]
      rw [i32_ok (by unfold IsInt; omega)]
      rfl
    · rfl
  · intro x' w' h
    unfold extendRight
    rw [i32_ok (by unfold IsInt; omega), i32_ok (by unfold IsInt; omega)]
    simp only [Option.bind_some]
    split
    · rw [i32_ok (by unfold IsInt; omega)]
    · rfl

theorem updateBoundingBox_ok {F r : IntRect} {e : Entry} (hF : Representable F) (hr : r.isValid = true → InFrame F r) (he : InFrame F e.rect) :
    updateBoundingBox r e = some (Verif.updateBoundingBox r e) ∧ InFrame F (Verif.updateBoundingBox r e) := by
  obtain ⟨f1, f2, f3, f4, f5, f6, f7, f8⟩ := hF
  obtain ⟨e1, e2, e3, e4, e5, e6⟩ := he
  unfold Entry.rect at e1 e2 e3 e4 e5 e6
  dsimp only at e1 e2 e3 e4 e5 e6
  unfold updateBoundingBox Verif.updateBoundingBox
  split
  · rename_i hv
    obtain ⟨r1, r2, r3, r4, r5, r6⟩ := hr hv
    obtain ⟨a1, a2⟩ := extend_ok (ex := e.x) (ew := e.width) f1 f5 f7 r1 r3 r5 e1 e3 e5
    obtain ⟨b1, b2⟩ := extend_ok (ex := e.y) (ew := e.height) f2 f6 f8 r2 r4 r6 e2 e4 e6
    rw [a1, b1]
    simp only [Option.bind_some]
    by_cases hx : r.x > e.x <;> by_cases hy : r.y > e.y
    · rw [if_pos hx, if_pos hy]
      dsimp only
      rw [a2 _ _ (Or.inr ⟨hx, rfl, rfl⟩), b2 _ _ (Or.inr ⟨hy, rfl, rfl⟩)]
      simp only [Option.bind_some, if_pos hx, if_pos hy]
      by_cases hx2 : e.x + (r.w + (r.x - e.x)) < e.x + e.width <;> by_cases hy2 : e.y + (r.h + (r.y - e.y)) < e.y + e.height <;>
        simp only [hx2, hy2, if_true, if_false] <;> refine ⟨(by trivial), ?_⟩ <;> unfold InFrame <;> (try dsimp only) <;> omega
    · rw [if_pos hx, if_neg hy]
      dsimp only
      rw [a2 _ _ (Or.inr ⟨hx, rfl, rfl⟩), b2 _ _ (Or.inl ⟨rfl, rfl⟩)]
      simp only [Option.bind_some, if_pos hx, if_neg hy]
      by_cases hx2 : e.x + (r.w + (r.x - e.x)) < e.x + e.width <;> by_cases hy2 : r.y + r.h < e.y + e.height <;>
        simp only [hx2, hy2, if_true, if_false] <;> refine ⟨(by trivial), ?_⟩ <;> unfold InFrame <;> (try dsimp only) <;> omega
    · rw [if_neg hx, if_pos hy]
      dsimp only
      rw [a2 _ _ (Or.inl ⟨rfl, rfl⟩), b2 _ _ (Or.inr ⟨hy, rfl, rfl⟩)]
      simp only [Option.bind_some, if_neg hx, if_pos hy]
      by_cases hx2 : r.x + r.w < e.x + e.width <;> by_cases hy2 : e.y + (r.h + (r.y - e.y)) < e.y + e.height <;>
        simp only [hx2, hy2, if_true, if_false] <;> refine ⟨(by trivial), ?_⟩ <;> unfold InFrame <;> (try dsimp only) <;> omega
    · rw [if_neg hx, if_neg hy]
      dsimp only
      rw [a2 _ _ (Or.inl ⟨rfl, rfl⟩), b2 _ _ (Or.inl ⟨rfl, rfl⟩)]
      simp only [Option.bind_some, if_neg hx, if_neg hy]
      by_cases hx2 : r.x + r.w < e.x + e.width <;> by_cases hy2 : r.y + r.h < e.y + e.height <;>
        simp only [hx2, hy2, if_true, if_false] <;> refine ⟨(by trivial), ?_⟩ <;> unfold InFrame <;> (try dsimp only) <;> omega
  · refine ⟨rfl, ?_⟩
    unfold InFrame
    dsimp only
    omega

/-! ## Intervals -/

/-- The bounds of all dimensions lie in the intervals `I`. -/
def BoundsIn (I : Dim → Int × Int) (b : Bounds) : Prop :=
  ∀ d start size, b d = some (start, size) → 0 < size ∧ (I d).1 ≤ start ∧ start + size ≤ (I d).1 + (I d).2

theorem updateInterval_ok {I : Dim → Int × Int} (hI : ∀ d, IsInt (I d).1 ∧ IsInt (I d).2 ∧ IsInt ((I d).1 + (I d).2)) {b : Bounds}
    (hb : BoundsIn I b) {d : Dim} {v : Int} (hv : (I d).1 ≤ v ∧ v < (I d).1 + (I d).2) :
    updateInterval b d v = some (Verif.updateInterval b d v) ∧ BoundsIn I (Verif.updateInterval b d v) := by
  obtain ⟨i1, i2, i3⟩ := hI d
  unfold IsInt at i1 i2 i3
  have hset : ∀ s n, 0 < n → (I d).1 ≤ s → s + n ≤ (I d).1 + (I d).2 → BoundsIn I (b.set d s n) := by
    intro s n h1 h2 h3 d' s' n' h
    unfold Bounds.set at h
    split at h
    · rename_i hd
      subst hd
      cases h
      exact ⟨h1, h2, h3⟩
    · exact hb d' s' n' h
  unfold updateInterval Verif.updateInterval
  cases h : b d with
  | none => exact ⟨rfl, hset v 1 (by omega) hv.1 (by omega)⟩
  | some p =>
    obtain ⟨start, size⟩ := p
    obtain ⟨b1, b2, b3⟩ := hb d start size h
    dsimp only
    split
    · rw [i32_ok (by unfold IsInt; omega)]
      simp only [Option.bind_some]
      rw [i32_ok (by unfold IsInt; omega)]
      exact ⟨rfl, hset _ _ (by omega) (by omega) (by omega)⟩
    · rw [i32_ok (by unfold IsInt; omega)]
      simp only [Option.bind_some]
      split
      · rw [i32_ok (by unfold IsInt; omega)]
        simp only [Option.bind_some]
        rw [i32_ok (by unfold IsInt; omega)]
        exact ⟨rfl, hset _ _ (by omega) (by omega) (by omega)⟩
      · exact ⟨rfl, hb⟩

theorem updateDims_ok {I : Dim → Int × Int} (hI : ∀ d, IsInt (I d).1 ∧ IsInt (I d).2 ∧ IsInt ((I d).1 + (I d).2)) {e : Entry}
    (he : ∀ d v, e.coordinate d = some v → (I d).1 ≤ v ∧ v < (I d).1 + (I d).2) : ∀ (ds : List Dim) (s : Stats), BoundsIn I s.dimBounds →
    ds.foldlM (updateDim e) s = some (ds.foldl (Verif.updateDim e) s) ∧ BoundsIn I (ds.foldl (Verif.updateDim e) s).dimBounds ∧
      (ds.foldl (Verif.updateDim e) s).bbox = s.bbox ∧ (ds.foldl (Verif.updateDim e) s).bbox0 = s.bbox0 ∧
      (ds.foldl (Verif.updateDim e) s).scenes = s.scenes ∧ (ds.foldl (Verif.updateDim e) s).count = s.count
  | [], s, h => ⟨rfl, h, rfl, rfl, rfl, rfl⟩
  | d :: ds, s, h => by
    have hd : updateDim e s d = some (Verif.updateDim e s d) ∧ BoundsIn I (Verif.updateDim e s d).dimBounds ∧
        (Verif.updateDim e s d).bbox = s.bbox ∧ (Verif.updateDim e s d).bbox0 = s.bbox0 ∧ (Verif.updateDim e s d).scenes = s.scenes ∧
        (Verif.updateDim e s d).count = s.count := by
      unfold updateDim Verif.updateDim
      cases hc : e.coordinate d with
      | none => exact ⟨rfl, h, rfl, rfl, rfl, rfl⟩
      | some v =>
        obtain ⟨u1, u2⟩ := updateInterval_ok hI h (he d v hc)
        dsimp only
        rw [u1]
        simp only [Option.bind_some]
        split
        · exact ⟨rfl, u2, rfl, rfl, rfl, rfl⟩
        · exact ⟨rfl, u2, rfl, rfl, rfl, rfl⟩
    obtain ⟨d1, d2, d3, d4, d5, d6⟩ := hd
    obtain ⟨r1, r2, r3, r4, r5, r6⟩ := updateDims_ok hI he ds _ d2
    rw [List.foldlM_cons, d1, List.foldl_cons]
    exact ⟨r1, r2, r3.trans d3, r4.trans d4, r5.trans d5, r6.trans d6⟩

/-! ## Scenes -/

theorem mem_insert {α : Type} (l : List (Int × α)) (k : Int) (v : α) : ∀ p ∈ mapInsert l k v, p = (k, v) ∨ p ∈ l := by
  induction l with
  | nil => intro p hp; simpa [mapInsert] using hp
  | cons q r ih =>
    obtain ⟨k', v'⟩ := q
    intro p hp
    rw [mapInsert] at hp
    split at hp
    · rcases List.mem_cons.1 hp with h | h
      · exact .inl h
      · exact .inr h
    · split at hp
      · exact .inr hp
      · rcases List.mem_cons.1 hp with h | h
        · exact .inr (by rw [h]; exact List.mem_cons_self)
        · rcases ih p h with h | h
          · exact .inl h
          · exact .inr (List.mem_cons_of_mem _ h)

theorem mem_set {α : Type} (l : List (Int × α)) (k : Int) (v : α) : ∀ p ∈ mapSet l k v, p = (k, v) ∨ p ∈ l := by
  intro p hp
  unfold mapSet at hp
  rw [List.mem_map] at hp
  obtain ⟨q, hq, rfl⟩ := hp
  split
  · exact .inl rfl
  · exact .inr hq

theorem find_mem {α : Type} {l : List (Int × α)} {k : Int} {v : α} (h : mapFind l k = some v) : ∃ p ∈ l, p.2 = v := by
  unfold mapFind at h
  rw [Option.map_eq_some_iff] at h
  obtain ⟨p, hp, rfl⟩ := h
  exact ⟨p, List.mem_of_find?_eq_some hp, rfl⟩

/-- The boxes of all scenes lie in the frame, if they are valid. -/
def ScenesIn (F : IntRect) (m : List (Int × (IntRect × IntRect))) : Prop :=
  ∀ p ∈ m, (p.2.1.isValid = true → InFrame F p.2.1) ∧ (p.2.2.isValid = true → InFrame F p.2.2)

theorem updateScenes_ok {F : IntRect} (hF : Representable F) {m : List (Int × (IntRect × IntRect))} (hm : ScenesIn F m) {e : Entry} (he : InFrame F e.rect) :
    updateScenes m e = some (Verif.updateScenes m e) ∧ ScenesIn F (Verif.updateScenes m e) := by
  unfold updateScenes Verif.updateScenes
  cases hs : e.coordinate .S with
  | none => exact ⟨rfl, hm⟩
  | some sc =>
    dsimp only
    cases hf : mapFind m sc with
    | none =>
      refine ⟨rfl, ?_⟩
      intro p hp
      rcases mem_insert _ _ _ p hp with rfl | hp
      · refine ⟨fun _ => he, ?_⟩
        dsimp only
        split
        · exact fun _ => he
        · intro h; exact absurd h (by decide)
      · exact hm p hp
    | some bb =>
      obtain ⟨b, b0⟩ := bb
      obtain ⟨q, hq, hqe⟩ := find_mem hf
      obtain ⟨q1, q2⟩ := hm q hq
      rw [hqe] at q1 q2
      dsimp only at q1 q2 ⊢
      obtain ⟨u1, u2⟩ := updateBoundingBox_ok hF q1 he
      obtain ⟨w1, w2⟩ := updateBoundingBox_ok hF q2 he
      rw [u1]
      simp only [Option.bind_some]
      split
      · rw [w1]
        refine ⟨rfl, ?_⟩
        intro p hp
        rcases mem_set _ _ _ p hp with rfl | hp
        · exact ⟨fun _ => u2, fun _ => w2⟩
        · exact hm p hp
      · refine ⟨rfl, ?_⟩
        intro p hp
        rcases mem_set _ _ _ p hp with rfl | hp
        · exact ⟨fun _ => u2, q2⟩
        · exact hm p hp

/-! ## Statistics -/

/-- All rectangles of the statistics lie in the frame, all bounds in the intervals. -/
structure StatsIn (F : IntRect) (I : Dim → Int × Int) (s : Stats) : Prop where
  bbox : s.bbox.isValid = true → InFrame F s.bbox
  bbox0 : s.bbox0.isValid = true → InFrame F s.bbox0
  dims : BoundsIn I s.dimBounds
  scenes : ScenesIn F s.scenes

theorem statsUpdate_ok {F : IntRect} (hF : Representable F) {I : Dim → Int × Int} (hI : ∀ d, IsInt (I d).1 ∧ IsInt (I d).2 ∧ IsInt ((I d).1 + (I d).2))
    {s : Stats} (hs : StatsIn F I s) {e : Entry} (he : InFrame F e.rect)
    (hd : ∀ d v, e.coordinate d = some v → (I d).1 ≤ v ∧ v < (I d).1 + (I d).2) (hc : IsInt (s.count + 1)) :
    statsUpdate s e = some (s.update e) ∧ StatsIn F I (s.update e) ∧ (s.update e).count = s.count + 1 := by
  obtain ⟨a1, a2⟩ := updateBoundingBox_ok hF hs.bbox he
  have hb0 : (if e.isLayer0 then updateBoundingBox s.bbox0 e else some s.bbox0) = some (if e.isLayer0 then Verif.updateBoundingBox s.bbox0 e else s.bbox0) ∧
      ((if e.isLayer0 then Verif.updateBoundingBox s.bbox0 e else s.bbox0).isValid = true →
        InFrame F (if e.isLayer0 then Verif.updateBoundingBox s.bbox0 e else s.bbox0)) := by
    obtain ⟨b1, b2⟩ := updateBoundingBox_ok hF hs.bbox0 he
    split
    · exact ⟨b1, fun _ => b2⟩
    · exact ⟨rfl, hs.bbox0⟩
  obtain ⟨b1, b2⟩ := hb0
  obtain ⟨c1, c2, c3, c4, c5, c6⟩ := updateDims_ok hI hd e.coordinate.validDims
    { s with bbox := Verif.updateBoundingBox s.bbox e, bbox0 := if e.isLayer0 then Verif.updateBoundingBox s.bbox0 e else s.bbox0 } hs.dims
  obtain ⟨d1, d2⟩ := updateScenes_ok (m := (e.coordinate.validDims.foldl (Verif.updateDim e)
    { s with bbox := Verif.updateBoundingBox s.bbox e, bbox0 := if e.isLayer0 then Verif.updateBoundingBox s.bbox0 e else s.bbox0 }).scenes) hF
    (by rw [c5]; exact hs.scenes) he
  unfold statsUpdate Stats.update
  rw [a1, Option.bind_some, b1, Option.bind_some, c1, Option.bind_some, d1, Option.bind_some]
  dsimp only at c6
  rw [i32_ok (by rw [c6]; exact hc)]
  refine ⟨rfl, ⟨?_, ?_, c2, d2⟩, by dsimp only; rw [c6]⟩
  · dsimp only; rw [c3]; exact fun _ => a2
  · dsimp only; rw [c4]; exact b2

theorem statistics_ok {F : IntRect} (hF : Representable F) {I : Dim → Int × Int} (hI : ∀ d, IsInt (I d).1 ∧ IsInt (I d).2 ∧ IsInt ((I d).1 + (I d).2)) :
    ∀ (es : List Entry) (s : Stats), StatsIn F I s → (∀ e ∈ es, InFrame F e.rect ∧ ∀ d v, e.coordinate d = some v → (I d).1 ≤ v ∧ v < (I d).1 + (I d).2) →
    0 ≤ s.count → s.count + es.length ≤ 2147483647 → es.foldlM statsUpdate s = some (es.foldl Stats.update s)
  | [], s, _, _, _, _ => rfl
  | e :: es, s, hs, he, h0, hn => by
    rw [List.length_cons] at hn
    obtain ⟨u1, u2, u3⟩ := statsUpdate_ok hF hI hs (he e (by simp)).1 (he e (by simp)).2 (by unfold IsInt; omega)
    rw [List.foldlM_cons, u1, List.foldl_cons]
    exact statistics_ok hF hI es _ u2 (fun e' h => he e' (List.mem_cons_of_mem _ h)) (by omega) (by omega)

theorem statsIn_init (F : IntRect) (I : Dim → Int × Int) : StatsIn F I Stats.init :=
  ⟨fun h => absurd h (by decide), fun h => absurd h (by decide), fun _ _ _ h => (by cases h), fun _ h => (by cases h)⟩

end Verif.Machine
