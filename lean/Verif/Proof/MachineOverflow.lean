import Verif.Proof.Machine

/-! # What a computation of statistics without overflow says about the document -/

namespace Verif.Machine
open Spec

theorem bind_some_iff {α β : Type} {o : Option α} {f : α → Option β} {b : β} (h : o.bind f = some b) : ∃ a, o = some a ∧ f a = some b := by
  cases o with
  | none => exact absurd h (by simp)
  | some a => exact ⟨a, rfl, h⟩

theorem extendLeft_some {x w ex : Int} {p : Int × Int} (h : extendLeft x w ex = some p) (hx : IsInt x) (hex : IsInt ex) (hw : IsInt w) (h0 : 0 ≤ w) :
    p.1 ≤ x ∧ p.1 ≤ ex ∧ p.1 + p.2 = x + w ∧ IsInt p.1 ∧ IsInt p.2 ∧ 0 ≤ p.2 := by
  unfold extendLeft at h
  split at h
  · obtain ⟨diff, h1, h⟩ := bind_some_iff h
    obtain ⟨w', h2, h⟩ := bind_some_iff h
    cases h
    obtain ⟨_, rfl⟩ := i32_some h1
    obtain ⟨a, rfl⟩ := i32_some h2
    dsimp only
    exact ⟨by omega, by omega, by omega, hex, a, by omega⟩
  · cases h
    dsimp only
    exact ⟨by omega, by omega, rfl, hx, hw, h0⟩

theorem extendRight_some {x w ex ew w' : Int} (h : extendRight x w ex ew = some w') (hw : IsInt w) (h0 : 0 ≤ w) :
    IsInt (x + w') ∧ w ≤ w' ∧ ex + ew ≤ x + w' ∧ IsInt w' := by
  unfold extendRight at h
  obtain ⟨r, h1, h⟩ := bind_some_iff h
  obtain ⟨e, h2, h⟩ := bind_some_iff h
  obtain ⟨a, rfl⟩ := i32_some h1
  obtain ⟨b, rfl⟩ := i32_some h2
  split at h
  · obtain ⟨e', h3, h⟩ := bind_some_iff h
    obtain ⟨_, rfl⟩ := i32_some h3
    obtain ⟨c, rfl⟩ := i32_some h
    unfold IsInt at *
    exact ⟨by omega, by omega, by omega, by omega⟩
  · cases h
    exact ⟨a, by omega, by omega, hw⟩

/-- The box encloses the entries; with two entries or more it is representable. -/
structure BoxHas (pre : List Entry) (r : IntRect) : Prop where
  ne : pre ≠ [] → IsInt r.x ∧ IsInt r.y ∧ IsInt r.w ∧ IsInt r.h ∧ 0 ≤ r.w ∧ 0 ≤ r.h
  nil : pre = [] → r.isValid = false
  has : ∀ e ∈ pre, InFrame r e.rect
  two : 2 ≤ pre.length → Ends r

theorem updateBoundingBox_some {pre : List Entry} {r r' : IntRect} {e : Entry} (h : updateBoundingBox r e = some r') (hr : BoxHas pre r) (he : EntryInts e) :
    BoxHas (pre ++ [e]) r' := by
  obtain ⟨e1, e2, e3, e4, e5, e6⟩ := he
  unfold updateBoundingBox at h
  split at h
  · rename_i hv
    have hne : pre ≠ [] := fun hn => by have := hr.nil hn; rw [hv] at this; exact absurd this (by simp)
    obtain ⟨r1, r2, r3, r4, r5, r6⟩ := hr.ne hne
    obtain ⟨px, h1, h⟩ := bind_some_iff h
    obtain ⟨py, h2, h⟩ := bind_some_iff h
    obtain ⟨w, h3, h⟩ := bind_some_iff h
    obtain ⟨hh, h4, h⟩ := bind_some_iff h
    cases h
    obtain ⟨a1, a2, a3, a4, a5, a6⟩ := extendLeft_some h1 r1 e1 r3 r5
    obtain ⟨b1, b2, b3, b4, b5, b6⟩ := extendLeft_some h2 r2 e2 r4 r6
    obtain ⟨c1, c2, c3, c4⟩ := extendRight_some h3 a5 a6
    obtain ⟨d1, d2, d3, d4⟩ := extendRight_some h4 b5 b6
    refine ⟨fun _ => ⟨a4, b4, c4, d4, by dsimp only; omega, by dsimp only; omega⟩, fun hn => absurd hn (by simp), ?_, fun _ => ⟨c1, d1⟩⟩
    intro e' he'
    rcases List.mem_append.1 he' with he' | he'
    · have := hr.has e' he'
      unfold InFrame Entry.rect at *
      dsimp only at *
      omega
    · rw [List.mem_singleton.1 he']
      unfold InFrame Entry.rect
      dsimp only
      omega
  · rename_i hv
    have hn : pre = [] := by
      cases pre with
      | nil => rfl
      | cons a l =>
        obtain ⟨_, _, _, _, r5, r6⟩ := hr.ne (by simp)
        exact absurd ((isValid_iff r).2 ⟨r5, r6⟩) hv
    subst hn
    cases h
    refine ⟨fun _ => ⟨e1, e2, e3, e4, e5, e6⟩, fun hn => absurd hn (by simp), ?_, fun h2 => by simp at h2⟩
    intro e' he'
    rw [List.nil_append] at he'
    rw [List.mem_singleton.1 he']
    unfold InFrame Entry.rect
    dsimp only
    omega

/-! ## Intervals -/

/-- The interval of dimension `d` contains `v`, and its size is of type `int`. -/
def Cov (b : Bounds) (d : Dim) (v : Int) : Prop := ∃ start size, b d = some (start, size) ∧ start ≤ v ∧ v < start + size ∧ IsInt size

theorem updateInterval_some {b b' : Bounds} {d : Dim} {v : Int} (h : updateInterval b d v = some b') (hb : ∀ d s n, b d = some (s, n) → IsInt n ∧ 0 < n) :
    Cov b' d v ∧ (∀ d0 v0, Cov b d0 v0 → Cov b' d0 v0) ∧ ∀ d s n, b' d = some (s, n) → IsInt n ∧ 0 < n := by
  have hset : ∀ s n, IsInt n → 0 < n → s ≤ v → v < s + n → (∀ s0 n0, b d = some (s0, n0) → s ≤ s0 ∧ s0 + n0 ≤ s + n) →
      Cov (b.set d s n) d v ∧ (∀ d0 v0, Cov b d0 v0 → Cov (b.set d s n) d0 v0) ∧ ∀ d' s' n', b.set d s n d' = some (s', n') → IsInt n' ∧ 0 < n' := by
    intro s n hn hn0 h1 h2 h3
    refine ⟨⟨s, n, by simp [Bounds.set], h1, h2, hn⟩, ?_, ?_⟩
    · rintro d0 v0 ⟨s0, n0, g1, g2, g3, g4⟩
      by_cases hd : d0 = d
      · subst hd
        have := h3 s0 n0 g1
        exact ⟨s, n, by simp [Bounds.set], by omega, by omega, hn⟩
      · exact ⟨s0, n0, by simp [Bounds.set, hd, g1], g2, g3, g4⟩
    · intro d' s' n' h'
      unfold Bounds.set at h'
      split at h'
      · cases h'; exact ⟨hn, hn0⟩
      · exact hb d' s' n' h'
  unfold updateInterval at h
  cases hbd : b d with
  | none =>
    rw [hbd] at h
    cases h
    exact hset v 1 (by unfold IsInt; omega) (by omega) (by omega) (by omega) (fun s0 n0 h => by rw [hbd] at h; cases h)
  | some p =>
    obtain ⟨start, size⟩ := p
    obtain ⟨k1, k2⟩ := hb d start size hbd
    rw [hbd] at h
    dsimp only at h
    split at h
    · obtain ⟨x1, h1, h⟩ := bind_some_iff h
      obtain ⟨x2, h2, h⟩ := bind_some_iff h
      cases h
      obtain ⟨_, rfl⟩ := i32_some h1
      obtain ⟨a, rfl⟩ := i32_some h2
      refine hset v _ a (by omega) (by omega) (by omega) ?_
      intro s0 n0 h
      rw [hbd] at h
      cases h
      omega
    · obtain ⟨x1, h1, h⟩ := bind_some_iff h
      obtain ⟨_, rfl⟩ := i32_some h1
      split at h
      · obtain ⟨x2, h2, h⟩ := bind_some_iff h
        obtain ⟨x3, h3, h⟩ := bind_some_iff h
        cases h
        obtain ⟨_, rfl⟩ := i32_some h2
        obtain ⟨a, rfl⟩ := i32_some h3
        refine hset start _ a (by omega) (by omega) (by omega) ?_
        intro s0 n0 h
        rw [hbd] at h
        cases h
        omega
      · cases h
        exact ⟨⟨start, size, hbd, by omega, by omega, k1⟩, fun _ _ h => h, hb⟩

theorem updateDims_some {e : Entry} : ∀ (ds : List Dim) {s s' : Stats}, ds.foldlM (updateDim e) s = some s' →
    (∀ d k n, s.dimBounds d = some (k, n) → IsInt n ∧ 0 < n) →
    s'.bbox = s.bbox ∧ (∀ d k n, s'.dimBounds d = some (k, n) → IsInt n ∧ 0 < n) ∧ (∀ d v, Cov s.dimBounds d v → Cov s'.dimBounds d v) ∧
      ∀ d ∈ ds, ∀ v, e.coordinate d = some v → Cov s'.dimBounds d v
  | [], s, s', h, hb => by
    cases h
    exact ⟨rfl, hb, fun _ _ h => h, fun _ h => by cases h⟩
  | d :: ds, s, s', h, hb => by
    rw [List.foldlM_cons] at h
    obtain ⟨s1, h1, h⟩ := bind_some_iff h
    have hd : s1.bbox = s.bbox ∧ (∀ d k n, s1.dimBounds d = some (k, n) → IsInt n ∧ 0 < n) ∧ (∀ d v, Cov s.dimBounds d v → Cov s1.dimBounds d v) ∧
        ∀ v, e.coordinate d = some v → Cov s1.dimBounds d v := by
      unfold updateDim at h1
      cases hc : e.coordinate d with
      | none =>
        rw [hc] at h1
        cases h1
        exact ⟨rfl, hb, fun _ _ h => h, fun _ h => by cases h⟩
      | some v =>
        rw [hc] at h1
        dsimp only at h1
        obtain ⟨b, hb1, h1⟩ := bind_some_iff h1
        obtain ⟨u1, u2, u3⟩ := updateInterval_some hb1 hb
        split at h1
        · cases h1
          exact ⟨rfl, u3, u2, fun v' hv => by cases hv; exact u1⟩
        · cases h1
          exact ⟨rfl, u3, u2, fun v' hv => by cases hv; exact u1⟩
    obtain ⟨d1, d2, d3, d4⟩ := hd
    obtain ⟨r1, r2, r3, r4⟩ := updateDims_some ds h d2
    refine ⟨r1.trans d1, r2, fun d v hv => r3 d v (d3 d v hv), ?_⟩
    intro d' hd' v hv
    rcases List.mem_cons.1 hd' with rfl | hd'
    · exact r3 _ _ (d4 v hv)
    · exact r4 d' hd' v hv

/-- What is known of statistics that were computed without overflow. -/
structure Computed (pre : List Entry) (s : Stats) : Prop where
  box : BoxHas pre s.bbox
  sizes : ∀ d k n, s.dimBounds d = some (k, n) → IsInt n ∧ 0 < n
  values : ∀ e ∈ pre, ∀ d v, e.coordinate d = some v → Cov s.dimBounds d v
  count : s.count = pre.length ∧ (pre ≠ [] → IsInt s.count)

theorem count_dims {e : Entry} : ∀ (ds : List Dim) {s s' : Stats}, ds.foldlM (updateDim e) s = some s' → s'.count = s.count
  | [], _, _, h => by cases h; rfl
  | d :: ds, s, s', h => by
    rw [List.foldlM_cons] at h
    obtain ⟨s1, h1, h⟩ := bind_some_iff h
    rw [count_dims ds h]
    unfold updateDim at h1
    cases hc : e.coordinate d with
    | none => rw [hc] at h1; cases h1; rfl
    | some v =>
      rw [hc] at h1
      dsimp only at h1
      obtain ⟨b, _, h1⟩ := bind_some_iff h1
      split at h1 <;> (cases h1; rfl)

theorem statsUpdate_some {pre : List Entry} {s s' : Stats} {e : Entry} (h : statsUpdate s e = some s') (hs : Computed pre s) (he : EntryInts e) :
    Computed (pre ++ [e]) s' := by
  unfold statsUpdate at h
  obtain ⟨b, h1, h⟩ := bind_some_iff h
  obtain ⟨b0, h2, h⟩ := bind_some_iff h
  obtain ⟨s1, h3, h⟩ := bind_some_iff h
  obtain ⟨sc, h4, h⟩ := bind_some_iff h
  obtain ⟨n, h5, h⟩ := bind_some_iff h
  cases h
  obtain ⟨u1, u2, u3, u4⟩ := updateDims_some _ h3 hs.sizes
  have hcnt := count_dims _ h3
  obtain ⟨c1, rfl⟩ := i32_some h5
  dsimp only at u1 u3 hcnt
  refine ⟨by dsimp only; rw [u1]; exact updateBoundingBox_some h1 hs.box he, u2, ?_, ⟨?_, fun _ => c1⟩⟩
  · intro e' he' d v hv
    rcases List.mem_append.1 he' with he' | he'
    · exact u3 d v (hs.values e' he' d v hv)
    · rw [List.mem_singleton.1 he'] at hv
      refine u4 d ?_ v hv
      unfold Coord.validDims
      rw [List.mem_filter]
      exact ⟨by cases d <;> decide, by rw [hv]; rfl⟩
  · dsimp only
    rw [hcnt, hs.count.1]
    simp

theorem statistics_some : ∀ (es pre : List Entry) {s s' : Stats}, es.foldlM statsUpdate s = some s' → Computed pre s → (∀ e ∈ es, EntryInts e) →
    Computed (pre ++ es) s'
  | [], pre, s, s', h, hs, _ => by cases h; rw [List.append_nil]; exact hs
  | e :: es, pre, s, s', h, hs, he => by
    rw [List.foldlM_cons] at h
    obtain ⟨s1, h1, h⟩ := bind_some_iff h
    have := statistics_some es (pre ++ [e]) h (statsUpdate_some h1 hs (he e (by simp))) (fun e' h' => he e' (List.mem_cons_of_mem _ h'))
    rw [List.append_assoc] at this
    exact this

theorem computed_init : Computed [] Stats.init :=
  ⟨⟨fun h => absurd rfl h, fun _ => by decide, fun _ h => (by cases h), fun h => (by simp at h)⟩, fun _ _ _ h => (by cases h), fun _ h => (by cases h), rfl,
    fun h => absurd rfl h⟩

end Verif.Machine
