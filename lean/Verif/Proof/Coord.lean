import Verif.Spec.Coord
import Mathlib.Tactic.Common
import Mathlib.Data.List.Flatten

namespace Verif
open EnumAll Spec

theorem Dim.mem_all (d : Dim) : d ∈ Dim.all := by cases d <;> decide
theorem Dim.nodup_all : Dim.all.Nodup := by decide

theorem Coord.set_comm (c : Coord) {d e : Dim} (h : d ≠ e) (v w : Int) :
    (c.set d v).set e w = (c.set e w).set d v := by
  funext x; unfold Coord.set
  by_cases h1 : x = e
  · by_cases h2 : x = d
    · exact absurd (h2.symm.trans h1) h
    · simp [h1]; intro h3; exact absurd h3.symm h
  · simp [h1]

theorem Coord.set_set (c : Coord) (d : Dim) (v w : Int) : (c.set d v).set d w = c.set d w := by
  funext x; unfold Coord.set; split <;> rfl

theorem Coord.set_same (c : Coord) (d : Dim) (v : Int) : c.set d v d = some v := by simp [Coord.set]
theorem Coord.set_ne (c : Coord) {d e : Dim} (v : Int) (h : e ≠ d) : c.set d v e = c e := by simp [Coord.set, h]

/-! ### simplified odometer step -/

/-- `advance` where only the current dimension is reset -/
def adv (b : Bounds) : List Dim → Coord → Option Coord
  | [], c => some c
  | d :: rest, c =>
    match b d, c d with
    | some (s, n), some v =>
      if v < s + n - 1 then some (c.set d (v + 1))
      else if rest = [] then none
      else adv b rest (c.set d s)
    | _, _ => none

def AtStart (b : Bounds) (ds : List Dim) (c : Coord) : Prop := ∀ d ∈ ds, ∀ s n, b d = some (s, n) → c d = some s

theorem reset_apply (b : Bounds) (ds : List Dim) : ∀ (c : Coord) (e : Dim),
    reset b ds c e = if e ∈ ds then (match b e with | some (s, _) => some s | none => c e) else c e := by
  induction ds with
  | nil => intro c e; rfl
  | cons d ds ih =>
    intro c e
    have : reset b (d :: ds) c = reset b ds (match b d with | some (s, _) => c.set d s | none => c) := rfl
    rw [this, ih]
    by_cases h1 : e = d
    · subst h1
      cases hb : b e with
      | none => simp
      | some p => simp [Coord.set]
    · cases hb : b d with
      | none => simp [h1]
      | some p => simp [h1, Coord.set]

theorem reset_of_atStart (b : Bounds) (done : List Dim) (d : Dim) (c : Coord) (hs : AtStart b done c) (s n : Int)
    (hd : b d = some (s, n)) : reset b (done ++ [d]) c = c.set d s := by
  funext e
  rw [reset_apply]
  by_cases h1 : e = d
  · subst h1; simp [hd, Coord.set]
  · by_cases h2 : e ∈ done
    · simp only [List.mem_append, h2, true_or, if_true]
      cases hb : b e with
      | none => simp [Coord.set, h1]
      | some p => simp [Coord.set, h1, hs e h2 p.1 p.2 (by rw [hb])]
    · simp [h1, h2, Coord.set]

theorem advance_eq_adv (b : Bounds) (ds : List Dim) : ∀ (done : List Dim) (c : Coord), (∀ d ∈ ds, d ∉ done) →
    ds.Nodup → AtStart b done c → advance b done ds c = adv b ds c := by
  induction ds with
  | nil => intros; rfl
  | cons d ds ih =>
    intro done c hd hn hs
    obtain ⟨hnd, hn'⟩ := List.nodup_cons.1 hn
    unfold advance adv
    cases hb : b d with
    | none => simp
    | some p =>
      obtain ⟨s, n⟩ := p
      cases hc : c d with
      | none => simp
      | some v =>
        simp only
        split
        · rfl
        · split
          · rfl
          · rename_i h1 h2
            rw [reset_of_atStart b done d c hs s n hb]
            refine ih _ _ ?_ hn' ?_
            · intro e he
              simp only [List.mem_append, List.mem_singleton, not_or]
              exact ⟨hd e (by simp [he]), fun h => hnd (h ▸ he)⟩
            · intro e he s' n' hb'
              by_cases h3 : e = d
              · subst h3; rw [hb] at hb'; cases hb'; exact Coord.set_same _ _ _
              · rw [Coord.set_ne _ _ h3]
                simp only [List.mem_append, List.mem_singleton] at he
                exact hs e (by tauto) s' n' hb'

/-- the coordinates of the box, first dimension fastest -/
def coords (b : Bounds) : List Dim → List Coord
  | [] => [Coord.empty]
  | d :: rest =>
    match b d with
    | some (s, n) => (coords b rest).flatMap fun c => (List.range n.toNat).map fun k => c.set d (s + (k : Int))
    | none => coords b rest

def NonEmptyDims (b : Bounds) (ds : List Dim) : Prop := ∀ d ∈ ds, ∃ s n, b d = some (s, n) ∧ 1 ≤ n

theorem adv_set (b : Bounds) (d : Dim) (x : Int) (ds : List Dim) : ∀ c, d ∉ ds →
    adv b ds (c.set d x) = (adv b ds c).map (·.set d x) := by
  induction ds with
  | nil => intros; rfl
  | cons e ds ih =>
    intro c hd
    simp only [List.mem_cons, not_or] at hd
    unfold adv
    rw [Coord.set_ne c x (Ne.symm hd.1)]
    cases b e with
    | none => rfl
    | some p =>
      cases c e with
      | none => rfl
      | some v =>
        simp only
        split
        · simp [Coord.set_comm c hd.1]
        · split
          · rfl
          · rw [Coord.set_comm c hd.1, ih _ hd.2]

/-- `L` is a complete run of the partial step function `f` -/
def IsRun {α : Type} (f : α → Option α) : List α → Prop
  | [] => False
  | [a] => f a = none
  | a :: a' :: t => f a = some a' ∧ IsRun f (a' :: t)

theorem isRun_cons {α : Type} {f : α → Option α} {a : α} {X : List α} (h : f a = X.head?) (hX : X = [] ∨ IsRun f X) :
    IsRun f (a :: X) := by
  cases X with
  | nil => simpa [IsRun] using h
  | cons x X => 
    refine ⟨by simpa using h, ?_⟩
    rcases hX with h | h
    · cases h
    · exact h

theorem block_run (b : Bounds) (d : Dim) (rest : List Dim) (s n : Int) (hb : b d = some (s, n)) (c : Coord)
    (X : List Coord) (hlast : adv b (d :: rest) (c.set d (s + n - 1)) = X.head?) (hX : X = [] ∨ IsRun (adv b (d :: rest)) X) :
    ∀ (m : Nat) (v : Int), v + m = s + n - 1 →
      IsRun (adv b (d :: rest)) (((List.range (m + 1)).map fun k : Nat => c.set d (v + (k : Int))) ++ X) := by
  intro m
  induction m with
  | zero =>
    intro v hv
    simp only [Nat.zero_add, List.range_one, List.map_cons, List.map_nil, List.cons_append, List.nil_append]
    have : v + ((0 : Nat) : Int) = s + n - 1 := by omega
    rw [this]
    exact isRun_cons hlast hX
  | succ m ih =>
    intro v hv
    rw [List.range_succ_eq_map, List.map_cons, List.map_map, List.cons_append]
    have h1 := ih (v + 1) (by omega)
    have h2 : (fun k : Nat => c.set d (v + (k : Int))) ∘ Nat.succ = fun k : Nat => c.set d (v + 1 + (k : Int)) := by
      funext k; simp only [Function.comp]; congr 1; push_cast; omega
    rw [h2]
    refine isRun_cons ?_ (Or.inr h1)
    unfold adv
    rw [hb, Coord.set_same]
    simp only
    rw [if_pos (by omega)]
    rw [List.range_succ_eq_map]
    simp [Coord.set_set]

theorem flat_run (b : Bounds) (d : Dim) (rest : List Dim) (s n : Int) (hb : b d = some (s, n)) (hn : 1 ≤ n)
    (hd : d ∉ rest) (hr : rest ≠ []) : ∀ L, IsRun (adv b rest) L →
    IsRun (adv b (d :: rest)) (L.flatMap fun c => (List.range n.toNat).map fun k : Nat => c.set d (s + (k : Int))) := by
  obtain ⟨m, hm⟩ : ∃ m : Nat, n.toNat = m + 1 := ⟨n.toNat - 1, by omega⟩
  have hhead : ∀ (c : Coord) (t : List Coord), ((c :: t).flatMap fun c => (List.range n.toNat).map fun k : Nat => c.set d (s + (k : Int))).head? = some (c.set d s) := by
    intro c t
    rw [List.flatMap_cons, hm, List.range_succ_eq_map]
    simp
  have hlast : ∀ c : Coord, adv b (d :: rest) (c.set d (s + n - 1)) = (adv b rest c).map (·.set d s) := by
    intro c
    conv_lhs => unfold adv
    rw [hb, Coord.set_same]
    simp only
    rw [if_neg (by omega), if_neg hr, Coord.set_set, adv_set b d s rest c hd]
  intro L
  induction L with
  | nil => intro h; exact h.elim
  | cons c t ih =>
    intro h
    rw [List.flatMap_cons, hm]
    refine block_run b d rest s n hb c _ ?_ ?_ m s (by omega)
    · rw [hlast]
      cases t with
      | nil =>
        have : adv b rest c = none := h
        simp [this]
      | cons c' t =>
        have := h.1
        rw [← hm, hhead, this]; rfl
    · cases t with
      | nil => left; rfl
      | cons c' t => right; rw [← hm]; exact ih h.2

theorem coords_run (b : Bounds) : ∀ ds, ds.Nodup → NonEmptyDims b ds → ds ≠ [] → IsRun (adv b ds) (coords b ds) := by
  intro ds
  induction ds with
  | nil => intro _ _ h; exact absurd rfl h
  | cons d rest ih =>
    intro hnd hne _
    obtain ⟨hd, hn'⟩ := List.nodup_cons.1 hnd
    obtain ⟨s, n, hb, hn⟩ := hne d (by simp)
    unfold coords
    rw [hb]
    simp only
    by_cases hr : rest = []
    · subst hr
      obtain ⟨m, hm⟩ : ∃ m : Nat, n.toNat = m + 1 := ⟨n.toNat - 1, by omega⟩
      have := block_run b d [] s n hb Coord.empty [] (by
        unfold adv
        rw [hb, Coord.set_same]
        simp only
        rw [if_neg (by omega)]; simp) (Or.inl rfl) m s (by omega)
      simpa [coords, hm] using this
    · exact flat_run b d rest s n hb hn hd hr _ (ih hn' (fun e he => hne e (by simp [he])) hr)

theorem coords_none (b : Bounds) : ∀ ds c, c ∈ coords b ds → ∀ e, e ∉ ds → c e = none := by
  intro ds
  induction ds with
  | nil => intro c hc e _; simp [coords] at hc; subst hc; rfl
  | cons d rest ih =>
    intro c hc e he
    simp only [List.mem_cons, not_or] at he
    unfold coords at hc
    cases hb : b d with
    | none => rw [hb] at hc; exact ih c hc e he.2
    | some p =>
      rw [hb] at hc
      simp only [List.mem_flatMap, List.mem_map] at hc
      obtain ⟨c0, h0, k, _, rfl⟩ := hc
      rw [Coord.set_ne _ _ he.1]; exact ih c0 h0 e he.2

theorem mem_coords (b : Bounds) : ∀ ds, ds.Nodup → ∀ c, c ∈ coords b ds ↔
    (∀ e, e ∉ ds → c e = none) ∧ ∀ d ∈ ds, match b d with
      | none => c d = none | some (s, n) => ∃ v, c d = some v ∧ s ≤ v ∧ v < s + n := by
  intro ds
  induction ds with
  | nil =>
    intro _ c
    simp only [coords, List.mem_singleton, List.not_mem_nil, not_false_eq_true, forall_const, false_imp_iff, implies_true,
      and_true]
    constructor
    · rintro rfl e; rfl
    · intro h; funext e; rw [h e]; rfl
  | cons d rest ih =>
    intro hnd c
    obtain ⟨hd, hn'⟩ := List.nodup_cons.1 hnd
    unfold coords
    cases hb : b d with
    | none =>
      simp only
      rw [ih hn']
      constructor
      · rintro ⟨h1, h2⟩
        refine ⟨fun e he => h1 e (fun h => he (by simp [h])), ?_⟩
        intro e he
        rcases List.mem_cons.1 he with rfl | he
        · rw [hb]; exact h1 _ hd
        · exact h2 e he
      · rintro ⟨h1, h2⟩
        refine ⟨?_, fun e he => h2 e (by simp [he])⟩
        intro e he
        by_cases h : e = d
        · subst h; have := h2 e (by simp); rw [hb] at this; exact this
        · exact h1 e (by simp [h, he])
    | some p =>
      obtain ⟨s, n⟩ := p
      simp only [List.mem_flatMap, List.mem_map, List.mem_range]
      constructor
      · rintro ⟨c0, h0, k, hk, rfl⟩
        rw [ih hn'] at h0
        refine ⟨?_, ?_⟩
        · intro e he
          simp only [List.mem_cons, not_or] at he
          rw [Coord.set_ne _ _ he.1]; exact h0.1 e he.2
        · intro e he
          rcases List.mem_cons.1 he with rfl | he
          · rw [hb]; exact ⟨_, Coord.set_same _ _ _, by omega, by omega⟩
          · rw [Coord.set_ne _ _ (fun h : e = d => hd (h ▸ he))]; exact h0.2 e he
      · rintro ⟨h1, h2⟩
        have hh := h2 d (by simp)
        rw [hb] at hh
        obtain ⟨v, hv, hv1, hv2⟩ := hh
        refine ⟨fun e => if e = d then none else c e, ?_, (v - s).toNat, by omega, ?_⟩
        · rw [ih hn']
          refine ⟨?_, ?_⟩
          · intro e he
            by_cases h : e = d
            · simp [h]
            · simp only [h, if_false]; exact h1 e (by simp [h, he])
          · intro e he
            have : e ≠ d := fun h => hd (h ▸ he)
            simp only [this, if_false]; exact h2 e (by simp [he])
        · funext e
          unfold Coord.set
          by_cases h : e = d
          · subst h; simp only [if_true]; rw [hv]; congr 1; omega
          · simp [h]

/-- order with respect to a list of dimensions -/
def BeforeIn (ds : List Dim) (c c' : Coord) : Prop :=
  ∃ pre d post, ds = pre ++ d :: post ∧ (∀ e ∈ post, c e = c' e) ∧
    ∃ v v', c d = some v ∧ c' d = some v' ∧ v < v'

theorem coords_pairwise (b : Bounds) : ∀ ds, ds.Nodup → (coords b ds).Pairwise (BeforeIn ds) := by
  intro ds
  induction ds with
  | nil => intro _; simp [coords]
  | cons d rest ih =>
    intro hnd
    obtain ⟨hd, hn'⟩ := List.nodup_cons.1 hnd
    have hmono : ∀ c c', BeforeIn rest c c' → BeforeIn (d :: rest) c c' := by
      rintro c c' ⟨pre, e, post, h1, h2⟩
      exact ⟨d :: pre, e, post, by simp [h1], h2⟩
    unfold coords
    cases hb : b d with
    | none => exact (ih hn').imp (fun h => hmono _ _ h)
    | some p =>
      obtain ⟨s, n⟩ := p
      simp only
      rw [List.pairwise_flatMap]
      refine ⟨?_, ?_⟩
      · intro c _
        rw [List.pairwise_map]
        refine (List.pairwise_lt_range).imp ?_
        intro i j hij
        refine ⟨[], d, rest, rfl, ?_, _, _, Coord.set_same _ _ _, Coord.set_same _ _ _, by omega⟩
        intro e he
        have : e ≠ d := fun h => hd (h ▸ he)
        rw [Coord.set_ne _ _ this, Coord.set_ne _ _ this]
      · refine (ih hn').imp ?_
        rintro c c' ⟨pre, e, post, h1, h2, v, v', h3, h4, h5⟩ x hx y hy
        simp only [List.mem_map] at hx hy
        obtain ⟨k, _, rfl⟩ := hx
        obtain ⟨k', _, rfl⟩ := hy
        have he : e ≠ d := fun h => hd (by rw [h1, h]; simp)
        refine ⟨d :: pre, e, post, by simp [h1], ?_, v, v', ?_, ?_, h5⟩
        · intro g hg
          have : g ≠ d := fun h => hd (by rw [h1, ← h]; simp [hg])
          rw [Coord.set_ne _ _ this, Coord.set_ne _ _ this]; exact h2 g hg
        · rw [Coord.set_ne _ _ he]; exact h3
        · rw [Coord.set_ne _ _ he]; exact h4

theorem coords_head (b : Bounds) : ∀ ds, ds.Nodup → NonEmptyDims b ds →
    (coords b ds).head? = some (reset b ds Coord.empty) := by
  intro ds
  induction ds with
  | nil => intro _ _; rfl
  | cons d rest ih =>
    intro hnd hne
    obtain ⟨hd, hn'⟩ := List.nodup_cons.1 hnd
    obtain ⟨s, n, hb, hn⟩ := hne d (by simp)
    have h0 := ih hn' (fun e he => hne e (by simp [he]))
    unfold coords
    rw [hb]
    simp only
    obtain ⟨m, hm⟩ : ∃ m : Nat, n.toNat = m + 1 := ⟨n.toNat - 1, by omega⟩
    cases hL : coords b rest with
    | nil => rw [hL] at h0; simp at h0
    | cons c t =>
      rw [hL] at h0
      simp only [List.head?_cons, Option.some.injEq] at h0
      rw [List.flatMap_cons, hm, List.range_succ_eq_map]
      simp only [List.map_cons, List.cons_append, List.head?_cons, Option.some.injEq]
      funext e
      rw [reset_apply, h0]
      unfold Coord.set
      rw [reset_apply]
      by_cases h : e = d
      · subst h; simp [hb]
      · simp [h]

theorem run_of_isRun {σ : Type} (b : Bounds) (dims : List Dim) (f : σ → Nat → Coord → Bool × σ) :
    ∀ (L : List Coord) (c : Coord) (no fuel : Nat) (st : σ), IsRun (advance b [] dims) (c :: L) → L.length + 1 ≤ fuel →
      run b dims f fuel no c st = some (present f no (c :: L) st) := by
  intro L
  induction L with
  | nil =>
    intro c no fuel st hr hf
    obtain ⟨fuel, rfl⟩ : ∃ k, fuel = k + 1 := ⟨fuel - 1, by simp at hf; omega⟩
    have hr : advance b [] dims c = none := hr
    unfold run present
    simp only [hr, present]
    split <;> rfl
  | cons c' L ih =>
    intro c no fuel st hr hf
    simp only [List.length_cons] at hf
    obtain ⟨fuel, rfl⟩ : ∃ k, fuel = k + 1 := ⟨fuel - 1, by omega⟩
    unfold run
    rw [hr.1]
    conv_rhs => unfold present
    simp only
    split
    · rfl
    · exact ih c' (no + 1) fuel _ hr.2 (by omega)

theorem isRun_congr {α : Type} {f g : α → Option α} : ∀ {L : List α}, (∀ a ∈ L, f a = g a) → IsRun f L → IsRun g L := by
  intro L
  induction L with
  | nil => intro _ h; exact h
  | cons a t ih =>
    intro h hr
    cases t with
    | nil => have : f a = none := hr; rw [h a (by simp)] at this; exact this
    | cons a' t => exact ⟨by rw [← h a (by simp)]; exact hr.1, ih (fun x hx => h x (by simp [hx])) hr.2⟩

/-! ### comparison -/

theorem compareFrom_eq_zero (a b : Coord) : ∀ ds, compareFrom a b ds = 0 ↔ ∀ d ∈ ds, a d = b d := by
  intro ds
  induction ds with
  | nil => simp [compareFrom]
  | cons d ds ih =>
    unfold compareFrom
    cases ha : a d <;> cases hb : b d <;> simp [ha, hb, ih]
    rename_i x y
    by_cases h1 : y < x
    · simp [h1]; omega
    · by_cases h2 : x < y
      · simp [h1, h2]; omega
      · simp [h1, h2, ih]
        have : x = y := by omega
        simp [this]

theorem compareFrom_neg (a b : Coord) : ∀ ds, compareFrom b a ds = - compareFrom a b ds := by
  intro ds
  induction ds with
  | nil => rfl
  | cons d ds ih =>
    unfold compareFrom
    cases a d <;> cases b d <;> simp [ih]
    rename_i x y
    by_cases h1 : y < x
    · have : ¬ x < y := by omega
      simp [h1, this]
    · by_cases h2 : x < y <;> simp [h1, h2]

theorem compareFrom_values (a b : Coord) : ∀ ds, compareFrom a b ds = -1 ∨ compareFrom a b ds = 0 ∨ compareFrom a b ds = 1 := by
  intro ds
  induction ds with
  | nil => simp [compareFrom]
  | cons d ds ih =>
    unfold compareFrom
    cases a d <;> cases b d
    · exact ih
    · simp
    · simp
    · dsimp only
      split
      · simp
      · split
        · simp
        · exact ih

theorem compareFrom_trans (a b c : Coord) : ∀ ds, compareFrom a b ds ≤ 0 → compareFrom b c ds ≤ 0 → compareFrom a c ds ≤ 0 := by
  intro ds
  induction ds with
  | nil => simp [compareFrom]
  | cons d ds ih =>
    unfold compareFrom
    cases a d <;> cases b d <;> cases c d <;> simp
    · exact ih
    · rename_i x y z
      intro h1 h2
      by_cases hxy : y < x
      · simp [hxy] at h1
      · by_cases hyz : z < y
        · simp [hyz] at h2
        · by_cases hxz : x < z
          · have : ¬ z < x := by omega
            simp [hxz, this]
          · have e1 : x = y := by omega
            have e2 : y = z := by omega
            subst e1; subst e2
            simp at h1 h2 ⊢
            exact ih h1 h2

theorem compareCoordinateFrom_iff (a b : Coord) : ∀ ds, compareCoordinateFrom a b ds = true ↔
    ∀ d ∈ ds, ∀ v, a d = some v → b d = some v := by
  intro ds
  induction ds with
  | nil => simp [compareCoordinateFrom]
  | cons d ds ih =>
    unfold compareCoordinateFrom
    cases ha : a d with
    | none => simp [ih, ha]
    | some x =>
      cases hb : b d with
      | none => simp [ha, hb]
      | some y =>
        by_cases h : x = y
        · simp [ha, hb, h, ih]
        · simp [ha, hb, h]; intro h'; exact absurd h'.symm h

end Verif
