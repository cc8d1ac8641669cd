import Verif.Spec.Streams

/-! # Helper lemmas: streams -/

namespace Verif.Streams

open Verif.Czi Verif.Spec

/-! ## HTTP -/

theorem holds_append {before mid : Buf} {a p : List UInt8} (h : Received before mid a) (hs : a.length + p.length ≤ before.size) :
    ∃ d, mid.memcpy a.length (Buf.ofList p) 0 p.length = some d ∧ Received before d (a ++ p) := by
  obtain ⟨h1, h2, h3⟩ := h
  refine ⟨{ mid with get := fun i => if a.length ≤ i ∧ i < a.length + p.length then (Buf.ofList p).get (0 + (i - a.length)) else mid.get i }, ?_, h1, ?_, ?_⟩
  · unfold Buf.memcpy
    rw [if_pos ⟨by rw [h1]; exact hs, by simp [Buf.ofList]⟩]
  · intro i hi
    rw [List.length_append] at hi
    dsimp only
    by_cases ha : a.length ≤ i
    · rw [if_pos ⟨ha, hi⟩, List.getElem?_append_right ha, Nat.zero_add]
      show _ = some (p.getD (i - a.length) 0)
      have hlt : i - a.length < p.length := by omega
      rw [List.getElem?_eq_getElem hlt, List.getD_eq_getElem?_getD, List.getElem?_eq_getElem hlt]
      rfl
    · rw [if_neg (by omega), List.getElem?_append_left (by omega)]
      exact h2 i (by omega)
  · intro i hi
    rw [List.length_append] at hi
    dsimp only
    rw [if_neg (by omega)]
    exact h3 i (by omega)

/-- Everything fits. -/
theorem perform_fits {size : Nat} {before : Buf} (hb : size ≤ before.size) (complete : Bool) :
    ∀ (ps : List (List UInt8)) (mid : Buf) (a : List UInt8), Received before mid a → a.length + ps.flatten.length ≤ size →
      ∃ d, Received before d (a ++ ps.flatten) ∧
        perform size mid a.length ps complete = if complete then .ok (d, a.length + ps.flatten.length) else .throws := by
  intro ps
  induction ps with
  | nil => intro mid a h _; exact ⟨mid, by simpa using h, by simp [perform]⟩
  | cons p ps ih =>
    intro mid a h hs
    rw [List.flatten_cons, List.length_append] at hs
    obtain ⟨d, h1, h2⟩ := holds_append (p := p) h (by omega)
    obtain ⟨d', h3, h4⟩ := ih d (a ++ p) h2 (by rw [List.length_append]; omega)
    refine ⟨d', by simpa using h3, ?_⟩
    rw [perform, writeData, if_neg (by omega), h1]
    dsimp only
    rw [if_neg (by simp)]
    rw [List.length_append] at h4
    rw [h4, List.flatten_cons, List.length_append]
    simp only [Nat.add_assoc]

/-- Too much, in pieces none of which has as many bytes as the number of the error. -/
theorem perform_long {size : Nat} {before : Buf} (hb : size ≤ before.size) (complete : Bool) :
    ∀ (ps : List (List UInt8)) (mid : Buf) (a : List UInt8), Received before mid a → a.length ≤ size → size < a.length + ps.flatten.length → (∀ p ∈ ps, p.length ≠ 23) →
      perform size mid a.length ps complete = .throws := by
  intro ps
  induction ps with
  | nil => intro mid a _ h1 h2; simp at h2; omega
  | cons p ps ih =>
    intro mid a h h1 h2 hp
    rw [List.flatten_cons, List.length_append] at h2
    rw [perform, writeData]
    by_cases hlt : size < a.length + p.length
    · rw [if_pos hlt]
      dsimp only
      rw [if_pos (fun e => hp p (by simp) (by rw [← e]; rfl))]
    · rw [if_neg hlt]
      obtain ⟨d, k1, k2⟩ := holds_append (p := p) h (by omega)
      rw [k1]
      dsimp only
      rw [if_neg (by simp)]
      have := ih d (a ++ p) k2 (by rw [List.length_append]; omega) (by rw [List.length_append]; omega) (fun q hq => hp q (List.mem_cons_of_mem _ hq))
      rwa [List.length_append] at this

/-- Whatever is sent, only the memory of the caller is written, and only the bytes that were asked for. -/
theorem perform_safe {size : Nat} {before : Buf} (hb : size ≤ before.size) (complete : Bool) :
    ∀ (ps : List (List UInt8)) (mid : Buf) (a : List UInt8), Received before mid a → a.length ≤ size →
      perform size mid a.length ps complete = .throws ∨ ∃ d l, perform size mid a.length ps complete = .ok (d, l.length) ∧ Received before d l ∧ l.length ≤ size := by
  intro ps
  induction ps with
  | nil =>
    intro mid a h h1
    cases complete with
    | false => exact .inl rfl
    | true => exact .inr ⟨mid, a, rfl, h, h1⟩
  | cons p ps ih =>
    intro mid a h h1
    rw [perform, writeData]
    by_cases hlt : size < a.length + p.length
    · rw [if_pos hlt]
      dsimp only
      by_cases hw : writeError ≠ p.length
      · rw [if_pos hw]; exact .inl rfl
      · rw [if_neg hw]; exact ih mid a h h1
    · rw [if_neg hlt]
      obtain ⟨d, k1, k2⟩ := holds_append (p := p) h (by omega)
      rw [k1]
      dsimp only
      rw [if_neg (by simp)]
      have := ih d (a ++ p) k2 (by rw [List.length_append]; omega)
      rwa [List.length_append] at this

theorem holds_nil (b : Buf) : Received b b [] := ⟨rfl, fun i hi => by simp at hi, fun _ _ => rfl⟩

/-! ## Threads -/

/-- What holds of thread `i` in every state. -/
structure ThreadOk (file : List UInt8) (s : State) (i : Nat) (calls : List Req) : Prop where
  owner : (s.threads i).pc ≠ .idle → s.owner = some i
  busy : (s.threads i).pc ≠ .idle → (s.threads i).calls ≠ []
  sought : ∀ r rest, (s.threads i).calls = r :: rest → (s.threads i).pc = .sought ∨ (s.threads i).pc = .done → r.offset < 2 ^ 63
  pos : ∀ r rest, (s.threads i).calls = r :: rest → (s.threads i).pc = .sought → s.pos = r.offset
  results : ∃ before, calls = before ++ (s.threads i).calls ∧
    (s.threads i).results = before.map (readResult file) ++ if (s.threads i).pc = .done then ((s.threads i).calls.take 1).map (readResult file) else []

theorem start_ok (file : List UInt8) (pos : Nat) (calls : Nat → List Req) (i : Nat) : ThreadOk file (start pos calls) i (calls i) :=
  ⟨fun h => absurd rfl h, fun h => absurd rfl h, fun _ _ _ h => (by rcases h with h | h <;> cases h), fun _ _ _ h => (by cases h), ⟨[], rfl, rfl⟩⟩

theorem step_ok {file : List UInt8} {s : State} {calls : Nat → List Req} (h : ∀ i, ThreadOk file s i (calls i)) (i j : Nat) :
    ThreadOk file (step file true s i) j (calls j) := by
  have hi := h i
  have hj := h j
  unfold step
  cases hc : (s.threads i).calls with
  | nil => exact hj
  | cons r rest =>
    dsimp only
    cases hp : (s.threads i).pc with
    | idle =>
      dsimp only
      by_cases ho : s.owner = none
      · rw [if_neg (by simp [ho])]
        by_cases e : j = i
        · subst e
          refine ⟨?_, ?_, ?_, ?_, ?_⟩
          · intro _; rfl
          · simp [State.set, hc]
          · intro r' rest' _ k; simp [State.set] at k
          · intro r' rest' _ k; simp [State.set] at k
          · obtain ⟨b, e1, e2⟩ := hj.results
            refine ⟨b, by simpa [State.set] using e1, ?_⟩
            rw [hp] at e2
            simpa [State.set] using e2
        · have hidle : (s.threads j).pc = .idle := by
            cases hq : (s.threads j).pc with
            | idle => rfl
            | _ => have := hj.owner (by rw [hq]; simp); rw [ho] at this; cases this
          refine ⟨?_, ?_, ?_, ?_, ?_⟩
          · intro k; simp [State.set, e, hidle] at k
          · intro k; simp [State.set, e, hidle] at k
          · intro r' rest' _ k; simp [State.set, e, hidle] at k
          · intro r' rest' _ k; simp [State.set, e, hidle] at k
          · obtain ⟨b, e1, e2⟩ := hj.results
            exact ⟨b, by simpa [State.set, e] using e1, by simpa [State.set, e] using e2⟩
      · rw [if_pos ⟨rfl, ho⟩]; exact hj
    | entered =>
      dsimp only
      have own := hi.owner (by rw [hp]; simp)
      by_cases e : j = i
      · subst e
        by_cases hr : 2 ^ 63 ≤ r.offset
        · rw [if_pos hr]
          obtain ⟨b, e1, e2⟩ := hj.results
          rw [hc] at e1
          rw [hp] at e2
          refine ⟨?_, ?_, ?_, ?_, b ++ [r], ?_, ?_⟩
          · intro k; simp [State.set] at k
          · intro k; simp [State.set] at k
          · intro r' rest' _ k; simp [State.set] at k
          · intro r' rest' _ k; simp [State.set] at k
          · simpa [State.set] using e1
          · have : readResult file r = none := by unfold readResult; rw [if_neg (by omega)]
            simp [State.set, e2, this]
        · rw [if_neg hr]
          obtain ⟨b, e1, e2⟩ := hj.results
          rw [hp] at e2
          refine ⟨?_, ?_, ?_, ?_, b, ?_, ?_⟩
          · intro _; exact own
          · simp [State.set, hc]
          · intro r' rest' k1 _
            simp [State.set, hc] at k1
            rw [← k1.1]; omega
          · intro r' rest' k1 _
            simp [State.set, hc] at k1
            rw [← k1.1]
          · simpa [State.set] using e1
          · simpa [State.set] using e2
      · have hidle : (s.threads j).pc = .idle := by
          cases hq : (s.threads j).pc with
          | idle => rfl
          | _ => have := hj.owner (by rw [hq]; simp); rw [own] at this; injection this with this; exact absurd this.symm e
        obtain ⟨b, e1, e2⟩ := hj.results
        by_cases hr : 2 ^ 63 ≤ r.offset
        · rw [if_pos hr]
          exact ⟨fun k => by simp [State.set, e, hidle] at k, fun k => by simp [State.set, e, hidle] at k, fun _ _ _ k => by simp [State.set, e, hidle] at k,
            fun _ _ _ k => by simp [State.set, e, hidle] at k, b, by simpa [State.set, e] using e1, by simpa [State.set, e] using e2⟩
        · rw [if_neg hr]
          exact ⟨fun k => by simp [State.set, e, hidle] at k, fun k => by simp [State.set, e, hidle] at k, fun _ _ _ k => by simp [State.set, e, hidle] at k,
            fun _ _ _ k => by simp [State.set, e, hidle] at k, b, by simpa [State.set, e] using e1, by simpa [State.set, e] using e2⟩
    | sought =>
      dsimp only
      have own := hi.owner (by rw [hp]; simp)
      by_cases e : j = i
      · subst e
        obtain ⟨b, e1, e2⟩ := hj.results
        rw [hp] at e2
        have hoff := hj.sought r rest hc (.inl hp)
        have hpos := hj.pos r rest hc hp
        refine ⟨?_, ?_, ?_, ?_, b, ?_, ?_⟩
        · intro _; exact own
        · simp [State.set, hc]
        · intro r' rest' k1 _
          simp [State.set, hc] at k1
          rw [← k1.1]; exact hoff
        · intro r' rest' _ k; simp [State.set] at k
        · simpa [State.set] using e1
        · have : readResult file r = some ((file.drop s.pos).take r.size) := by unfold readResult bytesAt; rw [if_pos hoff, hpos]
          simp [State.set, e2, hc, this]
      · have hidle : (s.threads j).pc = .idle := by
          cases hq : (s.threads j).pc with
          | idle => rfl
          | _ => have := hj.owner (by rw [hq]; simp); rw [own] at this; injection this with this; exact absurd this.symm e
        obtain ⟨b, e1, e2⟩ := hj.results
        exact ⟨fun k => by simp [State.set, e, hidle] at k, fun k => by simp [State.set, e, hidle] at k, fun _ _ _ k => by simp [State.set, e, hidle] at k,
          fun _ _ _ k => by simp [State.set, e, hidle] at k, b, by simpa [State.set, e] using e1, by simpa [State.set, e] using e2⟩
    | done =>
      dsimp only
      have own := hi.owner (by rw [hp]; simp)
      by_cases e : j = i
      · subst e
        obtain ⟨b, e1, e2⟩ := hj.results
        rw [hp, hc] at e2
        rw [hc] at e1
        refine ⟨?_, ?_, ?_, ?_, b ++ [r], ?_, ?_⟩
        · intro k; simp [State.set] at k
        · intro k; simp [State.set] at k
        · intro r' rest' _ k; simp [State.set] at k
        · intro r' rest' _ k; simp [State.set] at k
        · simpa [State.set] using e1
        · simp [State.set, e2]
      · have hidle : (s.threads j).pc = .idle := by
          cases hq : (s.threads j).pc with
          | idle => rfl
          | _ => have := hj.owner (by rw [hq]; simp); rw [own] at this; injection this with this; exact absurd this.symm e
        obtain ⟨b, e1, e2⟩ := hj.results
        exact ⟨fun k => by simp [State.set, e, hidle] at k, fun k => by simp [State.set, e, hidle] at k, fun _ _ _ k => by simp [State.set, e, hidle] at k,
          fun _ _ _ k => by simp [State.set, e, hidle] at k, b, by simpa [State.set, e] using e1, by simpa [State.set, e] using e2⟩

theorem run_ok {file : List UInt8} {calls : Nat → List Req} (sched : List Nat) : ∀ {s : State}, (∀ i, ThreadOk file s i (calls i)) →
    ∀ i, ThreadOk file (run file true s sched) i (calls i) := by
  induction sched with
  | nil => intro s h; exact h
  | cons k sched ih => intro s h; exact ih (fun j => step_ok h k j)

/-- The owner of the mutex is in a call. -/
def OwnerOk (s : State) : Prop := ∀ i, s.owner = some i → (s.threads i).pc ≠ .idle

theorem step_owner {file : List UInt8} {s : State} {calls : Nat → List Req} (h : ∀ i, ThreadOk file s i (calls i)) (ho : OwnerOk s) (i : Nat) :
    OwnerOk (step file true s i) := by
  have hi := h i
  unfold step
  cases hc : (s.threads i).calls with
  | nil => exact ho
  | cons r rest =>
    dsimp only
    cases hp : (s.threads i).pc with
    | idle =>
      dsimp only
      by_cases h0 : s.owner = none
      · rw [if_neg (by simp [h0])]
        intro j hj
        simp at hj
        subst hj
        simp [State.set]
      · rw [if_pos ⟨rfl, h0⟩]; exact ho
    | entered =>
      dsimp only
      by_cases hr : 2 ^ 63 ≤ r.offset
      · rw [if_pos hr]; intro j hj; cases hj
      · rw [if_neg hr]
        intro j hj
        have own := hi.owner (by rw [hp]; simp)
        have hj' : s.owner = some j := hj
        rw [own] at hj'
        injection hj' with hj'
        subst hj'
        simp [State.set]
    | sought =>
      intro j hj
      have own := hi.owner (by rw [hp]; simp)
      have hj' : s.owner = some j := hj
      rw [own] at hj'
      injection hj' with hj'
      subst hj'
      simp [State.set]
    | done => intro j hj; cases hj

theorem run_owner {file : List UInt8} {calls : Nat → List Req} (sched : List Nat) : ∀ {s : State}, (∀ i, ThreadOk file s i (calls i)) → OwnerOk s →
    OwnerOk (run file true s sched) := by
  induction sched with
  | nil => intro s _ h; exact h
  | cons k sched ih => intro s h ho; exact ih (fun j => step_ok h k j) (step_owner h ho k)

theorem run_append (file : List UInt8) (m : Bool) (s : State) (a b : List Nat) : run file m s (a ++ b) = run file m (run file m s a) b := List.foldl_append

/-- The steps a thread needs to finish its current call. -/
def left : Pc → Nat
  | .idle => 0 | .entered => 3 | .sought => 2 | .done => 1

/-- The thread that holds the mutex can finish its call alone; the calls of the others do not change. -/
theorem finish_call {file : List UInt8} {calls : Nat → List Req} : ∀ (k : Nat) {s : State} {i : Nat}, (∀ i, ThreadOk file s i (calls i)) → OwnerOk s →
    s.owner = some i → left (s.threads i).pc ≤ k →
      ∃ sched, (run file true s sched).owner = none ∧ (∀ j, j ≠ i → ((run file true s sched).threads j) = s.threads j) ∧
        ((run file true s sched).threads i).calls = (s.threads i).calls.tail := by
  intro k
  induction k with
  | zero =>
    intro s i _ ho hown hk
    exfalso
    have := ho i hown
    cases hp : (s.threads i).pc <;> rw [hp] at this hk <;> simp [left] at this hk
  | succ k ih =>
    intro s i h ho hown hk
    have hne := ho i hown
    have hi := h i
    have hb := hi.busy hne
    have hstep : ∀ t, step file true s i = t → t.owner = some i → left (t.threads i).pc ≤ k → (∀ j, j ≠ i → t.threads j = s.threads j) →
        (t.threads i).calls = (s.threads i).calls → ∃ sched, (run file true s sched).owner = none ∧
          (∀ j, j ≠ i → ((run file true s sched).threads j) = s.threads j) ∧ ((run file true s sched).threads i).calls = (s.threads i).calls.tail := by
      intro t ht h1 h2 h3 h4
      obtain ⟨sched, k1, k2, k3⟩ := ih (s := t) (i := i) (fun j => ht ▸ step_ok h i j) (ht ▸ step_owner h ho i) h1 h2
      refine ⟨i :: sched, ?_⟩
      have e : run file true s (i :: sched) = run file true t sched := by rw [← ht]; rfl
      rw [e]
      exact ⟨k1, fun j hj => by rw [k2 j hj, h3 j hj], by rw [k3, h4]⟩
    have hend : ∀ t, step file true s i = t → t.owner = none → (∀ j, j ≠ i → t.threads j = s.threads j) →
        (t.threads i).calls = (s.threads i).calls.tail → ∃ sched, (run file true s sched).owner = none ∧
          (∀ j, j ≠ i → ((run file true s sched).threads j) = s.threads j) ∧ ((run file true s sched).threads i).calls = (s.threads i).calls.tail := by
      intro t ht h1 h2 h3
      refine ⟨[i], ?_⟩
      have e : run file true s [i] = t := by rw [← ht]; rfl
      rw [e]
      exact ⟨h1, h2, h3⟩
    cases hc : (s.threads i).calls with
    | nil => exact absurd hc hb
    | cons r rest =>
      rw [hc] at hstep hend
      cases hp : (s.threads i).pc with
      | idle => exact absurd hp hne
      | entered =>
        rw [hp] at hk
        by_cases hr : 2 ^ 63 ≤ r.offset
        · refine hend { (s.set i ⟨rest, .idle, (s.threads i).results ++ [none]⟩) with owner := none } ?_ rfl ?_ ?_
          · unfold step; rw [hc]; dsimp only; rw [hp]; dsimp only; rw [if_pos hr]
          · intro j hj; simp [State.set, hj]
          · simp [State.set]
        · refine hstep { (s.set i { s.threads i with pc := .sought }) with pos := r.offset } ?_ hown ?_ ?_ ?_
          · unfold step; rw [hc]; dsimp only; rw [hp]; dsimp only; rw [if_neg hr]
          · simp [State.set, left] at hk ⊢; omega
          · intro j hj; simp [State.set, hj]
          · simp [State.set, hc]
      | sought =>
        rw [hp] at hk
        refine hstep { (s.set i { s.threads i with pc := .done, results := (s.threads i).results ++ [some ((file.drop s.pos).take r.size)] }) with
          pos := s.pos + ((file.drop s.pos).take r.size).length } ?_ hown ?_ ?_ ?_
        · unfold step; rw [hc]; dsimp only; rw [hp]
        · simp [State.set, left] at hk ⊢; omega
        · intro j hj; simp [State.set, hj]
        · simp [State.set, hc]
      | done =>
        refine hend { (s.set i { s.threads i with calls := rest, pc := .idle }) with owner := none } ?_ rfl ?_ ?_
        · unfold step; rw [hc]; dsimp only; rw [hp]
        · intro j hj; simp [State.set, hj]
        · simp [State.set]

/-- With the mutex free, a thread can make all its calls. -/
theorem finish_all {file : List UInt8} {calls : Nat → List Req} : ∀ (k : Nat) {s : State} {i : Nat}, (∀ i, ThreadOk file s i (calls i)) → OwnerOk s →
    s.owner = none → (s.threads i).calls.length ≤ k → ∃ sched, ((run file true s sched).threads i).calls = [] := by
  intro k
  induction k with
  | zero => intro s i _ _ _ hk; exact ⟨[], List.length_eq_zero_iff.1 (Nat.le_zero.1 hk)⟩
  | succ k ih =>
    intro s i h ho hown hk
    cases hc : (s.threads i).calls with
    | nil => exact ⟨[], hc⟩
    | cons r rest =>
      have hidle : (s.threads i).pc = .idle := by
        cases hq : (s.threads i).pc with
        | idle => rfl
        | _ => have := (h i).owner (by rw [hq]; simp); rw [hown] at this; cases this
      have e : step file true s i = { (s.set i { s.threads i with pc := .entered }) with owner := some i } := by
        unfold step; rw [hc]; dsimp only; rw [hidle]; dsimp only; rw [if_neg (by simp [hown])]; rfl
      have h1 : ∀ j, ThreadOk file (step file true s i) j (calls j) := fun j => step_ok h i j
      have o1 := step_owner h ho i
      obtain ⟨sched, k1, _, k3⟩ := finish_call 3 (i := i) h1 o1 (by rw [e]) (by rw [e]; simp [State.set, left])
      have hcalls : ((step file true s i).threads i).calls = r :: rest := by rw [e]; simp [State.set, hc]
      rw [hcalls] at k3
      obtain ⟨sched', k4⟩ := ih (s := run file true (step file true s i) sched) (i := i) (run_ok sched h1) (run_owner sched h1 o1) k1
        (by rw [k3]; rw [hc] at hk; simpa using hk)
      refine ⟨i :: (sched ++ sched'), ?_⟩
      show ((run file true (step file true s i) (sched ++ sched')).threads i).calls = []
      rw [run_append]
      exact k4

end Verif.Streams
