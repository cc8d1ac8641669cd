import Verif.Proof.Codec

/-! Lemmas about files and sequences of writes. -/

namespace Verif.Czi

theorem Disk.ext' {a b : Disk} (h1 : a.size = b.size) (h2 : ∀ i, a.get i = b.get i) : a = b := by
  obtain ⟨_, _⟩ := a
  obtain ⟨_, _⟩ := b
  simp only [Disk.mk.injEq]
  exact ⟨h1, funext h2⟩

theorem Disk.write_nil (d : Disk) (p : Nat) : d.write p [] = d := by
  apply Disk.ext'
  · simp [Disk.write]
  · intro i
    simp [Disk.write]
    omega

theorem Disk.write_get_in {d : Disk} {p i : Nat} {l : List UInt8} (h : i < l.length) : (d.write p l).get (p + i) = l.getD i 0 := by
  simp only [Disk.write]
  rw [if_pos (by omega), Nat.add_sub_cancel_left]

theorem Disk.write_get_out {d : Disk} {p i : Nat} {l : List UInt8} (h : i < p ∨ p + l.length ≤ i) : (d.write p l).get i = d.get i := by
  simp only [Disk.write]
  rw [if_neg (by omega)]

theorem Disk.write_size_le (d : Disk) (p : Nat) (l : List UInt8) : d.size ≤ (d.write p l).size := by
  simp only [Disk.write]
  split <;> omega

theorem Disk.write_size {d : Disk} {p : Nat} {l : List UInt8} (h : l ≠ []) : (d.write p l).size = max d.size (p + l.length) := by
  simp [Disk.write, h]

/-- Two adjacent writes are one write. -/
theorem Disk.write_write (d : Disk) (p : Nat) (a b : List UInt8) : (d.write p a).write (p + a.length) b = d.write p (a ++ b) := by
  apply Disk.ext'
  · by_cases ha : a = []
    · subst ha
      simp [Disk.write_nil]
    · by_cases hb : b = []
      · subst hb
        simp [Disk.write_nil]
      · rw [Disk.write_size hb, Disk.write_size ha, Disk.write_size (by simp [ha])]
        simp only [List.length_append]
        omega
  · intro i
    simp only [Disk.write, List.length_append]
    by_cases h1 : i < p
    · rw [if_neg (by omega), if_neg (by omega), if_neg (by omega)]
    · by_cases h2 : i < p + a.length
      · rw [if_neg (by omega), if_pos (by omega), if_pos (by omega), getD_append_left (by omega)]
      · by_cases h3 : i < p + a.length + b.length
        · rw [if_pos (by omega), if_pos (by omega), getD_append_right (by omega)]
          congr 1
          omega
        · rw [if_neg (by omega), if_neg (by omega), if_neg (by omega)]

/-- The writes are sequential and put `c` at `p`. -/
inductive Contig : Nat → List Write → List UInt8 → Prop where
  | nil (p : Nat) : Contig p [] []
  | cons {p : Nat} {l c : List UInt8} {ws : List Write} : Contig (p + l.length) ws c → Contig p ((p, l) :: ws) (l ++ c)

theorem Contig.single (p : Nat) (l : List UInt8) : Contig p [(p, l)] l := by
  have := Contig.cons (l := l) (Contig.nil (p + l.length))
  rwa [List.append_nil] at this

theorem Contig.append {p : Nat} {ws vs : List Write} {a b : List UInt8} (h1 : Contig p ws a) (h2 : Contig (p + a.length) vs b) :
    Contig p (ws ++ vs) (a ++ b) := by
  induction h1 with
  | nil p => simpa using h2
  | cons h ih =>
    rw [List.cons_append, List.append_assoc]
    refine .cons (ih ?_)
    rwa [List.length_append, ← Nat.add_assoc] at h2

theorem apply_append (d : Disk) (a b : List Write) : apply d (a ++ b) = apply (apply d a) b := by
  simp [apply, List.foldl_append]

theorem apply_contig {p : Nat} {ws : List Write} {c : List UInt8} (h : Contig p ws c) (d : Disk) : apply d ws = d.write p c := by
  induction h generalizing d with
  | nil p => rw [Disk.write_nil]; rfl
  | cons h ih =>
    show apply (d.write _ _) _ = _
    rw [ih, Disk.write_write]

/-- What is left of sequential writes after an interruption. -/
theorem cut_contig {p : Nat} {ws : List Write} {c : List UInt8} (h : Contig p ws c) (k j : Nat) :
    ∃ n, n ≤ c.length ∧ Contig p (cut ws k j) (c.take n) := by
  induction h generalizing k with
  | nil p => exact ⟨0, Nat.le_refl _, by simpa [cut] using Contig.nil p⟩
  | @cons p l c ws h ih =>
    cases k with
    | zero =>
      refine ⟨min j l.length, by simp; omega, ?_⟩
      have := Contig.single p (l.take j)
      have e : (l ++ c).take (min j l.length) = l.take j := by
        rw [List.take_append_of_le_length (by omega)]
        by_cases hj : j ≤ l.length
        · rw [Nat.min_eq_left hj]
        · rw [Nat.min_eq_right (by omega), List.take_length, List.take_of_length_le (by omega)]
      rw [e]
      simpa [cut] using this
    | succ k =>
      obtain ⟨n, h1, h2⟩ := ih k
      refine ⟨l.length + n, by simp; omega, ?_⟩
      have e : (l ++ c).take (l.length + n) = l ++ c.take n := by
        rw [List.take_append, Nat.add_sub_cancel_left, List.take_of_length_le (by omega)]
      rw [e]
      have := Contig.cons h2
      simpa [cut] using this

/-- The file has the bytes `c` at position `p`. -/
def Holds (d : Disk) (p : Nat) (c : List UInt8) : Prop := p + c.length ≤ d.size ∧ ∀ i, i < c.length → d.get (p + i) = c.getD i 0

theorem Holds.write {d : Disk} {p : Nat} {c : List UInt8} (h : c ≠ []) : Holds (d.write p c) p c := by
  refine ⟨?_, fun i hi => Disk.write_get_in hi⟩
  rw [Disk.write_size h]
  omega

/-- A write elsewhere preserves the bytes. -/
theorem Holds.other {d : Disk} {p q : Nat} {c l : List UInt8} (h : Holds d p c) (hd : q + l.length ≤ p ∨ p + c.length ≤ q) :
    Holds (d.write q l) p c := by
  refine ⟨Nat.le_trans h.1 (Disk.write_size_le ..), fun i hi => ?_⟩
  rw [Disk.write_get_out (by omega), h.2 i hi]

theorem Holds.append {d : Disk} {p : Nat} {a b : List UInt8} (h1 : Holds d p a) (h2 : Holds d (p + a.length) b) : Holds d p (a ++ b) := by
  refine ⟨by have := h2.1; simp; omega, fun i hi => ?_⟩
  by_cases h : i < a.length
  · rw [getD_append_left h, h1.2 i h]
  · rw [getD_append_right (by omega), ← h2.2 (i - a.length) (by simp at hi; omega)]
    congr 1
    omega

theorem Holds.left {d : Disk} {p : Nat} {a b : List UInt8} (h : Holds d p (a ++ b)) : Holds d p a := by
  refine ⟨by have := h.1; simp at this; omega, fun i hi => ?_⟩
  rw [h.2 i (by simp; omega), getD_append_left hi]

theorem Holds.right {d : Disk} {p : Nat} {a b : List UInt8} (h : Holds d p (a ++ b)) : Holds d (p + a.length) b := by
  refine ⟨by have := h.1; simp at this; omega, fun i hi => ?_⟩
  rw [Nat.add_assoc, h.2 (a.length + i) (by simp; omega), getD_append_right (by omega)]
  congr 1
  omega

theorem Holds.read {d : Disk} {p : Nat} {c : List UInt8} (h : Holds d p c) {o n : Nat} (hn : o + n ≤ c.length) :
    d.read (p + o) n = field c o n := by
  have h1 := h.1
  apply List.ext_getElem
  · simp [Disk.read]
    omega
  · intro i hi1 hi2
    have hi : i < n := by
      have : i < min n (d.size - (p + o)) := by simpa [Disk.read] using hi1
      omega
    have := h.2 (o + i) (by omega)
    simp only [Disk.read, List.getElem_map, List.getElem_range, Nat.add_assoc]
    rw [this, List.getD_eq_getElem?_getD]
    simp only [field, List.getElem_take, List.getElem_drop]
    rw [List.getElem?_eq_getElem (by omega)]
    rfl

theorem Holds.read0 {d : Disk} {p : Nat} {c : List UInt8} (h : Holds d p c) : d.read p c.length = c := by
  have := h.read (o := 0) (n := c.length) (by omega)
  rwa [Nat.add_zero, field_self rfl] at this

theorem Holds.readExact {d : Disk} {p : Nat} {c : List UInt8} (h : Holds d p c) {o n : Nat} (hn : o + n ≤ c.length) :
    readExact d.stream (p + o) n = .ok (field c o n) := by
  unfold Verif.Czi.readExact Disk.stream
  rw [h.read hn]
  simp
  omega

/-- Reading delivers at most what is requested. -/
theorem Disk.read_length_le (d : Disk) (o n : Nat) : (d.read o n).length ≤ n := by
  simp [Disk.read]
  omega

end Verif.Czi
