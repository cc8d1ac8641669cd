import Verif.Model.MemStream

/-! # C49: the in-memory stream -/

namespace Verif

open Czi

/-- **C49 (exact).** A read at an offset before the end, into a destination large enough for the size asked for, returns as number of bytes
the smaller of the size and the bytes left; that many bytes of the destination are the bytes of the stream from the offset on, all other
bytes of the destination are as before. -/
theorem C49_read_exact (data dst : Buf) (offset size : UInt64) (ho : offset.toNat < data.size) (hd : size.toNat ≤ dst.size) :
    ∃ out n, memStreamRead data offset (some dst) size = .ok (out, n) ∧
      n = min size.toNat (data.size - offset.toNat) ∧ out.size = dst.size ∧
      (∀ i, i < n → out.get i = data.get (offset.toNat + i)) ∧
      (∀ i, n ≤ i → out.get i = dst.get i) := by
  unfold memStreamRead
  dsimp only
  rw [if_neg (by omega)]
  unfold Buf.memcpy
  rw [if_pos (by omega)]
  refine ⟨_, _, rfl, rfl, rfl, ?_, ?_⟩
  · intro i hi
    dsimp only
    rw [if_pos (by omega), Nat.sub_zero]
  · intro i hi
    dsimp only
    rw [if_neg (by omega)]

/-- **C49 (rejection).** A read with a null destination, or at an offset at or after the end, throws - whatever the size. -/
theorem C49_rejected (data : Buf) (offset size : UInt64) (pv : Option Buf) (h : pv = none ∨ data.size ≤ offset.toNat) :
    memStreamRead data offset pv size = .throws := by
  unfold memStreamRead
  cases pv with
  | none => rfl
  | some d => rcases h with h | h
              · simp at h
              · simp [h]

/-- **C49 (memory safety).** If the destination has the size asked for, a read never leaves the two buffers, for all offsets and
sizes (including those whose sum does not fit into 64 bits). -/
theorem C49_memory_safe (data : Buf) (offset size : UInt64) (pv : Option Buf) (h : ∀ d, pv = some d → size.toNat ≤ d.size) :
    memStreamRead data offset pv size ≠ .undefined := by
  cases pv with
  | none => simp [memStreamRead]
  | some d =>
    by_cases ho : offset.toNat < data.size
    · obtain ⟨out, n, he, _⟩ := C49_read_exact data d offset size ho (h d rfl)
      rw [he]; simp
    · rw [C49_rejected data offset size (some d) (Or.inr (by omega))]; simp

/-! ## Non-vacuity -/

example : (match memStreamRead (Buf.ofList [1, 2, 3, 4]) 2 (some (Buf.ofList [9, 9, 9, 9, 9])) 5 with
    | .ok (b, n) => (b.toList, n) | _ => ([], 0)) = ([3, 4, 9, 9, 9], 2) := by decide
example : (18446744073709551615 : UInt64).toNat < 2 ^ 64 ∧ memStreamRead (Buf.ofList [1]) 1 (some (Buf.ofList [])) 0 = .throws := by
  constructor
  · decide
  · rfl

end Verif
