import Verif.Model.Writer
import Verif.Proof.Disk

/-! What `WriteZeroes` writes. -/

namespace Verif.Czi

attribute [local irreducible] zeros

/-- The number of bytes `WriteZeroes` writes for a request of `c` bytes: all for `c ≤ 4096`, otherwise half of the 4096-byte blocks
(rounded up). -/
def zeroAmount (c : Nat) : Nat := if c ≤ 4096 then c else ((c + 4095) / 4096 + 1) / 2 * 4096

theorem zeros_zero : zeros 0 = [] := by
  unfold zeros
  rfl

theorem zeroAmount_le (c : Nat) : zeroAmount c ≤ c := by
  unfold zeroAmount
  split <;> omega

theorem zeroAmount_lt {c : Nat} (h : 4096 < c) : zeroAmount c < c := by
  unfold zeroAmount
  rw [if_neg (by omega)]
  omega

theorem zeroAmount_small {c : Nat} (h : c ≤ 4096) : zeroAmount c = c := by
  unfold zeroAmount
  rw [if_pos h]

theorem zeroLoop_step (p fuel i count c' n : Nat) (hi : i < ((count + 4095) % 2 ^ 64) / 4096)
    (hc : (count + (2 ^ 64 - 4096)) % 2 ^ 64 = c') (hn : min 4096 count = n) :
    zeroLoop p (fuel + 1) i count = (zeroLoop p fuel (i + 1) c').map
      (fun r => ((p + i * 4096, zeros n) :: r.1, n + r.2)) := by
  rw [zeroLoop, if_pos hi, hc, hn]

theorem zeroLoop_stop (p fuel i count : Nat) (hi : ¬ i < ((count + 4095) % 2 ^ 64) / 4096) :
    zeroLoop p (fuel + 1) i count = some ([], 0) := by
  rw [zeroLoop, if_neg hi]

theorem zeroLoop_big (p c B : Nat) (hB : B = ((c + 4095) / 4096 + 1) / 2) (hc : c < 2 ^ 63) (hb : 4096 < c) :
    ∀ (fuel i r k : Nat), r + 4096 * i = c → k + i = B → B + 1 ≤ fuel + i →
    ∃ ws, zeroLoop p fuel i r = some (ws, k * 4096) ∧
      Contig (p + i * 4096) ws (zeros (k * 4096)) := by
  intro fuel
  induction fuel with
  | zero =>
    intro i r k h1 h2 h3
    exfalso
    omega
  | succ fuel ih =>
    intro i r k h1 h2 h3
    by_cases hi : i < ((r + 4095) % 2 ^ 64) / 4096
    · obtain ⟨k', rfl⟩ : ∃ k', k = k' + 1 := ⟨k - 1, by omega⟩
      obtain ⟨ws, e, hcn⟩ := ih (i + 1) (r - 4096) k' (by omega) (by omega) (by omega)
      rw [zeroLoop_step p fuel i r (r - 4096) 4096 hi (by omega) (by omega), e, Option.map_some]
      refine ⟨(p + i * 4096, zeros 4096) :: ws, ?_, ?_⟩
      · rw [Nat.succ_mul, Nat.add_comm 4096]
      · have h := Contig.cons (p := p + i * 4096) (l := zeros 4096) (c := zeros (k' * 4096))
          (ws := ws) (by
            rw [zeros_length, Nat.add_assoc, ← Nat.succ_mul]
            exact hcn)
        rw [zeros_append] at h
        rw [Nat.succ_mul, Nat.add_comm (k' * 4096)]
        exact h
    · rw [zeroLoop_stop p fuel i r hi]
      have hz : k = 0 := by omega
      subst hz
      rw [Nat.zero_mul, zeros_zero]
      exact ⟨[], rfl, Contig.nil _⟩

/-- `WriteZeroes` always returns and writes `zeroAmount` zero bytes in sequence. -/
theorem writeZeroes_spec (p c : Nat) (hc : c < 2 ^ 63) :
    ∃ ws, writeZeroes p c = ⟨ws, .ok (zeroAmount c)⟩ ∧ Contig p ws (zeros (zeroAmount c)) := by
  have hm : c % 2 ^ 64 = c := Nat.mod_eq_of_lt (by omega)
  have key : ∃ ws, zeroLoop p (c + 2) 0 c = some (ws, zeroAmount c) ∧ Contig p ws (zeros (zeroAmount c)) := by
    by_cases hb : 4096 < c
    · have ha : zeroAmount c = ((c + 4095) / 4096 + 1) / 2 * 4096 := by
        unfold zeroAmount
        rw [if_neg (by omega)]
      obtain ⟨ws, e, h⟩ := zeroLoop_big p c _ rfl hc hb (c + 2) 0 c _ (by omega) (Nat.add_zero _) (by omega)
      rw [ha]
      rw [Nat.zero_mul, Nat.add_zero] at h
      exact ⟨ws, e, h⟩
    · rw [zeroAmount_small (by omega)]
      by_cases h0 : c = 0
      · subst h0
        rw [zeroLoop_stop p 1 0 0 (by omega), zeros_zero]
        exact ⟨[], rfl, Contig.nil p⟩
      · have hcond : 0 < ((c + 4095) % 2 ^ 64) / 4096 := by omega
        rw [zeroLoop_step p (c + 1) 0 c _ c hcond rfl (by omega),
          zeroLoop_stop p c (0 + 1) _ (by omega), Option.map_some]
        refine ⟨[(p + 0 * 4096, zeros c)], rfl, ?_⟩
        rw [Nat.zero_mul]
        exact Contig.single p (zeros c)
  obtain ⟨ws, e, h⟩ := key
  refine ⟨ws, ?_, h⟩
  rw [writeZeroes, hm, e]

end Verif.Czi
