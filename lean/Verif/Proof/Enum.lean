import Verif.Spec.Enum
import Mathlib.Tactic.Common

namespace Verif

/-- helper: the consolidated frame -/
def frameCons (o : Frame) : Frame → Frame
  | .Raw => .Raw
  | .Pixel => .Pixel
  | _ => chooseDefaultFrame o

/-- helper: origin of a frame in raw coordinates, as a multiple of the offset -/
def frameOff (o : Frame) (f : Frame) (off : Int) : Int := if frameCons o f = .Pixel then off else 0

theorem transformPoint_eq (o : Frame) (ox oy px py : Int) (a b : Frame) (ha : a.Usable) (hb : b.Usable) :
    transformPoint (chooseDefaultFrame o) ox oy a px py b =
      some (frameCons o b, px + frameOff o a ox - frameOff o b ox, py + frameOff o a oy - frameOff o b oy) := by
  unfold Frame.Usable at *
  cases o <;> cases a <;> cases b <;>
    simp_all [transformPoint, consolidateFrame, chooseDefaultFrame, frameCons, frameOff] <;> omega

theorem frameCons_usable (o f : Frame) : (frameCons o f).Usable ∧ frameCons o (frameCons o f) = frameCons o f := by
  unfold Frame.Usable
  cases o <;> cases f <;> decide

theorem compareBytes_vals : ∀ a b, compareBytes a b = -1 ∨ compareBytes a b = 0 ∨ compareBytes a b = 1 := by
  intro a
  induction a with
  | nil => intro b; simp [compareBytes]
  | cons x a ih =>
    intro b
    cases b with
    | nil => simp [compareBytes]
    | cons y b =>
      unfold compareBytes
      split
      · split <;> simp
      · exact ih b

theorem compareBytes_zero : ∀ a b : List UInt8, a.length = b.length → (compareBytes a b = 0 ↔ a = b) := by
  intro a
  induction a with
  | nil => intro b h; cases b with | nil => simp [compareBytes] | cons _ _ => simp at h
  | cons x a ih =>
    intro b h
    cases b with
    | nil => simp at h
    | cons y b =>
      unfold compareBytes
      by_cases hxy : x = y
      · simp [hxy]; exact ih b (by simpa using h)
      · simp [hxy]; split <;> simp

theorem compareBytes_neg : ∀ a b : List UInt8, compareBytes b a = - compareBytes a b := by
  intro a
  induction a with
  | nil => intro b; cases b <;> rfl
  | cons x a ih =>
    intro b
    cases b with
    | nil => rfl
    | cons y b =>
      unfold compareBytes
      by_cases hxy : x = y
      · simp [hxy]; exact ih b
      · rw [if_pos hxy, if_pos (Ne.symm hxy)]
        by_cases h : x < y
        · rw [if_pos h, if_neg (UInt8.lt_asymm h)]; rfl
        · have : y < x := by
            rw [UInt8.lt_iff_toNat_lt] at *
            have : x.toNat ≠ y.toNat := fun h => hxy (UInt8.toNat_inj.1 h)
            omega
          rw [if_neg h, if_pos this]

theorem compareBytes_trans : ∀ a b c : List UInt8, a.length = b.length → b.length = c.length →
    compareBytes a b ≤ 0 → compareBytes b c ≤ 0 → compareBytes a c ≤ 0 := by
  intro a
  induction a with
  | nil => intro b c _ _; simp [compareBytes]
  | cons x a ih =>
    intro b c h1 h2
    cases b with
    | nil => simp at h1
    | cons y b =>
      cases c with
      | nil => simp at h2
      | cons z c =>
        unfold compareBytes
        simp only [ne_eq, ite_not, UInt8.lt_iff_toNat_lt, ← UInt8.toNat_inj]
        intro h3 h4
        by_cases e1 : x.toNat = y.toNat <;> by_cases e2 : y.toNat = z.toNat
        · rw [if_pos (by omega)]
          rw [if_pos e1] at h3; rw [if_pos e2] at h4
          exact ih b c (by simpa using h1) (by simpa using h2) h3 h4
        · rw [if_neg e2] at h4
          rw [if_neg (by omega)]
          split at h4
          · rw [if_pos (by omega)]; omega
          · omega
        · rw [if_neg e1] at h3
          rw [if_neg (by omega)]
          split at h3
          · rw [if_pos (by omega)]; omega
          · omega
        · rw [if_neg e1] at h3; rw [if_neg e2] at h4
          split at h3
          · split at h4
            · rw [if_neg (by omega), if_pos (by omega)]; omega
            · omega
          · omega

theorem bytesNumber_lt : ∀ l : List UInt8, bytesNumber l < 256 ^ l.length
  | [] => by simp [bytesNumber]
  | b :: bs => by
    have h := bytesNumber_lt bs
    have hb := b.toNat_lt
    have : b.toNat * 256 ^ bs.length ≤ 255 * 256 ^ bs.length := Nat.mul_le_mul_right _ (by omega)
    simp only [bytesNumber, List.length_cons, Nat.pow_succ]
    omega

theorem compareBytes_number : ∀ a b : List UInt8, a.length = b.length →
    (compareBytes a b = -1 ↔ bytesNumber a < bytesNumber b)
  | [], [], _ => by simp [compareBytes, bytesNumber]
  | x :: xs, y :: ys, h => by
    have hl : xs.length = ys.length := by simpa using h
    have hx := bytesNumber_lt xs
    have hy := bytesNumber_lt ys
    simp only [compareBytes, bytesNumber, ← hl] at hy ⊢
    generalize 256 ^ xs.length = k at *
    by_cases hxy : x = y
    · subst hxy
      simp only [ne_eq, not_true_eq_false, if_false]
      rw [compareBytes_number xs ys hl]
      omega
    · simp only [ne_eq, hxy, not_false_eq_true, if_true]
      have hn : x.toNat ≠ y.toNat := fun hc => hxy (UInt8.toNat_inj.1 hc)
      by_cases hlt : x < y
      · have hlt' : x.toNat + 1 ≤ y.toNat := UInt8.lt_iff_toNat_lt.1 hlt
        have := Nat.mul_le_mul_right k hlt'
        rw [Nat.add_mul] at this
        simp only [hlt, if_true, true_iff]
        omega
      · have hlt' : y.toNat + 1 ≤ x.toNat := by
          have : ¬ x.toNat < y.toNat := fun hc => hlt (UInt8.lt_iff_toNat_lt.2 hc)
          omega
        have := Nat.mul_le_mul_right k hlt'
        rw [Nat.add_mul] at this
        simp only [hlt, if_false]
        constructor
        · intro hc; exact absurd hc (by decide)
        · intro hc; omega

end Verif
