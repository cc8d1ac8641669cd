import Verif.Spec.CApiData
import Verif.Props.Document
import Verif.Props.CApi
import Verif.Proof.EditOpen

/-!
# Lemmas for attachments, metadata and pixels that cross the C interface
-/

namespace Verif
open Verif.Spec Verif.CApi Verif.Czi Verif.Blit

theorem memBytes_given {b : Buf} {n : Nat} (h : n ≤ b.size) : ∃ l, memBytes b 0 n = some l ∧ l.length = n ∧ ∀ i < n, l[i]? = some (b.get i) := by
  unfold memBytes
  rw [if_pos (by omega)]
  refine ⟨_, rfl, by simp, fun i hi => ?_⟩
  rw [List.getElem?_map, List.getElem?_range hi]
  simp

/-- Memory that is as announced is taken as it is. -/
theorem taken_valid {g : Given} (h : Valid g) : ∃ l, taken g = .ok (some l) ∧ GivenBytes g l := by
  unfold taken
  cases hp : g.ptr with
  | none =>
    rcases h with h | ⟨b, hb, _⟩
    · exact ⟨[], by simp [h], by simp [h], fun h0 => by omega⟩
    · rw [hp] at hb; cases hb
  | some b =>
    by_cases hz : g.size ≤ b.size
    · obtain ⟨l, h1, h2, h3⟩ := memBytes_given hz
      exact ⟨l, by simp only [h1], h2, fun _ => ⟨b, hp, hz, h3⟩⟩
    · rcases h with h | ⟨b', hb, hle⟩
      · omega
      · rw [hp] at hb
        injection hb with hb
        rw [hb] at hz
        omega

theorem vector16 (v : Vector UInt8 16) : guidBytes (guidOf v.toList) = v.toList := by
  have hl : v.toList.length = 16 := by simp
  generalize v.toList = l at hl
  have h1 : (field l 0 4).length = 4 := by simp [field, hl]
  have h2 : (field l 4 2).length = 2 := by simp [field, hl]
  have h3 : (field l 6 2).length = 2 := by simp [field, hl]
  have h4 : (field l 8 8).length = 8 := by simp [field, hl]
  have e1 := le_unle (field l 0 4)
  have e2 := le_unle (field l 4 2)
  have e3 := le_unle (field l 6 2)
  rw [h1] at e1
  rw [h2] at e2
  rw [h3] at e3
  have b1 := unle_lt (field l 0 4)
  have b2 := unle_lt (field l 4 2)
  have b3 := unle_lt (field l 6 2)
  rw [h1] at b1
  rw [h2] at b2
  rw [h3] at b3
  have e4 : (vecOf 8 (field l 8 8)).toList = field l 8 8 := by
    refine List.ext_getElem (by simp [h4]) fun i hi hi' => ?_
    simp [vecOf, List.getD_eq_getElem?_getD, List.getElem?_eq_getElem hi']
  unfold guidBytes guidOf
  dsimp only
  rw [e4]
  have u1 : (UInt32.ofNat (fieldNat l 0 4)).toNat = unle (field l 0 4) := by
    rw [UInt32.toNat_ofNat_of_lt' (by exact b1)]; rfl
  have u2 : (UInt16.ofNat (fieldNat l 4 2)).toNat = unle (field l 4 2) := by
    rw [UInt16.toNat_ofNat_of_lt' (by exact b2)]; rfl
  have u3 : (UInt16.ofNat (fieldNat l 6 2)).toNat = unle (field l 6 2) := by
    rw [UInt16.toNat_ofNat_of_lt' (by exact b3)]; rfl
  rw [u1, u2, u3, e1, e2, e3]
  unfold field
  rw [show List.take 4 (List.drop 0 l) = l.take 4 from by rw [List.drop_zero], ← List.take_add, ← List.take_add, ← List.take_add, List.take_of_length_le (by omega)]

theorem backUp_end (l : List UInt8) : backUp l l.length = l.length := by
  cases hn : l.length with
  | zero => rfl
  | succ n =>
    unfold backUp
    rw [if_neg]
    have : l.getD (n + 1) 0 = 0 := by rw [List.getD_eq_getElem?_getD, List.getElem?_eq_none (by omega)]; rfl
    rw [this]
    decide

/-- A text that fits is copied completely, whatever its bytes are. -/
theorem copyTruncate_fits {l : List UInt8} {dst : Buf} (hl : l.length < 254) (hd : dst.size = 255) :
    ∃ b, copyTruncate l dst 255 = some (false, b) ∧ StartsWith b (l ++ [0]) := by
  unfold copyTruncate
  rw [if_neg (by decide), if_neg (by decide)]
  dsimp only
  rw [if_pos (by omega), backUp_end]
  unfold Buf.memcpy Buf.write
  rw [if_pos (by constructor <;> simp [Buf.ofList, hd]; omega)]
  dsimp only [Option.bind_some]
  rw [if_pos (by omega)]
  refine ⟨_, by simp; rfl, ?_⟩
  intro i hi
  unfold Buf.read
  simp only [List.length_append, List.length_singleton] at hi
  dsimp only
  rw [if_pos (by omega)]
  by_cases h : i = l.length
  · subst h
    simp
  · have hlt : i < l.length := by omega
    rw [if_neg h, if_pos (by omega), List.getElem_append_left hlt]
    simp [Buf.ofList, List.getD_eq_getElem?_getD, List.getElem?_eq_getElem hlt]

theorem copyLines_holds (b : Bitmap) (line stride : Nat) (dst : Buf) (h1 : line ≤ stride) (h2 : ∀ y < b.h, y * b.stride + line ≤ b.buf.size)
    (h3 : ∀ y < b.h, y * stride + line ≤ dst.size) : ∃ d, copyLines b line stride dst = some d ∧ HoldsLines b line stride dst d := by
  unfold copyLines
  have key : ∀ n ≤ b.h, ∃ d, loop n (fun y d => d.memcpy (y * stride) b.buf (y * b.stride) line) dst = some d ∧ d.size = dst.size ∧
      (∀ y < n, ∀ k < line, d.get (y * stride + k) = b.buf.get (y * b.stride + k)) ∧
      ∀ i, (∀ y < n, ¬ (y * stride ≤ i ∧ i < y * stride + line)) → d.get i = dst.get i := by
    intro n
    induction n with
    | zero => intro _; exact ⟨dst, rfl, rfl, fun y hy => by omega, fun _ _ => rfl⟩
    | succ n ih =>
      intro hn
      obtain ⟨d, e, hs, hp, hr⟩ := ih (by omega)
      refine ⟨⟨d.size, fun i => if n * stride ≤ i ∧ i < n * stride + line then b.buf.get (n * b.stride + (i - n * stride)) else d.get i⟩, ?_, hs, ?_, ?_⟩
      · show (loop n _ dst).bind _ = _
        rw [e]
        show d.memcpy _ _ _ _ = _
        unfold Buf.memcpy
        rw [if_pos ⟨by rw [hs]; exact h3 n (by omega), h2 n (by omega)⟩]
      · intro y hy k hk
        dsimp only
        by_cases hyn : y = n
        · subst hyn
          rw [if_pos ⟨by omega, by omega⟩, Nat.add_sub_cancel_left]
        · rw [if_neg, hp y (by omega) k hk]
          intro ⟨h, _⟩
          have : (y + 1) * stride ≤ n * stride := Nat.mul_le_mul_right _ (by omega)
          rw [Nat.succ_mul] at this
          omega
      · intro i hi
        dsimp only
        rw [if_neg (hi n (by omega))]
        exact hr i fun y hy => hi y (by omega)
  obtain ⟨d, e, hs, hp, hr⟩ := key b.h (Nat.le_refl _)
  exact ⟨d, e, hs, hp, hr⟩

end Verif
