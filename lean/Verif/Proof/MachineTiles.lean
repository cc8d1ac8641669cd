import Verif.Proof.MachineCover
import Verif.Props.Accessor

/-! # The visibility check and the tile accessor with 32-bit integers -/

namespace Verif.Machine
open Blit Accessor Spec

/-! ## Areas -/

private def areaStep (q : IntRect) (area : Int) (r : IntRect) : Int :=
  if (IntRect.intersect r q).isValid then area + (IntRect.intersect r q).w * (IntRect.intersect r q).h else area

private theorem areaStep_ge (q : IntRect) (area : Int) (r : IntRect) : area ≤ areaStep q area r := by
  unfold areaStep
  split
  · rename_i h
    have hv := (isValid_iff _).1 h
    have := Int.mul_nonneg hv.1 hv.2
    omega
  · exact Int.le_refl _

private theorem areaFold_ge (q : IntRect) : ∀ (S : List IntRect) (area : Int), area ≤ S.foldl (areaStep q) area
  | [], _ => Int.le_refl _
  | r :: S, area => Int.le_trans (areaStep_ge q area r) (areaFold_ge q S _)

private theorem areaFold_machine (q : IntRect) (hq : Representable q) : ∀ (S : List IntRect) (area : Int), (∀ s ∈ S, Ends s ∧ IsInt s.w ∧ IsInt s.h) → 0 ≤ area →
    S.foldl (areaStep q) area ≤ 4611686018427387904 →
    S.foldlM (fun area r => (intersect r q).bind fun i => if i.isValid then (i64 (i.w * i.h)).bind fun p => i64 (area + p) else some area) area =
      some (S.foldl (areaStep q) area)
  | [], _, _, _, _ => rfl
  | r :: S, area, hS, h0, hM => by
    obtain ⟨h1, h2, h3⟩ := hS r (by simp)
    have hge := areaFold_ge q S (areaStep q area r)
    have hstep := areaStep_ge q area r
    rw [List.foldl_cons] at hM
    have hone : ((intersect r q).bind fun i => if i.isValid then (i64 (i.w * i.h)).bind fun p => i64 (area + p) else some area) = some (areaStep q area r) := by
      rw [intersect_ok h1 ⟨hq.2.2.2.2.2.2.1, hq.2.2.2.2.2.2.2⟩ h2 h3, Option.bind_some]
      have hle : areaStep q area r ≤ 4611686018427387904 := by omega
      unfold areaStep at hle hstep ⊢
      split
      · rename_i hv
        rw [if_pos hv] at hle hstep
        rw [i64_ok (by omega), Option.bind_some, i64_ok (by omega)]
      · rfl
    rw [List.foldlM_cons, hone, List.foldl_cons]
    exact areaFold_machine q hq S _ (fun s hs => hS s (List.mem_cons_of_mem _ hs)) (by omega) hM

private theorem area_bound {q : IntRect} (hq : Representable q) : q.w * q.h ≤ 4611686018427387904 := by
  unfold Representable IsInt at hq
  calc q.w * q.h ≤ 2147483647 * 2147483647 := Int.mul_le_mul (by omega) (by omega) (by omega) (by omega)
    _ ≤ _ := by decide

theorem calcArea_machine {F : IntRect} (hF : Representable F) {S : List IntRect} (hS : ∀ s ∈ S, InFrame F s) (hi : Inv S) {q : IntRect} (hq : Representable q) :
    calcArea S q = some (Coverage.calcArea S q) := by
  have hv : Valid q := ⟨hq.2.2.1, hq.2.2.2.1⟩
  have hv' := (isValid_iff q).2 hv
  have heq : Coverage.calcArea S q = S.foldl (areaStep q) 0 := by
    unfold Coverage.calcArea
    rw [hv', if_neg (by simp)]
    rfl
  have hle : Coverage.calcArea S q ≤ q.w * q.h := by
    rw [calcArea_eq S q hi hv, ← card_pixels hv]
    exact_mod_cast Finset.card_le_card (Finset.filter_subset _ _)
  have hb := area_bound hq
  unfold calcArea
  rw [hv', if_neg (by simp), areaFold_machine q hq S 0 (fun s hs => ends_inside hF (hS s hs)) (Int.le_refl _) (by rw [← heq]; omega), ← heq]

theorem addRectangle_machine {F : IntRect} (hF : Representable F) {S : List IntRect} (hS : ∀ s ∈ S, InFrame F s) (hi : Inv S) {r : IntRect} (hr : InFrame F r) :
    ∃ S', addRectangle S r = some S' ∧ Coverage.addRectangle S r = some S' ∧ Inv S' ∧ ∀ s ∈ S', InFrame F s := by
  obtain ⟨S', h1, h2, _⟩ := addRectangle_ok S r hi
  obtain ⟨g1, g2⟩ := addRectangleFuel_machine hF _ S r hS hr S' h1
  exact ⟨S', g1, h1, h2, g2⟩

theorem visLoop_machine {F : IntRect} (hF : Representable F) {roi : IntRect} (hroi : Representable roi) (rectOf : Nat → IntRect) :
    ∀ (n : Nat) (S : List IntRect) (c : Int) (res : List Nat), (∀ i, i < n → InFrame F (rectOf i)) → (∀ s ∈ S, InFrame F s) → Inv S →
      visLoop roi (roi.w * roi.h) rectOf n S c res = Coverage.visLoop roi rectOf n S c res
  | 0, _, _, _, _, _, _ => rfl
  | n + 1, S, c, res, hr, hS, hi => by
    obtain ⟨S', h1, h2, h3, h4⟩ := addRectangle_machine hF hS hi (hr n (by omega))
    unfold visLoop Coverage.visLoop
    rw [h1, h2, Option.bind_some, calcArea_machine hF h4 h3 hroi, Option.bind_some]
    dsimp only
    rw [visLoop_machine hF hroi rectOf n S' _ _ (fun i hi => hr i (by omega)) h4 h3,
      visLoop_machine hF hroi rectOf n S' _ _ (fun i hi => hr i (by omega)) h4 h3]

theorem checkForVisibility_machine {F : IntRect} (hF : Representable F) {roi : IntRect} (hroi : Representable roi) (n : Nat) (rectOf : Nat → IntRect)
    (hr : ∀ i, i < n → InFrame F (rectOf i)) : checkForVisibility roi n rectOf = Coverage.checkForVisibility roi n rectOf := by
  unfold checkForVisibility Coverage.checkForVisibility
  have hb := area_bound hroi
  have h0 : 0 ≤ roi.w * roi.h := Int.mul_nonneg hroi.2.2.1 hroi.2.2.2.1
  rw [i64_ok (by omega), Option.bind_some,
    visLoop_machine hF hroi rectOf n [] 0 [] hr (fun _ h => by cases h) ⟨fun _ h => (by cases h), List.Pairwise.nil⟩]

/-! ## Copying -/

/-- Size and offset of a tile that can be copied into a bitmap without overflow. -/
def CopyFits (bw bh : Nat) (dst : Bitmap) (xOff yOff : Int) : Prop :=
  IsInt bw ∧ IsInt bh ∧ IsInt dst.w ∧ IsInt dst.h ∧ IsInt xOff ∧ IsInt yOff ∧ IsInt (-xOff) ∧ IsInt (-yOff) ∧ IsInt (xOff + bw) ∧ IsInt (yOff + bh)

theorem copyWithOffset_machine {k : Kind} {src dst : Bitmap} {xOff yOff : Int} (h : CopyFits src.w src.h dst xOff yOff) :
    copyWithOffset k src dst xOff yOff = Blit.copyWithOffset k src dst xOff yOff false := by
  obtain ⟨h1, h2, h3, h4, h5, h6, h7, h8, h9, h10⟩ := h
  unfold copyWithOffset Blit.copyWithOffset
  rw [asInt_ok h1, asInt_ok h2, asInt_ok h3, asInt_ok h4,
    intersect_ok (a := ⟨xOff, yOff, src.w, src.h⟩) (b := ⟨0, 0, dst.w, dst.h⟩) ⟨h9, h10⟩ ⟨by simpa using h3, by simpa using h4⟩ h1 h2, Option.bind_some,
    i32_ok h7, i32_ok h8]
  rfl

theorem copyWithOffsetAndMask_machine {k : Kind} {src dst : Bitmap} {mask : Option Mask} {xOff yOff : Int} (h : CopyFits src.w src.h dst xOff yOff)
    (hm : ∀ m, mask = some m → IsInt m.w ∧ IsInt m.h) :
    copyWithOffsetAndMask k src dst mask xOff yOff = Blit.copyWithOffsetAndMask k src dst mask xOff yOff := by
  cases mask with
  | none => exact copyWithOffset_machine h
  | some m =>
    obtain ⟨h1, h2, h3, h4, h5, h6, h7, h8, h9, h10⟩ := h
    obtain ⟨m1, m2⟩ := hm m rfl
    have e1 : min (src.w : Int) (m.w : Int) = ((min src.w m.w : Nat) : Int) := by omega
    have e2 : min (src.h : Int) (m.h : Int) = ((min src.h m.h : Nat) : Int) := by omega
    have k1 : IsInt ((min src.w m.w : Nat) : Int) := by unfold IsInt at *; omega
    have k2 : IsInt ((min src.h m.h : Nat) : Int) := by unfold IsInt at *; omega
    have k3 : IsInt (xOff + ((min src.w m.w : Nat) : Int)) := by unfold IsInt at *; omega
    have k4 : IsInt (yOff + ((min src.h m.h : Nat) : Int)) := by unfold IsInt at *; omega
    unfold copyWithOffsetAndMask Blit.copyWithOffsetAndMask
    dsimp only
    rw [asInt_ok h1, asInt_ok h2, asInt_ok h3, asInt_ok h4, asInt_ok m1, asInt_ok m2, e1, e2,
      intersect_ok (a := ⟨xOff, yOff, (min src.w m.w : Nat), (min src.h m.h : Nat)⟩) (b := ⟨0, 0, dst.w, dst.h⟩) ⟨k3, k4⟩
        ⟨by simpa using h3, by simpa using h4⟩ k1 k2, Option.bind_some, i32_ok h7, i32_ok h8]
    rfl

private theorem map_size {o : Option Buf} {dst out : Bitmap} (h : o.map (fun b => { dst with buf := b }) = some out) : out.w = dst.w ∧ out.h = dst.h := by
  cases o with
  | none => exact absurd h (by simp)
  | some b => cases h; exact ⟨rfl, rfl⟩

theorem copy_size {k : Kind} {src dst out : Bitmap} {mask : Option Mask} {xOff yOff : Int} (h : Blit.copyWithOffsetAndMask k src dst mask xOff yOff = some out) :
    out.w = dst.w ∧ out.h = dst.h := by
  unfold Blit.copyWithOffsetAndMask Blit.copyWithOffset at h
  cases mask with
  | none =>
    dsimp only at h
    split at h
    · cases h; exact ⟨rfl, rfl⟩
    · exact map_size h
  | some m =>
    dsimp only at h
    split at h
    · cases h; exact ⟨rfl, rfl⟩
    · exact map_size h

theorem composeTiles_machine (k : Kind) (xPos yPos : Int) : ∀ (ts : List Tile) (dst : Bitmap),
    (∀ t ∈ ts, CopyFits t.bm.w t.bm.h dst (t.x - xPos) (t.y - yPos) ∧ ∀ m, t.mask = some m → IsInt m.w ∧ IsInt m.h) →
    composeTiles k xPos yPos ts dst = Blit.composeTiles k xPos yPos ts dst
  | [], _, _ => rfl
  | t :: ts, dst, h => by
    obtain ⟨h1, h2⟩ := h t (by simp)
    unfold composeTiles Blit.composeTiles composeMaskAware
    rw [i32_ok h1.2.2.2.2.1, Option.bind_some, i32_ok h1.2.2.2.2.2.1, Option.bind_some, copyWithOffsetAndMask_machine h1 h2]
    cases hc : Blit.copyWithOffsetAndMask k t.bm dst t.mask (t.x - xPos) (t.y - yPos) with
    | none => rfl
    | some out =>
      obtain ⟨s1, s2⟩ := copy_size hc
      rw [Option.bind_some, Option.bind_some]
      refine composeTiles_machine k xPos yPos ts out ?_
      intro t' ht'
      obtain ⟨g1, g2⟩ := h t' (List.mem_cons_of_mem _ ht')
      refine ⟨?_, g2⟩
      unfold CopyFits at g1 ⊢
      rw [s1, s2]
      exact g1

/-! ## Enumerating -/

theorem enumerate_machine {σ α : Type} {f : σ → Int → α → Option (Bool × σ)} {g : σ → Int → α → Bool × σ} : ∀ (l : List (Int × α)) (st : σ),
    (∀ p ∈ l, ∀ st, f st p.1 p.2 = some (g st p.1 p.2)) → enumerate f l st = some (Verif.enumerate g l st)
  | [], _, _ => rfl
  | (i, a) :: l, st, h => by
    unfold enumerate Verif.enumerate
    rw [h (i, a) (by simp) st, Option.bind_some]
    dsimp only
    split
    · rfl
    · exact enumerate_machine l _ (fun p hp => h p (List.mem_cons_of_mem _ hp))

theorem layer0SubBlocks_machine {items : List Item} {plane : Coord} {roi : IntRect} (hroi : Representable roi)
    (hi : ∀ p ∈ items, Matches (some plane) none true p.2 → Representable p.2.rect) :
    layer0SubBlocks items plane roi = some (Accessor.layer0SubBlocks items plane roi) := by
  unfold layer0SubBlocks Accessor.layer0SubBlocks enumSubset Verif.enumSubset
  refine enumerate_machine items [] ?_
  rintro ⟨i, e⟩ hp st
  dsimp only
  split
  · rename_i h0
    split
    · rename_i hc
      have hm : Matches (some plane) none true e := by
        refine ⟨?_, (fun r h => by cases h), ?_⟩
        · intro c hcc d v hd
          cases hcc
          exact (compareCoordinateFrom_iff plane e.coordinate Dim.all).1 hc d (Dim.mem_all d) v hd
        · intro _
          rcases h0 with h0 | h0
          · exact absurd h0 (by simp)
          · exact ⟨h0.1.symm, h0.2.symm⟩
      have hr := hi _ hp hm
      dsimp only at hr
      rw [Option.bind_some, if_pos rfl, if_pos rfl,
        doIntersect_ok ⟨hroi.2.2.2.2.2.2.1, hroi.2.2.2.2.2.2.2⟩ ⟨hr.2.2.2.2.2.2.1, hr.2.2.2.2.2.2.2⟩ hroi.2.2.2.2.1 hroi.2.2.2.2.2.1]
      rfl
    · rfl
  · rfl

end Verif.Machine
