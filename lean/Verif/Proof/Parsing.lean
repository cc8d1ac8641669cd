import Verif.Spec.Parse
import Verif.Proof.Entries

/-! # Lemmas on parsing the sub-block directory -/

namespace Verif

open Czi Spec

theorem u8_all {P : UInt8 → Prop} (h : ∀ i : Fin 256, P (UInt8.ofNat i.val)) (b : UInt8) : P b := by
  have := h ⟨b.toNat, b.toNat_lt⟩
  simpa using this

theorem dimKind_x (b : UInt8) : dimKind b = some .x ↔ IsX b := by
  revert b; apply u8_all; decide +kernel
theorem dimKind_y (b : UInt8) : dimKind b = some .y ↔ IsY b := by
  revert b; apply u8_all; decide +kernel
theorem dimKind_m (b : UInt8) : dimKind b = some .m ↔ IsM b := by
  revert b; apply u8_all; decide +kernel
theorem dimKind_none (b : UInt8) : dimKind b = none ↔ ¬ KnownLetter b := by
  revert b; apply u8_all
  unfold KnownLetter
  decide +kernel
theorem dimKind_other (b : UInt8) : (∃ k, dimKind b = some (.dim k)) ↔ IsOther b := by
  have key : ∀ b : UInt8, (match dimKind b with | some (.dim _) => true | _ => false) = true ↔ IsOther b := by
    apply u8_all; decide +kernel
  rw [← key b]
  cases h : dimKind b with
  | none => simp
  | some k => cases k <;> simp

/-- The first entry of a list of entries: nothing (unknown schema) or the fixed fields and dimensions of a DV entry; and the position after it. -/
def headOf (buf : List UInt8) (cur : Nat) : Except RErr (Option (Entry × List DimEntry) × Nat) := do
  let schema ← bufRead buf cur 2
  if schema = ascii "DV" then do
    let fixed ← bufRead buf (cur + 2) 30
    let count := fieldInt fixed 26 4
    let (dims, next) ← bufReadDims buf (cur + 32) count
    if count > 40 then .error .undefined
    else .ok (some (Entry.start (fieldInt fixed 0 4) (fieldNat fixed 4 8) (fieldInt fixed 16 4) (fixed.getD 20 0),
          dimEntries dims count.toNat), next)
  else if schema = ascii "DE" then do
    let _ ← bufRead buf (cur + 2) 128
    .error .logicError
  else .ok (none, cur + 2)

/-- What follows. -/
def afterHead (o : ParseOptions) (buf : List UInt8) (n : Nat) : Option (Entry × List DimEntry) × Nat → Except RErr (List Entry)
  | (none, next) => parseEntries o buf n next
  | (some (st, ds), next) => (addEntryDV o st ds).bind fun e => (parseEntries o buf n next).map (e :: ·)

theorem parseEntries_head (o : ParseOptions) (buf : List UInt8) (n cur : Nat) :
    parseEntries o buf (n + 1) cur = (headOf buf cur).bind (afterHead o buf n) := by
  conv => lhs; unfold parseEntries
  unfold headOf
  show Except.bind _ _ = Except.bind (Except.bind _ _) _
  cases bufRead buf cur 2 with
  | error e => rfl
  | ok schema =>
    simp only [Except.bind]
    by_cases h1 : schema = ascii "DV"
    · rw [if_pos h1, if_pos h1]
      show Except.bind _ _ = Except.bind (Except.bind _ _) _
      cases bufRead buf (cur + 2) 30 with
      | error e => rfl
      | ok fixed =>
        simp only [Except.bind]
        show Except.bind _ _ = Except.bind (Except.bind _ _) _
        cases bufReadDims buf (cur + 32) (fieldInt fixed 26 4) with
        | error e => rfl
        | ok r =>
          obtain ⟨dims, next⟩ := r
          simp only [Except.bind]
          by_cases h2 : fieldInt fixed 26 4 > 40
          · rw [if_pos h2, if_pos h2]
          · rw [if_neg h2, if_neg h2]
            simp only [afterHead]
            show Except.bind _ _ = Except.bind _ _
            cases addEntryDV o _ _ with
            | error e => rfl
            | ok e =>
              show Except.bind _ _ = _
              cases parseEntries o buf n next <;> rfl
    · rw [if_neg h1, if_neg h1]
      by_cases h2 : schema = ascii "DE"
      · rw [if_pos h2, if_pos h2]
        show Except.bind _ _ = Except.bind (Except.bind _ _) _
        cases bufRead buf (cur + 2) 128 <;> rfl
      · rw [if_neg h2, if_neg h2]
        rfl

theorem ascii_DV : ascii "DV" = [68, 86] := by decide

/-- `dimEntries` uses only the first bytes. -/
theorem dimEntries_take (b : List UInt8) (n m : Nat) (h : 20 * n ≤ m) : dimEntries (b.take m) n = dimEntries b n := by
  induction n generalizing b m with
  | zero => rfl
  | succ n ih =>
    unfold dimEntries
    have e1 : (b.take m).drop 20 = (b.drop 20).take (m - 20) := by rw [List.drop_take]
    rw [e1, ih (b.drop 20) (m - 20) (by omega)]
    congr 1
    have f : ∀ o k, o + k ≤ 20 → field (b.take m) o k = field b o k := by
      intro o k hk
      unfold field
      rw [List.drop_take, List.take_take, Nat.min_eq_left (by omega)]
    unfold dimEntryOf fieldInt
    rw [f _ _ (by omega), f _ _ (by omega), f _ _ (by omega)]
    congr 1
    simp only [List.getD_eq_getElem?_getD]
    rw [List.getElem?_take_of_lt (by omega)]

/-- With a valid number of dimensions the head is read as specified. -/
theorem headOf_ok (buf : List UInt8) (cur : Nat) (r : Option (Entry × List DimEntry) × Nat) (h : headOf buf cur = .ok r)
    (hc : field buf cur 2 = [68, 86] → 0 ≤ countAt buf cur ∧ countAt buf cur ≤ 40) :
    (field buf cur 2 = [68, 86] ∧ (∃ st, r = (some (st, dimsAt buf cur), cur + 32 + 20 * (countAt buf cur).toNat))) ∨
    (field buf cur 2 ≠ [68, 86] ∧ r = (none, cur + 2)) := by
  unfold headOf at h
  unfold bufRead at h
  by_cases h0 : cur + 2 ≤ buf.length
  · rw [if_pos h0] at h
    change (if field buf cur 2 = ascii "DV" then _ else _) = _ at h
    rw [ascii_DV] at h
    by_cases h1 : field buf cur 2 = [68, 86]
    · left
      obtain ⟨c0, c40⟩ := hc h1
      rw [if_pos h1] at h
      by_cases h2 : cur + 2 + 30 ≤ buf.length
      · rw [if_pos h2] at h
        have hcount : fieldInt (field buf (cur + 2) 30) 26 4 = countAt buf cur := by
          unfold countAt fieldInt
          rw [field_field (by omega)]
        change (bufReadDims buf (cur + 32) (fieldInt (field buf (cur + 2) 30) 26 4) >>= _) = _ at h
        rw [hcount] at h
        obtain ⟨k, hk⟩ := Int.eq_ofNat_of_zero_le c0
        have hk40 : k ≤ 40 := by omega
        unfold bufReadDims at h
        have hi : i32 (countAt buf cur * 20) = ((20 * k : Nat) : Int) := by
          rw [hk, show (k : Int) * 20 = ((20 * k : Nat) : Int) by omega, i32_eq (by omega)]
        rw [hi] at h
        dsimp only at h
        split at h
        · rw [if_neg (by omega)] at h
          change (if countAt buf cur > 40 then _ else _) = _ at h
          rw [if_neg (by omega)] at h
          cases h
          refine ⟨h1, Entry.start (fieldInt (field buf (cur + 2) 30) 0 4) (fieldNat (field buf (cur + 2) 30) 4 8)
            (fieldInt (field buf (cur + 2) 30) 16 4) ((field buf (cur + 2) 30).getD 20 0), ?_⟩
          have e1 : (countAt buf cur).toNat = k := by rw [hk]; rfl
          have e2 : dimEntries (field buf (cur + 32) ((20 * k : Nat) : Int).toNat) (countAt buf cur).toNat = dimsAt buf cur := by
            unfold dimsAt field
            rw [e1]
            exact dimEntries_take _ _ _ (by omega)
          rw [e2, e1]
          rfl
        · cases h
      · rw [if_neg h2] at h; cases h
    · right
      rw [if_neg h1] at h
      split at h
      · split at h <;> cases h
      · cases h; exact ⟨h1, rfl⟩
  · rw [if_neg h0] at h; cases h

theorem headOf_undefined (buf : List UInt8) (cur : Nat)
    (hc : field buf cur 2 = [68, 86] → 0 ≤ countAt buf cur ∧ countAt buf cur ≤ 40) : headOf buf cur ≠ .error .undefined := by
  intro h
  unfold headOf at h
  unfold bufRead at h
  by_cases h0 : cur + 2 ≤ buf.length
  · rw [if_pos h0] at h
    change (if field buf cur 2 = ascii "DV" then _ else _) = _ at h
    rw [ascii_DV] at h
    by_cases h1 : field buf cur 2 = [68, 86]
    · obtain ⟨c0, c40⟩ := hc h1
      rw [if_pos h1] at h
      by_cases h2 : cur + 2 + 30 ≤ buf.length
      · rw [if_pos h2] at h
        have hcount : fieldInt (field buf (cur + 2) 30) 26 4 = countAt buf cur := by
          unfold countAt fieldInt
          rw [field_field (by omega)]
        change (bufReadDims buf (cur + 32) (fieldInt (field buf (cur + 2) 30) 26 4) >>= _) = _ at h
        rw [hcount] at h
        obtain ⟨k, hk⟩ := Int.eq_ofNat_of_zero_le c0
        have hk40 : k ≤ 40 := by omega
        unfold bufReadDims at h
        have hi : i32 (countAt buf cur * 20) = ((20 * k : Nat) : Int) := by
          rw [hk, show (k : Int) * 20 = ((20 * k : Nat) : Int) by omega, i32_eq (by omega)]
        rw [hi] at h
        dsimp only at h
        split at h
        · rw [if_neg (by omega)] at h
          change (if countAt buf cur > 40 then _ else _) = _ at h
          rw [if_neg (by omega)] at h
          cases h
        · cases h
      · rw [if_neg h2] at h; cases h
    · rw [if_neg h1] at h
      split at h
      · split at h <;> cases h
      · cases h
  · rw [if_neg h0] at h; cases h

theorem dvPositions_dv (buf : List UInt8) (n cur : Nat) (h : field buf cur 2 = [68, 86]) :
    dvPositions buf (n + 1) cur = cur :: dvPositions buf n (cur + 32 + 20 * (countAt buf cur).toNat) := by
  conv => lhs; unfold dvPositions
  rw [if_pos h]

theorem dvPositions_skip (buf : List UInt8) (n cur : Nat) (h : field buf cur 2 ≠ [68, 86]) :
    dvPositions buf (n + 1) cur = dvPositions buf n (cur + 2) := by
  conv => lhs; unfold dvPositions
  rw [if_neg h]

end Verif
