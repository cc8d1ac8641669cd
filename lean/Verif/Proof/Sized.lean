import Verif.Model.Sized
import Verif.Spec.Sized
import Verif.Proof.Jxr

/-! # Lemmas for bitmaps with the machine's integers -/

namespace Verif.Sized
open Verif Verif.Czi Verif.Blit Verif.Bitonal Verif.Flt Verif.Fill Verif.Zstd Verif.Jxr Verif.Spec

theorem toInt_small {n : Nat} (h : n < 2 ^ 31) : toInt n = n := by
  unfold toInt
  rw [Nat.mod_eq_of_lt (by omega), if_pos h]

theorem toInt_large {n : Nat} (h : 2 ^ 31 ≤ n) (h2 : n < 2 ^ 32) : toInt n = (n : Int) - 2 ^ 32 := by
  unfold toInt
  rw [Nat.mod_eq_of_lt h2, if_neg (by omega)]

theorem fits_iff (i : Int) : fits i = true ↔ -2 ^ 31 ≤ i ∧ i < 2 ^ 31 := by simp [fits]

theorem fits_false {i : Int} (h : ¬ (-2 ^ 31 ≤ i ∧ i < 2 ^ 31)) : fits i = false := by
  cases hf : fits i with
  | false => rfl
  | true => exact absurd ((fits_iff i).1 hf) h

theorem width_le {bpp w n : Nat} (hb : 0 < bpp) (h : w * bpp < n) : w < n := by
  have := Nat.le_mul_of_pos_right w hb
  omega

theorem calcPitch_small {bpp w : Nat} (hb : 0 < bpp) (h : w * bpp + 3 < 2 ^ 31) : calcPitch bpp w = some (defaultPitch bpp w) := by
  have hw : w < 2 ^ 31 := width_le hb (by omega)
  have e : (bpp : Int) * toInt w = ((w * bpp : Nat) : Int) := by rw [toInt_small hw]; push_cast; exact Int.mul_comm _ _
  have f1 : fits ((bpp : Int) * toInt w) = true := by rw [e, fits_iff]; omega
  have f2 : fits ((bpp : Int) * toInt w + 3) = true := by rw [e, fits_iff]; omega
  unfold calcPitch
  simp only [f1, f2, Bool.and_self, if_true]
  rw [e]
  unfold defaultPitch
  rw [Nat.mul_comm bpp w]
  generalize w * bpp = s at h
  congr 1
  have : ((s : Int) + 3).tdiv 4 = (((s + 3) / 4 : Nat) : Int) := by
    rw [Int.tdiv_eq_ediv_of_nonneg (by omega)]; omega
  rw [this]
  omega

theorem calcPitch_overflow {bpp w : Nat} (hw : w < 2 ^ 31) (h : 2 ^ 31 ≤ w * bpp + 3) : calcPitch bpp w = none := by
  have e : (bpp : Int) * toInt w = ((w * bpp : Nat) : Int) := by rw [toInt_small hw]; push_cast; exact Int.mul_comm _ _
  have f2 : fits ((bpp : Int) * toInt w + 3) = false := fits_false (by rw [e]; omega)
  unfold calcPitch
  simp only [f2, Bool.and_false, Bool.false_eq_true, if_false]

theorem calcPitch_negative {bpp w : Nat} (hw : 2 ^ 31 ≤ w) (hw2 : w < 2 ^ 32) (h : 2 ^ 31 < bpp * (2 ^ 32 - w)) : calcPitch bpp w = none := by
  have e : (bpp : Int) * toInt w = -((bpp * (2 ^ 32 - w) : Nat) : Int) := by
    have : (w : Int) - 2 ^ 32 = -((2 ^ 32 - w : Nat) : Int) := by omega
    rw [toInt_large hw hw2, this, Int.mul_neg, ← Int.natCast_mul]
  have f1 : fits ((bpp : Int) * toInt w) = false := fits_false (by rw [e]; omega)
  unfold calcPitch
  simp only [f1, Bool.false_and, Bool.false_eq_true, if_false]

theorem create_default {bpp w : Nat} (hb : 0 < bpp) (h : w * bpp + 3 < 2 ^ 31) (fresh : Nat → UInt8) (hgt : Nat) :
    create fresh bpp w hgt 0 = some (newBitmap fresh w hgt (defaultPitch bpp w)) := by
  unfold create
  rw [if_pos (by rfl), calcPitch_small hb h]
  rfl

theorem create_pitch {bpp w : Nat} (hb : 0 < bpp) (h : w * bpp + 3 < 2 ^ 31) (fresh : Nat → UInt8) (hgt : Nat) :
    create fresh bpp w hgt (w * bpp) = some (newBitmap fresh w hgt (w * bpp)) := by
  unfold create
  rw [Nat.mod_eq_of_lt (show w * bpp < 2 ^ 32 by omega)]
  by_cases hz : w * bpp = 0
  · have : w = 0 := by rcases Nat.mul_eq_zero.1 hz with h | h <;> omega
    subst this
    rw [if_pos hz, calcPitch_small hb h]
    simp [defaultPitch]
  · rw [if_neg hz]

theorem sizeOf_small {h s : Nat} (hh : h < 2 ^ 32) (hs : s < 2 ^ 31) : sizeOf h s = h * s := by
  unfold sizeOf
  apply Nat.mod_eq_of_lt
  calc h * s ≤ 2 ^ 32 * 2 ^ 31 := Nat.mul_le_mul (by omega) (by omega)
    _ < 2 ^ 64 := by decide

theorem decompressInto_eq (c : Codec) (d : List UInt8) (b : Buf) (cap expected : Nat) (h : cap ≤ b.size) :
    decompressInto c d b cap expected =
      match decompressOrThrow c d cap expected with
      | .error e => some (.error e)
      | .ok l => some (.ok (store b l, l.length)) := by
  unfold decompressInto decompressOrThrow
  cases c.decompress d with
  | none => rfl
  | some l =>
    dsimp only
    by_cases h1 : l.length > cap
    · rw [if_pos h1, if_pos h1]
    · rw [if_neg h1, if_neg h1, if_neg (show ¬ l.length > b.size by omega)]
      by_cases h2 : l.length ≠ expected
      · rw [if_pos h2, if_pos h2]
      · rw [if_neg h2, if_neg h2]

theorem decodeExact_eq (c : Codec) (fresh : Nat → UInt8) (d : List UInt8) {bpp w h : Nat} (hb : 0 < bpp) (hw : w * bpp + 3 < 2 ^ 31) (hh : h < 2 ^ 32) :
    decodeExact c fresh d bpp w h = Zstd.decodeExact c fresh d bpp w h := by
  unfold decodeExact Zstd.decodeExact
  simp only [sizeOf_small hh (show w * bpp < 2 ^ 31 by omega), create_pitch hb hw]
  cases c.contentSize d with
  | none => rfl
  | some n =>
    dsimp only
    split
    · rfl
    · rw [decompressInto_eq _ _ _ _ _ (by simp [newBitmap])]
      cases decompressOrThrow c d (h * (w * bpp)) n <;> rfl

theorem decodeMismatch_eq (c : Codec) (fresh : Nat → UInt8) (d : List UInt8) {bpp w h : Nat} (hb : 0 < bpp) (hw : w * bpp + 3 < 2 ^ 31) (hh : h < 2 ^ 32) :
    decodeMismatch c fresh d bpp w h = Zstd.decodeMismatch c fresh d bpp w h := by
  unfold decodeMismatch Zstd.decodeMismatch
  simp only [sizeOf_small hh (show w * bpp < 2 ^ 31 by omega), create_pitch hb hw]
  cases c.contentSize d with
  | none => rfl
  | some n =>
    dsimp only
    split
    · rw [decompressInto_eq _ _ _ _ _ (by simp [newBitmap])]
      cases decompressOrThrow c d (h * (w * bpp)) n <;> rfl
    · rfl

theorem packStrided_eq (src : Buf) {sizeSrc width height stride : Nat} (hw : width < 2 ^ 32) (hh : height < 2 ^ 31) (hs : stride < 2 ^ 32) (dst : Buf) :
    packStrided src sizeSrc width height stride dst = Zstd.packStrided src sizeSrc width height stride dst := by
  have e : checkPack sizeSrc width height stride = LoHi.checkPack sizeSrc width height stride := by
    unfold checkPack LoHi.checkPack
    rw [Nat.mod_eq_of_lt (show width * height * 2 < 2 ^ 64 from ?_)]
    calc width * height * 2 ≤ (2 ^ 32 - 1) * (2 ^ 31 - 1) * 2 := Nat.mul_le_mul (Nat.mul_le_mul (by omega) (by omega)) (by omega)
      _ < 2 ^ 64 := by decide
  unfold packStrided Zstd.packStrided
  simp only [Nat.mod_eq_of_lt hw, Nat.mod_eq_of_lt hs, e]

theorem defaultPitch_lt {bpp w : Nat} (hw : w * bpp + 3 < 2 ^ 31) : defaultPitch bpp w < 2 ^ 31 := by
  unfold defaultPitch
  rw [Nat.mul_comm bpp w]
  omega

theorem decodePackExact_eq (c : Codec) (fresh : Nat → UInt8) (d : List UInt8) {bpp w h : Nat} (hb : 0 < bpp) (hw : w * bpp + 3 < 2 ^ 31) (hh : h < 2 ^ 31) :
    decodePackExact c fresh d bpp w h = Zstd.decodePackExact c fresh d bpp w h := by
  unfold decodePackExact Zstd.decodePackExact
  simp only [sizeOf_small (show h < 2 ^ 32 by omega) (show w * bpp < 2 ^ 31 by omega), create_default hb hw, Nat.mod_eq_of_lt (show w * bpp < 2 ^ 32 by omega)]
  cases c.contentSize d with
  | none => rfl
  | some n =>
    dsimp only
    split
    · rfl
    · cases decompressOrThrow c d (h * (w * bpp)) n with
      | error e => rfl
      | ok l =>
        dsimp only
        rw [packStrided_eq _ (by omega) hh (by have := defaultPitch_lt hw; simp only [newBitmap]; omega)]

theorem decompressOrThrow_length {c : Codec} {d l : List UInt8} {cap n : Nat} (h : decompressOrThrow c d cap n = .ok l) : l.length = n := by
  unfold decompressOrThrow at h
  cases hd : c.decompress d with
  | none => rw [hd] at h; cases h
  | some l' =>
    rw [hd] at h
    dsimp only at h
    split at h
    · cases h
    · split at h
      · cases h
      · rename_i h2
        cases h
        omega

theorem decodePackMismatch_eq (c : Codec) (fresh : Nat → UInt8) (d : List UInt8) {bpp w h : Nat} (hb : 0 < bpp) (hw : w * bpp + 3 < 2 ^ 31) (hh : h < 2 ^ 31)
    (hn : ∀ n, c.contentSize d = some n → n < 2 ^ 32) :
    decodePackMismatch c fresh d bpp w h = Zstd.decodePackMismatch c fresh d bpp w h := by
  unfold decodePackMismatch Zstd.decodePackMismatch
  simp only [sizeOf_small (show h < 2 ^ 32 by omega) (show w * bpp < 2 ^ 31 by omega), create_default hb hw, create_pitch hb hw]
  cases hc : c.contentSize d with
  | none => rfl
  | some n =>
    have hn' := hn n hc
    dsimp only
    cases hl : decompressOrThrow c d n n with
    | error e => rfl
    | ok l =>
      have hlen := decompressOrThrow_length hl
      have hq : l.length / bpp < 2 ^ 32 := by have := Nat.div_le_self l.length bpp; omega
      have hq2 : w * bpp / bpp < 2 ^ 32 := by have := Nat.div_le_self (w * bpp) bpp; omega
      dsimp only
      rw [packStrided_eq _ hq2 hh (by have := defaultPitch_lt hw; simp only [newBitmap]; omega)]
      rw [packStrided_eq _ hq (by omega) hn', packStrided_eq _ hq (by omega) hn']
      split
      · rfl
      · split
        · cases Zstd.packStrided (Buf.ofList l) n (l.length / bpp) 1 n (newBitmap fresh w h (w * bpp)).buf with
          | none => rfl
          | some r => cases r <;> rfl
        · cases Zstd.packStrided (Buf.ofList l) n (l.length / bpp) 1 n ⟨n, fresh⟩ with
          | none => rfl
          | some r => cases r <;> rfl

theorem bytesPerPel_pos {pt : PixelType} {bpp : Nat} (h : bytesPerPel pt = some bpp) : 0 < bpp ∧ bpp ≤ 24 := by
  cases pt <;> simp only [bytesPerPel, Option.some.injEq, reduceCtorEq] at h <;> subst h <;> decide

theorem decode0_eq (c : Codec) (fresh : Nat → UInt8) (d : List UInt8) (pt : PixelType) (w h : Nat) (on : Bool) (hs : SmallSize pt w h) :
    decode0 c fresh d pt w h on = Zstd.decode0 c fresh d pt w h on := by
  unfold decode0 Zstd.decode0
  obtain ⟨hh, hw⟩ := hs
  cases hb : bytesPerPel pt with
  | none => rfl
  | some bpp =>
    have hp := (bytesPerPel_pos hb).1
    simp only [decodeMismatch_eq c fresh d hp (hw bpp hb) (show h < 2 ^ 32 by omega), decodeExact_eq c fresh d hp (hw bpp hb) (show h < 2 ^ 32 by omega)]

theorem decode1_eq (c : Codec) (fresh : Nat → UInt8) (d : List UInt8) (pt : PixelType) (w h : Nat) (on : Bool) (hs : SmallSize pt w h)
    (hd : ∀ k n, parseHeader d = some (k, true) → c.contentSize (d.drop k) = some n → n < 2 ^ 32) :
    decode1 c fresh d pt w h on = Zstd.decode1 c fresh d pt w h on := by
  unfold decode1 Zstd.decode1
  obtain ⟨hh, hw⟩ := hs
  cases hp : parseHeader d with
  | none => rfl
  | some p =>
    obtain ⟨k, packing⟩ := p
    dsimp only
    cases hb : bytesPerPel pt with
    | none => rfl
    | some bpp =>
      have hp0 := (bytesPerPel_pos hb).1
      have hw' := hw bpp hb
      dsimp only
      rw [decodeMismatch_eq c fresh _ hp0 hw' (show h < 2 ^ 32 by omega), decodeExact_eq c fresh _ hp0 hw' (show h < 2 ^ 32 by omega),
        decodePackExact_eq c fresh _ hp0 hw' hh]
      cases packing with
      | false => rfl
      | true => rw [decodePackMismatch_eq c fresh _ hp0 hw' hh (fun n hn => hd k n hp hn)]

theorem uncompressed_eq (fresh : Nat → UInt8) (d : List UInt8) (pt : PixelType) (w h : Nat) (on : Bool) (hs : SmallSize pt w h) :
    uncompressed fresh d pt w h on = Zstd.uncompressed fresh d pt w h on := by
  unfold uncompressed Zstd.uncompressed
  obtain ⟨hh, hw⟩ := hs
  cases hb : bytesPerPel pt with
  | none => rfl
  | some bpp =>
    have hw' := hw bpp hb
    simp only [Nat.mod_eq_of_lt (show w * bpp < 2 ^ 32 by omega), create_default (bytesPerPel_pos hb).1 hw']
    split
    · rfl
    · split
      · rfl
      · rfl

theorem formatBytes_eq (f : Format) : bytesPerPel (typeOf f) = some (formatBytes f) := by cases f <;> rfl

theorem decodeJxr_eq (lib : Lib) (fresh : Nat → UInt8) (d : List UInt8) (e : Expected)
    (hs : ∀ f w h, lib.header d = some (f, w, h) → e.meets f w h = true → SmallSize (typeOf f) w h) : decodeJxr lib fresh d e = Jxr.decode lib fresh d e := by
  unfold decodeJxr Jxr.decode
  cases hh : lib.header d with
  | none => rfl
  | some p =>
    obtain ⟨f, w, h⟩ := p
    dsimp only
    by_cases hm : e.meets f w h = false
    · rw [if_pos hm, if_pos hm]
    · rw [if_neg hm, if_neg hm]
      have := (hs f w h hh (by simpa using hm)).2 _ (formatBytes_eq f)
      rw [create_default (formatBytes_pos f) this]
      dsimp only
      cases lib.pixels d with
      | none => rfl
      | some px =>
        dsimp only
        cases writePixels (formatBytes f) px (newBitmap fresh w h (defaultPitch (formatBytes f) w)) with
        | none => rfl
        | some b =>
          dsimp only
          split
          · cases swapChannels { newBitmap fresh w h (defaultPitch (formatBytes f) w) with buf := b } <;> rfl
          · rfl

theorem createJxr_eq (lib : Lib) (enc : Fl → Nat → UInt8) (fresh fresh2 : Nat → UInt8) (d : List UInt8) (pt : PixelType) (w h : Nat) (on : Bool)
    (hs : SmallSize pt w h) (hi : ∀ f w h, lib.header d = some (f, w, h) → SmallSize (typeOf f) w h) :
    createJxr lib enc fresh fresh2 d pt w h on = Jxr.createJxr lib enc fresh fresh2 d pt w h on := by
  unfold createJxr Jxr.createJxr
  rw [decodeJxr_eq lib fresh d _ (fun f w h hd _ => hi f w h hd), decodeJxr_eq lib fresh d _ (fun f w h hd _ => hi f w h hd)]
  split
  · rfl
  · cases Jxr.decode lib fresh d ⟨none, none, none⟩ with
    | throws => rfl
    | aborts => rfl
    | undefined => rfl
    | ok t =>
      dsimp only
      split
      · rfl
      · cases hb : bytesPerPel pt with
        | none => rfl
        | some bpp =>
          dsimp only
          rw [create_default (bytesPerPel_pos hb).1 (hs.2 bpp hb)]
          dsimp only
          cases fill enc pt (newBitmap fresh2 w h (defaultPitch bpp w)) ⟨.num 0, .num 0, .num 0⟩ with
          | throws => rfl
          | undefined => rfl
          | ok adjusted =>
            dsimp only
            cases copyAt (fun q => enc (.num q)) t.pt pt t.bm adjusted none 0 0 <;> rfl

/-! ## Sizes that are too large -/

theorem calcPitch_none_iff {bpp w : Nat} (hw : w < 2 ^ 32) :
    calcPitch bpp w = none ↔ (w < 2 ^ 31 ∧ 2 ^ 31 ≤ w * bpp + 3) ∨ (2 ^ 31 ≤ w ∧ 2 ^ 31 < bpp * (2 ^ 32 - w)) := by
  constructor
  · intro hn
    unfold calcPitch at hn
    dsimp only at hn
    split at hn
    · cases hn
    · rename_i hf
      by_cases h31 : w < 2 ^ 31
      · refine .inl ⟨h31, ?_⟩
        rw [toInt_small h31, ← Int.natCast_mul, Nat.mul_comm] at hf
        by_cases hlt : 2 ^ 31 ≤ w * bpp + 3
        · exact hlt
        · refine absurd ?_ hf
          rw [(fits_iff _).2 (by omega), (fits_iff _).2 (by omega)]
          rfl
      · refine .inr ⟨by omega, ?_⟩
        have e : (w : Int) - 2 ^ 32 = -((2 ^ 32 - w : Nat) : Int) := by omega
        rw [toInt_large (by omega) hw, e, Int.mul_neg, ← Int.natCast_mul] at hf
        generalize bpp * (2 ^ 32 - w) = k at hf
        by_cases hlt : 2 ^ 31 < k
        · exact hlt
        · refine absurd ?_ hf
          rw [(fits_iff _).2 (by omega), (fits_iff _).2 (by omega)]
          rfl
  · rintro (⟨h1, h2⟩ | ⟨h1, h2⟩)
    · exact calcPitch_overflow h1 h2
    · exact calcPitch_negative h1 hw h2

/-- The default stride for a width that is negative as an `int`. -/
theorem calcPitch_wrapped {bpp w : Nat} (hw : 2 ^ 31 ≤ w) (hw2 : w < 2 ^ 32) (h : bpp * (2 ^ 32 - w) ≤ 2 ^ 31) :
    calcPitch bpp w = some (((-(((bpp * (2 ^ 32 - w) - 3) / 4 * 4 : Nat) : Int)) % 2 ^ 32).toNat) := by
  have e : (w : Int) - 2 ^ 32 = -((2 ^ 32 - w : Nat) : Int) := by omega
  unfold calcPitch
  rw [toInt_large hw hw2, e, Int.mul_neg, ← Int.natCast_mul]
  generalize bpp * (2 ^ 32 - w) = k at h
  dsimp only
  rw [(fits_iff _).2 (by omega), (fits_iff _).2 (by omega)]
  simp only [Bool.and_self, if_true, Option.some.injEq]
  have : (-(k : Int) + 3).tdiv 4 * 4 = -(((k - 3) / 4 * 4 : Nat) : Int) := by
    by_cases h3 : k ≤ 3
    · rw [Int.tdiv_eq_ediv_of_nonneg (by omega)]; omega
    · have : (-(k : Int) + 3) = -((k - 3 : Nat) : Int) := by omega
      rw [this, Int.neg_tdiv, Int.tdiv_eq_ediv_of_nonneg (by omega)]
      omega
  rw [this]

theorem calcPitch_wide {bpp w : Nat} (hb : 0 < bpp) (hw : w < 2 ^ 32) (h : 2 ^ 32 ≤ w * bpp) (hm : w * bpp % 2 ^ 32 = 0) : calcPitch bpp w = none := by
  rw [calcPitch_none_iff hw]
  by_cases h31 : w < 2 ^ 31
  · exact .inl ⟨h31, by omega⟩
  · refine .inr ⟨by omega, ?_⟩
    have e : bpp * (2 ^ 32 - w) + w * bpp = bpp * 2 ^ 32 := by
      rw [Nat.mul_comm w bpp, ← Nat.mul_add]; congr 1; omega
    have hp : 0 < bpp * (2 ^ 32 - w) := Nat.mul_pos hb (by omega)
    generalize bpp * (2 ^ 32 - w) = k at e hp ⊢
    generalize w * bpp = s at e h hm
    omega

/-- A bitmap with the stride of a line of 4 GiB or more: too little memory. -/
theorem create_wide {bpp w : Nat} (hb : 0 < bpp) (hw : w < 2 ^ 32) (h : 2 ^ 32 ≤ w * bpp) (fresh : Nat → UInt8) (hgt : Nat) :
    create fresh bpp w hgt (w * bpp) = none ∨
      create fresh bpp w hgt (w * bpp) = some (newBitmap fresh w hgt (w * bpp % 2 ^ 32)) := by
  unfold create
  by_cases hm : w * bpp % 2 ^ 32 = 0
  · rw [if_pos hm, calcPitch_wide hb hw h hm]; exact .inl rfl
  · rw [if_neg hm]; exact .inr rfl

theorem memset_outside {b : Buf} {o n : Nat} {v : UInt8} (h : b.size < o + n) : b.memset o v n = none := by
  unfold Buf.memset
  rw [if_neg (by omega)]

theorem memcpy_outside {b s : Buf} {o so n : Nat} (h : b.size < o + n) : b.memcpy o s so n = none := by
  unfold Buf.memcpy
  rw [if_neg (by omega)]

theorem wide_too_small {h s : Nat} (hh : 0 < h) (hs : 2 ^ 32 ≤ s) : h * (s % 2 ^ 32) + 2 ^ 32 ≤ h * s := by
  have e : s % 2 ^ 32 + 2 ^ 32 ≤ s := by omega
  calc h * (s % 2 ^ 32) + 2 ^ 32 ≤ h * (s % 2 ^ 32) + h * 2 ^ 32 := by
        have := Nat.le_mul_of_pos_left (2 ^ 32) hh; omega
    _ = h * (s % 2 ^ 32 + 2 ^ 32) := by rw [Nat.mul_add]
    _ ≤ h * s := Nat.mul_le_mul_left h e

theorem decodeMismatch_wide {c : Codec} {d l : List UInt8} (hs : c.contentSize d = some l.length) (hd : c.decompress d = some l)
    (fresh : Nat → UInt8) {bpp w h : Nat} (hb : 0 < bpp) (hw : w < 2 ^ 32) (h1 : 2 ^ 32 ≤ w * bpp) (hh : 0 < h) (hsz : h * (w * bpp) < 2 ^ 64) :
    decodeMismatch c fresh d bpp w h = none := by
  have hlt := wide_too_small hh h1
  have hso : sizeOf h (w * bpp) = h * (w * bpp) := Nat.mod_eq_of_lt hsz
  unfold decodeMismatch
  simp only [hs, hso]
  rcases create_wide hb hw h1 fresh h with e | e
  · rw [e]
  · rw [e]
    dsimp only
    by_cases hle : l.length ≤ h * (w * bpp)
    · rw [if_pos hle]
      unfold decompressInto
      rw [hd]
      dsimp only
      rw [if_neg (show ¬ l.length > h * (w * bpp) by omega)]
      by_cases hb2 : l.length > (newBitmap fresh w h (w * bpp % 2 ^ 32)).buf.size
      · rw [if_pos hb2]
      · rw [if_neg hb2, if_neg (by simp)]
        dsimp only
        rw [memset_outside (by simp only [store, newBitmap]; omega)]
        rfl
    · rw [if_neg hle, decompress_ok hd _ (Nat.le_refl _)]
      dsimp only
      rw [memcpy_outside (by simp only [newBitmap]; omega)]
      rfl

theorem decodeExact_wide {c : Codec} {d l : List UInt8} (hs : c.contentSize d = some l.length) (hd : c.decompress d = some l)
    (fresh : Nat → UInt8) {bpp w h : Nat} (hb : 0 < bpp) (hw : w < 2 ^ 32) (h1 : 2 ^ 32 ≤ w * bpp) (hh : 0 < h) (hsz : h * (w * bpp) < 2 ^ 64)
    (hl : l.length = h * (w * bpp)) : decodeExact c fresh d bpp w h = none := by
  have hlt := wide_too_small hh h1
  have hso : sizeOf h (w * bpp) = h * (w * bpp) := Nat.mod_eq_of_lt hsz
  unfold decodeExact
  simp only [hs, hso]
  rw [if_neg (show ¬ l.length ≠ h * (w * bpp) by omega)]
  rcases create_wide hb hw h1 fresh h with e | e
  · rw [e]
  · rw [e]
    dsimp only
    unfold decompressInto
    rw [hd]
    dsimp only
    rw [if_neg (show ¬ l.length > h * (w * bpp) by omega), if_pos (by simp only [newBitmap]; omega)]

theorem pixels_of_wf {bm : Bitmap} {bpp : Nat} (h : bm.WF bpp) : PixelsInMemory bm bpp := by
  intro x y j hx hy hj
  have h2 := h.2 (by omega)
  have a : y * bm.stride ≤ (bm.h - 1) * bm.stride := Nat.mul_le_mul_right _ (by omega)
  have b : x * bpp + bpp ≤ bm.w * bpp := by
    have := Nat.mul_le_mul_right bpp (show x + 1 ≤ bm.w by omega)
    rw [Nat.add_mul, Nat.one_mul] at this
    exact this
  omega

/-! ## Decoding is defined -/

theorem decode0_defined (c : Codec) (fresh : Nat → UInt8) (d : List UInt8) (pt : PixelType) (w h : Nat) (on : Bool) :
    Zstd.decode0 c fresh d pt w h on ≠ none := by
  unfold Zstd.decode0
  cases bytesPerPel pt with
  | none => simp
  | some bpp =>
    dsimp only
    split
    · unfold Zstd.decodeMismatch
      cases hc : c.contentSize d with
      | none => simp
      | some n =>
        dsimp only
        split
        · rename_i hle
          cases hl : decompressOrThrow c d (h * (w * bpp)) n with
          | error e => simp
          | ok l =>
            have := decompressOrThrow_length hl
            dsimp only
            rw [memset_eq (by simp only [store, newBitmap]; omega)]
            simp
        · cases hl : decompressOrThrow c d n n with
          | error e => simp
          | ok l =>
            have := decompressOrThrow_length hl
            dsimp only
            unfold Buf.memcpy
            rw [if_pos (by simp only [newBitmap, Buf.ofList]; omega)]
            simp
    · unfold Zstd.decodeExact
      cases c.contentSize d with
      | none => simp
      | some n =>
        dsimp only
        split
        · simp
        · cases decompressOrThrow c d (h * (w * bpp)) n <;> simp

end Verif.Sized
