import Verif.Proof.CApiCompose
import Verif.Props.MultiChannel

/-! # C86 - composition through the C interface -/

namespace Verif
open Verif.Lut Verif.Czi Verif.Xml Verif.Multi Verif.Helper Verif.Blit Verif.Spec Verif.CComp

/-- **C86 (the structure of a channel).** For every enabled channel of every display settings: if the structure is filled out, then the
channel info that the composition makes of it has the weight, the black and white point, the tint and the look-up table of the channel (for
the pixel type whose tables have the size that was asked for). -/
theorem C86_info {pow : ℚ → ℚ → ℚ} {rd : ℚ → ℚ} {solve : Solver} {s : Settings ℚ} {ch : Int} {v : ChannelView ℚ} {sixteen : Bool} {pt : PixelType} {i : Interop}
    (hv : s.get ch = some v) (he : v.isEnabled = true) (hpt : LutSize pt (if sixteen then 65536 else 256)) (h : fillOut pow rd solve s ch sixteen = .ok i) :
    Describes pow rd solve pt v (fromInterop i) := by
  unfold fillOut at h
  rw [hv] at h
  dsimp only at h
  unfold fillView at h
  rw [he] at h
  simp only [Bool.true_eq_false, if_false] at h
  by_cases hm : v.mode = .linear
  · rw [if_pos hm] at h
    cases h
    rw [from_plain]
    exact describes_plain hm
  · rw [if_neg hm] at h
    obtain ⟨t, ht, h⟩ := bind_ok h
    cases h
    rw [from_lut]
    exact describes_lut hm ((sizeForLut_iff _ _).2 hpt) ht

/-- **C86 (the same as with the C++ helper, enabled channels only).** For all display settings and all bitmaps: if the caller asks for the
structures of the *enabled* channels - with tables of the right sizes - and composes the bitmaps of these channels, then the result is
the one that the C++ functions give with the channel infos of the `CDisplaySettingsHelper`: the same bitmap, or failure in the
same cases. Missing for the full property: channels that are disabled (see below). -/
theorem C86_same_partial {pow : ℚ → ℚ → ℚ} {rd : ℚ → ℚ} {solve : Solver} {ptOf : Int → PixelType} {sixteen : Int → Bool} {s : Settings ℚ}
    (hs : (s.map (·.1)).Nodup) {before after : State} (h : initSettings pow rd solve ptOf before s = .ok after)
    (hr : ∀ e ∈ enabled s, e.2.mode ≠ .linear → RightSize ptOf sixteen e.1) :
    ∃ infos, Filled pow rd solve s sixteen after.active infos ∧
      ∀ (create : Nat → Nat → Bitmap) (srcOf : Int → Source) (first : Int) (rest : List Int), after.active = first :: rest →
        composed create ((after.active.map srcOf).zip infos) =
          answer (composeMultiChannel none .Bgr24 (create (srcOf first).bm.w (srcOf first).bm.h) (argsOf ((after.active.map srcOf).zip after.infos))) := by
  rw [initSettings_eq hs] at h
  obtain ⟨is, a1, a2, a3, a4⟩ := fill_of_adds hr h
  simp only [List.nil_append] at a1 a2
  have hlen : is.length = after.active.length := by rw [a2, a3, List.length_map]
  refine ⟨is, ⟨hlen, ?_⟩, ?_⟩
  · intro k ch hk
    rw [a2, List.getElem?_map] at hk
    obtain ⟨e, he, rfl⟩ := Option.map_eq_some_iff.1 hk
    obtain ⟨i, h1, h2⟩ := a4 k e he
    refine ⟨i, h1, ?_⟩
    unfold fillOut
    have hm : e ∈ s := by
      have := List.mem_of_getElem? he
      unfold enabled at this
      exact (List.mem_filter.1 this).1
    rw [get_of_mem hs e hm]
    exact h2
  · intro create srcOf first rest hf
    rw [a1]
    cases is with
    | nil => rw [hf] at hlen; simp at hlen
    | cons i is =>
      rw [hf]
      simp only [List.map_cons, List.zip_cons_cons]
      rw [compose_eq]
      simp only [List.map_cons]
      congr 3
      rw [List.zip_map_right]
      congr 1
      
/-- **C86 (bad arguments).** No channels, a missing array: `InvalidArgument`. A handle that is not valid (after any number of bitmaps):
`InvalidHandle`. No bitmap is made. -/
theorem C86_arguments (create : Nat → Nat → Bitmap) :
    (∀ count hs is, count ≤ 0 ∨ hs = none ∨ is = none → compose create count hs is = .invalidArgument) ∧
    (∀ (l : List (Source × Interop)) (n : Nat) (hs : List Handle) (is : List Interop), l.length < n →
      compose create n (some (l.map (fun p => Handle.bitmap p.1) ++ .invalid :: hs)) (some (l.map (·.2) ++ is)) = .invalidHandle) := by
  constructor
  · intro count hs is h
    unfold compose
    by_cases hc : count ≤ 0
    · rw [if_pos hc]
    · rw [if_neg hc]
      rcases h with h | rfl | rfl
      · exact absurd h hc
      · rfl
      · cases hs <;> rfl
  · intro l n hs is hn
    unfold compose
    rw [if_neg (by omega)]
    simp only [Int.toNat_natCast]
    rw [gather_invalid l n hs is [] hn]

/-- **C86 (the picture).** With equal positive weights, every colour of the picture is the sum of the contributions of the channels, saturated. -/
theorem C86_picture (create : Nat → Nat → Bitmap) (p : Source × Interop) (ps : List (Source × Interop)) (hn : (p :: ps).length ≤ 4096)
    (hwf : (create p.1.bm.w p.1.bm.h).WF 3) (h : ∀ q ∈ p :: ps, ProperChannel (create p.1.bm.w p.1.bm.h) q.1 (fromInterop q.2)) (w : ℚ) (hw : 0 < w)
    (hwq : ∀ q ∈ p :: ps, q.2.weight = some w) :
    ∃ out, composed create (p :: ps) = .ok out ∧
      IsComposition none (fun _ v a => a = v.toNat) ((p :: ps).map fun q => (q.1, fromInterop q.2)) (create p.1.bm.w p.1.bm.h) out := by
  obtain ⟨out, h1, h2⟩ := C58_compose none ((p :: ps).map fun q => (q.1, fromInterop q.2)) (create p.1.bm.w p.1.bm.h) (by simp) (by
      intro q hq
      obtain ⟨r, hr, rfl⟩ := List.mem_map.1 hq
      exact h r hr) hwf (Or.inr (Or.inl ⟨w, hw, by
      intro q hq
      obtain ⟨r, hr, rfl⟩ := List.mem_map.1 hq
      exact hwq r hr, by simpa using hn⟩))
  refine ⟨out, ?_, h2⟩
  rw [compose_eq]
  have h1' : composeMultiChannel none .Bgr24 (create p.1.bm.w p.1.bm.h) (argsOf ((p :: ps).map fun q => (q.1, fromInterop q.2))) = .ok out := h1
  rw [h1']
  rfl

/-- **C86 (disabled channels make the picture brighter, violated).** The structure of a disabled channel has the weight zero, but the
composition divides the weights by their mean over *all* channels. So if `m` of `n` channels are enabled (all with the same weight)
and the others are disabled, then what an enabled channel contributes is multiplied by `n / m` - although the display settings, and the picture
made with the C++ helper, say that disabled channels are left out. -/
theorem C86_disabled_violated (create : Nat → Nat → Bitmap) (p : Source × Interop) (ps : List (Source × Interop)) (hn : (p :: ps).length ≤ 4096)
    (hwf : (create p.1.bm.w p.1.bm.h).WF 3) (h : ∀ q ∈ p :: ps, ProperChannel (create p.1.bm.w p.1.bm.h) q.1 (fromInterop q.2)) (w : ℚ) (hw : 1 / 2 ^ 9 ≤ w)
    (hwq : ∀ q ∈ p :: ps, q.2.weight = some w ∨ q.2.weight = some 0) (hon : ∃ q ∈ p :: ps, q.2.weight = some w) (hoff : ∃ q ∈ p :: ps, q.2.weight = some 0) :
    ∃ out, composed create (p :: ps) = .ok out ∧
      IsComposition none (fun c v a => if c.weight = some w then Weighted (p :: ps).length ((p :: ps).countP fun q => q.2.weight = some w) 1 v a else a = 0)
        ((p :: ps).map fun q => (q.1, fromInterop q.2)) (create p.1.bm.w p.1.bm.h) out := by
  have hw0 : w ≠ 0 := by
    intro e; rw [e] at hw; norm_num at hw
  obtain ⟨m, hm⟩ : ∃ m, m = (p :: ps).countP fun q => q.2.weight = some w := ⟨_, rfl⟩
  have hsum := exactSum_two (p :: ps) hwq hw0
  rw [← hm] at hsum ⊢
  have hm1 : 1 ≤ m := by
    obtain ⟨q, hq, hqw⟩ := hon
    rw [hm]
    exact List.countP_pos_iff.2 ⟨q, hq, by simp [hqw]⟩
  have hm1' : (1 : ℚ) ≤ m := by exact_mod_cast hm1
  have hlen : ((p :: ps).map fun q => (q.1, fromInterop q.2)).length = (p :: ps).length := List.length_map _
  have hn' : ((p :: ps).length : ℚ) ≤ 4096 := by exact_mod_cast hn
  have hn1 : (1 : ℚ) ≤ (p :: ps).length := by
    have : 1 ≤ (p :: ps).length := by simp
    exact_mod_cast this
  have hmw : w ≤ m * w := by nlinarith
  have hmean : 1 / 2 ^ 21 ≤ m * w / (p :: ps).length := by
    rw [le_div_iff₀ (by linarith)]
    have : (1 : ℚ) / 2 ^ 21 * (p :: ps).length ≤ 1 / 2 ^ 21 * 4096 := by
      apply mul_le_mul_of_nonneg_left hn'
      norm_num
    norm_num at this hw ⊢
    linarith
  obtain ⟨out, h1, h2⟩ := C58_weighted none ((p :: ps).map fun q => (q.1, fromInterop q.2)) (create p.1.bm.w p.1.bm.h) (by
      intro q hq
      obtain ⟨r, hr, rfl⟩ := List.mem_map.1 hq
      exact h r hr) hwf (by
      intro q hq
      obtain ⟨r, hr, rfl⟩ := List.mem_map.1 hq
      rcases hwq r hr with e | e
      · exact ⟨w, e, le_trans (by norm_num) hw⟩
      · exact ⟨0, e, le_refl _⟩) (by rw [hlen]; omega) (by
      rw [hsum]
      norm_num at hw ⊢
      linarith) (by
      obtain ⟨q, hq, hq0⟩ := hoff
      refine ⟨(q.1, fromInterop q.2), List.mem_map.2 ⟨q, hq, rfl⟩, ?_⟩
      rw [hsum, hlen]
      have e : (fromInterop q.2).weight.getD 0 = 0 := by
        show q.2.weight.getD 0 = 0
        rw [hq0]; rfl
      show _ < |(fromInterop q.2).weight.getD 0 - _|
      rw [e, zero_sub, abs_neg, abs_of_nonneg (le_trans (by norm_num) hmean)]
      generalize m * w / ((p :: ps).length : ℚ) = x at hmean ⊢
      have hb : (2 * ((p :: ps).length : ℚ) + 2) / 2 ^ 24 ≤ 1 / 4 := by
        rw [div_le_iff₀ (by norm_num)]
        linarith [hn', (by norm_num : (1 / 4 : ℚ) * 2 ^ 24 = 4194304)]
      have hx : x * ((2 * ((p :: ps).length : ℚ) + 2) / 2 ^ 24) ≤ x * (1 / 4) :=
        mul_le_mul_of_nonneg_left hb (le_trans (by norm_num) hmean)
      norm_num at hmean hx ⊢
      linarith)
  rw [hsum, hlen] at h2
  refine ⟨out, ?_, composition_mono ?_ h2⟩
  · rw [compose_eq]
    have h1' : composeMultiChannel none .Bgr24 (create p.1.bm.w p.1.bm.h) (argsOf ((p :: ps).map fun q => (q.1, fromInterop q.2))) = .ok out := h1
    rw [h1']
    rfl
  · intro q hq v a hW
    obtain ⟨r, hr, rfl⟩ := List.mem_map.1 hq
    dsimp only at hW ⊢
    rcases hwq r hr with e | e
    · have e' : (fromInterop r.2).weight = some w := e
      rw [if_pos e']
      rw [e', Option.getD_some] at hW
      exact weighted_scale hw0 hW
    · have e' : (fromInterop r.2).weight = some 0 := e
      rw [if_neg (by rw [e']; intro x; exact hw0 (Option.some.inj x).symm)]
      rw [e', Option.getD_some] at hW
      exact weighted_zero hW

/-- **C86 (all channels disabled, violated).** If no channel is enabled, then the sum of the weights is zero and the weights are not used at all. The
black and the white point of a disabled channel are both zero: every grey pixel that is not zero becomes white (instead of black). -/
theorem C86_all_disabled_violated (create : Nat → Nat → Bitmap) (pow : ℚ → ℚ → ℚ) (rd : ℚ → ℚ) (solve : Solver) (v : ChannelView ℚ) (hv : v.isEnabled = false)
    (sixteen : Bool) (src : Source) (hpt : src.pt = .Gray8) (hsrc : src.bm.WF 1) (hwf : (create src.bm.w src.bm.h).WF 3)
    (hw : (create src.bm.w src.bm.h).w = src.bm.w) (hh : (create src.bm.w src.bm.h).h = src.bm.h) :
    ∃ i out, fillView pow rd solve v sixteen = .ok i ∧ composed create [(src, i)] = .ok out ∧
      ∀ x y k, x < src.bm.w → y < src.bm.h → k < 3 → src.bm.byteAt 1 x y 0 ≠ 0 → out.byteAt 3 x y k = 255 := by
  refine ⟨Interop.zero, ?_⟩
  have hprop : ProperChannel (create src.bm.w src.bm.h) src (fromInterop Interop.zero) := by
    refine ⟨Or.inl hpt, by rw [hpt]; exact hsrc, hw.symm, hh.symm, ?_, ?_, ?_⟩
    · intro hc; exact absurd rfl hc
    · intro _ _; exact ⟨le_refl _, zero_le_one, le_refl _, zero_le_one⟩
    · intro hp; rw [hpt] at hp; cases hp
  obtain ⟨out, h1, h2⟩ := C58_compose none [(src, fromInterop Interop.zero)] (create src.bm.w src.bm.h) (by simp) (by
      intro q hq
      rw [List.mem_singleton.1 hq]
      exact hprop) hwf (Or.inr (Or.inr ⟨by
      intro q hq
      rw [List.mem_singleton.1 hq]
      exact ⟨0, rfl, le_refl _⟩, by
      show (0 : ℚ) + 0 ≤ _
      norm_num, by simp⟩))
  refine ⟨out, ?_, ?_, ?_⟩
  · unfold fillView
    rw [hv]
    rfl
  · rw [compose_eq]
    have h1' : composeMultiChannel none .Bgr24 (create src.bm.w src.bm.h) (argsOf [(src, fromInterop Interop.zero)]) = .ok out := h1
    show answer (composeMultiChannel none .Bgr24 (create src.bm.w src.bm.h) (argsOf [(src, fromInterop Interop.zero)])) = _
    rw [h1']
    rfl
  · intro x y k hx hy hk hne
    obtain ⟨t, ⟨a, t', ⟨u, hu, ha⟩, ht', ht⟩, hb⟩ := h2.colours x y k (by rw [hw]; exact hx) (by rw [hh]; exact hy) hk
    have hu255 : u = 255 := by
      unfold Contributes at hu
      rw [if_neg (by intro hc; exact hc rfl), if_pos (Or.inr (by show (0 : ℚ) < 1; norm_num))] at hu
      dsimp only at hu
      rw [if_neg (by simp [fromInterop, Interop.zero])] at hu
      unfold between at hu
      have e1 : blackLevel (maxValue src.pt) (fromInterop Interop.zero).blackPoint = 0 := by
        rw [hpt]; decide +kernel
      have e2 : whiteLevel (maxValue src.pt) (fromInterop Interop.zero).whitePoint = 0 := by
        rw [hpt]; decide +kernel
      have e3 : colour src.pt (pixelOf src x y) k = (src.bm.byteAt 1 x y 0).toNat := by
        unfold pixelOf
        rw [hpt]
        rfl
      rw [e1, e2, e3] at hu
      have hpos : ¬ (src.bm.byteAt 1 x y 0).toNat ≤ 0 := by
        intro hc
        apply hne
        apply UInt8.toNat_inj.1
        show _ = 0
        omega
      rw [if_neg hpos, if_pos (Nat.zero_le _)] at hu
      unfold AlmostNearest at hu
      have hlt := u.toNat_lt
      have hge : 255 ≤ u.toNat := by
        by_contra hc
        have hle : (u.toNat : ℚ) ≤ 254 := by
          have : u.toNat ≤ 254 := by omega
          exact_mod_cast this
        have := (abs_le.1 hu).1
        norm_num at this
        linarith
      apply UInt8.toNat_inj.1
      show u.toNat = 255
      omega
    have ht0 : t' = 0 := ht'
    rw [ht0] at ht
    rw [hu255] at ha
    have ha' : a = 255 := ha
    rw [ht, ha'] at hb
    have hb' : (out.byteAt 3 x y k).toNat = 255 := by
      have : ((out.byteAt 3 x y k).toNat : Int) = min (255 + 0) 255 := hb
      omega
    exact UInt8.toNat_inj.1 hb'

/-- **C86 (a disabled channel makes the composition fail, violated).** If the bitmap of a disabled channel has an alpha channel, then the
composition fails (because of the black and white point zero), although the channel is not needed - the first channel, any other channels. -/
theorem C86_disabled_alpha_violated (create : Nat → Nat → Bitmap) (pow : ℚ → ℚ → ℚ) (rd : ℚ → ℚ) (solve : Solver) (v : ChannelView ℚ) (hv : v.isEnabled = false)
    (sixteen : Bool) (src : Source) (hpt : src.pt = .Bgra32) (ps : List (Source × Interop)) :
    ∃ i, fillView pow rd solve v sixteen = .ok i ∧ composed create ((src, i) :: ps) = .unspecifiedError := by
  refine ⟨Interop.zero, by unfold fillView; rw [hv]; rfl, ?_⟩
  rw [compose_eq]
  have hget : (fromInterop Interop.zero).getter src.pt = none := by rw [hpt]; decide +kernel
  unfold composeMultiChannel
  rw [checkArguments_argsOf _ _ _ (by simp)]
  simp only [Option.isSome_none, Bool.false_eq_true, if_false, ne_eq, not_true]
  obtain ⟨b, hb⟩ := checkSizes_some (create src.bm.w src.bm.h).w (create src.bm.w src.bm.h).h
    ((((src, Interop.zero) :: ps).map fun q => (q.1, fromInterop q.2)).map (·.1))
  rw [hb]
  cases b with
  | false => rfl
  | true =>
    dsimp only
    by_cases hl : (((src, Interop.zero) :: ps).map fun q => (q.1, fromInterop q.2)).all fun p => lutAccepted p.2 p.1.pt
    · rw [if_pos hl]
      simp only [List.map_cons]
      unfold composeChannels
      rw [hget]
      rfl
    · rw [if_neg hl]
      rfl

/-- **C86 (a channel without settings, violated).** For a channel index that the display settings do not have, a null pointer is used (there is no
error code). -/
theorem C86_unknown_channel_violated {pow : ℚ → ℚ → ℚ} {rd : ℚ → ℚ} {solve : Solver} {s : Settings ℚ} {ch : Int} (h : ∀ e ∈ s, e.1 ≠ ch) (sixteen : Bool) :
    fillOut pow rd solve s ch sixteen = .undefined := by
  unfold fillOut
  have : s.get ch = none := by
    unfold Settings.get
    rw [Option.map_eq_none_iff, List.find?_eq_none]
    intro e he
    simpa using h e he
  rw [this]

/-- **C86 (gamma without a value, violated).** An enabled channel with gamma mode and no gamma value makes the program use an uninitialised variable. -/
theorem C86_no_gamma_violated {pow : ℚ → ℚ → ℚ} {rd : ℚ → ℚ} {solve : Solver} {s : Settings ℚ} {ch : Int} {v : ChannelView ℚ} (hv : s.get ch = some v)
    (he : v.isEnabled = true) (hm : v.mode = .gamma) (hg : v.gamma = none) (sixteen : Bool) : fillOut pow rd solve s ch sixteen = .undefined := by
  unfold fillOut
  rw [hv]
  dsimp only
  unfold fillView
  rw [he, hm]
  simp only [Bool.true_eq_false, if_false, reduceCtorEq]
  unfold tableOf
  rw [hm]
  dsimp only
  rw [hg]
  rfl

/-! ### Examples -/

private def px (n : Nat) (b : UInt8) : Bitmap := ⟨1, 1, n, ⟨n, fun _ => b⟩⟩

private def newOne : Nat → Nat → Bitmap := fun w h => ⟨w, h, 3 * w, ⟨3 * w * h, fun _ => 0⟩⟩

private def viewOf (on : Bool) (m : CurveMode) : ChannelView ℚ :=
  { isEnabled := on, weight := 1, tint := none, black := 0, white := 1, mode := m, gamma := none, points := none }

private def grey (b : UInt8) : Source := ⟨.Gray8, px 1 b⟩

private theorem proper_px (b : UInt8) (on : Bool) :
    ProperChannel (newOne 1 1) (grey b) (fromInterop (if on then Interop.plain (viewOf true .linear) else Interop.zero)) := by
  refine ⟨Or.inl rfl, ⟨by simp [grey, px, pixelBytes], by simp [grey, px, pixelBytes]⟩, rfl, rfl, ?_, ?_, ?_⟩
  · cases on <;> intro hc <;> exact absurd rfl hc
  · cases on
    · intro _ _; exact ⟨le_refl _, zero_le_one, le_refl _, zero_le_one⟩
    · intro _ _; exact ⟨le_refl _, zero_le_one, zero_le_one, le_refl _⟩
  · intro hp; cases hp

/-- A case for `C86_disabled_violated`: a channel with a pixel of value 100 and a disabled channel. The C interface makes 200 of it (and 100 without the
disabled channel). -/
example (solve : Solver) (c : UInt8) :
    ∃ i j out, fillView (fun x _ => x) id solve (viewOf true .linear) false = .ok i ∧ fillView (fun x _ => x) id solve (viewOf false .linear) false = .ok j ∧
      composed newOne [(grey 100, i), (grey c, j)] = .ok out ∧ out.byteAt 3 0 0 0 = 200 := by
  obtain ⟨out, h1, h2⟩ := C86_disabled_violated newOne (grey 100, Interop.plain (viewOf true .linear)) [(grey c, Interop.zero)] (by simp)
    ⟨by decide, by decide⟩ (by
      intro q hq
      simp only [List.mem_cons, List.not_mem_nil, or_false] at hq
      rcases hq with rfl | rfl
      · exact proper_px 100 true
      · exact proper_px c false) 1 (by norm_num) (by
      intro q hq
      simp only [List.mem_cons, List.not_mem_nil, or_false] at hq
      rcases hq with rfl | rfl
      · exact Or.inl rfl
      · exact Or.inr rfl) ⟨_, List.mem_cons_self, rfl⟩ ⟨_, List.mem_cons_of_mem _ List.mem_cons_self, rfl⟩
  refine ⟨_, _, out, rfl, rfl, h1, ?_⟩
  obtain ⟨t, ⟨a, t1, ⟨u, hu, ha⟩, ⟨b, t2, ⟨u', _, hb⟩, h0, hs'⟩, hs⟩, ho⟩ := h2.colours 0 0 0 (by decide) (by decide) (by decide)
  have ht2 : t2 = 0 := h0
  have hu' : u.toNat = 100 := by
    unfold Contributes at hu
    rw [if_neg (by intro hc; exact hc rfl), if_neg (by
      intro hc
      rcases hc with hc | hc
      · exact absurd hc (lt_irrefl (0 : ℚ))
      · exact absurd hc (lt_irrefl (1 : ℚ))), if_neg (by decide), if_pos (by decide)] at hu
    exact hu
  have hb0 : b = 0 := by
    rw [if_neg (by show ¬ (some (0 : ℚ) = some 1); norm_num)] at hb
    exact hb
  have ha' : Weighted 2 (1 : Nat) 1 u a := by
    rw [if_pos (by rfl)] at ha
    have e : ((List.countP (fun q : Source × Interop => q.2.weight = some (1 : ℚ)) [(grey 100, Interop.plain (viewOf true .linear)), (grey c, Interop.zero)])) = 1 := by
      have h0 : ¬ ((0 : ℚ) = 1) := by norm_num
      simp [List.countP_cons, Interop.plain, viewOf, Interop.zero]
    rw [e] at ha
    exact ha
  unfold Weighted at ha'
  obtain ⟨_, ha'⟩ := ha'
  rw [hu'] at ha'
  norm_num at ha'
  have ha2 : a = 200 := by
    have h3 := abs_le.1 ha'
    have h4 : (a : ℚ) < 201 := by linarith [h3.2]
    have h5 : (199 : ℚ) < a := by linarith [h3.1]
    have h4' : a < 201 := by exact_mod_cast h4
    have h5' : 199 < a := by exact_mod_cast h5
    omega
  have : ((out.byteAt 3 0 0 0).toNat : Int) = min t 255 := ho
  apply UInt8.toNat_inj.1
  show (out.byteAt 3 0 0 0).toNat = 200
  omega

/-- A case for `C86_picture`: two channels. -/
example : ∃ out, composed newOne [(grey 100, Interop.plain (viewOf true .linear)), (grey 7, Interop.plain (viewOf true .linear))] = .ok out := by
  obtain ⟨out, h, _⟩ := C86_picture newOne (grey 100, Interop.plain (viewOf true .linear)) [(grey 7, Interop.plain (viewOf true .linear))] (by simp)
    ⟨by decide, by decide⟩ (by
      intro q hq
      simp only [List.mem_cons, List.not_mem_nil, or_false] at hq
      rcases hq with rfl | rfl
      · exact proper_px 100 true
      · exact proper_px 7 true) 1 (by norm_num) (by
      intro q hq
      simp only [List.mem_cons, List.not_mem_nil, or_false] at hq
      rcases hq with rfl | rfl <;> rfl)
  exact ⟨out, h⟩

/-- A case for `C86_same_partial`: a settings object with an enabled and a disabled channel. -/
example (solve : Solver) : ∃ after, initSettings (fun x _ => x) id solve (fun _ => .Gray8) ⟨[], [], []⟩ [(0, viewOf true .linear), (1, viewOf false .gamma)] = .ok after ∧
    after.active = [0] ∧ ([(0, viewOf true .linear), (1, viewOf false .gamma)].map (·.1)).Nodup := ⟨_, rfl, rfl, by decide⟩

/-- A case for `C86_info`. -/
example (solve : Solver) : fillOut (fun x _ => x) id solve [(0, viewOf true .linear), (1, viewOf false .gamma)] 0 false =
    .ok (Interop.plain (viewOf true .linear)) ∧ LutSize .Gray8 256 := ⟨rfl, Or.inl ⟨Or.inl rfl, rfl⟩⟩

/-- A case for `C86_all_disabled_violated`: a pixel of value 3. -/
example (solve : Solver) : ∃ i out, fillView (fun x _ => x) id solve (viewOf false .linear) false = .ok i ∧ composed newOne [(grey 3, i)] = .ok out ∧
    out.byteAt 3 0 0 0 = 255 := by
  obtain ⟨i, out, h1, h2, h3⟩ := C86_all_disabled_violated newOne (fun x _ => x) id solve (viewOf false .linear) rfl false (grey 3) rfl ⟨by decide, by simp [grey, px]⟩
    ⟨by decide, by decide⟩ rfl rfl
  exact ⟨i, out, h1, h2, h3 0 0 0 (by decide) (by decide) (by decide) (by decide)⟩

/-- A case for `C86_disabled_alpha_violated`. -/
example (solve : Solver) : ∃ i, fillView (fun x _ => x) id solve (viewOf false .linear) false = .ok i ∧
    composed newOne [(⟨.Bgra32, px 4 9⟩, i), (grey 100, Interop.plain (viewOf true .linear))] = .unspecifiedError :=
  C86_disabled_alpha_violated newOne _ _ _ _ rfl _ _ rfl _

/-- A case for `C86_unknown_channel_violated` and `C86_no_gamma_violated`. -/
example (solve : Solver) : fillOut (fun x _ => x) id solve [(0, viewOf true .gamma)] 5 false = .undefined ∧
    fillOut (fun x _ => x) id solve [(0, viewOf true .gamma)] 0 false = .undefined :=
  ⟨C86_unknown_channel_violated (by decide) false, C86_no_gamma_violated rfl rfl rfl rfl false⟩

/-- A case for `C86_arguments`: the second handle is not valid. -/
example : compose newOne 2 (some [.bitmap (grey 1), .invalid]) (some [Interop.zero, Interop.zero]) = .invalidHandle :=
  (C86_arguments newOne).2 [(grey 1, Interop.zero)] 2 [] [Interop.zero] (by decide)

end Verif
