import Verif.Proof.MultiMean

/-! # C58 - multi-channel composition -/

namespace Verif
open Blit Czi Spec Flt Multi

/-- **C58 (composition without weights).** If the weights are not to be used (one is negative or not a number, or all are equal, or
all are practically zero), then every colour of the result is the sum of the contributions of the channels - colour of the source,
look-up table, black and white point, tinting colour -, saturated at 255; alpha is the given value, and nothing else is
changed. Any number of channels, any sizes, all supported pixel types. -/
theorem C58_compose (alpha : Option UInt8) (l : List (Source × Channel)) (dst : Bitmap) (hne : l ≠ [])
    (h : ∀ p ∈ l, ProperChannel dst p.1 p.2) (hwf : dst.WF (if alpha.isSome then 4 else 3))
    (hw : (∃ p ∈ l, ¬ GoodWeight p.2) ∨ (∃ w > 0, (∀ p ∈ l, p.2.weight = some w) ∧ l.length ≤ 4096) ∨
      ((∀ p ∈ l, GoodWeight p.2) ∧ exactSum (l.map (·.2)) ≤ 1 / 2 ^ 24 ∧ l.length ≤ 2 ^ 20)) :
    ∃ out, composeMultiChannel alpha (if alpha.isSome then .Bgra32 else .Bgr24) dst (argsOf l) = .ok out ∧
      IsComposition alpha (fun _ v a => a = v.toNat) l dst out := by
  refine compose_ok' alpha _ l dst hne h ?_ hwf
  intro p hp
  rcases hw with ⟨q, hq, hb⟩ | ⟨w, hw0, hw, hn⟩ | ⟨hg, hs, hn⟩
  · rw [meanWeight_bad ⟨q.2, List.mem_map.mpr ⟨q, hq, rfl⟩, hb⟩]
    exact amountOk_none fun v => rfl
  · refine amountOk_equal hw0 ?_ (by simpa using hne) (by simpa using hn) (List.mem_map.mpr ⟨p, hp, rfl⟩) fun v => rfl
    intro c hc
    obtain ⟨q, hq, rfl⟩ := List.mem_map.mp hc
    exact hw q hq
  · rw [meanWeight_small (cs := l.map (·.2)) ?_ (by simpa using hn) hs]
    · exact amountOk_none fun v => rfl
    · intro c hc
      obtain ⟨q, hq, rfl⟩ := List.mem_map.mp hc
      exact hg q hq

/-- **C58 (composition with weights).** If the weights are numbers that are not negative, not all (nearly) equal, with a sum that is
not tiny, then the contribution of each channel is multiplied by its weight divided by the mean of the weights (up to the
stated error of the floating-point computation) before it is added. -/
theorem C58_weighted (alpha : Option UInt8) (l : List (Source × Channel)) (dst : Bitmap)
    (h : ∀ p ∈ l, ProperChannel dst p.1 p.2) (hwf : dst.WF (if alpha.isSome then 4 else 3))
    (hg : ∀ p ∈ l, GoodWeight p.2) (hn : l.length ≤ 2 ^ 20) (hW : 1 / 2 ^ 22 ≤ exactSum (l.map (·.2)))
    (hd : ∃ p ∈ l, 1 / 2 ^ 22 + exactSum (l.map (·.2)) / l.length * ((2 * l.length + 2) / 2 ^ 24) <
      |p.2.weight.getD 0 - exactSum (l.map (·.2)) / l.length|) :
    ∃ out, composeMultiChannel alpha (if alpha.isSome then .Bgra32 else .Bgr24) dst (argsOf l) = .ok out ∧
      IsComposition alpha (fun c v a => Weighted l.length (exactSum (l.map (·.2))) (c.weight.getD 0) v a) l dst out := by
  have hg' : ∀ c ∈ l.map (·.2), GoodWeight c := by
    intro c hc
    obtain ⟨q, hq, rfl⟩ := List.mem_map.mp hc
    exact hg q hq
  obtain ⟨q, hq, hd⟩ := hd
  have hne : l ≠ [] := by rintro rfl; simp at hq
  obtain ⟨m, hm⟩ := meanWeight_used hg' (by simpa using hn) hW
    ⟨q.2, List.mem_map.mpr ⟨q, hq, rfl⟩, by simpa only [List.length_map] using hd⟩
  refine compose_ok' alpha _ l dst hne h ?_ hwf
  intro p hp
  have := amountOk_weighted hg' (by simpa using hn) (lt_of_lt_of_le (by norm_num) hW) hm (List.mem_map.mpr ⟨p, hp, rfl⟩)
  simpa only [List.length_map] using this

section
/-- A 1x1 bitmap. -/
private def one (n : Nat) (b : UInt8) : Bitmap := ⟨1, 1, n, ⟨n, fun _ => b⟩⟩
private def chan (w : ℚ) (bp wp : ℚ) (t : Bool) : Channel := ⟨some w, t, fun i => UInt8.ofNat (100 * i), bp, wp, 0, none⟩

private theorem proper_one (b : UInt8) (w bp wp : ℚ) (t : Bool) (h : 0 ≤ bp ∧ bp ≤ 1 ∧ 0 ≤ wp ∧ wp ≤ 1) :
    ProperChannel (one 3 7) ⟨.Gray8, one 1 b⟩ (chan w bp wp t) := by
  refine ⟨by simp [Composable], ?_, rfl, rfl, by simp [chan], fun _ _ => h, by simp⟩
  simp [Bitmap.WF, one, pixelBytes]

/-- Two grey channels, tinted and not, with equal weights: the hypotheses of `C58_compose` are met. -/
example : ∃ l : List (Source × Channel), ∃ dst, l.length = 2 ∧ (∀ p ∈ l, ProperChannel dst p.1 p.2) ∧ dst.WF 3 ∧
    ∃ w > 0, ∀ p ∈ l, p.2.weight = some w := by
  refine ⟨[(⟨.Gray8, one 1 200⟩, chan (1/3) 0 1 true), (⟨.Gray8, one 1 90⟩, chan (1/3) (1/4) 1 false)], one 3 7, rfl, ?_, ?_,
    1/3, by norm_num, ?_⟩
  · intro p hp
    simp only [List.mem_cons, List.not_mem_nil, or_false] at hp
    rcases hp with rfl | rfl
    · exact proper_one _ _ _ _ _ (by norm_num)
    · exact proper_one _ _ _ _ _ (by norm_num)
  · simp [Bitmap.WF, one]
  · intro p hp
    simp only [List.mem_cons, List.not_mem_nil, or_false] at hp
    rcases hp with rfl | rfl <;> rfl

/-- Two grey channels with the weights 1 and 3: the hypotheses of `C58_weighted` are met. -/
example : ∃ l : List (Source × Channel), ∃ dst, (∀ p ∈ l, ProperChannel dst p.1 p.2) ∧ dst.WF 3 ∧
    (∀ p ∈ l, GoodWeight p.2) ∧ l.length ≤ 2 ^ 20 ∧ 1 / 2 ^ 22 ≤ exactSum (l.map (·.2)) ∧
    ∃ p ∈ l, 1 / 2 ^ 22 + exactSum (l.map (·.2)) / l.length * ((2 * l.length + 2) / 2 ^ 24) <
      |p.2.weight.getD 0 - exactSum (l.map (·.2)) / l.length| := by
  have e : exactSum [chan 1 0 1 true, chan 3 (1/4) 1 false] = 4 := by norm_num [exactSum, chan]
  refine ⟨[(⟨.Gray8, one 1 200⟩, chan 1 0 1 true), (⟨.Gray8, one 1 90⟩, chan 3 (1/4) 1 false)], one 3 7, ?_, ?_, ?_, ?_, ?_, ?_⟩
  · intro p hp
    simp only [List.mem_cons, List.not_mem_nil, or_false] at hp
    rcases hp with rfl | rfl
    · exact proper_one _ _ _ _ _ (by norm_num)
    · exact proper_one _ _ _ _ _ (by norm_num)
  · simp [Bitmap.WF, one]
  · intro p hp
    simp only [List.mem_cons, List.not_mem_nil, or_false] at hp
    rcases hp with rfl | rfl
    · exact ⟨1, rfl, by norm_num⟩
    · exact ⟨3, rfl, by norm_num⟩
  · simp
  · show _ ≤ exactSum [chan 1 0 1 true, chan 3 (1/4) 1 false]
    rw [e]; norm_num
  · refine ⟨_, List.mem_cons_self, ?_⟩
    show _ + exactSum [chan 1 0 1 true, chan 3 (1/4) 1 false] / (2 : Nat) * ((2 * (2 : Nat) + 2) / 2 ^ 24) <
      |(1 : ℚ) - exactSum [chan 1 0 1 true, chan 3 (1/4) 1 false] / (2 : Nat)|
    rw [e]
    rw [abs_of_neg] <;> norm_num
end

theorem ceil_pixel {x : ℚ} {v : Nat} (h : (v : ℚ) ≤ x) (hv : v ≤ 65535) : (v : ℚ) ≤ f32 x := by
  have := f32_mono h
  have e : f32 ((v : Int) : ℚ) = (v : Int) := f32_int v (by rw [abs_of_nonneg (by omega)]; norm_num; omega)
  push_cast at e
  rwa [e] at this

theorem floor_pixel {x : ℚ} {v : Nat} (h : x ≤ (v : ℚ)) (hv : v ≤ 65535) : f32 x ≤ (v : ℚ) := by
  have := f32_mono h
  have e : f32 ((v : Int) : ℚ) = (v : Int) := f32_int v (by rw [abs_of_nonneg (by omega)]; norm_num; omega)
  push_cast at e
  rwa [e] at this

/-- **C58 (black and white point).** The levels used for a black point `bp` and a white point `wp` are what they should be: a pixel
value of at most `bp` times the largest value is black, a pixel value of at least `wp` times the largest value is
white, and the levels differ by little more than one from these products. -/
theorem C58_levels {maxv : Nat} (hm : maxv = 255 ∨ maxv = 65535) {bp wp : ℚ} (hb : 0 ≤ bp ∧ bp ≤ 1) (hw : 0 ≤ wp ∧ wp ≤ 1) :
    (∀ v : Nat, v ≤ maxv → (v : ℚ) ≤ bp * maxv → v ≤ blackLevel maxv bp) ∧
    (∀ v : Nat, v ≤ maxv → wp * maxv ≤ v → whiteLevel maxv wp ≤ v) ∧
    |(blackLevel maxv bp : ℚ) - bp * maxv| ≤ 1 + 1 / 256 ∧ |(whiteLevel maxv wp : ℚ) - wp * maxv| ≤ 1 + 1 / 256 ∧
    (bp * maxv ≤ blackLevel maxv bp + 1 / 256) ∧ (whiteLevel maxv wp ≤ wp * maxv + 1 / 256) := by
  have hm' : maxv ≤ 65535 := by omega
  have hmq : (maxv : ℚ) ≤ 65535 := by exact_mod_cast hm'
  have hmq0 : (0 : ℚ) ≤ maxv := by positivity
  have hb1 : 0 ≤ bp * maxv ∧ bp * maxv ≤ 65535 := ⟨mul_nonneg hb.1 hmq0, by nlinarith [hb.2]⟩
  have hw1 : 0 ≤ wp * maxv ∧ wp * maxv ≤ 65535 := ⟨mul_nonneg hw.1 hmq0, by nlinarith [hw.2]⟩
  have eb := f32_err (bp * maxv)
  have ew := f32_err (wp * maxv)
  rw [abs_of_nonneg hb1.1, abs_le] at eb
  rw [abs_of_nonneg hw1.1, abs_le] at ew
  have hb2 := f32_nonneg hb1.1
  have hw2 := f32_nonneg hw1.1
  have cb : ((blackLevel maxv bp : Nat) : ℚ) = ((⌈f32 (bp * maxv)⌉ : Int) : ℚ) := by
    unfold blackLevel
    have : 0 ≤ ⌈f32 (bp * maxv)⌉ := Int.ceil_nonneg hb2
    exact_mod_cast congrArg (fun z : Int => (z : ℚ)) (Int.toNat_of_nonneg this)
  have cw : ((whiteLevel maxv wp : Nat) : ℚ) = ((⌊f32 (wp * maxv)⌋ : Int) : ℚ) := by
    unfold whiteLevel
    have : 0 ≤ ⌊f32 (wp * maxv)⌋ := Int.floor_nonneg.mpr hw2
    exact_mod_cast congrArg (fun z : Int => (z : ℚ)) (Int.toNat_of_nonneg this)
  have b1 := Int.le_ceil (f32 (bp * maxv))
  have b2 := Int.ceil_lt_add_one (f32 (bp * maxv))
  have w1 := Int.floor_le (f32 (wp * maxv))
  have w2 := Int.lt_floor_add_one (f32 (wp * maxv))
  rw [← cb] at b1 b2
  rw [← cw] at w1 w2
  norm_num at eb ew
  refine ⟨?_, ?_, ?_, ?_, ?_, ?_⟩
  · intro v hv h
    have := ceil_pixel h (by omega)
    have : (v : ℚ) ≤ blackLevel maxv bp := le_trans this b1
    exact_mod_cast this
  · intro v hv h
    have := floor_pixel h (by omega)
    have : (whiteLevel maxv wp : ℚ) ≤ v := le_trans w1 this
    exact_mod_cast this
  · rw [abs_le]; constructor <;> linarith
  · rw [abs_le]; constructor <;> linarith
  · linarith
  · linarith

/-- A case with a black and a white point between two pixel values. -/
example : blackLevel 255 (1 / 4) = 64 ∧ whiteLevel 255 (3 / 4) = 191 := by
  constructor <;> decide +kernel

theorem checkSizes_bad (w h : Nat) : ∀ l : List Source, (∃ s ∈ l, s.bm.w ≠ w ∨ s.bm.h ≠ h) → checkSizes w h (l.map some) = some false
  | [], hs => by obtain ⟨s, hs, _⟩ := hs; simp at hs
  | t :: l, hs => by
    simp only [List.map_cons, checkSizes]
    by_cases ht : t.bm.w ≠ w ∨ t.bm.h ≠ h
    · rw [if_pos ht]
    · rw [if_neg ht]
      obtain ⟨s, hs, hs'⟩ := hs
      rcases List.mem_cons.mp hs with rfl | hs
      · exact absurd hs' ht
      · exact checkSizes_bad w h l ⟨s, hs, hs'⟩

theorem checkSizes_some (w h : Nat) : ∀ l : List Source, ∃ b, checkSizes w h (l.map some) = some b
  | [] => ⟨true, rfl⟩
  | t :: l => by
    simp only [List.map_cons, checkSizes]
    split
    · exact ⟨false, rfl⟩
    · exact checkSizes_some w h l

theorem checkArguments_argsOf (destPt expected : PixelType) (dst : Bitmap) {l : List (Source × Channel)} (hne : l ≠ []) :
    checkArguments destPt expected dst (argsOf l) =
      if destPt ≠ expected then .rejected else
      match checkSizes dst.w dst.h ((l.map (·.1)).map some) with
        | none => .undefined
        | some false => .rejected
        | some true => if l.all (fun p => lutAccepted p.2 p.1.pt) then .accepted l else .rejected := by
  have hl : 0 < l.length := List.length_pos_of_ne_nil hne
  unfold checkArguments argsOf
  dsimp only
  rw [if_neg (by omega)]
  split
  · rfl
  · simp only [Int.toNat_natCast, List.length_map]
    rw [if_neg (by omega)]
    have e1 : List.take l.length (l.map fun p => some p.1) = (l.map (·.1)).map some := by
      rw [List.take_of_length_le (by simp)]
      simp
    have e2 : List.take l.length (l.map (·.2)) = l.map (·.2) := List.take_of_length_le (by simp)
    have e3 : (List.filterMap id (List.map some (l.map (·.1)))).zip (l.map (·.2)) = l := by
      rw [List.filterMap_map]
      simp only [Function.comp_def, id, List.filterMap_some]
      rw [List.zip_map']
      simp
    rw [e1, e2, e3, if_neg (by omega)]
    cases checkSizes dst.w dst.h ((l.map (·.1)).map some) with
    | none => rfl
    | some b => cases b <;> rfl

theorem checkArguments_list (destPt expected : PixelType) (dst : Bitmap) (l : List (Source × Channel))
    (h : (∃ p ∈ l, p.1.bm.w ≠ dst.w ∨ p.1.bm.h ≠ dst.h) ∨ ∃ p ∈ l, lutAccepted p.2 p.1.pt = false) :
    checkArguments destPt expected dst (argsOf l) = .rejected := by
  have hne : l ≠ [] := by
    rintro rfl
    rcases h with ⟨p, hp, _⟩ | ⟨p, hp, _⟩ <;> simp at hp
  rw [checkArguments_argsOf _ _ _ hne]
  split
  · rfl
  · rcases h with ⟨p, hp, hb⟩ | ⟨p, hp, hb⟩
    · rw [checkSizes_bad dst.w dst.h _ ⟨p.1, List.mem_map.mpr ⟨p, hp, rfl⟩, hb⟩]
    · obtain ⟨b, hbb⟩ := checkSizes_some dst.w dst.h (l.map (·.1))
      rw [hbb]
      cases b with
      | false => rfl
      | true =>
        dsimp only
        rw [if_neg]
        simp only [List.all_eq_true, not_forall]
        exact ⟨p, hp, by simp [hb]⟩

/-- **C58 (bad arguments).** No channels, a wrong pixel type of the destination, a null pointer instead of one of the arrays, a source
bitmap of another size, a look-up table that is missing or has the wrong number of entries: an exception, and the
destination is not changed. -/
theorem C58_bad_arguments (alpha : Option UInt8) (destPt : PixelType) (dst : Bitmap) :
    (∀ a : Args, a.count ≤ 0 ∨ destPt ≠ (if alpha.isSome then .Bgra32 else .Bgr24) ∨ a.sources = none ∨ a.infos = none →
      composeMultiChannel alpha destPt dst a = .throws dst) ∧
    (∀ l : List (Source × Channel),
      (∃ p ∈ l, p.1.bm.w ≠ dst.w ∨ p.1.bm.h ≠ dst.h) ∨
      (∃ p ∈ l, 0 < p.2.lutCount ∧ (p.2.lut = none ∨ p.1.pt = .Bgra32 ∨ p.2.lutCount ≠ maxValue p.1.pt + 1)) →
      composeMultiChannel alpha destPt dst (argsOf l) = .throws dst) := by
  constructor
  · intro a ha
    have : checkArguments destPt (if alpha.isSome then .Bgra32 else .Bgr24) dst a = .rejected := by
      unfold checkArguments
      generalize (if alpha.isSome = true then PixelType.Bgra32 else PixelType.Bgr24) = pt at ha ⊢
      by_cases h1 : a.count ≤ 0
      · rw [if_pos h1]
      · rw [if_neg h1]
        by_cases h2 : destPt ≠ pt
        · rw [if_pos h2]
        · rw [if_neg h2]
          rcases ha with h | h | h | h
          · exact absurd h h1
          · exact absurd h h2
          · rw [h]
          · rw [h]; cases a.sources <;> rfl
    unfold composeMultiChannel
    rw [this]
  · intro l hl
    unfold composeMultiChannel
    rw [checkArguments_list]
    rcases hl with h | ⟨p, hp, h0, h⟩
    · exact Or.inl h
    · refine Or.inr ⟨p, hp, ?_⟩
      unfold lutAccepted
      rw [if_pos h0]
      rcases h with h | h | h
      · simp [h]
      · simp [h, lutSize]
      · cases hpt : p.1.pt <;> simp only [hpt, maxValue, lutSize, Bool.and_eq_false_iff] at h ⊢ <;>
          simp at h ⊢ <;> exact Or.inr h

/-- A look-up table with 255 entries for a Gray8 bitmap. -/
example : ∃ (l : List (Source × Channel)), ∃ p ∈ l, 0 < p.2.lutCount ∧
    (p.2.lut = none ∨ p.1.pt = .Bgra32 ∨ p.2.lutCount ≠ maxValue p.1.pt + 1) :=
  ⟨[(⟨.Gray8, one 1 3⟩, ⟨none, false, fun _ => 0, 0, 1, 255, some ⟨255, fun _ => 0⟩⟩)], _, List.mem_cons_self,
    by decide, Or.inr (Or.inr (by decide))⟩

theorem composeChannels_append (alpha : Option UInt8) (mean : Option ℚ) : ∀ (l r : List (Source × Channel)) (first : Bool) (dst out : Bitmap),
    l ≠ [] → composeChannels alpha mean first l dst = .ok out →
    composeChannels alpha mean first (l ++ r) dst = composeChannels alpha mean false r out
  | [], _, _, _, _, h, _ => absurd rfl h
  | (s, c) :: l, r, first, dst, out, _, h => by
    unfold composeChannels at h
    rw [List.cons_append]
    conv => lhs; unfold composeChannels
    revert h
    cases c.getter s.pt with
    | none => simp
    | some g =>
      cases g with
      | none => simp
      | some g =>
        simp only []
        cases copyTinting (mkStore alpha first (mean.map fun m => f32 (c.weight.getD 0 / m))) g s.bm dst with
        | none => simp
        | some d =>
          simp only []
          intro h
          cases l with
          | nil =>
            simp only [composeChannels, Result.ok.injEq] at h
            rw [h]; rfl
          | cons q l => exact composeChannels_append alpha mean (q :: l) r false d out (by simp) h

/-- A channel for which the code has no implementation. -/
def UnsupportedChannel (s : Source) (c : Channel) : Prop :=
  c.lutCount = 0 ∧ (¬ Composable s.pt ∨ (s.pt = .Bgra32 ∧ (0 < c.blackPoint ∨ c.whitePoint < 1)))

theorem unsupported_getter {s : Source} {c : Channel} (h : UnsupportedChannel s c) : c.getter s.pt = none := by
  obtain ⟨h0, h⟩ := h
  have hl : c.usesLut = false := by simp [Channel.usesLut, h0]
  unfold Channel.getter
  simp only [hl, Bool.false_eq_true, if_false]
  rcases h with h | ⟨h, h2⟩
  · unfold Composable at h
    cases hp : s.pt <;> simp [hp] at h <;> (split <;> split <;> simp [tintedLevelsGetter, levelsGetter, tintedGetter, plainGetter])
  · have hv : c.usesLevels = true := by
      simp only [Channel.usesLevels, Bool.not_eq_true', Bool.and_eq_false_iff, decide_eq_false_iff_not, not_le]
      rcases h2 with h2 | h2
      · exact Or.inl h2
      · exact Or.inr (by simpa using h2)
    rw [h]
    simp only [hv, if_true]
    split <;> rfl

/-- **C58, violated: an exception with a half-composed destination.** If a channel has a pixel type that is not supported, or is a
Bgra32 bitmap with a black or white point, then the exception comes after the channels before it have been composed
into the destination. -/
theorem C58_unsupported_partial_write (alpha : Option UInt8) (l r : List (Source × Channel)) (s : Source) (c : Channel) (dst : Bitmap)
    (hne : l ≠ []) (h : ∀ p ∈ l, ProperChannel dst p.1 p.2) (hwf : dst.WF (if alpha.isSome then 4 else 3))
    (hs : s.bm.w = dst.w ∧ s.bm.h = dst.h) (hr : ∀ p ∈ r, ProperChannel dst p.1 p.2) (hu : UnsupportedChannel s c)
    (w : ℚ) (hw : 0 < w) (hw' : ∀ p ∈ l ++ (s, c) :: r, p.2.weight = some w) (hn : (l ++ (s, c) :: r).length ≤ 4096) :
    ∃ out, composeMultiChannel alpha (if alpha.isSome then .Bgra32 else .Bgr24) dst (argsOf (l ++ (s, c) :: r)) = .throws out ∧
      IsComposition alpha (fun _ v a => a = v.toNat) l dst out := by
  have hcs : ∀ c' ∈ (l ++ (s, c) :: r).map (·.2), c'.weight = some w := by
    intro c' hc
    obtain ⟨q, hq, rfl⟩ := List.mem_map.mp hc
    exact hw' q hq
  obtain ⟨out, h1, h2⟩ := channels_all alpha (meanWeight ((l ++ (s, c) :: r).map (·.2))) (fun _ v a => a = v.toNat) l dst hne
    (fun p hp => ⟨h p hp, amountOk_equal hw hcs (by simp) (by rw [List.length_map]; exact hn)
      (List.mem_map.mpr ⟨p, by simp [hp], rfl⟩) fun v => rfl⟩) hwf
  refine ⟨out, ?_, h2⟩
  have hc : ∀ pt, checkArguments pt pt dst (argsOf (l ++ (s, c) :: r)) = .accepted (l ++ (s, c) :: r) := by
    intro pt
    have hsz : ∀ p ∈ l ++ (s, c) :: r, p.1.bm.w = dst.w ∧ p.1.bm.h = dst.h := by
      intro p hp
      simp only [List.mem_append, List.mem_cons] at hp
      rcases hp with hp | rfl | hp
      · exact ⟨(h p hp).width, (h p hp).height⟩
      · exact hs
      · exact ⟨(hr p hp).width, (hr p hp).height⟩
    have hlu : ∀ p ∈ l ++ (s, c) :: r, lutAccepted p.2 p.1.pt = true := by
      intro p hp
      simp only [List.mem_append, List.mem_cons] at hp
      rcases hp with hp | rfl | hp
      · exact lutAccepted_ok (h p hp)
      · simp [lutAccepted, hu.1]
      · exact lutAccepted_ok (hr p hp)
    rw [checkArguments_argsOf _ _ _ (by simp), if_neg (by simp), checkSizes_ok dst.w dst.h _ (by
      intro s hs
      obtain ⟨q, hq, rfl⟩ := List.mem_map.mp hs
      exact hsz q hq)]
    dsimp only
    rw [if_pos]
    simp only [List.all_eq_true]
    exact hlu
  unfold composeMultiChannel
  rw [hc]
  simp only []
  rw [composeChannels_append alpha _ l ((s, c) :: r) true dst out hne h1]
  unfold composeChannels
  rw [unsupported_getter hu]

/-- A Gray32Float source is such a channel. -/
example : UnsupportedChannel ⟨.Gray32Float, one 4 0⟩ (chan 1 0 1 false) := ⟨rfl, Or.inl (by simp [Composable])⟩

/-- **C58, violated: a null pointer among the source bitmaps** is used before it is tested for. -/
theorem C58_null_source_undefined (alpha : Option UInt8) (dst : Bitmap) (pre : List Source) (rest : List (Option Source))
    (infos : List Channel) (n : Nat) (hpre : ∀ s ∈ pre, s.bm.w = dst.w ∧ s.bm.h = dst.h) (hn : pre.length < n) :
    composeMultiChannel alpha (if alpha.isSome then .Bgra32 else .Bgr24) dst
      ⟨n, some (pre.map some ++ none :: rest), some infos⟩ = .undefined := by
  have hc : ∀ (m : Nat), pre.length < m → checkSizes dst.w dst.h ((pre.map some ++ none :: rest).take m) = none := by
    clear hn
    induction pre with
    | nil =>
      intro m hm
      obtain ⟨m, rfl⟩ : ∃ k, m = k + 1 := ⟨m - 1, by simp at hm; omega⟩
      rfl
    | cons s pre ih =>
      intro m hm
      obtain ⟨m, rfl⟩ : ∃ k, m = k + 1 := ⟨m - 1, by simp at hm; omega⟩
      have := hpre s (by simp)
      simp only [List.map_cons, List.cons_append, List.take_succ_cons, checkSizes, this.1, this.2, ne_eq, not_true, or_self, if_false]
      exact ih (fun s hs => hpre s (by simp [hs])) m (by simp at hm; omega)
  unfold composeMultiChannel checkArguments
  simp only [Int.toNat_natCast]
  rw [if_neg (by omega), if_neg (by simp)]
  rw [hc n hn]
  by_cases hlen : (pre.map some ++ none :: rest).length < n
  · rw [if_pos hlen]
  · rw [if_neg hlen]

/-- **C58, violated: a negative number of table entries** is not rejected, and the table is used whatever the pointer is. -/
theorem C58_negative_lut_undefined (alpha : Option UInt8) (s : Source) (c : Channel) (r : List (Source × Channel)) (dst : Bitmap)
    (hpt : s.pt = .Gray8) (hs : s.bm.w = dst.w ∧ s.bm.h = dst.h) (hr : ∀ p ∈ r, ProperChannel dst p.1 p.2)
    (hw : 0 < dst.w) (hh : 0 < dst.h) (hc : c.lutCount < 0) (hl : c.lut = none) :
    composeMultiChannel alpha (if alpha.isSome then .Bgra32 else .Bgr24) dst (argsOf ((s, c) :: r)) = .undefined := by
  have hck : ∀ pt, checkArguments pt pt dst (argsOf ((s, c) :: r)) = .accepted ((s, c) :: r) := by
    intro pt
    have hsz : ∀ p ∈ (s, c) :: r, p.1.bm.w = dst.w ∧ p.1.bm.h = dst.h := by
      intro p hp
      simp only [List.mem_cons] at hp
      rcases hp with rfl | hp
      · exact hs
      · exact ⟨(hr p hp).width, (hr p hp).height⟩
    have hlu : ∀ p ∈ (s, c) :: r, lutAccepted p.2 p.1.pt = true := by
      intro p hp
      simp only [List.mem_cons] at hp
      rcases hp with rfl | hp
      · simp only [lutAccepted]; rw [if_neg (by omega)]
      · exact lutAccepted_ok (hr p hp)
    rw [checkArguments_argsOf _ _ _ (by simp), if_neg (by simp), checkSizes_ok dst.w dst.h _ (by
      intro s hs
      obtain ⟨q, hq, rfl⟩ := List.mem_map.mp hs
      exact hsz q hq)]
    dsimp only
    rw [if_pos]
    simp only [List.all_eq_true]
    exact hlu
  have hg : ∃ g : Getter, c.getter s.pt = some (some g) ∧ g.bpp = 1 ∧ ∀ p, g.get p = none := by
    have hu : c.usesLut = true := by simp only [Channel.usesLut, decide_eq_true_eq]; omega
    unfold Channel.getter
    simp only [hu, if_true, hpt, hl]
    cases c.enableTinting
    · exact ⟨_, rfl, rfl, fun p => rfl⟩
    · exact ⟨_, rfl, rfl, fun p => rfl⟩
  obtain ⟨g, hg1, hg2, hg3⟩ := hg
  unfold composeMultiChannel
  rw [hck]
  simp only []
  unfold composeChannels
  rw [hg1]
  have hnone : ∀ st, copyTinting st g s.bm dst = none := by
    intro st
    unfold copyTinting
    have hz : ∀ (n : Nat) (f : Nat → Buf → Option Buf) (b : Buf), 0 < n → (∀ b, f 0 b = none) → loop n f b = none := by
      intro n f b hn hf
      induction n with
      | zero => omega
      | succ n ih =>
        by_cases h0 : n = 0
        · subst h0; simp [loop, hf]
        · simp [loop, ih (by omega)]
    rw [hz _ _ _ (by omega)]
    · rfl
    · intro b
      apply hz _ _ _ (by omega)
      intro b
      simp [hg3]
  dsimp only
  rw [hnone]

/-- A channel as in `C58_negative_lut_undefined`. -/
example : ∃ c : Channel, c.lutCount < 0 ∧ c.lut = none := ⟨⟨none, false, fun _ => 0, 0, 1, -256, none⟩, by decide, rfl⟩

end Verif
