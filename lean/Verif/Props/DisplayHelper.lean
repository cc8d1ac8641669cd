import Verif.Proof.DisplayHelper
import Verif.Props.Spline
import Verif.Props.Lut
import Verif.Props.MultiChannel

/-!
# C77: from display settings to a composition
-/

namespace Verif
open Verif.Lut Verif.Czi Verif.Xml Verif.Multi Verif.Spec Verif.Helper Verif.Flt

/-- **C77 (one channel info per enabled channel).** Whatever the helper contained before: when `Initialize` returns, there is exactly one channel info for each
enabled channel, in the order of the channels and with the weight, the black and white point, the tint and the look-up table of that channel; the list of
active channels names exactly these channels; and the functor was asked for the pixel type exactly of the enabled channels that need a table. -/
theorem C77_channels {pow : ℚ → ℚ → ℚ} {rd : ℚ → ℚ} {solve : Solver} {ptOf : Int → PixelType} {s : Settings ℚ} (hs : (s.map (·.1)).Nodup) {before after : State}
    (h : initSettings pow rd solve ptOf before s = .ok after) :
    DescribesAll pow rd solve ptOf (enabled s) after.infos ∧ after.active = (enabled s).map (·.1) ∧
      after.asked = ((enabled s).filter fun e => e.2.mode ≠ .linear).map (·.1) := by
  rw [initSettings_eq hs] at h
  obtain ⟨cs, ha, hb, hc, hd⟩ := addSettings_ok h
  simp only [List.nil_append] at ha hc hd
  exact ⟨by rw [ha]; exact hb, hc, hd⟩

/-- **C77 (channels from a functor).** The same for the `Initialize` that is given the channels by a functor (where an index may occur repeatedly). -/
theorem C77_functor {pow : ℚ → ℚ → ℚ} {rd : ℚ → ℚ} {solve : Solver} {ptOf : Int → PixelType} {l : List (Int × ChannelView ℚ)} {before after : State}
    (h : initFunctor pow rd solve ptOf before l = .ok after) :
    DescribesAll pow rd solve ptOf (enabled l) after.infos ∧ after.active = (enabled l).map (·.1) ∧
      after.asked = ((enabled l).filter fun e => e.2.mode ≠ .linear).map (·.1) := by
  obtain ⟨cs, ha, hb, hc, hd⟩ := addSettings_ok h
  simp only [List.nil_append] at ha hc hd
  exact ⟨by rw [ha]; exact hb, hc, hd⟩

theorem addSetting_returns {pow : ℚ → ℚ → ℚ} {rd : ℚ → ℚ} {solve : Solver} {ptOf : Int → PixelType} (st : State) {ch : Int} {v : ChannelView ℚ}
    (h : v.isEnabled = true → ∃ c, Describes pow rd solve (ptOf ch) v c) : ∃ st', addSetting pow rd solve ptOf st ch v = .ok st' := by
  unfold addSetting
  by_cases he : v.isEnabled = false
  · rw [if_pos he]; exact ⟨st, rfl⟩
  · rw [if_neg he]
    obtain ⟨c, hc⟩ := h (by simpa using he)
    by_cases hm : v.mode = .linear
    · rw [if_pos hm]; exact ⟨_, rfl⟩
    · rw [if_neg hm]
      cases hmode : v.mode with
      | linear => exact absurd hmode hm
      | gamma =>
        obtain ⟨n, g, t, b, hn, hg, ht, _⟩ := hc.gamma hmode
        rw [(sizeForLut_iff _ n).2 hn]
        dsimp only
        unfold tableOf
        rw [hmode]
        dsimp only
        rw [hg]
        dsimp only
        rw [ht]
        exact ⟨_, rfl⟩
      | spline =>
        obtain ⟨n, l, t, b, hn, hl0, hl1, ht, _⟩ := hc.spline hmode
        rw [(sizeForLut_iff _ n).2 hn]
        dsimp only
        unfold tableOf splineDataOf
        rw [hmode]
        dsimp only
        cases hp : v.points with
        | none =>
          rw [hl0 hp] at ht
          dsimp only
          change ∃ st', ((splineTable rd n v.black v.white []).bind _) = _
          rw [ht]
          exact ⟨_, rfl⟩
        | some ps =>
          dsimp only
          rw [hl1 ps hp]
          change ∃ st', ((splineTable rd n v.black v.white l).bind _) = _
          rw [ht]
          exact ⟨_, rfl⟩

theorem addSettings_returns {pow : ℚ → ℚ → ℚ} {rd : ℚ → ℚ} {solve : Solver} {ptOf : Int → PixelType} : ∀ {l : List (Int × ChannelView ℚ)} (st : State),
    (∀ e ∈ enabled l, ∃ c, Describes pow rd solve (ptOf e.1) e.2 c) → ∃ st', addSettings pow rd solve ptOf l st = .ok st'
  | [], st, _ => ⟨st, rfl⟩
  | e :: l, st, h => by
    obtain ⟨s1, h1⟩ := addSetting_returns (pow := pow) (rd := rd) (solve := solve) (ptOf := ptOf) st (ch := e.1) (v := e.2)
      (fun he => h e (by simp [enabled, he]))
    rw [addSettings, h1]
    exact addSettings_returns s1 (fun e' he' => h e' (by
      simp only [enabled, List.mem_filter] at he' ⊢
      exact ⟨List.mem_cons_of_mem _ he'.1, he'.2⟩))

/-- **C77 (success).** `Initialize` returns if (and, by `C77_channels`, only if) there is a channel info for each enabled channel: that is, if its look-up
table — where it has one — can be made (C75 says when). -/
theorem C77_returns {pow : ℚ → ℚ → ℚ} {rd : ℚ → ℚ} {solve : Solver} {ptOf : Int → PixelType} {s : Settings ℚ} (hs : (s.map (·.1)).Nodup) (before : State)
    (h : ∀ e ∈ enabled s, ∃ c, Describes pow rd solve (ptOf e.1) e.2 c) : ∃ after, initSettings pow rd solve ptOf before s = .ok after := by
  rw [initSettings_eq hs]
  exact addSettings_returns _ h

theorem addSettings_append {pow : ℚ → ℚ → ℚ} {rd : ℚ → ℚ} {solve : Solver} {ptOf : Int → PixelType} (r : List (Int × ChannelView ℚ)) :
    ∀ (l : List (Int × ChannelView ℚ)) (st : State), addSettings pow rd solve ptOf (l ++ r) st = (addSettings pow rd solve ptOf l st).bind (addSettings pow rd solve ptOf r)
  | [], _ => rfl
  | e :: l, st => by
    rw [List.cons_append, addSettings, addSettings]
    cases addSetting pow rd solve ptOf st e.1 e.2 with
    | ok a => exact addSettings_append r l a
    | throws => rfl
    | undefined => rfl

/-- **C77 (pixel types without a table).** If a channel with a gamma value or a spline has a pixel type for which there are no look-up tables, `Initialize`
throws (the channels before it being in order). -/
theorem C77_unsupported {pow : ℚ → ℚ → ℚ} {rd : ℚ → ℚ} {solve : Solver} {ptOf : Int → PixelType} {pre post : Settings ℚ} {ch : Int} {v : ChannelView ℚ}
    (hs : ((pre ++ (ch, v) :: post).map (·.1)).Nodup) (before : State) (h : ∀ e ∈ enabled pre, ∃ c, Describes pow rd solve (ptOf e.1) e.2 c)
    (he : v.isEnabled = true) (hm : v.mode ≠ .linear) (hpt : ∀ n, ¬ LutSize (ptOf ch) n) :
    initSettings pow rd solve ptOf before (pre ++ (ch, v) :: post) = .throws := by
  rw [initSettings_eq hs, addSettings_append]
  obtain ⟨s1, h1⟩ := addSettings_returns (st := ⟨[], [], []⟩) h
  rw [h1]
  change addSettings pow rd solve ptOf ((ch, v) :: post) s1 = _
  have hno : sizeForLut (ptOf ch) = none := by
    cases hz : sizeForLut (ptOf ch) with
    | none => rfl
    | some n => exact absurd ((sizeForLut_iff _ n).1 hz) (hpt n)
  rw [addSettings, addSetting, if_neg (by simp [he]), if_neg hm, hno]
  rfl

/-- **C77 (gamma without a value, violated).** A channel with gamma mode and no gamma value makes the program use an uninitialised variable. -/
theorem C77_no_gamma_violated {pow : ℚ → ℚ → ℚ} {rd : ℚ → ℚ} {solve : Solver} {ptOf : Int → PixelType} {pre post : Settings ℚ} {ch : Int} {v : ChannelView ℚ}
    (hs : ((pre ++ (ch, v) :: post).map (·.1)).Nodup) (before : State) (h : ∀ e ∈ enabled pre, ∃ c, Describes pow rd solve (ptOf e.1) e.2 c)
    (he : v.isEnabled = true) (hm : v.mode = .gamma) (hg : v.gamma = none) {n : Nat} (hpt : LutSize (ptOf ch) n) :
    initSettings pow rd solve ptOf before (pre ++ (ch, v) :: post) = .undefined := by
  rw [initSettings_eq hs, addSettings_append]
  obtain ⟨s1, h1⟩ := addSettings_returns (st := ⟨[], [], []⟩) h
  rw [h1]
  change addSettings pow rd solve ptOf ((ch, v) :: post) s1 = _
  rw [addSettings, addSetting, if_neg (by simp [he]), if_neg (by simp [hm]), (sizeForLut_iff _ n).2 hpt]
  dsimp only
  unfold tableOf
  rw [hm]
  dsimp only
  rw [hg]
  rfl

theorem enumEnabled_eq {σ : Type} (f : σ → Int → Bool × σ) {s : Settings ℚ} : ∀ (l : List (Int × ChannelView ℚ)) (a : σ), (∀ e ∈ l, s.get e.1 = some e.2) →
    enumEnabled f s (l.map (·.1)) a = .ok (visit f ((enabled l).map (·.1)) a)
  | [], _, _ => rfl
  | e :: l, a, h => by
    have ih := fun a => enumEnabled_eq f l a (fun e' he' => h e' (by simp [he']))
    rw [List.map_cons, enumEnabled, h e (by simp)]
    dsimp only
    by_cases he : e.2.isEnabled = true
    · have : enabled (e :: l) = e :: enabled l := by simp [enabled, he]
      rw [if_pos he, this, List.map_cons, visit]
      split
      · exact ih _
      · rfl
    · have : enabled (e :: l) = enabled l := by simp [enabled, he]
      rw [if_neg he, this]
      exact ih a

/-- **C77 (enumeration).** The functor is called for exactly the enabled channels, in order, until it returns `false`. -/
theorem C77_enumerate {σ : Type} (f : σ → Int → Bool × σ) {s : Settings ℚ} (hs : (s.map (·.1)).Nodup) (a : σ) :
    enumEnabled f s (s.map (·.1)) a = .ok (visit f ((enabled s).map (·.1)) a) :=
  enumEnabled_eq f s a (get_of_mem hs)

theorem visit_collect : ∀ (l a : List Int), visit (fun a ch => (true, a ++ [ch])) l a = a ++ l
  | [], a => by simp [visit]
  | x :: l, a => by
    rw [visit, if_pos rfl, visit_collect l]
    simp

/-- **C77 (active channels).** The static function and the member function name the same channels. -/
theorem C77_active {pow : ℚ → ℚ → ℚ} {rd : ℚ → ℚ} {solve : Solver} {ptOf : Int → PixelType} {s : Settings ℚ} (hs : (s.map (·.1)).Nodup) :
    activeChannels s = .ok ((enabled s).map (·.1)) ∧
    ∀ before after, initSettings pow rd solve ptOf before s = .ok after → activeChannels s = .ok after.active := by
  have h : activeChannels s = .ok ((enabled s).map (·.1)) := by
    unfold activeChannels
    rw [C77_enumerate _ hs, visit_collect]; rfl
  exact ⟨h, fun before after ha => by rw [h, (C77_channels hs ha).2.1]⟩

/-- The channel info for a channel is accepted for an image with the pixel type that was told. -/
theorem proper_of_describes {pow : ℚ → ℚ → ℚ} {rd : ℚ → ℚ} {solve : Solver} {v : ChannelView ℚ} {c : Channel} {dst : Blit.Bitmap} {src : Source}
    (h : Describes pow rd solve src.pt v c) (hc : Composable src.pt) (hd : src.bm.WF (pixelBytes src.pt)) (hw : src.bm.w = dst.w) (hh : src.bm.h = dst.h)
    (hp : 0 ≤ v.black ∧ v.black ≤ 1 ∧ 0 ≤ v.white ∧ v.white ≤ 1) (ha : src.pt = .Bgra32 → v.black = 0 ∧ v.white = 1) : ProperChannel dst src c := by
  have hsize : ∀ n, LutSize src.pt n → (n : Int) = maxValue src.pt + 1 ∧ src.pt ≠ .Bgra32 := by
    intro n hn
    rcases hn with ⟨h | h, rfl⟩ | ⟨h | h, rfl⟩ <;> rw [h] <;> exact ⟨by decide, by decide⟩
  have hlut : c.lutCount ≠ 0 → c.lutCount = maxValue src.pt + 1 ∧ (∃ b, c.lut = some b ∧ c.lutCount ≤ b.size) ∧ src.pt ≠ .Bgra32 := by
    intro h0
    cases hm : v.mode with
    | linear => exact absurd (h.linear hm).1 h0
    | gamma =>
      obtain ⟨n, g, t, b, hn, _, ht, hcn, hcb, hbt⟩ := h.gamma hm
      have := C75_never_short pow ht
      exact ⟨by rw [hcn]; exact (hsize n hn).1, ⟨b, hcb, by rw [hcn, hbt.1]; omega⟩, (hsize n hn).2⟩
    | spline =>
      obtain ⟨n, l, t, b, hn, _, _, ht, hcn, hcb, hbt⟩ := h.spline hm
      have := C75_spline_never_short rd ht
      exact ⟨by rw [hcn]; exact (hsize n hn).1, ⟨b, hcb, by rw [hcn, hbt.1]; omega⟩, (hsize n hn).2⟩
  refine ⟨hc, hd, hw, hh, fun h0 => ⟨(hlut h0).1, (hlut h0).2.1⟩, fun _ _ => ?_, fun hb => ?_⟩
  · rw [h.black, h.white]; exact hp
  · refine ⟨?_, ?_⟩
    · by_contra h0
      exact (hlut h0).2.2 hb
    · rw [h.black, h.white, (ha hb).1, (ha hb).2]
      norm_num

theorem proper_all {pow : ℚ → ℚ → ℚ} {rd : ℚ → ℚ} {solve : Solver} {ptOf : Int → PixelType} {dst : Blit.Bitmap} {srcOf : Int → Source} :
    ∀ {l : List (Int × ChannelView ℚ)} {cs : List Channel}, DescribesAll pow rd solve ptOf l cs →
    (∀ e ∈ l, (srcOf e.1).pt = ptOf e.1 ∧ Composable (ptOf e.1) ∧ (srcOf e.1).bm.WF (pixelBytes (ptOf e.1)) ∧ (srcOf e.1).bm.w = dst.w ∧ (srcOf e.1).bm.h = dst.h ∧
      (0 ≤ e.2.black ∧ e.2.black ≤ 1 ∧ 0 ≤ e.2.white ∧ e.2.white ≤ 1) ∧ (ptOf e.1 = .Bgra32 → e.2.black = 0 ∧ e.2.white = 1)) →
    ∀ p ∈ ((l.map (·.1)).map srcOf).zip cs, ProperChannel dst p.1 p.2
  | [], [], _, _, p, hp => by simp at hp
  | e :: l, c :: cs, h, he, p, hp => by
    simp only [List.map_cons, List.zip_cons_cons, List.mem_cons] at hp
    rcases hp with rfl | hp
    · obtain ⟨h1, h2, h3, h4, h5, h6, h7⟩ := he e (by simp)
      have hd := h.1
      rw [← h1] at h2 h3 h7 hd
      exact proper_of_describes hd h2 h3 h4 h5 h6 h7
    · exact proper_all h.2 (fun e' he' => he e' (by simp [he'])) p hp
  | [], _ :: _, h, _, _, _ => h.elim
  | _ :: _, [], h, _, _, _ => h.elim

/-- **C77 (ready for composition).** The channel infos can be given to the composition together with the images of the active channels, if these have the pixel
type that the functor said, the right size, and the points are between 0 and 1: all of them are proper channels in the sense of C58 — in particular, no
look-up table is read beyond its end. -/
theorem C77_proper {pow : ℚ → ℚ → ℚ} {rd : ℚ → ℚ} {solve : Solver} {ptOf : Int → PixelType} {s : Settings ℚ} (hs : (s.map (·.1)).Nodup) {before after : State}
    (h : initSettings pow rd solve ptOf before s = .ok after) (dst : Blit.Bitmap) (srcOf : Int → Source)
    (he : ∀ e ∈ enabled s, (srcOf e.1).pt = ptOf e.1 ∧ Composable (ptOf e.1) ∧ (srcOf e.1).bm.WF (pixelBytes (ptOf e.1)) ∧ (srcOf e.1).bm.w = dst.w ∧
      (srcOf e.1).bm.h = dst.h ∧ (0 ≤ e.2.black ∧ e.2.black ≤ 1 ∧ 0 ≤ e.2.white ∧ e.2.white ≤ 1) ∧
      (ptOf e.1 = .Bgra32 → e.2.black = 0 ∧ e.2.white = 1)) :
    after.infos.length = after.active.length ∧ ∀ p ∈ (after.active.map srcOf).zip after.infos, ProperChannel dst p.1 p.2 := by
  obtain ⟨ha, hb, _⟩ := C77_channels hs h
  rw [hb]
  exact ⟨by rw [describesAll_length ha, List.length_map], proper_all ha he⟩

/-! ### An example: three channels, the second one is disabled, the third one has a gamma value -/

private def sampleView (on : Bool) (m : CurveMode) : ChannelView ℚ :=
  { isEnabled := on, weight := 1, tint := some ⟨1, 2, 3⟩, black := 0, white := 1, mode := m, gamma := some 2, points := none }

private def sample : Settings ℚ := [(0, sampleView true .linear), (4, sampleView false .gamma), (7, sampleView true .gamma)]

private def square : ℚ → ℚ → ℚ := fun x _ => x * x

private theorem sample_table : ∃ t, gammaTable square 255 256 0 1 2 = .ok t := by
  obtain ⟨t, ht, _⟩ := C75_gamma_shape square (M := 255) (n := 256) (black := 0) (white := 1) (g := 2) (by norm_num) (by norm_num) (by norm_num)
    (by norm_num) (by norm_num) (by norm_num) (by rw [cut_zero, cut_one (by norm_num)]; norm_num)
    (fun x y hx h _ => mul_le_mul h h hx (le_trans hx h)) (by norm_num [square]) (by norm_num [square])
  exact ⟨t, ht⟩

private theorem sample_returns (solve : Solver) (before : State) :
    ∃ after, initSettings square f64 solve (fun _ => .Gray8) before sample = .ok after := by
  refine C77_returns (by decide) before ?_
  intro e he
  have he' : e = (0, sampleView true .linear) ∨ e = (7, sampleView true .gamma) := by simpa [enabled, sample, sampleView] using he
  obtain ⟨t, ht⟩ := sample_table
  rcases he' with rfl | rfl
  · exact ⟨_, describes_plain rfl⟩
  · exact ⟨_, describes_lut (n := 256) (t := t) (by decide) rfl ht⟩

/-- A case for `C77_returns`, `C77_channels`, `C77_active`: channels 0 and 7 are active, the functor is asked for channel 7 only. -/
example (solve : Solver) : ∃ after, initSettings square f64 solve (fun _ => .Gray8) ⟨[], [3], []⟩ sample = .ok after ∧ after.active = [0, 7] ∧
    after.asked = [7] ∧ activeChannels sample = .ok [0, 7] := by
  obtain ⟨after, h⟩ := sample_returns solve ⟨[], [3], []⟩
  obtain ⟨_, h2, h3⟩ := C77_channels (by decide) h
  exact ⟨after, h, h2, h3, (C77_active (pow := square) (rd := f64) (solve := solve) (ptOf := fun _ => .Gray8) (by decide)).1⟩

/-- A case for `C77_functor`: the same index twice. -/
example (solve : Solver) : ∃ after, initFunctor square f64 solve (fun _ => .Gray8) ⟨[], [3], []⟩ [(1, sampleView true .linear), (1, sampleView true .linear)] = .ok after ∧
    after.active = [1, 1] := ⟨_, rfl, (C77_functor (pow := square) (rd := f64) (solve := solve) (ptOf := fun _ => .Gray8) (before := ⟨[], [3], []⟩)
      (l := [(1, sampleView true .linear), (1, sampleView true .linear)]) rfl).2.1⟩

/-- A case for `C77_enumerate`: the functor stops at once. -/
example : enumEnabled (fun a ch => (false, a ++ [ch])) sample (sample.map (·.1)) [] = .ok [0] := C77_enumerate _ (by decide) _

/-- A case for `C77_unsupported`: an image with an alpha channel. -/
example (solve : Solver) : initSettings square f64 solve (fun _ => .Bgra32) ⟨[], [], []⟩ ([(0, sampleView true .linear)] ++ (4, sampleView true .gamma) :: []) = .throws :=
  C77_unsupported (by decide) _ (by
    intro e he
    have he' : e = (0, sampleView true .linear) := by simpa [enabled, sampleView] using he
    rw [he']; exact ⟨_, describes_plain rfl⟩) rfl (by decide) (by intro n hn; rcases hn with ⟨h | h, _⟩ | ⟨h | h, _⟩ <;> cases h)

/-- A case for `C77_no_gamma_violated`. -/
example (solve : Solver) : initSettings square f64 solve (fun _ => .Gray8) ⟨[], [], []⟩ ([] ++ (4, { sampleView true .gamma with gamma := none }) :: []) = .undefined :=
  C77_no_gamma_violated (n := 256) (by decide) _ (by simp [enabled]) rfl rfl rfl (Or.inl ⟨Or.inl rfl, rfl⟩)

private def dot (n : Nat) (b : UInt8) : Blit.Bitmap := ⟨1, 1, n, ⟨n, fun _ => b⟩⟩

/-- A case for `C77_proper`: two grey images of one pixel. -/
example (solve : Solver) : ∃ after, initSettings square f64 solve (fun _ => .Gray8) ⟨[], [], []⟩ sample = .ok after ∧
    ∀ p ∈ (after.active.map fun _ => (⟨.Gray8, dot 1 9⟩ : Source)).zip after.infos, ProperChannel (dot 3 7) p.1 p.2 := by
  obtain ⟨after, h⟩ := sample_returns solve ⟨[], [], []⟩
  refine ⟨after, h, (C77_proper (by decide) h (dot 3 7) (fun _ => ⟨.Gray8, dot 1 9⟩) ?_).2⟩
  intro e he
  have he' : e = (0, sampleView true .linear) ∨ e = (7, sampleView true .gamma) := by simpa [enabled, sample, sampleView] using he
  refine ⟨rfl, Or.inl rfl, ⟨by decide, by decide⟩, rfl, rfl, ?_, by intro h; cases h⟩
  rcases he' with rfl | rfl <;> norm_num [sampleView]

end Verif
