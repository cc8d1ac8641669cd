import Verif.Spec.CmdCheck
import Verif.Proof.CmdNumbers
import Verif.Props.CmdLine

/-!
# C105: which combinations of arguments CZICmd accepts
-/

namespace Verif

open Verif.CmdLine Verif.Spec Verif.Xml

private theorem readRect_iff (s : List Char) (r : Option RectArg) : readRect s = some r ↔ RegionGiven s r := by
  unfold readRect RegionGiven
  by_cases hs : s = []
  · subst hs
    simp only [if_true, Option.some.injEq, true_and]
    constructor
    · intro h; exact .inl h.symm
    · rintro (h | ⟨a, x, y, w, h, ht, -⟩)
      · exact h.symm
      · have : tryParseRect [] = some ⟨a, x, y, w, h⟩ := (C105_region_partial _ _ _ _ _ _).2 ht
        exact absurd this (by rw [show tryParseRect [] = none by decide]; simp)
  · simp only [hs, if_false, false_and, false_or, Option.map_eq_some_iff]
    constructor
    · rintro ⟨⟨a, x, y, w, h⟩, ht, rfl⟩
      exact ⟨a, x, y, w, h, (C105_region_partial _ _ _ _ _ _).1 ht, rfl⟩
    · rintro ⟨a, x, y, w, h, ht, rfl⟩
      exact ⟨⟨a, x, y, w, h⟩, (C105_region_partial _ _ _ _ _ _).2 ht, rfl⟩

private theorem region_positive {s : List Char} {r : RectArg} (h : RegionGiven s (some r)) : 0 < r.w ∧ 0 < r.h := by
  rcases h with ⟨-, h⟩ | ⟨a, x, y, w, h', ⟨_, _, _, _, _, _, _, _, _, hw, hh⟩, e⟩
  · cases h
  · cases e; exact ⟨hw, hh⟩

private theorem readLayer_iff (s : List Char) (f l : Int) : readLayer s = some (f, l) ↔ LayerGiven s f l := by
  unfold readLayer LayerGiven
  by_cases hs : s = []
  · subst hs
    simp only [if_true, Option.some.injEq, true_and, Prod.mk.injEq]
    constructor
    · rintro ⟨h, h'⟩; exact .inl ⟨h.symm, h'.symm⟩
    · rintro (⟨h, h'⟩ | ⟨t, c, r, h, -⟩)
      · exact ⟨h.symm, h'.symm⟩
      · cases t <;> cases h
  · simp only [hs, if_false, false_and, false_or]
    exact C105_pyramid s f l

private theorem readZoom_iff (range : List Char → Bool) (s : List Char) (z : Num) : readZoom range s = some z ↔ ZoomGiven range s z := by
  unfold readZoom ZoomGiven
  by_cases hs : s = []
  · simp only [hs, if_true, true_and, ne_eq, not_true_eq_false, false_and, or_false, Option.some.injEq]
    exact eq_comm
  · by_cases hr : range s = true <;> simp only [hs, hr, if_true, if_false, false_and, false_or, true_and, ne_eq, not_false_eq_true, Bool.false_eq_true, reduceCtorEq]

private theorem notAboveZero_iff (z : Num) : notAboveZero z = false ↔ AboveZero z ∨ z = .nan := by
  cases z with
  | fin x => simp [notAboveZero, AboveZero]
  | inf n => cases n <;> simp [notAboveZero, AboveZero]
  | nan => simp [notAboveZero, AboveZero]

private theorem consistent_iff {text : List Char} (o : Options) (hr : RegionGiven text o.rect) :
    consistent o = true ↔ NothingMissing o.command o.source o.output o.rect o.layer.1 o.layer.2 o.zoom := by
  have hpos : (¬(o.rectW ≤ 0 ∨ o.rectH ≤ 0)) ↔ o.rect ≠ none := by
    unfold Options.rectW Options.rectH
    cases h : o.rect with
    | none => simp
    | some r =>
      rw [h] at hr
      have := region_positive hr
      simp only [ne_eq, reduceCtorEq, not_false_eq_true, iff_true]
      omega
  have hz := notAboveZero_iff o.zoom
  have split : NothingMissing o.command o.source o.output o.rect o.layer.1 o.layer.2 o.zoom ↔
      o.command ≠ .Invalid ∧ (Reads o.command → o.source ≠ []) ∧ (o.command ≠ .PrintInformation → o.output ≠ []) ∧ (Pictures o.command → o.rect ≠ none) ∧
        (o.command = .SingleChannelPyramidTileAccessor → 0 < o.layer.1 ∧ 0 ≤ o.layer.2) ∧ (Scales o.command → AboveZero o.zoom ∨ o.zoom = .nan) :=
    ⟨fun h => ⟨h.1, h.2, h.3, h.4, h.5, h.6⟩, fun ⟨a, b, c, d, e, f⟩ => ⟨a, b, c, d, e, f⟩⟩
  have step : ∀ (p : Prop) [Decidable p] (b : Bool), ((if p then false else b) = true) = (¬p ∧ b = true) := by
    intro p _ b
    by_cases h : p <;> simp [h]
  have hl : (0 < o.layer.1 ∧ 0 ≤ o.layer.2) ↔ ¬(o.layer.1 ≤ 0 ∨ o.layer.2 < 0) := by omega
  have hz' : (notAboveZero o.zoom = false) ↔ ¬ notAboveZero o.zoom = true := by simp
  rw [split, ← hpos, ← hz, hl, hz']
  unfold consistent Reads Pictures Scales
  simp only [step]
  generalize (o.rectW ≤ 0 ∨ o.rectH ≤ 0) = P1
  generalize (o.layer.1 ≤ 0 ∨ o.layer.2 < 0) = P2
  generalize (notAboveZero o.zoom = true) = P3
  generalize o.source = so
  generalize o.output = ou
  generalize o.command = c
  cases c <;> simp <;> grind

/-- **C105 (combinations of arguments).** The tool goes to work exactly if each text that is given means something for its option, and everything the command needs is given:
a document, a name for the output, a region for the commands that write a picture of one, a layer of a pyramid with a positive minification for the command about layers, a
zoom above zero (or no number, if the check `range` of the library CLI11 lets it pass) for the commands that scale. It then works with what the texts say. Partial: the scan of a
plane also needs a region and a zoom, see the next theorem; the other options are not covered. -/
theorem C105_arguments_partial (range : List Char → Bool) (a : Arguments) (o : Options) :
    parseArguments range a = some o ↔
      o.command = a.command ∧ o.source = a.source ∧ o.output = a.output ∧ RegionGiven a.rect o.rect ∧ LayerGiven a.pyramid o.layer.1 o.layer.2 ∧
        ZoomGiven range a.zoom o.zoom ∧ NothingMissing a.command a.source a.output o.rect o.layer.1 o.layer.2 o.zoom := by
  unfold parseArguments
  simp only [Option.bind_eq_some_iff]
  constructor
  · rintro ⟨r, hr, ⟨f, l⟩, hl, z, hz, h⟩
    have hr' := (readRect_iff _ _).1 hr
    by_cases hc : consistent ⟨a.command, a.source, a.output, r, (f, l), z⟩ = true
    · rw [if_pos hc] at h
      cases h
      exact ⟨rfl, rfl, rfl, hr', (readLayer_iff _ _ _).1 hl, (readZoom_iff _ _ _).1 hz, (consistent_iff _ hr').1 hc⟩
    · rw [if_neg hc] at h
      cases h
  · obtain ⟨c, s, u, r, ⟨f, l⟩, z⟩ := o
    rintro ⟨rfl, rfl, rfl, hr, hl, hz, hc⟩
    refine ⟨r, (readRect_iff _ _).2 hr, (f, l), (readLayer_iff _ _ _).2 hl, z, (readZoom_iff _ _ _).2 hz, ?_⟩
    rw [if_pos ((consistent_iff ⟨a.command, a.source, a.output, r, (f, l), z⟩ hr).2 hc)]

/-- A picture of a layer with everything that is needed. -/
example : ∃ o, parseArguments (fun _ => true)
    { command := .SingleChannelPyramidTileAccessor, source := "a.czi".toList, output := "b".toList, rect := "rel(0,0,5,7)".toList, pyramid := "2;1".toList } = some o ∧
      o.rect = some ⟨false, 0, 0, 5, 7⟩ ∧ o.layer = (2, 1) ∧ o.zoom = .fin 1 :=
  ⟨⟨.SingleChannelPyramidTileAccessor, "a.czi".toList, "b".toList, some ⟨false, 0, 0, 5, 7⟩, (2, 1), .fin 1⟩, rfl, rfl, rfl, rfl⟩

/-- **C105 (arguments that are missing).** Without a command, without a document for a command that reads one, without a name for what a command writes, without a region for
a picture, without a layer for a picture of a layer, nothing is done: the tool reports an error. -/
theorem C105_arguments_missing (range : List Char → Bool) (a : Arguments)
    (h : a.command = .Invalid ∨ (Reads a.command ∧ a.source = []) ∨ (a.command ≠ .PrintInformation ∧ a.output = []) ∨ (Pictures a.command ∧ a.rect = []) ∨
      (a.command = .SingleChannelPyramidTileAccessor ∧ a.pyramid = [])) : parseArguments range a = none := by
  cases hp : parseArguments range a with
  | none => rfl
  | some o =>
    obtain ⟨-, -, -, hr, hl, -, hc⟩ := (C105_arguments_partial range a o).1 hp
    exfalso
    rcases h with h | ⟨h, h'⟩ | ⟨h, h'⟩ | ⟨h, h'⟩ | ⟨h, h'⟩
    · exact hc.command h
    · exact hc.source h h'
    · exact hc.output h h'
    · rw [h', ← readRect_iff] at hr
      exact hc.region h (Option.some.inj hr).symm
    · rw [h', ← readLayer_iff] at hl
      have e : (-1 : Int) = o.layer.1 := congrArg Prod.fst (Option.some.inj hl)
      have := (hc.layer h).1
      omega

example : parseArguments (fun _ => true) { command := .ChannelComposite, source := "a.czi".toList, output := "b".toList } = none :=
  C105_arguments_missing _ _ (.inr (.inr (.inr (.inl ⟨by unfold Pictures; decide, rfl⟩))))

/-- **C105 (scan of a plane without a region, violated).** The help text says that the scan goes over the region given with `--rect`. Without one the arguments are accepted
nevertheless, and the scan ends as if it had succeeded without having written a file, whatever the value of the mode, which nothing has set, and for every size of the tiles
that is an `int`. This violates the promise that a missing argument is reported. -/
theorem C105_scan_region_violated (range : List Char → Bool) (source output : List Char) (hs : source ≠ []) (ho : output ≠ []) :
    ∃ o, parseArguments range { command := .PlaneScan, source := source, output := output } = some o ∧
      ∀ mode doc roi, scanRegion mode o doc = some roi → ∀ get base tileW tileH, 0 < tileW → tileW < 2 ^ 31 → 0 < tileH → tileH < 2 ^ 31 →
        PlaneScan.planeScan get base roi tileW tileH = ([], .done) := by
  refine ⟨⟨.PlaneScan, source, output, none, (-1, -1), .fin 1⟩, ?_, ?_⟩
  · rw [C105_arguments_partial]
    refine ⟨rfl, rfl, rfl, .inl ⟨rfl, rfl⟩, .inl ⟨rfl, rfl, rfl⟩, .inl ⟨rfl, rfl⟩, ⟨Command.noConfusion, fun _ => hs, fun _ => ho, fun h => ?_, fun h => Command.noConfusion h, fun h => ?_⟩⟩
    · exact absurd (show Pictures .PlaneScan from h) (by unfold Pictures; decide)
    · exact absurd (show Scales .PlaneScan from h) (by unfold Scales; decide)
  · intro mode doc roi hroi get base tileW tileH hw hw' hh hh'
    have hroi' : roi.h = -1 := by
      unfold scanRegion Commands.roiFromOptions at hroi
      cases mode
      · simp only [Option.getD_none, Bool.false_eq_true, if_false, Option.bind_eq_some_iff, Option.map_eq_some_iff] at hroi
        obtain ⟨_, _, _, _, rfl⟩ := hroi
        rfl
      · simp only [Option.getD_none, if_true, Option.some.injEq] at hroi
        rw [← hroi]
    have hcount : ∃ n : Int, PlaneScan.tileCount (-1) (PlaneScan.asInt32 tileH) = some n ∧ n.toNat = 0 := by
      unfold PlaneScan.asInt32
      rw [if_pos (by omega)]
      unfold PlaneScan.tileCount PlaneScan.chk
      rw [if_pos (by unfold intMin intMax; omega)]
      dsimp only [Option.bind_some]
      rw [if_pos (by unfold intMin intMax; omega)]
      dsimp only [Option.bind_some]
      rw [if_neg (by omega)]
      rcases Nat.lt_or_ge tileH 2 with h | h
      · have : tileH = 1 := by omega
        subst this
        exact ⟨-1, by decide, by decide⟩
      · have : (-1 + (tileH : Int) - 1).tdiv tileH = 0 := Int.tdiv_eq_zero_of_lt (by omega) (by omega)
        rw [this]
        exact ⟨0, by decide, rfl⟩
    obtain ⟨n, hn, hn0⟩ := hcount
    unfold PlaneScan.planeScan PlaneScan.scanRects
    rw [hroi', hn]
    dsimp only [Option.bind_some]
    rw [hn0]
    rfl

/-- The document and the names are arbitrary: with a document whose layer 0 begins at 0, 0 and tiles of 512 times 512 nothing is written. -/
example : ∃ o, parseArguments (fun _ => true) { command := .PlaneScan, source := "a.czi".toList, output := "b".toList } = some o ∧
    ∀ doc, scanRegion true o doc = some ⟨0, 0, -1, -1⟩ ∧
      PlaneScan.planeScan (fun _ => .throws) "b".toList ⟨0, 0, -1, -1⟩ 512 512 = ([], .done) := by
  obtain ⟨o, h, h'⟩ := C105_scan_region_violated (fun _ => true) "a.czi".toList "b".toList (by decide) (by decide)
  refine ⟨o, h, fun doc => ?_⟩
  have hr : o.rect = none := by
    have : o = ⟨.PlaneScan, "a.czi".toList, "b".toList, none, (-1, -1), .fin 1⟩ := (Option.some.inj h).symm
    rw [this]
  have : scanRegion true o doc = some ⟨0, 0, -1, -1⟩ := by unfold scanRegion; rw [hr]; rfl
  exact ⟨this, h' true doc _ this _ _ _ _ (by decide) (by decide) (by decide) (by decide)⟩

end Verif
