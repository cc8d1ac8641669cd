import Verif.Model.CApiView
import Verif.Props.CApi
import Verif.Props.JsonOptions
import Verif.Props.ScaledView
import Verif.Spec.CApiView

/-!
# C104: what is written is what is seen through the C interface

`Viewer.apiGet` is `libCZI_SingleChannelTileAccessorGet` on a document opened by the reader, `Viewer.apiCalcSize` is `libCZI_SingleChannelTileAccessorCalcSize`.
-/

namespace Verif
open Verif.Spec Verif.Czi Verif.Blit Verif.Bitonal Verif.Jxr Verif.Fill Verif.Zstd Verif.Accessor Verif.Viewer Verif.Flt Verif.CApi Verif.JsonOpt

private theorem apiMeans (parse : Parser) (opts : Option (AccessorInterop Fl)) : ApiMeans opts (apiOptions parse opts) := by
  cases opts with
  | none => exact ⟨rfl, fun h => h.1 rfl, rfl, rfl⟩
  | some a => exact ⟨rfl, rfl, rfl, rfl⟩

private theorem noMask (parse : Parser) (opts : Option (AccessorInterop Fl))
    (hm : ∀ a, opts = some a → ¬ ∃ m, SaysObject parse a.additional m ∧ HasValue m "mask_aware" (.bool true)) :
    (accessorOptions parse Fl.nan opts).maskAware = false := by
  cases opts with
  | none => rfl
  | some a =>
    have := (C87_accessor parse Fl.nan a).2.2.2.2.2
    cases h : (accessorOptions parse Fl.nan (some a)).maskAware with
    | false => rfl
    | true => exact absurd (this.1 h) (hm a rfl)

/-- **C104 (pictures through the C interface; partial: same restrictions as for `C104_scaled_partial`; memory can be allocated; masks are not asked for).** Whatever calls are made to the
writer: given a bit field and an array that represent a plane that fits, and names a channel if the sub-blocks have one, the C function reports success and delivers a correct picture for
the options given - or, without options, for sorting by m-index and no background colour. -/
theorem C104_c_interface_partial (dup : Bool) (d0 : Disk) (info : WriterInfo) (ops : List WOp) (hi : InfoOk info) (hops : OpsOk ops)
    (hsz : ∀ a ∈ subsOf ops, a.sizeData ≤ 2147483647) (oo : OpenOptions) (al : Alloc) (hal : ∀ n, al n = true) :
    ∃ disk done doc, writeDoc dup d0 info ops = some (disk, done) ∧ openDoc al disk.stream oo = .ok doc ∧
      ∀ (c : Codecs) (mem : Memory) (sort : List Item → List Item) (pt : PixelType) (plane : Coord) (p : Packed Int) (parse : Parser) (opts : Option (AccessorInterop Fl))
        (pic : AddInfo → Nat → Nat → Nat → UInt8) (zoom : ℚ) (roi : IntRect) (w h : Nat),
        Represents p plane → Lossless c.zstd → SortsWith zoomLess sort → ViewableType pt → (∀ a ∈ subsOf done, SubPlausible a) → PlaneFits plane (subsOf done) →
        ((∀ a ∈ subsOf done, a.coordinate .S ≠ none) ∨ (∀ a ∈ subsOf done, a.coordinate .S = none)) →
        (plane .C = none → ∀ a ∈ subsOf done, a.coordinate .C = none) → (∃ a ∈ subsOf done, InChannel plane a) →
        (∀ a ∈ subsOf done, InChannel plane a → a.pixelType = pt) →
        (∀ a ∈ subsOf done, InPlane plane a → DataShows c a a.physicalWidth.toNat a.physicalHeight.toNat (pic a)) →
        (∀ a, opts = some a → a.useVisibilityCheck = false ∧ (Coloured ⟨a.red, a.green, a.blue⟩ → Colour.sum ⟨a.red, a.green, a.blue⟩ ≠ .nan) ∧
          ¬ ∃ m, SaysObject parse a.additional m ∧ HasValue m "mask_aware" (.bool true)) →
        0 < zoom → zoom ≠ 1 → calcSize roi zoom = some (w, h) → UsualSize roi w h → (∀ a, Eligible (subsOf done) plane roi none a → UsualSub a ∧ (¬ Full a → subZoom a ≠ 1)) →
        ∃ out o, ApiMeans opts o ∧ apiGet sort c mem al disk.stream doc parse (some p) (some roi) zoom opts true = some (.ok, some ⟨pt, out⟩) ∧
          CorrectScaled c (subsOf done) pic pt plane o zoom roi w h out := by
  obtain ⟨disk, done, doc, h1, h2, H⟩ := holds_session dup d0 info ops hi hops hsz oo al hal
  refine ⟨disk, done, doc, h1, h2, ?_⟩
  intro c mem sort pt plane p parse opts pic zoom roi w h hrep hz hs hpt hp hf hsc hC hex hty hd hopts z0 z1 hcs hus hu
  have hch : ∀ a ∈ subsOf done, InPlane plane a → InChannel plane a := by
    intro a ha hin
    unfold InChannel
    cases hpl : plane .C with
    | none => exact (hC hpl a ha).symm
    | some v => exact (hin .C v hpl).symm
  have hvis : (apiOptions parse opts).view.useVisibilityCheck = false := by
    cases opts with
    | none => rfl
    | some a => exact (hopts a rfl).1
  have hsum : Coloured (apiOptions parse opts).view.background → (apiOptions parse opts).view.background.sum ≠ .nan := by
    cases opts with
    | none => exact fun h => absurd rfl h.1
    | some a => exact (hopts a rfl).2.1
  obtain ⟨out, e1, e2⟩ := H.scaled (o := apiOptions parse opts) (pic := pic) hz mem hs hpt hp hf hsc (fun a ha hin => ⟨hty a ha (hch a ha hin), hd a ha hin⟩) hsum hvis z0 z1 hcs hus
    (fun a ha => (hu a ha).1) (fun _ a ha => (hu a ha).2)
  refine ⟨out, apiOptions parse opts, apiMeans parse opts, ?_, e2⟩
  unfold apiGet
  dsimp only
  rw [noMask parse opts (fun a ha => (hopts a ha).2.2), if_neg (by decide), (C69_understood p plane hrep).1]
  unfold getScaled
  rw [H.pixelType hp hC hex hty, if_neg, e1]
  rintro rfl
  rcases hpt with h | h | h | h | h <;> cases h

/-- **C104 (errors through the C interface).** A missing coordinate, region or place for the result is reported as an invalid argument; a plane that does not fit what was
written, as an error; nothing is delivered then. -/
theorem C104_c_interface_errors (dup : Bool) (d0 : Disk) (info : WriterInfo) (ops : List WOp) (hi : InfoOk info) (hops : OpsOk ops)
    (hsz : ∀ a ∈ subsOf ops, a.sizeData ≤ 2147483647) (oo : OpenOptions) (al : Alloc) (hal : ∀ n, al n = true) :
    ∃ disk done doc, writeDoc dup d0 info ops = some (disk, done) ∧ openDoc al disk.stream oo = .ok doc ∧
      ∀ (c : Codecs) (mem : Memory) (sort : List Item → List Item) (parse : Parser) (opts : Option (AccessorInterop Fl)) (zoom : ℚ),
        (∀ coordinate roi hasResult, coordinate = none ∨ roi = none ∨ hasResult = false →
          apiGet sort c mem al disk.stream doc parse coordinate roi zoom opts hasResult = some (.invalidArgument, none)) ∧
        ∀ (plane : Coord) (p : Packed Int) (roi : IntRect) (w h : Nat), Represents p plane → (∀ a ∈ subsOf done, SubPlausible a) → ¬ PlaneFits plane (subsOf done) →
          calcSize roi zoom = some (w, h) → (∀ a, opts = some a → ¬ ∃ m, SaysObject parse a.additional m ∧ HasValue m "mask_aware" (.bool true)) →
          apiGet sort c mem al disk.stream doc parse (some p) (some roi) zoom opts true = some (.unspecified, none) := by
  obtain ⟨disk, done, doc, h1, h2, h3⟩ := C104_scaled_rejected dup d0 info ops hi hops hsz oo al hal
  refine ⟨disk, done, doc, h1, h2, fun c mem sort parse opts zoom => ⟨?_, ?_⟩⟩
  · intro coordinate roi hasResult h
    unfold apiGet
    rcases h with rfl | rfl | rfl
    · rfl
    · cases coordinate <;> rfl
    · cases coordinate <;> cases roi <;> rfl
  · intro plane p roi w h hrep hp hf hcs hm
    unfold apiGet
    dsimp only
    rw [noMask parse opts hm, if_neg (by decide), (C69_understood p plane hrep).1, (h3 c mem sort .Gray8 plane (apiOptions parse opts) zoom roi w h hp hf hcs).2]

/-- **C104 (the size through the C interface).** The size reported beforehand is the size of the picture delivered, for sizes below `2^31`. -/
theorem C104_c_interface_size {c : Codecs} {subs : List AddInfo} {pic : AddInfo → Nat → Nat → Nat → UInt8} {pt : PixelType} {plane : Coord} {o : ScaledOptions} {zoom : ℚ}
    {roi : IntRect} {w h : Nat} (hw : w < 2147483648) (hh : h < 2147483648) (hs : calcSize roi zoom = some (w, h)) {out : Bitmap}
    (hc : CorrectScaled c subs pic pt plane o zoom roi w h out) : apiCalcSize (some roi) zoom true = some (.ok, some ((out.w : Int), (out.h : Int))) := by
  obtain ⟨h1, h2, -⟩ := hc
  unfold apiCalcSize
  dsimp only
  rw [hs, Option.map_some, h1, h2]
  unfold int32OfNat
  rw [Nat.mod_eq_of_lt (by omega), Nat.mod_eq_of_lt (by omega), if_pos hw, if_pos hh]

/-! ## A case -/

/-- A bit field and an array for the plane of the example, and options with a text that does not ask for masks: the hypotheses about them are met. -/
example : Represents ⟨2, fun _ => 0⟩ viewPlane ∧ (∀ (parse : Parser) (a : AccessorInterop Fl), a = ⟨.num 0, .num 0, .num 0, true, false, none⟩ →
    a.useVisibilityCheck = false ∧ (Coloured ⟨a.red, a.green, a.blue⟩ → Colour.sum ⟨a.red, a.green, a.blue⟩ ≠ .nan) ∧
      ¬ ∃ m, SaysObject parse a.additional m ∧ HasValue m "mask_aware" (.bool true)) := by
  refine ⟨⟨fun d => by cases d <;> decide, fun d v hv => ?_⟩, ?_⟩
  · cases d <;> cases hv
    rfl
  · rintro parse a rfl
    refine ⟨rfl, fun _ => (by decide +kernel), ?_⟩
    rintro ⟨m, ⟨t, h, -⟩, -⟩
    cases h

end Verif
