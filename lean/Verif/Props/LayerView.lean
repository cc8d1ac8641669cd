import Verif.Props.Commands
import Verif.Proof.LayerView

/-!
# C104: what is written is what is seen, in the layers of the pyramid

As in `Verif.Props.Viewer`, with the pyramid-layer tile accessor (`Viewer.getLayerTyped`, `Viewer.getLayer`) and the command `CZIcmd --command SingleChannelPyramidTileAccessor`:
`Spec.CorrectLayer` says how the picture of a layer looks, in terms of what was given to the writer.
-/

namespace Verif
open Verif.Spec Verif.Czi Verif.Blit Verif.Bitonal Verif.Jxr Verif.Fill Verif.Zstd Verif.Accessor Verif.Viewer Verif.Flt Verif.Commands Verif.CmdLine

/-- **C104 (the picture of a layer; partial: the sub-blocks of the plane have the pixel type asked for; 48-bit pixels are not packed when compressed; data below 2 GB; sub-blocks of at
most `2^19` points in each direction, not stored enlarged; the region contains a sub-block of the layer or none at all, see `C104_layer_missing_violated` for the others; without borders,
cache and masks).** Whatever calls are made to the writer, in whatever order and whichever of them fail: the pyramid-layer tile accessor, given the file, any plane that fits the sub-blocks
written, any layer, background, scene filter and region of at least one pixel of the layer, delivers a picture of the region in which every pixel is that of a sub-block of exactly this layer that
was written to this plane and to an allowed scene, above which there is no other; the other pixels have the background colour. -/
theorem C104_layer_partial (dup : Bool) (d0 : Disk) (info : WriterInfo) (ops : List WOp) (hi : InfoOk info) (hops : OpsOk ops)
    (hsz : ∀ a ∈ subsOf ops, a.sizeData ≤ 2147483647) (o : OpenOptions) (al : Alloc) (hal : ∀ n, al n = true) :
    ∃ disk done doc, writeDoc dup d0 info ops = some (disk, done) ∧ openDoc al disk.stream o = .ok doc ∧
      LayersShow al disk.stream doc (subsOf done) := by
  obtain ⟨disk, done, doc, h1, h2, H⟩ := holds_session dup d0 info ops hi hops hsz o al hal
  exact ⟨disk, done, doc, h1, h2, fun c mem sort pt plane background scenes pic info roi hz hs hpt hp hf hd hb hr hl =>
    (H.layer hz mem hs hpt (o := ⟨background, true, scenes⟩) hp hf hd hb hr).1 rfl hl⟩

/-- **C104 (pictures of layers show the contents; same restrictions, and the information in the directory takes precedence).** Whenever a reader shows certain contents of a file, pictures of
layers composed with it show the sub-blocks of the contents. -/
theorem C104_layers_of_contents_partial {al : Alloc} {s : Stream} {o : OpenOptions} {doc : Doc} {c : Content} {subs : List AddInfo} (ho : o.headerPrecedence = false)
    (h : openDoc al s o = .ok doc) (hr : ReaderShows al s doc c) (hc : ConsistsOf c subs) (hf : ∀ a ∈ subs, AddFits a) : LayersShow al s doc subs :=
  fun _ mem _ _ _ background scenes _ _ _ hz hs hpt hp hfit hd hb hrq hl =>
    ((holds_of_contents ho h hr hc hf).layer hz mem hs hpt (o := ⟨background, true, scenes⟩) hp hfit hd hb hrq).1 rfl hl

/-- **C104 (layers after editing a written document; same restrictions).** Write any document with a writer, open it with a reader-writer and add, replace and remove sub-blocks and write
metadata in any order, whichever calls fail; after `Close`, the pictures of layers that a reader composes show the sub-blocks that are there after the edits. -/
theorem C104_layers_after_editing_partial (dup : Bool) (d0 : Disk) (info : WriterInfo) (ops : List WOp) (hi : InfoOk info) (hops : OpsOk ops)
    (hsz : ∀ op ∈ ops, ReadableOp op) (edits : List EditOp) (he : EditsOk ops.length (writtenSize ops) edits) (hna : ∀ op ∈ edits, NoAttachment op)
    (rwInfo : RWInfo) (o : OpenOptions) (ho : o.headerPrecedence = false) (al : Alloc) (hal : ∀ n, al n = true) :
    ∃ disk done doc c s, writeDoc dup d0 info ops = some (disk, done) ∧ openDoc al disk.stream o = .ok doc ∧ Initially al disk.stream doc c ∧
      rwCreate al ⟨RWState.init, disk⟩ rwInfo = (s, none) ∧
      ∃ w d doc', rwClose (edit s c edits).1 = (⟨w, d⟩, none) ∧ openDoc al d.stream o = .ok doc' ∧
        ∀ subs, ConsistsOf (edit s c edits).2 subs → (∀ a ∈ subs, AddFits a) → LayersShow al d.stream doc' subs := by
  obtain ⟨disk, done, h1, doc, c, s, h2, h3, h4, -, -, w, d, doc', h5, h6, h7, -⟩ :=
    C11_written_subblock_edits dup d0 info ops hi hops hsz edits he hna rwInfo o al hal
  exact ⟨disk, done, doc, c, s, h1, h2, h3, h4, w, d, doc', h5, h6, fun subs hc hf => C104_layers_of_contents_partial ho h6 h7 hc hf⟩

/-- **C104 is violated by layers that are missing in the region.** With every document, plane, layer and region: if there are sub-blocks in the region, but only of other layers, there is
an exception instead of a picture of the background, sorted or not. -/
theorem C104_layer_missing_violated (dup : Bool) (d0 : Disk) (info : WriterInfo) (ops : List WOp) (hi : InfoOk info) (hops : OpsOk ops)
    (hsz : ∀ a ∈ subsOf ops, a.sizeData ≤ 2147483647) (o : OpenOptions) (al : Alloc) (hal : ∀ n, al n = true) :
    ∃ disk done doc, writeDoc dup d0 info ops = some (disk, done) ∧ openDoc al disk.stream o = .ok doc ∧
      ∀ (c : Codecs) (mem : Memory) (sort : List Item → List Item) (pt : PixelType) (plane : Coord) (vo : LayerOptions)
        (pic : AddInfo → Nat → Nat → Nat → UInt8) (info : LayerRequest) (roi : IntRect), Lossless c.zstd → SortsBy mKey sort → ViewableType pt →
        (∀ a ∈ subsOf done, SubPlausible a) → PlaneFits plane (subsOf done) → LayerSubs c (subsOf done) plane pt info.factor.toNat pic →
        (Coloured vo.background → vo.background.sum ≠ .nan) → LayerRequested info.factor.toNat info.layerNo.toNat roi →
        LayerMissing (subsOf done) plane vo.scenes info.factor.toNat info.layerNo.toNat roi →
        getLayerTyped sort c mem al disk.stream doc pt plane vo info roi = .throws := by
  obtain ⟨disk, done, doc, h1, h2, H⟩ := holds_session dup d0 info ops hi hops hsz o al hal
  exact ⟨disk, done, doc, h1, h2, fun c mem sort pt plane vo pic info roi hz hs hpt hp hf hd hb hr hl => (H.layer hz mem hs hpt hp hf hd hb hr).2 hl.1 hl.2⟩

/-- **C104 (planes that do not fit, pictures of layers).** For every other plane coordinate there is an exception, with and without a pixel type, whenever the region contains a pixel
of the layer. -/
theorem C104_layer_rejected (dup : Bool) (d0 : Disk) (info : WriterInfo) (ops : List WOp) (hi : InfoOk info) (hops : OpsOk ops)
    (hsz : ∀ a ∈ subsOf ops, a.sizeData ≤ 2147483647) (o : OpenOptions) (al : Alloc) (hal : ∀ n, al n = true) :
    ∃ disk done doc, writeDoc dup d0 info ops = some (disk, done) ∧ openDoc al disk.stream o = .ok doc ∧
      ∀ (c : Codecs) (mem : Memory) (sort : List Item → List Item) (pt : PixelType) (plane : Coord) (vo : LayerOptions) (info : LayerRequest) (roi : IntRect),
        (∀ a ∈ subsOf done, SubPlausible a) → ¬ PlaneFits plane (subsOf done) → LayerRequested info.factor.toNat info.layerNo.toNat roi →
        getLayerTyped sort c mem al disk.stream doc pt plane vo info roi = .throws ∧ getLayer sort c mem al disk.stream doc plane vo info roi = .throws := by
  obtain ⟨disk, done, doc, h1, h2, H⟩ := holds_session dup d0 info ops hi hops hsz o al hal
  refine ⟨disk, done, doc, h1, h2, fun c mem sort pt plane vo info roi hp hf hr => ?_⟩
  have hsize : sizeOfPixel info = some (info.factor.toNat ^ info.layerNo.toNat) := by
    unfold sizeOfPixel
    rw [sizeOfPixelLoop_eq _ _ _ (by omega), Nat.one_mul, if_pos hr.pixel.2]
  have key : ∀ pt, getLayerTyped sort c mem al disk.stream doc pt plane vo info roi = .throws := by
    intro pt
    unfold getLayerTyped
    rw [hsize]
    dsimp only
    rw [if_neg (by have := hr.pixel.1; omega)]
    split
    · rfl
    · cases bytesPerPel pt with
      | none => rfl
      | some bpp =>
        dsimp only
        unfold layerInternalGet
        cases hc : checkPlane (docStats doc).dimBounds plane with
        | none => exact absurd ((H.plane hp plane).1 hc) hf
        | some e => rfl
  refine ⟨key pt, ?_⟩
  unfold getLayer
  split
  · rfl
  · exact key _

/-- **C104 is violated at the borders of sub-blocks of a layer.** Take two sub-blocks of equal height side by side, without a gap and without overlap, and any region that begins inside the
left one, not at a pixel of the layer: the last column of the left sub-block and the first column of the right one get the same place in the picture, so that one of them is not shown
(distances to the left and to the right of the corner are rounded in different directions). -/
theorem C104_layer_seam_violated {f : Nat} {roi : IntRect} {a b : AddInfo} (hy : b.y = a.y) (hh : b.physicalHeight = a.physicalHeight) (ha : 0 < a.physicalWidth) (hb : 0 < b.physicalWidth)
    (hlog : a.logicalWidth = f * a.physicalWidth) (hnext : b.x = a.x + a.logicalWidth) (h1 : a.x < roi.x) (h2 : roi.x < b.x) (hn : ¬ (f : Int) ∣ roi.x - a.x) :
    ∃ x : Nat, ∀ y v : Nat, PlacedAt f roi a (a.physicalWidth.toNat - 1) v x y ↔ PlacedAt f roi b 0 v x y := by
  have hf : 0 < (f : Int) := by
    rcases Nat.eq_zero_or_pos f with h | h
    · subst h
      simp only [Nat.cast_zero, zero_mul] at hlog
      omega
    · exact_mod_cast h
  rw [hlog] at hnext
  have e1 := Int.mul_ediv_add_emod (roi.x - a.x) f
  have e2 := Int.emod_nonneg (roi.x - a.x) (by omega : (f : Int) ≠ 0)
  have e3 := Int.emod_lt_of_pos (roi.x - a.x) hf
  have e4 : (roi.x - a.x) % f ≠ 0 := fun h => hn (Int.dvd_of_emod_eq_zero h)
  have q0 : 0 ≤ (roi.x - a.x) / f := Int.ediv_nonneg (by omega) (by omega)
  have ta : (a.x - roi.x).tdiv f = -((roi.x - a.x) / f) := by
    rw [show a.x - roi.x = -(roi.x - a.x) by omega, Int.neg_tdiv, Int.tdiv_eq_ediv_of_nonneg (by omega)]
  generalize (roi.x - a.x) / f = q at *
  generalize (roi.x - a.x) % f = r at *
  have hx : b.x - roi.x = (f - r) + (a.physicalWidth - q - 1) * f := by
    have : (a.physicalWidth - q - 1) * (f : Int) = f * a.physicalWidth - f * q - f := by ring
    rw [this]
    omega
  have tb : (b.x - roi.x).tdiv f = a.physicalWidth - q - 1 := by
    rw [Int.tdiv_eq_ediv_of_nonneg (by omega), hx, Int.add_mul_ediv_right _ _ (by omega), Int.ediv_eq_zero_of_lt (by omega) (by omega)]
    omega
  have hq : 0 ≤ a.physicalWidth - q - 1 := by
    rw [← tb]
    exact Int.tdiv_nonneg (by omega) (by omega)
  refine ⟨(a.physicalWidth - q - 1).toNat, fun y v => ?_⟩
  unfold PlacedAt
  rw [ta, tb, hy, hh]
  constructor
  · rintro ⟨-, p2, -, p4⟩
    exact ⟨by omega, p2, by omega, p4⟩
  · rintro ⟨-, p2, -, p4⟩
    exact ⟨by omega, p2, by omega, p4⟩

/-- The hypotheses are met: sub-blocks of 4 points stored as 2 pixels, at 0 and at 4, and a region that begins at 1; both place a column at column 1 of the picture. -/
example : ∃ a b : AddInfo, a.x = 0 ∧ b.x = 4 ∧ a.physicalWidth = 2 ∧ a.logicalWidth = 4 ∧ PlacedAt 2 ⟨1, 0, 8, 4⟩ a 1 0 1 0 ∧ PlacedAt 2 ⟨1, 0, 8, 4⟩ b 0 0 1 0 :=
  ⟨{ viewSub 0 0 0 5 with logicalWidth := 4, logicalHeight := 4 }, { viewSub 1 4 0 6 with logicalWidth := 4, logicalHeight := 4 }, rfl, rfl, rfl, rfl,
    by unfold PlacedAt viewSub; decide, by unfold PlacedAt viewSub; decide⟩

/-! ## The command -/

private theorem toByte_nat {n : Nat} (h : n ≤ 255) : (toByte (n : Int)).toNat = n := by
  unfold toByte
  rw [Int.toNat_natCast, UInt8.toNat_ofNat']
  omega

private theorem layer_command {al : Alloc} {s : Stream} {doc : Doc} {subs : List AddInfo} (H : Holds al s doc subs) (c : Codecs) (mem : Memory)
    (sort : List Item → List Item) {pt : PixelType} (hpt : ViewableType pt) {plane : Coord} (background : Colour) (scenes : Option (Int → Bool))
    {layer region : List Char} (base : List Char) {factor n : Nat} {roi : IntRect} (hp : ∀ a ∈ subs, SubPlausible a)
    (hC : plane .C = none → ∀ a ∈ subs, a.coordinate .C = none) (hex : ∃ a ∈ subs, InChannel plane a) (hty : ∀ a ∈ subs, InChannel plane a → a.pixelType = pt)
    (hl : LayerText layer factor n) (hr : RegionMeant subs region roi.x roi.y roi.w roi.h) (hx : IsInt32 roi.x) (hy : IsInt32 roi.y) (h0 : 0 < factor) :
    layerCommand sort c mem al s doc plane background scenes layer region base =
      save base (getLayerTyped sort c mem al s doc pt plane ⟨background, true, scenes⟩ ⟨toByte factor, toByte n⟩ roi) := by
  obtain ⟨⟨r, r1, r2⟩, -⟩ := meant_roi H hp hr hx hy
  unfold layerCommand
  rw [r1, (C105_pyramid _ _ _).2 hl]
  dsimp only
  rw [if_neg (by omega), r2]
  dsimp only
  unfold getLayer
  rw [H.pixelType hp hC hex hty, if_neg]
  rintro rfl
  rcases hpt with h | h | h | h | h <;> cases h

/-- **C104 (the command `SingleChannelPyramidTileAccessor`; partial: restrictions as for `C104_layer_partial`, and the factor and the number of the layer are at most 255, see
`C104_layer_number_violated`).** With the layer and the region given as text, the command writes the picture of the layer of the region to the file named. -/
theorem C104_layer_command_partial (dup : Bool) (d0 : Disk) (info : WriterInfo) (ops : List WOp) (hi : InfoOk info) (hops : OpsOk ops)
    (hsz : ∀ a ∈ subsOf ops, a.sizeData ≤ 2147483647) (o : OpenOptions) (al : Alloc) (hal : ∀ n, al n = true) :
    ∃ disk done doc, writeDoc dup d0 info ops = some (disk, done) ∧ openDoc al disk.stream o = .ok doc ∧
      ∀ (c : Codecs) (mem : Memory) (sort : List Item → List Item) (pt : PixelType) (plane : Coord) (background : Colour) (scenes : Option (Int → Bool))
        (pic : AddInfo → Nat → Nat → Nat → UInt8) (layer region base : List Char) (factor n : Nat) (roi : IntRect), Lossless c.zstd → SortsBy mKey sort → ViewableType pt →
        (∀ a ∈ subsOf done, SubPlausible a) → PlaneFits plane (subsOf done) →
        (plane .C = none → ∀ a ∈ subsOf done, a.coordinate .C = none) → (∃ a ∈ subsOf done, InChannel plane a) →
        (∀ a ∈ subsOf done, InChannel plane a → a.pixelType = pt) → LayerSubs c (subsOf done) plane pt factor pic → (Coloured background → background.sum ≠ .nan) →
        LayerText layer factor n → 0 < factor → factor ≤ 255 → n ≤ 255 → RegionMeant (subsOf done) region roi.x roi.y roi.w roi.h → IsInt32 roi.x → IsInt32 roi.y → LayerRequested factor n roi →
        LayerThere (subsOf done) plane scenes factor n roi →
        ∃ out, layerCommand sort c mem al disk.stream doc plane background scenes layer region base = .ok (base ++ ".PNG".toList, ⟨pt, out⟩) ∧
          CorrectLayer c (subsOf done) pic pt plane background scenes factor n roi out := by
  obtain ⟨disk, done, doc, h1, h2, H⟩ := holds_session dup d0 info ops hi hops hsz o al hal
  refine ⟨disk, done, doc, h1, h2, fun c mem sort pt plane background scenes pic layer region base factor n roi hz hs hpt hp hf hC hex hty hd hb ht h0 hf' hn hr hx hy hq hl => ?_⟩
  have e1 := toByte_nat hf'
  have e2 := toByte_nat hn
  obtain ⟨out, g1, g2⟩ := (H.layer hz mem hs hpt (o := ⟨background, true, scenes⟩) (info := ⟨toByte factor, toByte n⟩) hp hf (by rw [e1]; exact hd) hb
    (by rw [e1, e2]; exact hq)).1 rfl (by rw [e1, e2]; exact hl)
  dsimp only at g2
  rw [e1, e2] at g2
  refine ⟨out, ?_, g2⟩
  rw [layer_command H c mem sort hpt background scenes base hp hC hex hty ht hr hx hy h0, g1]
  rfl

/-- **C104 is violated by the command for layers that are missing in the region.** It reports an error and writes no picture. -/
theorem C104_layer_command_missing_violated (dup : Bool) (d0 : Disk) (info : WriterInfo) (ops : List WOp) (hi : InfoOk info) (hops : OpsOk ops)
    (hsz : ∀ a ∈ subsOf ops, a.sizeData ≤ 2147483647) (o : OpenOptions) (al : Alloc) (hal : ∀ n, al n = true) :
    ∃ disk done doc, writeDoc dup d0 info ops = some (disk, done) ∧ openDoc al disk.stream o = .ok doc ∧
      ∀ (c : Codecs) (mem : Memory) (sort : List Item → List Item) (pt : PixelType) (plane : Coord) (background : Colour) (scenes : Option (Int → Bool))
        (pic : AddInfo → Nat → Nat → Nat → UInt8) (layer region base : List Char) (factor n : Nat) (roi : IntRect), Lossless c.zstd → SortsBy mKey sort → ViewableType pt →
        (∀ a ∈ subsOf done, SubPlausible a) → PlaneFits plane (subsOf done) →
        (plane .C = none → ∀ a ∈ subsOf done, a.coordinate .C = none) → (∃ a ∈ subsOf done, InChannel plane a) →
        (∀ a ∈ subsOf done, InChannel plane a → a.pixelType = pt) → LayerSubs c (subsOf done) plane pt factor pic → (Coloured background → background.sum ≠ .nan) →
        LayerText layer factor n → 0 < factor → factor ≤ 255 → n ≤ 255 → RegionMeant (subsOf done) region roi.x roi.y roi.w roi.h → IsInt32 roi.x → IsInt32 roi.y → LayerRequested factor n roi →
        LayerMissing (subsOf done) plane scenes factor n roi →
        layerCommand sort c mem al disk.stream doc plane background scenes layer region base = .throws := by
  obtain ⟨disk, done, doc, h1, h2, H⟩ := holds_session dup d0 info ops hi hops hsz o al hal
  refine ⟨disk, done, doc, h1, h2, fun c mem sort pt plane background scenes pic layer region base factor n roi hz hs hpt hp hf hC hex hty hd hb ht h0 hf' hn hr hx hy hq hl => ?_⟩
  have e1 := toByte_nat hf'
  have e2 := toByte_nat hn
  rw [layer_command H c mem sort hpt background scenes base hp hC hex hty ht hr hx hy h0,
    (H.layer hz mem hs hpt (o := ⟨background, true, scenes⟩) (info := ⟨toByte factor, toByte n⟩) hp hf (by rw [e1]; exact hd) hb
      (by rw [e1, e2]; exact hq)).2 (by rw [e1, e2]; exact hl.1) (by rw [e1, e2]; exact hl.2)]
  rfl

/-- **C104 is violated by the command for numbers above 255.** They are neither used nor reported: only the last eight bits of the factor and of the number of the layer count, so
that the result is that for another layer. -/
theorem C104_layer_number_violated (sort : List Item → List Item) (c : Codecs) (mem : Memory) (al : Alloc) (s : Stream) (doc : Doc) (plane : Coord) (background : Colour)
    (scenes : Option (Int → Bool)) (layer layer' region base : List Char) (factor n factor' n' : Nat) (h : LayerText layer factor n) (h' : LayerText layer' factor' n')
    (h0 : 0 < factor) (h0' : 0 < factor') (hf : factor % 256 = factor' % 256) (hn : n % 256 = n' % 256) :
    layerCommand sort c mem al s doc plane background scenes layer region base = layerCommand sort c mem al s doc plane background scenes layer' region base := by
  have key : ∀ a b : Nat, a % 256 = b % 256 → toByte (a : Int) = toByte (b : Int) := by
    intro a b hab
    unfold toByte
    apply UInt8.toNat_inj.1
    rw [Int.toNat_natCast, Int.toNat_natCast, UInt8.toNat_ofNat', UInt8.toNat_ofNat']
    exact hab
  unfold layerCommand
  rw [(C105_pyramid _ _ _).2 h, (C105_pyramid _ _ _).2 h']
  cases tryParseRect region with
  | none => rfl
  | some r =>
    dsimp only
    rw [if_neg (by omega), if_neg (by omega), key _ _ hf, key _ _ hn]

/-- **C104 (texts that are no region or no layer).** The command reports every text that is not a region, and every text that is not a layer, a factor that is not positive and a negative number of
a layer, and writes nothing. -/
theorem C104_layer_command_rejected (sort : List Item → List Item) (c : Codecs) (mem : Memory) (al : Alloc) (s : Stream) (doc : Doc) (plane : Coord) (background : Colour)
    (scenes : Option (Int → Bool)) (layer region base : List Char)
    (h : (∀ absolute x y w h, ¬ RegionText region absolute x y w h) ∨ ∀ factor n : Int, LayerText layer factor n → factor ≤ 0 ∨ n < 0) :
    layerCommand sort c mem al s doc plane background scenes layer region base = .throws := by
  unfold layerCommand
  cases e : tryParseRect region with
  | none => rfl
  | some r =>
    rcases h with h | h
    · exact absurd ((C105_region_partial _ _ _ _ _ _).1 e) (h r.absolute r.x r.y r.w r.h)
    · cases e2 : tryParsePyramidInfo layer with
      | none => rfl
      | some q => exact if_pos (h q.1 q.2 ((C105_pyramid _ _ _).1 e2))

/-! ## A case -/

/-- A sub-block of 4 × 4 points stored as 2 × 2 grey pixels. -/
def halfSub (m x y : Int) (v : UInt8) : AddInfo := { viewSub m x y v with logicalWidth := 4, logicalHeight := 4 }

/-- A sub-block and a minified one. -/
def layerOps : List WOp := [.addSubBlock (viewSub 7 0 0 5), .addSubBlock (halfSub 3 0 0 6)]

private theorem halfSub_ok (m x y : Int) (v : UInt8) (hm : IsInt32 m) (hx : IsInt32 x) (hy : IsInt32 y) : SubOk (halfSub m x y v) :=
  let ok := viewSub_ok m x y v hm hx hy
  { fits := { ok.fits with
      logicalWidth := (⟨by decide, by decide⟩ : IsInt32 4)
      logicalHeight := (⟨by decide, by decide⟩ : IsInt32 4) }
    sources := ⟨ok.sources.1, ok.sources.2, ok.sources.3⟩, metadataSize := ok.metadataSize, dataSize := ok.dataSize, attachmentSize := ok.attachmentSize }

theorem layerOps_ok : OpsOk layerOps where
  each := by
    intro op h
    simp only [layerOps, List.mem_cons, List.not_mem_nil, or_false] at h
    rcases h with rfl | rfl
    · exact viewSub_ok 7 0 0 5 ⟨by decide, by decide⟩ ⟨by decide, by decide⟩ ⟨by decide, by decide⟩
    · exact halfSub_ok 3 0 0 6 ⟨by decide, by decide⟩ ⟨by decide, by decide⟩ ⟨by decide, by decide⟩
  count := by decide
  total := by decide

theorem layers_written {disk : Disk} {done : List WOp} (h : writeDoc false Disk.empty exInfo layerOps = some (disk, done)) :
    subsOf done = [viewSub 7 0 0 5, halfSub 3 0 0 6] := by
  have h1 : (subsOf done).Sublist (subsOf layerOps) := (writeDoc_sublist h).filterMap _
  have h2 : (writeDoc false Disk.empty exInfo layerOps).map (fun r => (subsOf r.2).length) = some 2 := by decide +kernel
  rw [h] at h2
  simp only [Option.map_some, Option.some.injEq] at h2
  exact h1.eq_of_length (h2.trans rfl)

theorem view_layer : ∀ n, SubOnLayer 2 n (viewSub 7 0 0 5) ↔ n = 0 := by
  have hm : ∀ r, SubMinification (viewSub 7 0 0 5) r ↔ r = 1 := by
    intro r
    show (if (2 : Int) > 2 then Nearest 2 2 r else Nearest 2 2 r) ↔ _
    rw [if_neg (by omega)]
    unfold Nearest
    rw [if_pos (by omega)]
    omega
  intro n
  constructor
  · rintro ⟨r, h1, h2, h3⟩
    rw [hm] at h1
    subst h1
    rcases Nat.eq_zero_or_pos n with h | h
    · exact h
    · have := h3 0 h
      simp at this
  · rintro rfl
    exact ⟨1, (hm 1).2 rfl, by simp, fun l hl => by omega⟩

theorem half_layer : ∀ n, SubOnLayer 2 n (halfSub 3 0 0 6) ↔ n = 1 := by
  have hm : ∀ r, SubMinification (halfSub 3 0 0 6) r ↔ r = 2 := by
    intro r
    show (if (2 : Int) > 2 then Nearest 4 2 r else Nearest 4 2 r) ↔ _
    rw [if_neg (by omega)]
    unfold Nearest
    rw [if_pos (by omega)]
    omega
  intro n
  constructor
  · rintro ⟨r, h1, h2, h3⟩
    rw [hm] at h1
    subst h1
    rcases n with _ | _ | n
    · simp at h2
    · rfl
    · have := h3 1 (by omega)
      simp at this
  · rintro rfl
    refine ⟨2, (hm 2).2 rfl, by simp, fun l hl => ?_⟩
    obtain rfl : l = 0 := by omega
    simp

/-- The hypotheses are met: the command for layer 1 shows the minified sub-block only; that for layer 2 reports an error; that for layer 257 shows layer 1. -/
example (c : Codecs) (hz : Lossless c.zstd) (mem : Memory) : ∃ disk done doc, writeDoc false Disk.empty exInfo layerOps = some (disk, done) ∧
    openDoc (fun _ => true) disk.stream ⟨false, false, false, false⟩ = .ok doc ∧
    ∃ out, layerCommand (fun l => l.mergeSort (fun a b => decide (mKey a ≤ mKey b))) c mem (fun _ => true) disk.stream doc viewPlane
        ⟨.num 0, .num 0, .num 0⟩ none "2,1".toList "rel(0,0,4,4)".toList "out".toList = .ok ("out.PNG".toList, ⟨.Gray8, out⟩) ∧
      out.w = 2 ∧ out.h = 2 ∧ out.byteAt 1 1 1 0 = 6 ∧
      layerCommand (fun l => l.mergeSort (fun a b => decide (mKey a ≤ mKey b))) c mem (fun _ => true) disk.stream doc viewPlane
        ⟨.num 0, .num 0, .num 0⟩ none "2,2".toList "rel(0,0,4,4)".toList "out".toList = .throws ∧
      layerCommand (fun l => l.mergeSort (fun a b => decide (mKey a ≤ mKey b))) c mem (fun _ => true) disk.stream doc viewPlane
        ⟨.num 0, .num 0, .num 0⟩ none "2,257".toList "rel(0,0,4,4)".toList "out".toList = .ok ("out.PNG".toList, ⟨.Gray8, out⟩) := by
  have hsz : ∀ a ∈ subsOf layerOps, a.sizeData ≤ 2147483647 := by
    intro a ha
    simp only [subsOf, layerOps, List.filterMap_cons, List.filterMap_nil, List.mem_cons, List.not_mem_nil, or_false] at ha
    rcases ha with rfl | rfl <;> (show 4 ≤ 2147483647; omega)
  obtain ⟨disk, done, doc, h1, h2, h3⟩ := C104_layer_command_partial false Disk.empty exInfo layerOps exInfo_ok layerOps_ok hsz ⟨false, false, false, false⟩ (fun _ => true) (fun _ => rfl)
  obtain ⟨disk', done', doc', k1, k2, k3⟩ :=
    C104_layer_command_missing_violated false Disk.empty exInfo layerOps exInfo_ok layerOps_ok hsz ⟨false, false, false, false⟩ (fun _ => true) (fun _ => rfl)
  obtain ⟨rfl, rfl⟩ : disk = disk' ∧ done = done' := by rw [h1] at k1; simpa using k1
  obtain rfl : doc = doc' := by rw [h2] at k2; simpa using k2
  have hs := layers_written h1
  rw [hs] at h3 k3
  have hall : ∀ {P : AddInfo → Prop}, P (viewSub 7 0 0 5) → P (halfSub 3 0 0 6) → ∀ a ∈ [viewSub 7 0 0 5, halfSub 3 0 0 6], P a := by
    intro P p q a ha
    simp only [List.mem_cons, List.not_mem_nil, or_false] at ha
    rcases ha with rfl | rfl
    · exact p
    · exact q
  have dep : DataShows c (halfSub 3 0 0 6) 2 2 (fun _ _ _ => 6) := by
    refine .raw rfl (by show 2 * (2 * 1) ≤ 4; omega) (fun x y j hx hy hj => ?_)
    have hj : j = 0 := by change j < 1 at hj; omega
    subst hj
    show [(6 : UInt8), 6, 6, 6][y * (2 * 1) + x * 1 + 0]? = some 6
    rcases (show x = 0 ∨ x = 1 by omega) with rfl | rfl <;> rcases (show y = 0 ∨ y = 1 by omega) with rfl | rfl <;> rfl
  have hsubs : LayerSubs c [viewSub 7 0 0 5, halfSub 3 0 0 6] viewPlane .Gray8 2 (fun a _ _ _ => if a.mIndex = some 7 then 5 else 6) :=
    hall (fun _ => ⟨rfl, viewSub_depicts c 7 0 0 5, (by unfold UsualSub viewSub; decide), 0, (view_layer 0).2 rfl, by decide⟩)
      (fun _ => ⟨rfl, dep, (by unfold UsualSub halfSub viewSub; decide), 1, (half_layer 1).2 rfl, by decide⟩)
  have ho : IsOrigin [viewSub 7 0 0 5, halfSub 3 0 0 6] 0 0 := by
    refine ⟨⟨⟨_, List.mem_cons_self, ⟨rfl, rfl⟩, rfl⟩, ?_⟩, ⟨⟨_, List.mem_cons_self, ⟨rfl, rfl⟩, rfl⟩, ?_⟩⟩ <;>
    · intro a ha _
      simp only [List.mem_cons, List.not_mem_nil, or_false] at ha
      rcases ha with rfl | rfl <;> decide
  have hplaus : ∀ a ∈ [viewSub 7 0 0 5, halfSub 3 0 0 6], SubPlausible a :=
    hall (viewSub_plausible 7 0 0 5) ⟨(by show (0 : Int) ≤ 4; omega), (by show (0 : Int) ≤ 4; omega), .C, rfl⟩
  have hin : ∀ a ∈ [viewSub 7 0 0 5, halfSub 3 0 0 6], InPlane viewPlane a := by
    apply hall <;> (intro d v hv; cases d <;> cases hv; rfl)
  have hfit : PlaneFits viewPlane [viewSub 7 0 0 5, halfSub 3 0 0 6] := by
    refine ⟨rfl, (by
      intro d hd hn a ha b hb u v hu hv
      have key : ∀ a ∈ [viewSub 7 0 0 5, halfSub 3 0 0 6], a.coordinate d = viewPlane d := hall rfl rfl
      rw [key a ha, hn] at hu
      cases hu), (by
      intro d v hv
      have : d = .C ∧ v = 0 := by
        cases d <;> cases hv
        exact ⟨rfl, rfl⟩
      obtain ⟨rfl, rfl⟩ := this
      exact ⟨viewSub 7 0 0 5, by simp, viewSub 7 0 0 5, by simp, 0, 0, rfl, rfl, by omega, by omega⟩)⟩
  have hmeant : RegionMeant [viewSub 7 0 0 5, halfSub 3 0 0 6] "rel(0,0,4,4)".toList 0 0 4 4 := .inr ⟨0, 0, ho, (C105_region_partial _ _ _ _ _ _).1 (by decide)⟩
  have hel : Eligible [viewSub 7 0 0 5, halfSub 3 0 0 6] viewPlane (wholePixels (2 ^ 1) ⟨0, 0, 4, 4⟩) none (halfSub 3 0 0 6) :=
    ⟨by simp, hin _ (by simp), ⟨0, 0, (by unfold wholePixels IntRect.Has; decide), (by unfold CoversPoint halfSub viewSub; decide)⟩, fun _ h => by cases h⟩
  have hel2 : Eligible [viewSub 7 0 0 5, halfSub 3 0 0 6] viewPlane (wholePixels (2 ^ 2) ⟨0, 0, 4, 4⟩) none (halfSub 3 0 0 6) :=
    ⟨by simp, hin _ (by simp), ⟨0, 0, (by unfold wholePixels IntRect.Has; decide), (by unfold CoversPoint halfSub viewSub; decide)⟩, fun _ h => by cases h⟩
  obtain ⟨out, e1, e2, e3, bg, -, e4⟩ := h3 c mem _ .Gray8 viewPlane ⟨.num 0, .num 0, .num 0⟩ none
    (fun a _ _ _ => if a.mIndex = some 7 then 5 else 6) "2,1".toList "rel(0,0,4,4)".toList "out".toList 2 1 ⟨0, 0, 4, 4⟩ hz mergeSort_sorts (.inl rfl)
    hplaus hfit (fun h => by cases h) ⟨viewSub 7 0 0 5, by simp, rfl⟩ (hall (fun _ => rfl) (fun _ => rfl)) hsubs
    (fun _ => (by decide +kernel)) ((C105_pyramid _ _ _).1 (by decide)) (by omega) (by omega) (by omega) hmeant ⟨by decide, by decide⟩ ⟨by decide, by decide⟩
    ⟨by decide, by decide, by decide⟩ (.inl ⟨_, hel, (half_layer 1).2 rfl⟩)
  have ew : out.w = 2 := by
    have : (out.w : Int) = 2 := e2
    omega
  have eh : out.h = 2 := by
    have : (out.h : Int) = 2 := e3
    omega
  refine ⟨disk, done, doc, h1, h2, out, e1, ew, eh, ?_, ?_, ?_⟩
  · rcases e4 1 1 0 (by omega) (by omega) (by decide) with ⟨n, -⟩ | ⟨a, u, v, ⟨a1, a2⟩, -, a3, -⟩
    · exact absurd (by unfold PlacedAt halfSub viewSub; decide) (n _ ⟨hel, (half_layer 1).2 rfl⟩ 1 1)
    · have := a1.1
      simp only [List.mem_cons, List.not_mem_nil, or_false] at this
      rcases this with rfl | rfl
      · exact absurd ((view_layer 1).1 a2) (by omega)
      · exact a3
  · exact k3 c mem _ .Gray8 viewPlane ⟨.num 0, .num 0, .num 0⟩ none
      (fun a _ _ _ => if a.mIndex = some 7 then 5 else 6) "2,2".toList "rel(0,0,4,4)".toList "out".toList 2 2 ⟨0, 0, 4, 4⟩ hz mergeSort_sorts (.inl rfl)
      hplaus hfit (fun h => by cases h) ⟨viewSub 7 0 0 5, by simp, rfl⟩ (hall (fun _ => rfl) (fun _ => rfl)) hsubs
      (fun _ => (by decide +kernel)) ((C105_pyramid _ _ _).1 (by decide)) (by omega) (by omega) (by omega) hmeant ⟨by decide, by decide⟩ ⟨by decide, by decide⟩
      ⟨by decide, by decide, by decide⟩ ⟨⟨_, hel2⟩, fun a ha => hall (P := fun a => ¬ SubOnLayer 2 2 a)
        (fun h => by have := (view_layer 2).1 h; omega) (fun h => by have := (half_layer 2).1 h; omega) a ha.1⟩
  · rw [C104_layer_number_violated _ c mem _ _ _ _ _ _ "2,257".toList "2,1".toList _ _ 2 257 2 1 ((C105_pyramid _ _ _).1 (by decide)) ((C105_pyramid _ _ _).1 (by decide)) (by omega)
      (by omega) rfl rfl]
    exact e1

end Verif
