import Verif.Proof.Viewer

/-!
# C104: what is written is what is seen

`Spec.writeDoc dup d0 info ops` is a document written from `Create` to `Close`: the file, and the calls that did not throw. The file is opened with
`openDoc`, and pictures of it are composed by the tile accessor (`Viewer.getTyped`, `Viewer.get`), every sub-block being read from the file and decoded.
`Spec.DataShows` says which picture a sub-block given to the writer has, `Spec.CorrectPicture` how the picture of a region looks, both in terms of what was
given to the writer.
-/

namespace Verif
open Verif.Spec Verif.Czi Verif.Blit Verif.Bitonal Verif.Jxr Verif.Fill Verif.Zstd Verif.Accessor Verif.Viewer

/-- **C104 (the picture, with a pixel type; partial: the sub-blocks of the plane have the pixel type asked for; 48-bit pixels are not packed when compressed; data below 2 GB; without
sorting, the visibility check is off; without cache, masks and tile borders).** Whatever calls are made to the writer, in whatever order and whichever of them fail: the
tile accessor, given the file, any plane that fits the sub-blocks written, any region - negative positions too - and any options, delivers a picture of the
region in which every pixel is the pixel of a sub-block that was written to this plane and covers it, above which there is no other; pixels covered by
none have the background colour. The sub-blocks may be compressed in different ways. Any sorting function and any contents of fresh memory will do. -/
theorem C104_picture_partial (dup : Bool) (d0 : Disk) (info : WriterInfo) (ops : List WOp) (hi : InfoOk info) (hops : OpsOk ops)
    (hsz : ∀ a ∈ subsOf ops, a.sizeData ≤ 2147483647) (o : OpenOptions) (al : Alloc) (hal : ∀ n, al n = true) :
    ∃ disk done doc, writeDoc dup d0 info ops = some (disk, done) ∧ openDoc al disk.stream o = .ok doc ∧
      ∀ (c : Codecs) (mem : Memory) (sort : List Item → List Item) (pt : PixelType) (plane : Coord) (vo : ViewOptions) (pic : AddInfo → Nat → Nat → Nat → UInt8)
        (xPos yPos : Int) (w h : Nat), Lossless c.zstd → SortsBy mKey sort → ViewableType pt →
        (∀ a ∈ subsOf done, SubPlausible a) → PlaneFits plane (subsOf done) →
        (∀ a ∈ subsOf done, InPlane plane a → Full a → a.pixelType = pt ∧ DataShows c a a.logicalWidth.toNat a.logicalHeight.toNat (pic a)) →
        (Coloured vo.background → vo.background.sum ≠ .nan) → (vo.sortByM = false → vo.useVisibilityCheck = false) →
        ∃ out, getTyped sort c mem al disk.stream doc pt plane vo xPos yPos w h = .ok ⟨pt, out⟩ ∧
          CorrectPicture c (subsOf done) pic pt plane vo xPos yPos w h out := by
  obtain ⟨disk, done, doc, h1, h2, H⟩ := holds_session dup d0 info ops hi hops hsz o al hal
  exact ⟨disk, done, doc, h1, h2, fun c mem sort pt plane vo pic xPos yPos w h hz hs hpt hp hf hd hb hv => H.picture hz mem hs hpt hp hf hd hb hv xPos yPos w h⟩

/-- **C104 (the picture, without giving a pixel type; same restrictions).** If the plane names a channel whenever the sub-blocks have one, and the
sub-blocks of that channel - there is at least one - have the pixel type `pt`, the same picture is delivered when no pixel type is asked for. -/
theorem C104_picture_of_channel_partial (dup : Bool) (d0 : Disk) (info : WriterInfo) (ops : List WOp) (hi : InfoOk info) (hops : OpsOk ops)
    (hsz : ∀ a ∈ subsOf ops, a.sizeData ≤ 2147483647) (o : OpenOptions) (al : Alloc) (hal : ∀ n, al n = true) :
    ∃ disk done doc, writeDoc dup d0 info ops = some (disk, done) ∧ openDoc al disk.stream o = .ok doc ∧
      ∀ (c : Codecs) (mem : Memory) (sort : List Item → List Item) (pt : PixelType) (plane : Coord) (vo : ViewOptions) (pic : AddInfo → Nat → Nat → Nat → UInt8)
        (xPos yPos : Int) (w h : Nat), Lossless c.zstd → SortsBy mKey sort → ViewableType pt →
        (∀ a ∈ subsOf done, SubPlausible a) → PlaneFits plane (subsOf done) →
        (plane .C = none → ∀ a ∈ subsOf done, a.coordinate .C = none) → (∃ a ∈ subsOf done, InChannel plane a) →
        (∀ a ∈ subsOf done, InChannel plane a → a.pixelType = pt) →
        (∀ a ∈ subsOf done, InPlane plane a → Full a → DataShows c a a.logicalWidth.toNat a.logicalHeight.toNat (pic a)) →
        (Coloured vo.background → vo.background.sum ≠ .nan) → (vo.sortByM = false → vo.useVisibilityCheck = false) →
        ∃ out, Viewer.get sort c mem al disk.stream doc plane vo xPos yPos w h = .ok ⟨pt, out⟩ ∧
          CorrectPicture c (subsOf done) pic pt plane vo xPos yPos w h out := by
  obtain ⟨disk, done, doc, h1, h2, H⟩ := holds_session dup d0 info ops hi hops hsz o al hal
  refine ⟨disk, done, doc, h1, h2, fun c mem sort pt plane vo pic xPos yPos w h hz hs hpt hp hf hC hex hty hd hb hv => ?_⟩
  have hch : ∀ a ∈ subsOf done, InPlane plane a → InChannel plane a := by
    intro a ha hin
    unfold InChannel
    cases hpl : plane .C with
    | none => exact (hC hpl a ha).symm
    | some v => exact (hin .C v hpl).symm
  obtain ⟨out, e1, e2⟩ := H.picture hz mem hs hpt hp hf (fun a ha hin hfu => ⟨hty a ha (hch a ha hin), hd a ha hin hfu⟩) hb hv xPos yPos w h
  refine ⟨out, ?_, e2⟩
  unfold Viewer.get
  rw [H.pixelType hp hC hex hty, if_neg, e1]
  rintro rfl
  rcases hpt with h | h | h | h | h <;> cases h

/-- **C104 (planes that do not fit).** For every other plane coordinate there is an exception, with and without a pixel type, whatever the data of the
sub-blocks are. -/
theorem C104_rejected (dup : Bool) (d0 : Disk) (info : WriterInfo) (ops : List WOp) (hi : InfoOk info) (hops : OpsOk ops)
    (hsz : ∀ a ∈ subsOf ops, a.sizeData ≤ 2147483647) (o : OpenOptions) (al : Alloc) (hal : ∀ n, al n = true) :
    ∃ disk done doc, writeDoc dup d0 info ops = some (disk, done) ∧ openDoc al disk.stream o = .ok doc ∧
      ∀ (c : Codecs) (mem : Memory) (sort : List Item → List Item) (pt : PixelType) (plane : Coord) (vo : ViewOptions) (xPos yPos : Int) (w h : Nat),
        (∀ a ∈ subsOf done, SubPlausible a) → ¬ PlaneFits plane (subsOf done) →
        getTyped sort c mem al disk.stream doc pt plane vo xPos yPos w h = .throws ∧ Viewer.get sort c mem al disk.stream doc plane vo xPos yPos w h = .throws := by
  obtain ⟨disk, done, doc, h1, h2, H⟩ := holds_session dup d0 info ops hi hops hsz o al hal
  refine ⟨disk, done, doc, h1, h2, fun c mem sort pt plane vo xPos yPos w h hp hf => ?_⟩
  have key : ∀ pt, getTyped sort c mem al disk.stream doc pt plane vo xPos yPos w h = .throws := by
    intro pt
    unfold getTyped
    cases bytesPerPel pt with
    | none => rfl
    | some bpp =>
      dsimp only
      unfold internalGet
      cases hc : checkPlane (docStats doc).dimBounds plane with
      | none => exact absurd ((H.plane hp plane).1 hc) hf
      | some e => rfl
  refine ⟨key pt, ?_⟩
  unfold Viewer.get
  split
  · rfl
  · exact key _

/-- **C104 is violated when the channel is left out.** A plane coordinate may leave out a dimension in which the sub-blocks do not differ. But if all sub-blocks written have the
same channel (not the least `int`) and the plane leaves it out, there is always an exception when no pixel type is asked for - although the plane fits, and with a
pixel type the picture is delivered (`C104_picture_partial`). -/
theorem C104_channel_left_out_violated (dup : Bool) (d0 : Disk) (info : WriterInfo) (ops : List WOp) (hi : InfoOk info) (hops : OpsOk ops)
    (hsz : ∀ a ∈ subsOf ops, a.sizeData ≤ 2147483647) (o : OpenOptions) (al : Alloc) (hal : ∀ n, al n = true) :
    ∃ disk done doc, writeDoc dup d0 info ops = some (disk, done) ∧ openDoc al disk.stream o = .ok doc ∧
      ∀ (c : Codecs) (mem : Memory) (sort : List Item → List Item) (plane : Coord) (vo : ViewOptions) (xPos yPos : Int) (w h : Nat) (ch : Int),
        (∀ a ∈ subsOf done, SubPlausible a) → subsOf done ≠ [] → (∀ a ∈ subsOf done, a.coordinate .C = some ch) → ch ≠ -2147483648 → plane .C = none →
        Viewer.get sort c mem al disk.stream doc plane vo xPos yPos w h = .throws := by
  obtain ⟨disk, done, doc, h1, h2, H⟩ := holds_session dup d0 info ops hi hops hsz o al hal
  refine ⟨disk, done, doc, h1, h2, fun c mem sort plane vo xPos yPos w h ch hp hne hch hmin hpl => ?_⟩
  obtain ⟨a, ha⟩ := List.exists_mem_of_ne_nil _ hne
  unfold Viewer.get
  rw [H.noPixelType hp ⟨a, ha, by rw [hch a ha]; rfl⟩ (fun b hb => ?_), if_pos rfl]
  rw [hch b hb, hpl]
  intro e
  cases e
  exact hmin rfl

/-! ## A case -/

/-- A sub-block of 2 × 2 grey pixels at `(x, y)`, all with the value `v`. -/
def viewSub (m x y : Int) (v : UInt8) : AddInfo :=
  ⟨Coord.empty.set .C 0, some m, x, y, 2, 2, 2, 2, .Gray8, .None, 0, 0, 4, 0, none, some ⟨[[v, v, v, v]], false⟩, none⟩

/-- Two overlapping sub-blocks; the one below is added last. -/
def viewOps : List WOp := [.addSubBlock (viewSub 7 0 0 5), .addSubBlock (viewSub 3 1 1 6)]

def viewPlane : Coord := Coord.empty.set .C 0

theorem viewSub_ok (m x y : Int) (v : UInt8) (hm : IsInt32 m) (hx : IsInt32 x) (hy : IsInt32 y) : SubOk (viewSub m x y v) where
  fits := {
    coordinate := by
      intro d w h
      unfold viewSub Coord.set Coord.empty at h
      simp only at h
      split at h
      · injection h with h; subst h; exact ⟨by decide, by decide⟩
      · cases h
    mIndex := by intro k h; cases h; exact hm
    x := hx
    y := hy
    logicalWidth := (⟨by decide, by decide⟩ : IsInt32 2)
    logicalHeight := (⟨by decide, by decide⟩ : IsInt32 2)
    physicalWidth := (⟨by decide, by decide⟩ : IsInt32 2)
    physicalHeight := (⟨by decide, by decide⟩ : IsInt32 2)
    compression := (⟨by decide, by decide⟩ : IsInt32 0) }
  sources := ⟨⟨(by intro s h; cases h), (by intro s h; cases h)⟩, ⟨(by intro s h; cases h; intro h; cases h), (by intro s h; cases h; show 4 ≤ 4 + 4096; omega)⟩,
    ⟨(by intro s h; cases h), (by intro s h; cases h)⟩⟩
  metadataSize := by show 0 ≤ 2147483647; omega
  dataSize := by show 4 < 2 ^ 59; omega
  attachmentSize := by show 0 ≤ 2147483647; omega

theorem viewOps_ok : OpsOk viewOps where
  each := by
    intro op h
    simp only [viewOps, List.mem_cons, List.not_mem_nil, or_false] at h
    rcases h with rfl | rfl
    · exact viewSub_ok 7 0 0 5 ⟨by decide, by decide⟩ ⟨by decide, by decide⟩ ⟨by decide, by decide⟩
    · exact viewSub_ok 3 1 1 6 ⟨by decide, by decide⟩ ⟨by decide, by decide⟩ ⟨by decide, by decide⟩
  count := by decide
  total := by decide

theorem viewSub_plausible (m x y : Int) (v : UInt8) : SubPlausible (viewSub m x y v) :=
  ⟨(by show (0 : Int) ≤ 2; omega), (by show (0 : Int) ≤ 2; omega), .C, rfl⟩

theorem viewSub_depicts (c : Codecs) (m x y : Int) (v : UInt8) : DataShows c (viewSub m x y v) 2 2 (fun _ _ _ => v) := by
  refine .raw rfl (by show 2 * (2 * 1) ≤ 4; omega) (fun x y j hx hy hj => ?_)
  have hj : j = 0 := by change j < 1 at hj; omega
  subst hj
  show [v, v, v, v][y * (2 * 1) + x * 1 + 0]? = some v
  rcases (show x = 0 ∨ x = 1 by omega) with rfl | rfl <;> rcases (show y = 0 ∨ y = 1 by omega) with rfl | rfl <;> rfl

/-- A sub-block of 1 × 2 pixels of 16 bits, compressed with zstd1 and packed, from lines with space between them. -/
example (lib : Lib) (enc : Fl → Nat → UInt8) :
    DataShows ⟨lib, toyCodec, enc⟩ ⟨viewPlane, none, 0, 0, 1, 2, 1, 2, .Gray16, .None, 6, 0, 8, 0, none, some ⟨[[3, 1, 1, 0], [1, 3, 2, 4]], false⟩, none⟩ 1 2
      (fun _ y j => (2 * y + j + 1).toUInt8) := by
  refine .zstd1 (fun _ => 9) (Buf.ofList [1, 2, 0, 0, 3, 4]) 4 100 true rfl ⟨⟨by omega, by omega⟩, (by show 1 * 2 ≤ 4; omega), (by show (2 - 1) * 4 + 1 * 2 ≤ 6; omega)⟩
    ⟨by omega, (by show 1 * 2 < 2 ^ 32; omega)⟩ (fun _ h => (by cases h)) rfl (fun x y j hx hy hj => ?_)
  change j < 2 at hj
  obtain rfl : x = 0 := by omega
  rcases (show y = 0 ∨ y = 1 by omega) with rfl | rfl <;> rcases (show j = 0 ∨ j = 1 by omega) with rfl | rfl <;> rfl

/-- Both sub-blocks are written. -/
theorem view_written {disk : Disk} {done : List WOp} (h : writeDoc false Disk.empty exInfo viewOps = some (disk, done)) :
    subsOf done = [viewSub 7 0 0 5, viewSub 3 1 1 6] := by
  have h1 : (subsOf done).Sublist (subsOf viewOps) := (writeDoc_sublist h).filterMap _
  have h2 : (writeDoc false Disk.empty exInfo viewOps).map (fun r => (subsOf r.2).length) = some 2 := by decide +kernel
  rw [h] at h2
  simp only [Option.map_some, Option.some.injEq] at h2
  exact h1.eq_of_length (h2.trans rfl)

/-- The hypotheses of the theorems are met; the picture shows the two sub-blocks, the right one on top, and the background. -/
example (c : Codecs) (hz : Lossless c.zstd) (mem : Memory) : ∃ disk done doc, writeDoc false Disk.empty exInfo viewOps = some (disk, done) ∧
    openDoc (fun _ => true) disk.stream ⟨false, false, false, false⟩ = .ok doc ∧
    ∃ out, Viewer.get (fun l => l.mergeSort (fun a b => decide (mKey a ≤ mKey b))) c mem (fun _ => true) disk.stream doc viewPlane
        ⟨⟨.num 0, .num 0, .num 0⟩, true, false⟩ (-1) (-1) 4 4 = .ok ⟨.Gray8, out⟩ ∧
      out.byteAt 1 2 2 0 = 5 ∧ out.byteAt 1 3 3 0 = 6 ∧ out.byteAt 1 0 0 0 = 0 := by
  obtain ⟨disk, done, doc, h1, h2, h3⟩ := C104_picture_of_channel_partial false Disk.empty exInfo viewOps exInfo_ok viewOps_ok (by
    intro a ha
    simp only [subsOf, viewOps, List.filterMap_cons, List.filterMap_nil, List.mem_cons, List.not_mem_nil, or_false] at ha
    rcases ha with rfl | rfl <;> (show 4 ≤ 2147483647; omega)) ⟨false, false, false, false⟩ (fun _ => true) (fun _ => rfl)
  have hs := view_written h1
  rw [hs] at h3
  have hall : ∀ {P : AddInfo → Prop}, P (viewSub 7 0 0 5) → P (viewSub 3 1 1 6) → ∀ a ∈ [viewSub 7 0 0 5, viewSub 3 1 1 6], P a := by
    intro P p q a ha
    simp only [List.mem_cons, List.not_mem_nil, or_false] at ha
    rcases ha with rfl | rfl
    · exact p
    · exact q
  have hpic : ∀ a ∈ [viewSub 7 0 0 5, viewSub 3 1 1 6], DataShows c a a.logicalWidth.toNat a.logicalHeight.toNat (fun _ _ _ => if a.mIndex = some 7 then 5 else 6) :=
    hall (viewSub_depicts c 7 0 0 5) (viewSub_depicts c 3 1 1 6)
  obtain ⟨out, e1, e2, e3, e4, bg, e5, e6⟩ := h3 c mem _ .Gray8 viewPlane ⟨⟨.num 0, .num 0, .num 0⟩, true, false⟩
    (fun a _ _ _ => if a.mIndex = some 7 then 5 else 6) (-1) (-1) 4 4 hz mergeSort_sorts (.inl rfl)
    (hall (viewSub_plausible ..) (viewSub_plausible ..))
    ⟨rfl, (by
      intro d hd hn a ha b hb u v hu hv
      have key : ∀ a ∈ [viewSub 7 0 0 5, viewSub 3 1 1 6], a.coordinate = viewPlane := hall rfl rfl
      rw [key a ha, hn] at hu
      cases hu), (by
      intro d v hv
      have : d = .C ∧ v = 0 := by
        cases d <;> cases hv
        exact ⟨rfl, rfl⟩
      obtain ⟨rfl, rfl⟩ := this
      exact ⟨viewSub 7 0 0 5, by simp, viewSub 7 0 0 5, by simp, 0, 0, rfl, rfl, by omega, by omega⟩)⟩
    (fun h => by cases h) ⟨viewSub 7 0 0 5, by simp, rfl⟩ (hall (fun _ => rfl) (fun _ => rfl)) (fun a ha _ _ => hpic a ha)
    (fun _ => (by decide +kernel)) (fun h => by cases h)
  refine ⟨disk, done, doc, h1, h2, out, e1, ?_, ?_, ?_⟩
  · rcases e6 2 2 0 (by omega) (by omega) (by decide) with ⟨n, -⟩ | ⟨a, ha, -, -, q, r, t⟩
    · exact absurd ⟨by decide, by decide, by decide, by decide⟩ (n (viewSub 7 0 0 5) (by simp) (fun d v h => h) ⟨rfl, rfl⟩)
    · simp only [List.mem_cons, List.not_mem_nil, or_false] at ha
      rcases ha with rfl | rfl
      · exact r
      · exact absurd ⟨7, rfl, fun n hn => by cases hn; omega⟩ (t rfl (viewSub 7 0 0 5) (by simp) (fun d v h => h) ⟨rfl, rfl⟩ ⟨by decide, by decide, by decide, by decide⟩)
  · rcases e6 3 3 0 (by omega) (by omega) (by decide) with ⟨n, -⟩ | ⟨a, ha, -, -, q, r, t⟩
    · exact absurd ⟨by decide, by decide, by decide, by decide⟩ (n (viewSub 3 1 1 6) (by simp) (fun d v h => h) ⟨rfl, rfl⟩)
    · simp only [List.mem_cons, List.not_mem_nil, or_false] at ha
      rcases ha with rfl | rfl
      · exact absurd q.2.1 (by decide)
      · exact r
  · rcases e6 0 0 0 (by omega) (by omega) (by decide) with ⟨-, r⟩ | ⟨a, ha, -, -, q, r, t⟩
    · have := (e5 ⟨(by intro h; cases h), (by intro h; cases h), (by intro h; cases h)⟩ 0 0 (by omega) (by omega)).dark (le_refl (0 : ℚ)) (le_refl (0 : ℚ)) (le_refl (0 : ℚ))
      have e : bg 0 0 0 = 0 := by
        rw [← UInt8.toNat_inj]
        exact this
      exact r.trans e
    · simp only [List.mem_cons, List.not_mem_nil, or_false] at ha
      rcases ha with rfl | rfl
      · exact absurd q.1 (by decide)
      · exact absurd q.1 (by decide)

end Verif
