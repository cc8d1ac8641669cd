import Verif.Model.Composite
import Verif.Props.Commands
import Verif.Props.DisplayHelper
import Verif.Spec.Composite

/-!
# C104: the command of CZICmd that composes channels

What is written with the library and then shown with `CZIcmd --command ChannelComposite`.
-/

namespace Verif
open Verif.Spec Verif.Czi Verif.Blit Verif.Bitonal Verif.Jxr Verif.Fill Verif.Zstd Verif.Accessor Verif.Viewer Verif.Flt Verif.Commands Verif.CmdLine Verif.Composite Verif.Multi Verif.Helper

private theorem channelPlane_eq {al : Alloc} {s : Stream} {doc : Doc} {subs : List AddInfo} (H : Verif.Viewer.Holds al s doc subs) (hp : ∀ a ∈ subs, SubPlausible a) (plane : Coord) (ch : Int) :
    channelPlane doc plane ch = planeOfChannel subs plane ch := by
  unfold channelPlane planeOfChannel
  by_cases h : ∀ a ∈ subs, a.coordinate .C = none
  · rw [if_pos h, (H.channels hp).2 h]; rfl
  · rw [if_neg h, if_pos]
    cases e : (docStats doc).dimBounds .C with
    | none => exact absurd ((H.channels hp).1 e) h
    | some _ => rfl

private theorem planeOfChannel_twice (subs : List AddInfo) (plane : Coord) (a b : Int) : planeOfChannel subs (planeOfChannel subs plane a) b = planeOfChannel subs plane b := by
  unfold planeOfChannel
  split
  · rfl
  · funext d
    unfold Coord.set
    split <;> rfl

private theorem planeOfChannel_C {subs : List AddInfo} {plane : Coord} {ch : Int} (h : planeOfChannel subs plane ch .C = none) : ∀ a ∈ subs, a.coordinate .C = none := by
  unfold planeOfChannel at h
  split at h
  · assumption
  · simp [Coord.set] at h

/-- The pictures of the channels. -/
private theorem pictures_ok {al : Alloc} {s : Stream} {doc : Doc} {subs : List AddInfo} (H : Verif.Viewer.Holds al s doc subs) (hp : ∀ a ∈ subs, SubPlausible a)
    {get : Coord → Jxr.Result Typed} (g : Int → Typed) : ∀ (l : List Int) (plane : Coord),
      (∀ ch ∈ l, get (planeOfChannel subs plane ch) = .ok (g ch)) → channelPictures get doc plane l = .ok (l.map g)
  | [], _, _ => rfl
  | ch :: l, plane, h => by
    unfold channelPictures
    rw [channelPlane_eq H hp, h ch (by simp)]
    dsimp only
    rw [pictures_ok H hp g l _ (fun k hk => by rw [planeOfChannel_twice]; exact h k (by simp [hk]))]
    rfl

private theorem typeOfChannel_map {l : List Int} (g : Int → Typed) {ch : Int} (h : ch ∈ l) : typeOfChannel l (l.map g) ch = (g ch).pt := by
  unfold typeOfChannel
  rw [List.getElem?_map, List.getElem?_idxOf h]
  rfl

private theorem describesAll_congr {pow : ℚ → ℚ → ℚ} {rd : ℚ → ℚ} {solve : Lut.Solver} {f g : Int → PixelType} :
    ∀ {l : List (Int × Xml.ChannelView ℚ)} {cs}, (∀ e ∈ l, f e.1 = g e.1) → DescribesAll pow rd solve f l cs → DescribesAll pow rd solve g l cs
  | [], [], _, _ => trivial
  | e :: l, _ :: _, h, hd => ⟨h e (by simp) ▸ hd.1, describesAll_congr (fun k hk => h k (by simp [hk])) hd.2⟩
  | [], _ :: _, _, h => h.elim
  | _ :: _, [], _, h => h.elim

/-- The infos have the weights of the settings. -/
private theorem describesAll_weights {pow : ℚ → ℚ → ℚ} {rd : ℚ → ℚ} {solve : Lut.Solver} {ptOf : Int → PixelType} :
    ∀ {l : List (Int × Xml.ChannelView ℚ)} {cs}, DescribesAll pow rd solve ptOf l cs → cs.map (·.weight) = l.map fun e => some e.2.weight
  | [], [], _ => rfl
  | _ :: _, _ :: _, h => by rw [List.map_cons, List.map_cons, h.1.weight, describesAll_weights h.2]
  | [], _ :: _, h => h.elim
  | _ :: _, [], h => h.elim

/-- The sources and infos of the enabled channels. -/
private def layers (s : Xml.Settings ℚ) (ptOf : Int → PixelType) (shown : Int → Bitmap) (infos : List Multi.Channel) : List (Multi.Source × Multi.Channel) :=
  ((enabled s).map fun e => (⟨ptOf e.1, shown e.1⟩ : Multi.Source)).zip infos

private theorem composite {al : Alloc} {s : Stream} {doc : Doc} {subs : List AddInfo} (H : Verif.Viewer.Holds al s doc subs) {get : IntRect → Coord → Jxr.Result Typed}
    (fresh : Nat → UInt8) (pow : ℚ → ℚ → ℚ) (rd : ℚ → ℚ) (solve : Lut.Solver) {st : Xml.Settings ℚ} {ptOf : Int → PixelType}
    (alpha : Option UInt8) {plane : Coord} {region : List Char} (base : List Char) {x y w h : Int}
    (hp : ∀ a ∈ subs, SubPlausible a) (hr : RegionMeant subs region x y w h) (hx : IsInt32 x) (hy : IsInt32 y)
    (hn : (st.map (·.1)).Nodup) (hne : enabled st ≠ []) (hv : ∀ e ∈ enabled st, UsableView pow rd solve (ptOf e.1) e.2) {W H' : Nat} {Q : Int → Bitmap → Prop}
    (hget : ∀ e ∈ enabled st, ∃ out, get ⟨x, y, w, h⟩ (planeOfChannel subs plane e.1) = .ok ⟨ptOf e.1, out⟩ ∧ out.w = W ∧ out.h = H' ∧ out.WF (pixelBytes (ptOf e.1)) ∧ Q e.1 out) :
    ∃ shown infos blank, (∀ e ∈ enabled st, Q e.1 (shown e.1)) ∧
      DescribesAll pow rd solve ptOf (enabled st) infos ∧ blank.w = W ∧ blank.h = H' ∧ blank.WF (if alpha.isSome then 4 else 3) ∧
      (layers st ptOf shown infos).length = (enabled st).length ∧ (layers st ptOf shown infos).map (·.2) = infos ∧
      (∀ p ∈ layers st ptOf shown infos, ProperChannel blank p.1 p.2) ∧
      ∀ out, Multi.composeMultiChannel alpha (if alpha.isSome then .Bgra32 else .Bgr24) blank (argsOf (layers st ptOf shown infos)) = .ok out →
        commandWith get fresh doc pow rd solve st alpha plane region base = .ok (base ++ ".PNG".toList, ⟨if alpha.isSome then .Bgra32 else .Bgr24, out⟩) := by
  classical
  obtain ⟨⟨r, r1, r2⟩, -⟩ := meant_roi H hp hr hx hy
  have key : ∀ ch, ∃ out, ch ∈ (enabled st).map (·.1) →
      get ⟨x, y, w, h⟩ (planeOfChannel subs plane ch) = .ok ⟨ptOf ch, out⟩ ∧ out.w = W ∧ out.h = H' ∧ out.WF (pixelBytes (ptOf ch)) ∧ Q ch out := by
    intro ch
    by_cases hm : ch ∈ (enabled st).map (·.1)
    · obtain ⟨e, e1, rfl⟩ := List.mem_map.1 hm
      obtain ⟨out, ho⟩ := hget e e1
      exact ⟨out, fun _ => ho⟩
    · exact ⟨⟨0, 0, 0, ⟨0, fun _ => 0⟩⟩, fun h => absurd h hm⟩
  choose shown hshown using key
  have hmem : ∀ e ∈ enabled st, e.1 ∈ (enabled st).map (·.1) := fun e he => List.mem_map_of_mem he
  let g : Int → Typed := fun ch => ⟨ptOf ch, shown ch⟩
  have hpics := pictures_ok H hp (get := get ⟨x, y, w, h⟩) g ((enabled st).map (·.1)) plane (fun ch hch => (hshown ch hch).1)
  have htype : ∀ e ∈ enabled st, typeOfChannel ((enabled st).map (·.1)) (((enabled st).map (·.1)).map g) e.1 = ptOf e.1 := fun e he => typeOfChannel_map g (hmem e he)
  obtain ⟨after, ha⟩ := C77_returns (pow := pow) (rd := rd) (solve := solve) (ptOf := typeOfChannel ((enabled st).map (·.1)) (((enabled st).map (·.1)).map g)) hn ⟨[], [], []⟩
    (fun e h => by rw [htype e h]; exact (hv e h).info)
  have hd := describesAll_congr htype (C77_channels hn ha).1
  obtain ⟨e0, l0, hl⟩ : ∃ e0 l0, enabled st = e0 :: l0 := by
    cases hc : enabled st with
    | nil => exact absurd hc hne
    | cons a l => exact ⟨a, l, rfl⟩
  have hcp := fun e (he : e ∈ enabled st) => (hshown e.1 (hmem e he)).2
  have hlen : after.infos.length = (enabled st).length := describesAll_length hd
  have h0 := hcp e0 (by rw [hl]; simp)
  let blank := newBitmap fresh (shown e0.1).w (shown e0.1).h (defaultPitch (if alpha.isSome then 4 else 3) (shown e0.1).w)
  have hlay : (layers st ptOf shown after.infos).length = (enabled st).length := by
    unfold layers
    rw [List.length_zip, List.length_map, hlen, Nat.min_self]
  refine ⟨shown, after.infos, blank, fun e he => (hcp e he).2.2.2, hd, h0.1, h0.2.1, newBitmap_wf _ _ _ _, hlay, ?_, ?_, ?_⟩
  · exact List.map_snd_zip (by rw [List.length_map, hlen])
  · have := (C77_proper hn ha blank (fun ch => ⟨ptOf ch, shown ch⟩) (fun e h => ?_)).2
    · rw [(C77_channels hn ha).2.1, List.map_map] at this
      exact this
    · rw [htype e h]
      obtain ⟨t1, -, t2, t3⟩ := hv e h
      refine ⟨rfl, ?_, (hcp e h).2.2.1, (hcp e h).1.trans h0.1.symm, (hcp e h).2.1.trans h0.2.1.symm, ⟨t2.1, t2.2, t3.1, t3.2⟩, ?_⟩
      · rcases t1 with t | t | t | t
        · exact .inl t
        · exact .inr (.inl t)
        · exact .inr (.inr (.inl t))
        · exact .inr (.inr (.inr (.inr t)))
      · intro t
        rw [t] at t1
        rcases t1 with h | h | h | h <;> cases h
  · intro out ho
    unfold commandWith
    rw [r1]
    dsimp only
    rw [(C77_active (pow := pow) (rd := rd) (solve := solve) (ptOf := ptOf) hn).1]
    dsimp only
    rw [r2]
    dsimp only
    rw [hpics]
    dsimp only
    rw [ha]
    dsimp only
    have hargs : argsOf (layers st ptOf shown after.infos) =
        ⟨(((enabled st).map (·.1)).map g).length, some ((((enabled st).map (·.1)).map g).map fun t => some ⟨t.pt, t.bm⟩), some after.infos⟩ := by
      unfold argsOf
      rw [hlay]
      congr 1
      · simp
      · have : (layers st ptOf shown after.infos).map (fun p => some p.1) = ((layers st ptOf shown after.infos).map (·.1)).map some := by rw [List.map_map]; rfl
        rw [this]
        unfold layers
        rw [List.map_fst_zip (by rw [List.length_map, hlen])]
        simp [g]
      · unfold layers
        rw [List.map_snd_zip (by rw [List.length_map, hlen])]
    unfold composeVector
    rw [hargs] at ho
    simp only [hl, List.map_cons] at ho ⊢
    simp only [blank, g] at ho ⊢
    rw [ho]
    rfl

/-- The composition, with and without weights. -/
private theorem composed {al : Alloc} {s : Stream} {doc : Doc} {subs : List AddInfo} (H : Verif.Viewer.Holds al s doc subs) {get : IntRect → Coord → Jxr.Result Typed}
    (fresh : Nat → UInt8) (pow : ℚ → ℚ → ℚ) (rd : ℚ → ℚ) (solve : Lut.Solver) {st : Xml.Settings ℚ} {ptOf : Int → PixelType}
    (alpha : Option UInt8) {plane : Coord} {region : List Char} (base : List Char) {x y w h : Int}
    (hp : ∀ a ∈ subs, SubPlausible a) (hr : RegionMeant subs region x y w h) (hx : IsInt32 x) (hy : IsInt32 y)
    (hn : (st.map (·.1)).Nodup) (hne : enabled st ≠ []) (hv : ∀ e ∈ enabled st, UsableView pow rd solve (ptOf e.1) e.2) {W H' : Nat} {Q : Int → Bitmap → Prop}
    (hget : ∀ e ∈ enabled st, ∃ out, get ⟨x, y, w, h⟩ (planeOfChannel subs plane e.1) = .ok ⟨ptOf e.1, out⟩ ∧ out.w = W ∧ out.h = H' ∧ out.WF (pixelBytes (ptOf e.1)) ∧ Q e.1 out)
    {R : Multi.Channel → UInt8 → Int → Prop} (hR : WeightedBy (enabled st) R) :
    ∃ (shown : Int → Bitmap) (out : Bitmap),
      commandWith get fresh doc pow rd solve st alpha plane region base = .ok (base ++ ".PNG".toList, ⟨if alpha.isSome then .Bgra32 else .Bgr24, out⟩) ∧
      (∀ e ∈ enabled st, Q e.1 (shown e.1)) ∧ ComposedOf pow rd solve st ptOf alpha R shown W H' out := by
  obtain ⟨shown, infos, blank, a1, a2, a3, a4, a5, a6, a7, a8, a9⟩ := composite H fresh pow rd solve alpha base hp hr hx hy hn hne hv hget
  have hwt := describesAll_weights a2
  have mem1 : ∀ p ∈ layers st ptOf shown infos, ∃ e ∈ enabled st, p.2.weight = some e.2.weight := by
    intro p h
    have : p.2.weight ∈ infos.map (·.weight) := by rw [← a7]; exact List.mem_map_of_mem (List.mem_map_of_mem h)
    rw [hwt] at this
    obtain ⟨e, e1, e2⟩ := List.mem_map.1 this
    exact ⟨e, e1, e2.symm⟩
  have mem2 : ∀ e ∈ enabled st, ∃ p ∈ layers st ptOf shown infos, p.2.weight = some e.2.weight := by
    intro e h
    have : some e.2.weight ∈ infos.map (·.weight) := by rw [hwt]; exact List.mem_map_of_mem (f := fun e => some e.2.weight) h
    rw [← a7] at this
    obtain ⟨i, i1, i2⟩ := List.mem_map.1 this
    obtain ⟨p, p1, rfl⟩ := List.mem_map.1 i1
    exact ⟨p, p1, i2⟩
  have hsum : exactSum ((layers st ptOf shown infos).map (·.2)) = ((enabled st).map fun e => e.2.weight).sum := by
    rw [a7]
    unfold exactSum
    have : infos.map (fun c => c.weight.getD 0) = (infos.map (·.weight)).map fun o => o.getD 0 := by rw [List.map_map]; rfl
    rw [this, hwt, List.map_map]
    rfl
  have hne' : layers st ptOf shown infos ≠ [] := by
    intro e
    rw [e] at a6
    exact hne (List.length_eq_zero_iff.1 a6.symm)
  have key : ∃ out, Multi.composeMultiChannel alpha (if alpha.isSome then .Bgra32 else .Bgr24) blank (argsOf (layers st ptOf shown infos)) = .ok out ∧
      IsComposition alpha R (layers st ptOf shown infos) blank out := by
    cases hR with
    | negative hw =>
      obtain ⟨e, e1, e2⟩ := hw
      obtain ⟨p, p1, p2⟩ := mem2 e e1
      refine C58_compose alpha (layers st ptOf shown infos) blank hne' a8 a5 (.inl ⟨p, p1, ?_⟩)
      rintro ⟨v, v1, v2⟩
      rw [p2] at v1
      injection v1 with v1
      subst v1
      exact absurd v2 (not_le.2 e2)
    | equal k k1 k2 k3 =>
      refine C58_compose alpha (layers st ptOf shown infos) blank hne' a8 a5 (.inr (.inl ⟨k, k1, ?_, by rw [a6]; exact k3⟩))
      intro p h
      obtain ⟨e, e1, e2⟩ := mem1 p h
      rw [e2, k2 e e1]
    | different total ht hg hlen hW hdev =>
      subst ht
      obtain ⟨out, o1, o2⟩ := C58_weighted alpha (layers st ptOf shown infos) blank a8 a5 (by
        intro p h
        obtain ⟨e, e1, e2⟩ := mem1 p h
        exact ⟨e.2.weight, e2, hg e e1⟩) (by rw [a6]; exact hlen) (by rw [hsum]; exact hW) (by
        obtain ⟨e, e1, e2⟩ := hdev
        obtain ⟨p, p1, p2⟩ := mem2 e e1
        refine ⟨p, p1, ?_⟩
        rw [hsum, a6, p2]
        exact e2)
      rw [hsum, a6] at o2
      exact ⟨out, o1, o2⟩
  obtain ⟨out, o1, o2⟩ := key
  exact ⟨shown, out, a9 out o1, a1, infos, blank, a2, a3, a4, o2⟩

private theorem viewable_of_composed {pt : PixelType} (h : ComposedType pt) : ViewableType pt ∧ pt ≠ .Invalid := by
  rcases h with rfl | rfl | rfl | rfl
  · exact ⟨.inl rfl, by decide⟩
  · exact ⟨.inr (.inl rfl), by decide⟩
  · exact ⟨.inr (.inr (.inr (.inl rfl))), by decide⟩
  · exact ⟨.inr (.inr (.inr (.inr rfl))), by decide⟩

/-- **C104 (the command `ChannelComposite`; restrictions as for `C104_tile_command_partial`, for the plane of each channel; weights, black and white points as documented; pixel types
without floating-point numbers).** Whatever calls are made to the writer, in whatever order and whichever of them fail: given the file, display settings with at least one enabled
channel and the text of a region, the command writes the composition of the pictures of exactly the enabled channels, each with its own settings. -/
theorem C104_composite_command_partial (dup : Bool) (d0 : Disk) (info : WriterInfo) (ops : List WOp) (hi : InfoOk info) (hops : OpsOk ops)
    (hsz : ∀ a ∈ subsOf ops, a.sizeData ≤ 2147483647) (o : OpenOptions) (al : Alloc) (hal : ∀ n, al n = true) :
    ∃ disk done doc, writeDoc dup d0 info ops = some (disk, done) ∧ openDoc al disk.stream o = .ok doc ∧
      ∀ (c : Codecs) (mem : Memory) (sort : List Item → List Item) (pow : ℚ → ℚ → ℚ) (rd : ℚ → ℚ) (solve : Lut.Solver) (st : Xml.Settings ℚ) (ptOf : Int → PixelType)
        (alpha : Option UInt8) (R : Multi.Channel → UInt8 → Int → Prop) (plane : Coord) (background : Colour) (pic : AddInfo → Nat → Nat → Nat → UInt8) (region base : List Char)
        (x y w h : Int), Lossless c.zstd → SortsBy mKey sort → (∀ a ∈ subsOf done, SubPlausible a) → (Coloured background → background.sum ≠ .nan) →
        RegionMeant (subsOf done) region x y w h → IsInt32 x → IsInt32 y → (st.map (·.1)).Nodup → enabled st ≠ [] →
        (∀ e ∈ enabled st, UsableView pow rd solve (ptOf e.1) e.2 ∧ Showable c (subsOf done) pic (ptOf e.1) (planeOfChannel (subsOf done) plane e.1)) →
        WeightedBy (enabled st) R →
        ∃ (shown : Int → Bitmap) (out : Bitmap),
          compositeCommand sort c mem al disk.stream doc pow rd solve st alpha plane background region base =
            .ok (base ++ ".PNG".toList, ⟨if alpha.isSome then .Bgra32 else .Bgr24, out⟩) ∧
          (∀ e ∈ enabled st,
            CorrectPicture c (subsOf done) pic (ptOf e.1) (planeOfChannel (subsOf done) plane e.1) ⟨background, true, false⟩ x y w.toNat h.toNat (shown e.1)) ∧
          ComposedOf pow rd solve st ptOf alpha R shown w.toNat h.toNat out := by
  obtain ⟨disk, done, doc, h1, h2, H⟩ := holds_session dup d0 info ops hi hops hsz o al hal
  refine ⟨disk, done, doc, h1, h2,
    fun c mem sort pow rd solve st ptOf alpha R plane background pic region base x y w h hz hs hp hb hr hx hy hn hne he hR => ?_⟩
  obtain ⟨-, w1, w2, v1, v2⟩ := meant_roi H hp hr hx hy
  have u : ∀ z : Int, 0 < z → z < 2 ^ 31 → toUInt32 z = z.toNat := by intro z z1 z2; unfold toUInt32; omega
  refine composed H mem.dest pow rd solve alpha base hp hr hx hy hn hne (fun e h => (he e h).1)
    (Q := fun ch b => CorrectPicture c (subsOf done) pic (ptOf ch) (planeOfChannel (subsOf done) plane ch) ⟨background, true, false⟩ x y w.toNat h.toNat b) (fun e h' => ?_) hR
  obtain ⟨t1, t2⟩ := he e h'
  obtain ⟨hv, hinv⟩ := viewable_of_composed t1.type
  obtain ⟨out, o1, o2⟩ := H.picture hz mem hs hv hp t2.fits
    (fun a ha hin hfu => ⟨t2.types a ha (channel_of_plane planeOfChannel_C a ha hin), t2.data a ha hin hfu⟩) (vo := ⟨background, true, false⟩) hb (fun h => by cases h)
    x y w.toNat h.toNat
  refine ⟨out, ?_, o2.1, o2.2.1, o2.2.2.1, o2⟩
  unfold getTiles Viewer.get
  rw [H.pixelType hp planeOfChannel_C t2.occurs t2.types, if_neg hinv, u w w1 w2, u h v1 v2, o1]

/-- **C104 (the command `ScalingChannelComposite`; restrictions as above and as for `C104_scaling_command_partial`).** Likewise for the scaled pictures of the enabled channels, of the
scenes in the filter. -/
theorem C104_scaling_composite_command_partial (dup : Bool) (d0 : Disk) (info : WriterInfo) (ops : List WOp) (hi : InfoOk info) (hops : OpsOk ops)
    (hsz : ∀ a ∈ subsOf ops, a.sizeData ≤ 2147483647) (o : OpenOptions) (al : Alloc) (hal : ∀ n, al n = true) :
    ∃ disk done doc, writeDoc dup d0 info ops = some (disk, done) ∧ openDoc al disk.stream o = .ok doc ∧
      ∀ (c : Codecs) (mem : Memory) (sort : List Item → List Item) (pow : ℚ → ℚ → ℚ) (rd : ℚ → ℚ) (solve : Lut.Solver) (st : Xml.Settings ℚ) (ptOf : Int → PixelType)
        (alpha : Option UInt8) (R : Multi.Channel → UInt8 → Int → Prop) (plane : Coord) (background : Colour) (scenes : Option (Int → Bool)) (zoom : ℚ)
        (pic : AddInfo → Nat → Nat → Nat → UInt8) (region base : List Char) (roi : IntRect) (w h : Nat), Lossless c.zstd → SortsWith zoomLess sort →
        (∀ a ∈ subsOf done, SubPlausible a) → ((∀ a ∈ subsOf done, a.coordinate .S ≠ none) ∨ (∀ a ∈ subsOf done, a.coordinate .S = none)) →
        (Coloured background → background.sum ≠ .nan) → RegionMeant (subsOf done) region roi.x roi.y roi.w roi.h → IsInt32 roi.x → IsInt32 roi.y →
        0 < zoom → zoom ≠ 1 → calcSize roi zoom = some (w, h) → UsualSize roi w h → (st.map (·.1)).Nodup → enabled st ≠ [] →
        (∀ e ∈ enabled st, UsableView pow rd solve (ptOf e.1) e.2 ∧ ShowableScaled c (subsOf done) pic (ptOf e.1) (planeOfChannel (subsOf done) plane e.1) ∧
          ∀ a, Eligible (subsOf done) (planeOfChannel (subsOf done) plane e.1) roi scenes a → UsualSub a ∧ (¬ Full a → subZoom a ≠ 1)) →
        WeightedBy (enabled st) R →
        ∃ (shown : Int → Bitmap) (out : Bitmap),
          scalingCompositeCommand sort c mem al disk.stream doc pow rd solve st alpha plane background false scenes zoom region base =
            .ok (base ++ ".PNG".toList, ⟨if alpha.isSome then .Bgra32 else .Bgr24, out⟩) ∧
          (∀ e ∈ enabled st,
            CorrectScaled c (subsOf done) pic (ptOf e.1) (planeOfChannel (subsOf done) plane e.1) ⟨⟨background, true, false⟩, scenes⟩ zoom roi w h (shown e.1)) ∧
          ComposedOf pow rd solve st ptOf alpha R shown w h out := by
  obtain ⟨disk, done, doc, h1, h2, H⟩ := holds_session dup d0 info ops hi hops hsz o al hal
  refine ⟨disk, done, doc, h1, h2,
    fun c mem sort pow rd solve st ptOf alpha R plane background scenes zoom pic region base roi w h hz hs hp hsc hb hr hx hy z0 z1 hc hu hn hne he hR => ?_⟩
  refine composed H mem.dest pow rd solve alpha base hp hr hx hy hn hne (fun e h => (he e h).1)
    (Q := fun ch b => CorrectScaled c (subsOf done) pic (ptOf ch) (planeOfChannel (subsOf done) plane ch) ⟨⟨background, true, false⟩, scenes⟩ zoom roi w h b) (fun e h' => ?_) hR
  obtain ⟨t1, t2, t3⟩ := he e h'
  obtain ⟨hv, hinv⟩ := viewable_of_composed t1.type
  obtain ⟨out, o1, o2⟩ := H.scaled hz mem hs hv hp t2.fits hsc (fun a ha hin => ⟨t2.types a ha (channel_of_plane planeOfChannel_C a ha hin), t2.data a ha hin⟩)
    (o := ⟨⟨background, true, false⟩, scenes⟩) hb rfl z0 z1 hc hu (fun a ha => (t3 a ha).1) (fun _ a ha => (t3 a ha).2)
  refine ⟨out, ?_, o2.1, o2.2.1, o2.2.2.1, o2⟩
  show getScaled sort c mem al disk.stream doc _ _ zoom roi = _
  unfold getScaled
  rw [H.pixelType hp planeOfChannel_C t2.occurs t2.types, if_neg hinv, o1]

/-- **C104 (the same command with a zoom of 1; restrictions as above and as for `C104_scaling_command_unscaled_partial`).** -/
theorem C104_scaling_composite_command_unscaled_partial (dup : Bool) (d0 : Disk) (info : WriterInfo) (ops : List WOp) (hi : InfoOk info) (hops : OpsOk ops)
    (hsz : ∀ a ∈ subsOf ops, a.sizeData ≤ 2147483647) (o : OpenOptions) (al : Alloc) (hal : ∀ n, al n = true) :
    ∃ disk done doc, writeDoc dup d0 info ops = some (disk, done) ∧ openDoc al disk.stream o = .ok doc ∧
      ∀ (c : Codecs) (mem : Memory) (sort : List Item → List Item) (pow : ℚ → ℚ → ℚ) (rd : ℚ → ℚ) (solve : Lut.Solver) (st : Xml.Settings ℚ) (ptOf : Int → PixelType)
        (alpha : Option UInt8) (R : Multi.Channel → UInt8 → Int → Prop) (plane : Coord) (background : Colour) (scenes : Option (Int → Bool))
        (pic : AddInfo → Nat → Nat → Nat → UInt8) (region base : List Char) (x y : Int) (w h : Nat), Lossless c.zstd → SortsWith zoomLess sort →
        (∀ a ∈ subsOf done, SubPlausible a) → ((∀ a ∈ subsOf done, a.coordinate .S ≠ none) ∨ (∀ a ∈ subsOf done, a.coordinate .S = none)) →
        (Coloured background → background.sum ≠ .nan) → RegionMeant (subsOf done) region x y w h → IsInt32 x → IsInt32 y → w ≤ 2 ^ 19 → h ≤ 2 ^ 19 →
        (st.map (·.1)).Nodup → enabled st ≠ [] →
        (∀ e ∈ enabled st, UsableView pow rd solve (ptOf e.1) e.2 ∧ ShowableScaled c (subsOf done) pic (ptOf e.1) (planeOfChannel (subsOf done) plane e.1) ∧
          ∀ a, Eligible (subsOf done) (planeOfChannel (subsOf done) plane e.1) ⟨x, y, w, h⟩ scenes a → UsualSub a ∧ (¬ Full a → subZoom a < 95 / 100)) →
        WeightedBy (enabled st) R →
        ∃ (shown : Int → Bitmap) (out : Bitmap),
          scalingCompositeCommand sort c mem al disk.stream doc pow rd solve st alpha plane background false scenes 1 region base =
            .ok (base ++ ".PNG".toList, ⟨if alpha.isSome then .Bgra32 else .Bgr24, out⟩) ∧
          (∀ e ∈ enabled st,
            CorrectUnscaled c (subsOf done) pic (ptOf e.1) (planeOfChannel (subsOf done) plane e.1) ⟨⟨background, true, false⟩, scenes⟩ ⟨x, y, w, h⟩ w h (shown e.1)) ∧
          ComposedOf pow rd solve st ptOf alpha R shown w h out := by
  obtain ⟨disk, done, doc, h1, h2, H⟩ := holds_session dup d0 info ops hi hops hsz o al hal
  refine ⟨disk, done, doc, h1, h2,
    fun c mem sort pow rd solve st ptOf alpha R plane background scenes pic region base x y w h hz hs hp hsc hb hr hx hy hw hh hn hne he hR => ?_⟩
  refine composed H mem.dest pow rd solve alpha base hp hr hx hy hn hne (fun e h => (he e h).1)
    (Q := fun ch b => CorrectUnscaled c (subsOf done) pic (ptOf ch) (planeOfChannel (subsOf done) plane ch) ⟨⟨background, true, false⟩, scenes⟩ ⟨x, y, w, h⟩ w h b) (fun e h' => ?_) hR
  obtain ⟨t1, t2, t3⟩ := he e h'
  obtain ⟨hv, hinv⟩ := viewable_of_composed t1.type
  obtain ⟨out, o1, o2⟩ := H.unscaled hz mem hs hv hp t2.fits hsc (fun a ha hin => ⟨t2.types a ha (channel_of_plane planeOfChannel_C a ha hin), t2.data a ha hin⟩)
    (o := ⟨⟨background, true, false⟩, scenes⟩) hb rfl (roi := ⟨x, y, w, h⟩) ⟨rfl, hw⟩ ⟨rfl, hh⟩ (fun a ha => (t3 a ha).1) (fun a ha => (t3 a ha).2)
  refine ⟨out, ?_, o2.1, o2.2.1, o2.2.2.1, o2⟩
  show getScaled sort c mem al disk.stream doc _ _ 1 _ = _
  unfold getScaled
  rw [H.pixelType hp planeOfChannel_C t2.occurs t2.types, if_neg hinv, o1]

private theorem command_no_channel {al : Alloc} {s : Stream} {doc : Doc} {subs : List AddInfo} (H : Verif.Viewer.Holds al s doc subs) (get : IntRect → Coord → Jxr.Result Typed)
    (fresh : Nat → UInt8) (pow : ℚ → ℚ → ℚ) (rd : ℚ → ℚ) (solve : Lut.Solver) {st : Xml.Settings ℚ}
    (alpha : Option UInt8) (plane : Coord) {region : List Char} (base : List Char) {x y w h : Int}
    (hp : ∀ a ∈ subs, SubPlausible a) (hr : RegionMeant subs region x y w h) (hx : IsInt32 x) (hy : IsInt32 y)
    (hn : (st.map (·.1)).Nodup) (hne : ∀ e ∈ st, e.2.isEnabled = false) : commandWith get fresh doc pow rd solve st alpha plane region base = .undefined := by
  obtain ⟨⟨r, r1, r2⟩, -⟩ := meant_roi H hp hr hx hy
  have h0 : enabled st = [] := by
    unfold enabled
    rw [List.filter_eq_nil_iff]
    intro e he
    rw [hne e he]
    decide
  obtain ⟨after, ha⟩ := C77_returns (pow := pow) (rd := rd) (solve := solve) (ptOf := typeOfChannel [] []) hn ⟨[], [], []⟩ (fun e h => by rw [h0] at h; cases h)
  unfold commandWith
  rw [r1]
  dsimp only
  rw [(C77_active (pow := pow) (rd := rd) (solve := solve) (ptOf := typeOfChannel [] []) hn).1, h0]
  simp only [List.map_nil, r2, channelPictures, ha]
  rfl

/-- **C104 (no enabled channel, violated).** If no channel is enabled in the display settings, the two commands do not report this: with every document and region, their behaviour is
undefined (a pointer is read from an empty vector). -/
theorem C104_composite_no_channel_violated (dup : Bool) (d0 : Disk) (info : WriterInfo) (ops : List WOp) (hi : InfoOk info) (hops : OpsOk ops)
    (hsz : ∀ a ∈ subsOf ops, a.sizeData ≤ 2147483647) (o : OpenOptions) (al : Alloc) (hal : ∀ n, al n = true) :
    ∃ disk done doc, writeDoc dup d0 info ops = some (disk, done) ∧ openDoc al disk.stream o = .ok doc ∧
      ∀ (c : Codecs) (mem : Memory) (sort : List Item → List Item) (pow : ℚ → ℚ → ℚ) (rd : ℚ → ℚ) (solve : Lut.Solver) (st : Xml.Settings ℚ)
        (alpha : Option UInt8) (plane : Coord) (background : Colour) (visibility : Bool) (scenes : Option (Int → Bool)) (zoom : ℚ) (region base : List Char) (x y w h : Int),
        (∀ a ∈ subsOf done, SubPlausible a) →
        RegionMeant (subsOf done) region x y w h → IsInt32 x → IsInt32 y → (st.map (·.1)).Nodup → (∀ e ∈ st, e.2.isEnabled = false) →
        compositeCommand sort c mem al disk.stream doc pow rd solve st alpha plane background region base = .undefined ∧
          scalingCompositeCommand sort c mem al disk.stream doc pow rd solve st alpha plane background visibility scenes zoom region base = .undefined := by
  obtain ⟨disk, done, doc, h1, h2, H⟩ := holds_session dup d0 info ops hi hops hsz o al hal
  exact ⟨disk, done, doc, h1, h2, fun c mem sort pow rd solve st alpha plane background visibility scenes zoom region base x y w h hp hr hx hy hn hne =>
    ⟨command_no_channel H _ _ pow rd solve alpha plane base hp hr hx hy hn hne, command_no_channel H _ _ pow rd solve alpha plane base hp hr hx hy hn hne⟩⟩

/-- **C104 (texts that are no region, compositions).** The two commands report every text that is not a region, and write nothing. -/
theorem C104_composite_rejected (sort : List Item → List Item) (c : Codecs) (mem : Memory) (al : Alloc) (s : Stream) (doc : Doc) (pow : ℚ → ℚ → ℚ) (rd : ℚ → ℚ) (solve : Lut.Solver)
    (st : Xml.Settings ℚ) (alpha : Option UInt8) (plane : Coord) (background : Colour) (visibility : Bool) (scenes : Option (Int → Bool)) (zoom : ℚ) (region base : List Char)
    (h : ∀ absolute x y w h, ¬ RegionText region absolute x y w h) :
    compositeCommand sort c mem al s doc pow rd solve st alpha plane background region base = .throws ∧
      scalingCompositeCommand sort c mem al s doc pow rd solve st alpha plane background visibility scenes zoom region base = .throws := by
  have h1 : tryParseRect region = none := by
    cases e : tryParseRect region with
    | none => rfl
    | some r => exact absurd ((C105_region_partial _ _ _ _ _ _).1 e) (h r.absolute r.x r.y r.w r.h)
  unfold compositeCommand scalingCompositeCommand commandWith
  rw [h1]
  exact ⟨rfl, rfl⟩

/-! ## A case -/

/-- A sub-block of 2 × 2 grey pixels of a channel. -/
private def chanSub (ch : Int) (v : UInt8) : AddInfo := { viewSub 0 0 0 v with coordinate := Coord.empty.set .C ch }

/-- Two channels with one sub-block each, at the same place. -/
private def chanOps : List WOp := [.addSubBlock (chanSub 0 5), .addSubBlock (chanSub 1 6)]

private theorem chanSub_ok (ch : Int) (v : UInt8) (hs : IsInt32 ch) : SubOk (chanSub ch v) :=
  let ok := viewSub_ok 0 0 0 v ⟨by decide, by decide⟩ ⟨by decide, by decide⟩ ⟨by decide, by decide⟩
  { fits := { ok.fits with
      coordinate := by
        intro d w h
        unfold chanSub Coord.set Coord.empty at h
        simp only at h
        split at h
        · injection h with h; subst h; exact hs
        · cases h }
    sources := ⟨ok.sources.1, ok.sources.2, ok.sources.3⟩, metadataSize := ok.metadataSize, dataSize := ok.dataSize, attachmentSize := ok.attachmentSize }

private theorem chanOps_ok : OpsOk chanOps where
  each := by
    intro op h
    simp only [chanOps, List.mem_cons, List.not_mem_nil, or_false] at h
    rcases h with rfl | rfl
    · exact chanSub_ok 0 5 ⟨by decide, by decide⟩
    · exact chanSub_ok 1 6 ⟨by decide, by decide⟩
  count := by decide
  total := by decide

private theorem chan_written {disk : Disk} {done : List WOp} (h : writeDoc false Disk.empty exInfo chanOps = some (disk, done)) :
    subsOf done = [chanSub 0 5, chanSub 1 6] := by
  have h1 : (subsOf done).Sublist (subsOf chanOps) := (writeDoc_sublist h).filterMap _
  have h2 : (writeDoc false Disk.empty exInfo chanOps).map (fun r => (subsOf r.2).length) = some 2 := by decide +kernel
  rw [h] at h2
  simp only [Option.map_some, Option.some.injEq] at h2
  exact h1.eq_of_length (h2.trans rfl)

private def chanView (weight : ℚ) : Xml.ChannelView ℚ := { isEnabled := true, weight := weight, tint := none, black := 0, white := 1, mode := .linear, gamma := none, points := none }

/-- Channels 0 and 1 are enabled, channel 2 is not. -/
private def chanSettings (u v : ℚ) : Xml.Settings ℚ := [(0, chanView u), (1, chanView v), (2, { chanView 1 with isEnabled := false })]

private theorem chanEnabled (u v : ℚ) : enabled (chanSettings u v) = [(0, chanView u), (1, chanView v)] := rfl

private theorem chan_all {P : AddInfo → Prop} (p : P (chanSub 0 5)) (q : P (chanSub 1 6)) : ∀ a ∈ [chanSub 0 5, chanSub 1 6], P a := by
  intro a ha
  simp only [List.mem_cons, List.not_mem_nil, or_false] at ha
  rcases ha with rfl | rfl
  · exact p
  · exact q

private theorem chan_sizes : ∀ a ∈ subsOf chanOps, a.sizeData ≤ 2147483647 := chan_all (by show 4 ≤ 2147483647; omega) (by show 4 ≤ 2147483647; omega)

private theorem chan_plausible : ∀ a ∈ [chanSub 0 5, chanSub 1 6], SubPlausible a :=
  chan_all ⟨(by show (0 : Int) ≤ 2; omega), (by show (0 : Int) ≤ 2; omega), .C, rfl⟩ ⟨(by show (0 : Int) ≤ 2; omega), (by show (0 : Int) ≤ 2; omega), .C, rfl⟩

private theorem chan_region : RegionMeant [chanSub 0 5, chanSub 1 6] "rel(0,0,2,2)".toList 0 0 2 2 := by
  refine .inr ⟨0, 0, ⟨⟨⟨_, List.mem_cons_self, ⟨rfl, rfl⟩, rfl⟩, ?_⟩, ⟨⟨_, List.mem_cons_self, ⟨rfl, rfl⟩, rfl⟩, ?_⟩⟩, (C105_region_partial _ _ _ _ _ _).1 (by decide)⟩ <;>
  · intro a ha _
    simp only [List.mem_cons, List.not_mem_nil, or_false] at ha
    rcases ha with rfl | rfl <;> decide

private theorem chan_plane (ch : Int) : planeOfChannel [chanSub 0 5, chanSub 1 6] Coord.empty ch = Coord.empty.set .C ch := by
  unfold planeOfChannel
  rw [if_neg]
  intro h
  have := h (chanSub 0 5) (by simp)
  cases this

private theorem chan_showable (c : Codecs) {ch : Int} (hch : ch = 0 ∨ ch = 1) :
    Showable c [chanSub 0 5, chanSub 1 6] (fun a _ _ _ => if a.coordinate .C = some 0 then 5 else 6) .Gray8 (Coord.empty.set .C ch) := by
  have dep : ∀ ch v, DataShows c (chanSub ch v) 2 2 (fun _ _ _ => v) := by
    intro ch v
    refine .raw rfl (by show 2 * (2 * 1) ≤ 4; omega) (fun x y j hx hy hj => ?_)
    have hj : j = 0 := by change j < 1 at hj; omega
    subst hj
    show [v, v, v, v][y * (2 * 1) + x * 1 + 0]? = some v
    rcases (show x = 0 ∨ x = 1 by omega) with rfl | rfl <;> rcases (show y = 0 ∨ y = 1 by omega) with rfl | rfl <;> rfl
  have hpic : ∀ a ∈ [chanSub 0 5, chanSub 1 6], DataShows c a a.logicalWidth.toNat a.logicalHeight.toNat (fun _ _ _ => if a.coordinate .C = some 0 then 5 else 6) :=
    chan_all (dep 0 5) (dep 1 6)
  refine ⟨⟨rfl, ?_, ?_⟩, ?_, chan_all (fun _ => rfl) (fun _ => rfl), fun a ha _ _ => hpic a ha⟩
  · intro d _ hn a ha b hb u v hu hv
    have hd : d ≠ .C := by rintro rfl; cases hn
    have key : ∀ a ∈ [chanSub 0 5, chanSub 1 6], a.coordinate d = none := by
      apply chan_all <;> (unfold chanSub Coord.set; simp only; rw [if_neg hd]; rfl)
    rw [key a ha] at hu
    cases hu
  · intro d v hv
    have : d = .C ∧ v = ch := by
      cases d <;> cases hv
      exact ⟨rfl, rfl⟩
    obtain ⟨rfl, rfl⟩ := this
    exact ⟨chanSub 0 5, by simp, chanSub 1 6, by simp, 0, 1, rfl, rfl, by omega, by omega⟩
  · rcases hch with rfl | rfl
    · exact ⟨chanSub 0 5, by simp, rfl⟩
    · exact ⟨chanSub 1 6, by simp, rfl⟩

private theorem chan_scaled (c : Codecs) {ch : Int} (hch : ch = 0 ∨ ch = 1) :
    ShowableScaled c [chanSub 0 5, chanSub 1 6] (fun a _ _ _ => if a.coordinate .C = some 0 then 5 else 6) .Gray8 (Coord.empty.set .C ch) :=
  let h := chan_showable c hch
  ⟨h.fits, h.occurs, h.types, fun a ha hin => by
    have key : ∀ a ∈ [chanSub 0 5, chanSub 1 6], Full a ∧ a.physicalWidth = a.logicalWidth ∧ a.physicalHeight = a.logicalHeight := chan_all ⟨⟨rfl, rfl⟩, rfl, rfl⟩ ⟨⟨rfl, rfl⟩, rfl, rfl⟩
    rw [(key a ha).2.1, (key a ha).2.2]
    exact h.data a ha hin (key a ha).1⟩

private theorem chan_channels (c : Codecs) (pow : ℚ → ℚ → ℚ) (rd : ℚ → ℚ) (solve : Lut.Solver) (u v : ℚ) : ∀ e ∈ enabled (chanSettings u v),
    UsableView pow rd solve .Gray8 e.2 ∧
    Showable c [chanSub 0 5, chanSub 1 6] (fun a _ _ _ => if a.coordinate .C = some 0 then 5 else 6) .Gray8 (planeOfChannel [chanSub 0 5, chanSub 1 6] Coord.empty e.1) ∧
    ShowableScaled c [chanSub 0 5, chanSub 1 6] (fun a _ _ _ => if a.coordinate .C = some 0 then 5 else 6) .Gray8 (planeOfChannel [chanSub 0 5, chanSub 1 6] Coord.empty e.1) := by
  intro e he
  rw [chanEnabled] at he
  rw [chan_plane]
  simp only [List.mem_cons, List.not_mem_nil, or_false] at he
  rcases he with rfl | rfl
  · exact ⟨⟨.inl rfl, ⟨_, describes_plain rfl⟩, by norm_num [chanView], by norm_num [chanView]⟩, chan_showable c (.inl rfl), chan_scaled c (.inl rfl)⟩
  · exact ⟨⟨.inl rfl, ⟨_, describes_plain rfl⟩, by norm_num [chanView], by norm_num [chanView]⟩, chan_showable c (.inr rfl), chan_scaled c (.inr rfl)⟩

private theorem chan_equal : WeightedBy (enabled (chanSettings 1 1)) (fun _ v a => a = v.toNat) :=
  .equal 1 (by norm_num) (by
    intro e he
    rw [chanEnabled] at he
    simp only [List.mem_cons, List.not_mem_nil, or_false] at he
    rcases he with rfl | rfl <;> rfl) (by rw [chanEnabled]; decide)

private theorem chan_different : WeightedBy (enabled (chanSettings 1 3)) (fun i v a => Weighted (enabled (chanSettings 1 3)).length 4 (i.weight.getD 0) v a) :=
  .different 4 (by rw [chanEnabled]; norm_num [chanView])
    (by
      intro e he
      rw [chanEnabled] at he
      simp only [List.mem_cons, List.not_mem_nil, or_false] at he
      rcases he with rfl | rfl <;> norm_num [chanView])
    (by rw [chanEnabled]; decide) (by norm_num)
    ⟨(1, chanView 3), by rw [chanEnabled]; simp, by rw [chanEnabled]; norm_num [chanView]⟩

/-- The hypotheses are met: the channels have the values 5 and 6, their composition is 11 in all colours. -/
example (c : Codecs) (hz : Lossless c.zstd) (mem : Memory) (pow : ℚ → ℚ → ℚ) (rd : ℚ → ℚ) (solve : Lut.Solver) :
    ∃ disk done doc, writeDoc false Disk.empty exInfo chanOps = some (disk, done) ∧ openDoc (fun _ => true) disk.stream ⟨false, false, false, false⟩ = .ok doc ∧
    ∃ out, compositeCommand (fun l => l.mergeSort (fun a b => decide (mKey a ≤ mKey b))) c mem (fun _ => true) disk.stream doc pow rd solve (chanSettings 1 1) none Coord.empty
        ⟨.num 0, .num 0, .num 0⟩ "rel(0,0,2,2)".toList "out".toList = .ok ("out.PNG".toList, ⟨.Bgr24, out⟩) ∧ ∀ i < 3, (out.byteAt 3 1 1 i).toNat = 11 := by
  obtain ⟨disk, done, doc, h1, h2, h3⟩ := C104_composite_command_partial false Disk.empty exInfo chanOps exInfo_ok chanOps_ok chan_sizes ⟨false, false, false, false⟩
    (fun _ => true) (fun _ => rfl)
  rw [chan_written h1] at h3
  obtain ⟨shown, out, e1, e2, infos, blank, e3, e4, e5, e6⟩ := h3 c mem _ pow rd solve (chanSettings 1 1) (fun _ => .Gray8) none _ Coord.empty ⟨.num 0, .num 0, .num 0⟩
    (fun a _ _ _ => if a.coordinate .C = some 0 then 5 else 6) "rel(0,0,2,2)".toList "out".toList 0 0 2 2 hz mergeSort_sorts chan_plausible
    (fun _ => (by decide +kernel)) chan_region ⟨by decide, by decide⟩ ⟨by decide, by decide⟩ (by decide) (by rw [chanEnabled]; simp)
    (fun e he => ⟨(chan_channels c pow rd solve 1 1 e he).1, (chan_channels c pow rd solve 1 1 e he).2.1⟩) chan_equal
  refine ⟨disk, done, doc, h1, h2, out, e1, fun i hi => ?_⟩
  rw [chanEnabled] at e2 e3 e6
  obtain ⟨i0, i1, rfl⟩ : ∃ i0 i1, infos = [i0, i1] := by
    match infos, e3 with
    | [a, b], _ => exact ⟨a, b, rfl⟩
    | [], h => exact h.elim
    | [_], h => exact h.2.elim
    | _ :: _ :: _ :: _, h => exact h.2.2.elim
  have pix : ∀ ch : Int, (ch = 0 ∨ ch = 1) → ((shown ch).byteAt 1 1 1 0).toNat = if ch = 0 then 5 else 6 := by
    intro ch hch
    obtain ⟨-, -, -, bg, -, p⟩ := e2 (ch, chanView 1) (by rcases hch with rfl | rfl <;> simp)
    rw [chan_plane] at p
    rcases p 1 1 0 (by decide) (by decide) (by decide) with ⟨n, -⟩ | ⟨a, ha, q, -, -, r, -⟩
    · rcases hch with rfl | rfl
      · exact absurd ⟨by decide, by decide, by decide, by decide⟩ (n (chanSub 0 5) (by simp) (fun d v h => h) ⟨rfl, rfl⟩)
      · exact absurd ⟨by decide, by decide, by decide, by decide⟩ (n (chanSub 1 6) (by simp) (fun d v h => h) ⟨rfl, rfl⟩)
    · have hq := q .C ch rfl
      change (shown ch).byteAt 1 1 1 0 = if a.coordinate .C = some 0 then 5 else 6 at r
      rw [r, hq]
      rcases hch with rfl | rfl <;> rfl
  have plain : ∀ {info : Multi.Channel} {b : Bitmap} {v : UInt8}, Describes pow rd solve .Gray8 (chanView 1) info →
      Contributes info .Gray8 (pixelOf ⟨.Gray8, b⟩ 1 1) i v → v.toNat = (b.byteAt 1 1 1 0).toNat := by
    intro info b v hd hc
    have hl := (hd.linear rfl).1
    have hb := hd.black
    have hw := hd.white
    have ht := hd.tinting
    unfold Contributes at hc
    rw [if_neg (by rw [hl]; simp), if_neg (by rw [hb, hw]; norm_num [chanView]), if_neg (by rw [ht]; decide), if_pos (by decide)] at hc
    exact hc
  obtain ⟨t, ⟨a, t1, ⟨v, v1, rfl⟩, ⟨b, t2, ⟨u, u1, rfl⟩, rfl, rfl⟩, rfl⟩, s2⟩ := e6.colours 1 1 i (by rw [e4]; decide) (by rw [e5]; decide) hi
  have hv := plain e3.1 v1
  have hu := plain e3.2.1 u1
  rw [pix 0 (.inl rfl)] at hv
  rw [pix 1 (.inr rfl)] at hu
  rw [hv, hu] at s2
  change ((out.byteAt 3 1 1 i).toNat : Int) = _ at s2
  simp at s2
  omega

/-- The hypotheses are met with different weights. -/
example (c : Codecs) (hz : Lossless c.zstd) (mem : Memory) (pow : ℚ → ℚ → ℚ) (rd : ℚ → ℚ) (solve : Lut.Solver) :
    ∃ disk done doc, writeDoc false Disk.empty exInfo chanOps = some (disk, done) ∧ openDoc (fun _ => true) disk.stream ⟨false, false, false, false⟩ = .ok doc ∧
    ∃ out, compositeCommand (fun l => l.mergeSort (fun a b => decide (mKey a ≤ mKey b))) c mem (fun _ => true) disk.stream doc pow rd solve (chanSettings 1 3) (some 200) Coord.empty
        ⟨.num 0, .num 0, .num 0⟩ "rel(0,0,2,2)".toList "out".toList = .ok ("out.PNG".toList, ⟨.Bgra32, out⟩) ∧ out.byteAt 4 1 1 3 = 200 := by
  obtain ⟨disk, done, doc, h1, h2, h3⟩ := C104_composite_command_partial false Disk.empty exInfo chanOps exInfo_ok chanOps_ok chan_sizes ⟨false, false, false, false⟩
    (fun _ => true) (fun _ => rfl)
  rw [chan_written h1] at h3
  obtain ⟨shown, out, e1, e2, infos, blank, e3, e4, e5, e6⟩ := h3 c mem _ pow rd solve (chanSettings 1 3) (fun _ => .Gray8) (some 200) _ Coord.empty ⟨.num 0, .num 0, .num 0⟩
    (fun a _ _ _ => if a.coordinate .C = some 0 then 5 else 6) "rel(0,0,2,2)".toList "out".toList 0 0 2 2 hz mergeSort_sorts chan_plausible
    (fun _ => (by decide +kernel)) chan_region ⟨by decide, by decide⟩ ⟨by decide, by decide⟩ (by decide) (by rw [chanEnabled]; simp)
    (fun e he => ⟨(chan_channels c pow rd solve 1 3 e he).1, (chan_channels c pow rd solve 1 3 e he).2.1⟩) chan_different
  exact ⟨disk, done, doc, h1, h2, out, e1, e6.alphas 1 1 200 rfl (by rw [e4]; decide) (by rw [e5]; decide)⟩

private theorem chan_usual : ∀ a ∈ [chanSub 0 5, chanSub 1 6], UsualSub a ∧ Full a := by
  apply chan_all <;> exact ⟨⟨by decide, by decide, by decide, by decide, by decide, by decide⟩, rfl, rfl⟩

/-- The hypotheses are met with a zoom of one half and with one of 1. -/
example (c : Codecs) (hz : Lossless c.zstd) (mem : Memory) (sort : List Item → List Item) (hs : SortsWith zoomLess sort) (pow : ℚ → ℚ → ℚ) (rd : ℚ → ℚ) (solve : Lut.Solver) :
    ∃ disk done doc, writeDoc false Disk.empty exInfo chanOps = some (disk, done) ∧ openDoc (fun _ => true) disk.stream ⟨false, false, false, false⟩ = .ok doc ∧
    ∃ out, scalingCompositeCommand sort c mem (fun _ => true) disk.stream doc pow rd solve (chanSettings 1 3) (some 200) Coord.empty
        ⟨.num 0, .num 0, .num 0⟩ false none (1 / 2) "rel(0,0,2,2)".toList "out".toList = .ok ("out.PNG".toList, ⟨.Bgra32, out⟩) ∧ out.byteAt 4 0 0 3 = 200 := by
  obtain ⟨disk, done, doc, h1, h2, h3⟩ := C104_scaling_composite_command_partial false Disk.empty exInfo chanOps exInfo_ok chanOps_ok chan_sizes ⟨false, false, false, false⟩
    (fun _ => true) (fun _ => rfl)
  rw [chan_written h1] at h3
  obtain ⟨shown, out, e1, e2, infos, blank, e3, e4, e5, e6⟩ := h3 c mem sort pow rd solve (chanSettings 1 3) (fun _ => .Gray8) (some 200) _ Coord.empty ⟨.num 0, .num 0, .num 0⟩
    none (1 / 2) (fun a _ _ _ => if a.coordinate .C = some 0 then 5 else 6) "rel(0,0,2,2)".toList "out".toList ⟨0, 0, 2, 2⟩ 1 1 hz hs chan_plausible
    (.inr (chan_all rfl rfl)) (fun _ => (by decide +kernel)) chan_region ⟨by decide, by decide⟩ ⟨by decide, by decide⟩ (by norm_num) (by norm_num) (by decide +kernel)
    ⟨by decide, by decide, by decide, by decide⟩ (by decide) (by rw [chanEnabled]; simp)
    (fun e he => ⟨(chan_channels c pow rd solve 1 3 e he).1, (chan_channels c pow rd solve 1 3 e he).2.2,
      fun a ha => ⟨(chan_usual a ha.1).1, fun h => absurd (chan_usual a ha.1).2 h⟩⟩) chan_different
  exact ⟨disk, done, doc, h1, h2, out, e1, e6.alphas 0 0 200 rfl (by rw [e4]; decide) (by rw [e5]; decide)⟩

example (c : Codecs) (hz : Lossless c.zstd) (mem : Memory) (sort : List Item → List Item) (hs : SortsWith zoomLess sort) (pow : ℚ → ℚ → ℚ) (rd : ℚ → ℚ) (solve : Lut.Solver) :
    ∃ disk done doc, writeDoc false Disk.empty exInfo chanOps = some (disk, done) ∧ openDoc (fun _ => true) disk.stream ⟨false, false, false, false⟩ = .ok doc ∧
    ∃ out, scalingCompositeCommand sort c mem (fun _ => true) disk.stream doc pow rd solve (chanSettings 1 1) (some 200) Coord.empty
        ⟨.num 0, .num 0, .num 0⟩ false none 1 "rel(0,0,2,2)".toList "out".toList = .ok ("out.PNG".toList, ⟨.Bgra32, out⟩) ∧ out.byteAt 4 1 1 3 = 200 := by
  obtain ⟨disk, done, doc, h1, h2, h3⟩ := C104_scaling_composite_command_unscaled_partial false Disk.empty exInfo chanOps exInfo_ok chanOps_ok chan_sizes
    ⟨false, false, false, false⟩ (fun _ => true) (fun _ => rfl)
  rw [chan_written h1] at h3
  obtain ⟨shown, out, e1, e2, infos, blank, e3, e4, e5, e6⟩ := h3 c mem sort pow rd solve (chanSettings 1 1) (fun _ => .Gray8) (some 200) _ Coord.empty ⟨.num 0, .num 0, .num 0⟩
    none (fun a _ _ _ => if a.coordinate .C = some 0 then 5 else 6) "rel(0,0,2,2)".toList "out".toList 0 0 2 2 hz hs chan_plausible
    (.inr (chan_all rfl rfl)) (fun _ => (by decide +kernel)) chan_region ⟨by decide, by decide⟩ ⟨by decide, by decide⟩ (by decide) (by decide) (by decide)
    (by rw [chanEnabled]; simp)
    (fun e he => ⟨(chan_channels c pow rd solve 1 1 e he).1, (chan_channels c pow rd solve 1 1 e he).2.2,
      fun a ha => ⟨(chan_usual a ha.1).1, fun h => absurd (chan_usual a ha.1).2 h⟩⟩) chan_equal
  exact ⟨disk, done, doc, h1, h2, out, e1, e6.alphas 1 1 200 rfl (by rw [e4]; decide) (by rw [e5]; decide)⟩

/-- The same document with the only channel of the settings switched off. -/
example (c : Codecs) (mem : Memory) (pow : ℚ → ℚ → ℚ) (rd : ℚ → ℚ) (solve : Lut.Solver) :
    ∃ disk done doc, writeDoc false Disk.empty exInfo chanOps = some (disk, done) ∧ openDoc (fun _ => true) disk.stream ⟨false, false, false, false⟩ = .ok doc ∧
    compositeCommand (fun l => l.mergeSort (fun a b => decide (mKey a ≤ mKey b))) c mem (fun _ => true) disk.stream doc pow rd solve [(0, { chanView 1 with isEnabled := false })]
        none Coord.empty ⟨.num 0, .num 0, .num 0⟩ "rel(0,0,2,2)".toList "out".toList = .undefined := by
  obtain ⟨disk, done, doc, h1, h2, h3⟩ := C104_composite_no_channel_violated false Disk.empty exInfo chanOps exInfo_ok chanOps_ok chan_sizes ⟨false, false, false, false⟩
    (fun _ => true) (fun _ => rfl)
  rw [chan_written h1] at h3
  exact ⟨disk, done, doc, h1, h2, (h3 c mem _ pow rd solve _ none Coord.empty _ false none 1 _ _ 0 0 2 2 chan_plausible chan_region ⟨by decide, by decide⟩ ⟨by decide, by decide⟩ (by decide)
    (by intro e he; rw [List.mem_singleton.1 he])).1⟩

/-- A text that is no region. -/
example (sort : List Item → List Item) (c : Codecs) (mem : Memory) (al : Alloc) (s : Stream) (doc : Doc) (pow : ℚ → ℚ → ℚ) (rd : ℚ → ℚ) (solve : Lut.Solver) :
    compositeCommand sort c mem al s doc pow rd solve (chanSettings 1 1) none Coord.empty ⟨.num 0, .num 0, .num 0⟩ "rel(0,0,2)".toList [] = .throws :=
  (C104_composite_rejected _ _ _ _ _ _ _ _ _ _ _ _ _ false none 1 _ _ (fun b x y w h t => by
    have := (C105_region_partial _ _ _ _ _ _).2 t
    revert this
    have e : tryParseRect "rel(0,0,2)".toList = none := by decide
    rw [e]
    intro h
    cases h)).1

end Verif
