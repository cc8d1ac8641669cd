import Verif.Proof.ReaderSession
import Verif.Props.Viewer
import Verif.Props.WriterEdit
import Verif.Spec.EditedView

/-!
# C104: what is left after editing is what is seen

`Spec.PicturesShow al s doc subs`: whatever picture of a plane is composed from the opened document, it shows the sub-blocks `subs` as in `Spec.CorrectPicture`.
-/

namespace Verif
open Verif.Spec Verif.Czi Verif.Blit Verif.Bitonal Verif.Jxr Verif.Fill Verif.Zstd Verif.Accessor Verif.Viewer

private theorem opened_options {al : Alloc} {s : Stream} {o : OpenOptions} {doc : Doc} (h : openDoc al s o = .ok doc) : doc.options = o := by
  rcases ReaderSession.openWith_cases al s o [] with ⟨e, -, h'⟩ | ⟨doc', h', -, h2, -⟩
  · rw [h] at h'; cases h'
  · rw [h] at h'; cases h'; exact h2

private theorem info_of_read {al : Alloc} {s : Stream} {o : OpenOptions} {e : Entry} {sb : SubBlock} (ho : o.headerPrecedence = false)
    (h : readEntry al s o e = .ok sb) : sb.info = infoFromEntry e := by
  have hfin : ∀ d, readEntry.finish o e d = .ok ⟨infoFromEntry e, d.metadata, d.data, d.attachment⟩ := by
    intro d; unfold readEntry.finish; rw [ho]; rfl
  unfold readEntry at h
  cases hd : readSubBlockData al s e.filePosition with
  | error x => rw [hd] at h; cases h
  | ok d =>
    rw [hd] at h
    change (if o.ignoreDiscrepancy = false then _ else _) = _ at h
    split at h
    · split at h
      · cases h
      · cases h
      · rw [hfin] at h; cases h; rfl
    · rw [hfin] at h; cases h; rfl

theorem holds_of_contents {al : Alloc} {s : Stream} {o : OpenOptions} {doc : Doc} {c : Content} {subs : List AddInfo} (ho : o.headerPrecedence = false)
    (h : openDoc al s o = .ok doc) (hr : ReaderShows al s doc c) (hc : ConsistsOf c subs) (hf : ∀ a ∈ subs, AddFits a) : Holds al s doc subs := by
  obtain ⟨keys, k1, k2, k3, k4⟩ := hr.subBlocks
  have key : ∀ i (hi : i < doc.entries.length) k v, keys[i]? = some k → c.subs k = some v →
      ∃ sb, doc.readSubBlock al s i = .ok (some sb) ∧ viewRead sb = v ∧ viewInfo (infoFromEntry doc.entries[i]) = viewInfo sb.info := by
    intro i hi k v hk hv
    have h1 := k4 i k hk
    dsimp only at h1
    rw [hv] at h1
    unfold Doc.readSubBlock at h1 ⊢
    rw [List.getElem?_eq_getElem hi] at h1 ⊢
    dsimp only at h1 ⊢
    rw [opened_options h] at h1 ⊢
    cases he : readEntry al s o doc.entries[i] with
    | error x => rw [he] at h1; cases h1
    | ok sb =>
      rw [he] at h1
      injection h1 with h1
      injection h1 with h1
      exact ⟨sb, rfl, h1, by rw [info_of_read ho he]⟩
  refine ⟨fun i hi => ?_, fun a ha => ?_, hf⟩
  · have hk : keys[i]? = some keys[i] := List.getElem?_eq_getElem (by omega)
    obtain ⟨v, hv⟩ := Option.isSome_iff_exists.1 ((k3 keys[i]).1 (List.getElem_mem _))
    obtain ⟨a, ha, rfl⟩ := hc.only _ v hv
    obtain ⟨sb, s1, s2, s3⟩ := key i hi _ _ hk hv
    exact ⟨a, ha, sb, s1, readAs_of_views s2 s3⟩
  · obtain ⟨k, hk⟩ := hc.all a ha
    obtain ⟨i, hi, rfl⟩ := List.getElem_of_mem ((k3 k).2 (by rw [hk]; rfl))
    obtain ⟨sb, s1, s2, s3⟩ := key i (by omega) _ _ (List.getElem?_eq_getElem hi) hk
    exact ⟨i, by omega, sb, s1, readAs_of_views s2 s3⟩

/-- **C104 (pictures show the contents; partial: the information in the directory takes precedence, which is the default).** Whenever a reader shows certain
contents of a file, pictures composed with it show the sub-blocks of the contents. -/
theorem C104_pictures_of_contents_partial {al : Alloc} {s : Stream} {o : OpenOptions} {doc : Doc} {c : Content} {subs : List AddInfo} (ho : o.headerPrecedence = false)
    (h : openDoc al s o = .ok doc) (hr : ReaderShows al s doc c) (hc : ConsistsOf c subs) (hf : ∀ a ∈ subs, AddFits a) : PicturesShow al s doc subs :=
  fun _ mem _ _ _ _ _ xPos yPos w h' hz hs hpt hp hfit hd hb hv => (holds_of_contents ho h hr hc hf).picture hz mem hs hpt hp hfit hd hb hv xPos yPos w h'

/-- **C104 (after editing a written document; same restrictions).** Write any document with a writer, open it with a reader-writer and add, replace and remove sub-blocks and write
metadata in any order, whichever calls fail; after `Close`, the pictures that a reader composes show the sub-blocks that are there after the edits, and nothing of those
replaced or removed. -/
theorem C104_picture_after_editing_partial (dup : Bool) (d0 : Disk) (info : WriterInfo) (ops : List WOp) (hi : InfoOk info) (hops : OpsOk ops)
    (hsz : ∀ op ∈ ops, ReadableOp op) (edits : List EditOp) (he : EditsOk ops.length (writtenSize ops) edits) (hna : ∀ op ∈ edits, NoAttachment op)
    (rwInfo : RWInfo) (o : OpenOptions) (ho : o.headerPrecedence = false) (al : Alloc) (hal : ∀ n, al n = true) :
    ∃ disk done doc c s, writeDoc dup d0 info ops = some (disk, done) ∧ openDoc al disk.stream o = .ok doc ∧ Initially al disk.stream doc c ∧
      rwCreate al ⟨RWState.init, disk⟩ rwInfo = (s, none) ∧
      ∃ w d doc', rwClose (edit s c edits).1 = (⟨w, d⟩, none) ∧ openDoc al d.stream o = .ok doc' ∧
        ∀ subs, ConsistsOf (edit s c edits).2 subs → (∀ a ∈ subs, AddFits a) → PicturesShow al d.stream doc' subs := by
  obtain ⟨disk, done, h1, doc, c, s, h2, h3, h4, -, -, w, d, doc', h5, h6, h7, -⟩ :=
    C11_written_subblock_edits dup d0 info ops hi hops hsz edits he hna rwInfo o al hal
  exact ⟨disk, done, doc, c, s, h1, h2, h3, h4, w, d, doc', h5, h6, fun subs hc hf => C104_pictures_of_contents_partial ho h6 h7 hc hf⟩

/-- **C104 (a document made with a reader-writer; same restrictions).** Likewise when the document is made from nothing with a reader-writer. -/
theorem C104_picture_of_new_partial {al : Alloc} (hal : ∀ n, al n = true) {d0 : Disk} (hd : d0.size < 544) {o : OpenOptions} (hopt : o.headerPrecedence = false)
    {edits : List EditOp} (info : RWInfo) (ho : EditsOk 0 544 edits) (hops : ∀ op ∈ edits, NoAttachment op) :
    ∃ s, rwCreate al ⟨RWState.init, d0⟩ info = (s, none) ∧
      ∀ subs, ConsistsOf (edit s Content.empty edits).2 subs → subs ≠ [] → (∀ a ∈ subs, AddFits a) →
        ∃ w d doc, rwClose (edit s Content.empty edits).1 = (⟨w, d⟩, none) ∧ openDoc al d.stream o = .ok doc ∧ PicturesShow al d.stream doc subs := by
  obtain ⟨s, h1, -, -, h2⟩ := C11_new_partial hal hd (o := o) info ho hops
  refine ⟨s, h1, fun subs hc hne hf => ?_⟩
  obtain ⟨a, rest, rfl⟩ := List.exists_cons_of_ne_nil hne
  obtain ⟨k, hk⟩ := hc.all a (by simp)
  obtain ⟨w, d, doc, h5, h6, h7, -⟩ := h2 ⟨k, by rw [hk]; rfl⟩
  exact ⟨w, d, doc, h5, h6, C104_pictures_of_contents_partial hopt h6 h7 hc hf⟩

theorem holds_origin {al : Alloc} {s : Stream} {doc : Doc} {subs : List AddInfo} (H : Holds al s doc subs) (hp : ∀ a ∈ subs, SubPlausible a) {ox oy : Int}
    (ho : IsOrigin subs ox oy) : (docStats doc).bbox0.x = ox ∧ (docStats doc).bbox0.y = oy := by
  have full : ∀ {a : AddInfo} {e : Entry} {sb : SubBlock}, ReadAs a e sb → (OnLayer0 e ↔ Full a) := by
    intro a e sb r
    unfold OnLayer0 Full
    rw [r.width, r.height, r.storedWidth, r.storedHeight]
    exact ⟨fun h => ⟨h.1.symm, h.2.symm⟩, fun h => ⟨h.1.symm, h.2.symm⟩⟩
  have inl : ∀ e, e ∈ layer0 doc.entries ↔ e ∈ doc.entries ∧ OnLayer0 e := by
    intro e; unfold layer0; rw [List.mem_filter, decide_eq_true_eq]
  have into : ∀ e ∈ layer0 doc.entries, ∃ a ∈ subs, Full a ∧ e.x = a.x ∧ e.y = a.y := by
    intro e he
    obtain ⟨h1, h2⟩ := (inl e).1 he
    obtain ⟨i, hi, rfl⟩ := List.getElem_of_mem h1
    obtain ⟨a, ha, sb, -, r⟩ := H.read i hi
    exact ⟨a, ha, (full r).1 h2, r.x, r.y⟩
  have fro : ∀ a ∈ subs, Full a → ∃ e ∈ layer0 doc.entries, e.x = a.x ∧ e.y = a.y := by
    intro a ha hf
    obtain ⟨i, hi, sb, -, r⟩ := H.written a ha
    exact ⟨_, (inl _).2 ⟨List.getElem_mem hi, (full r).2 hf⟩, r.x, r.y⟩
  obtain ⟨⟨a, ha, fa, rfl⟩, la⟩ := ho.left
  obtain ⟨⟨b, hb, fb, rfl⟩, lb⟩ := ho.top
  obtain ⟨ea, ea1, ea2, -⟩ := fro a ha fa
  obtain ⟨eb, eb1, -, eb2⟩ := fro b hb fb
  have hbox := (C17_reader_statistics_exact_partial doc.entries (H.entryOk hp)).boxLayer0.2 (List.ne_nil_of_mem ea1)
  obtain ⟨i1, ⟨x, x1, x2⟩, ⟨y, y1, y2⟩, -⟩ := hbox
  obtain ⟨a', ha', fa', q1, -⟩ := into x x1
  obtain ⟨b', hb', fb', -, q2⟩ := into y y1
  have := la a' ha' fa'
  have := lb b' hb' fb'
  have := i1 ea ea1
  have := i1 eb eb1
  unfold docStats
  constructor <;> omega

/-- **C104 (coordinate systems; same restrictions).** The region may be given in any coordinate system: that of the sub-blocks, or the one in which the smallest rectangle around all
sub-blocks without minification starts at `(0, 0)`, or the default of the reader. The picture of the region then starts at the corresponding point. -/
theorem C104_picture_in_frame_partial (dup : Bool) (d0 : Disk) (info : WriterInfo) (ops : List WOp) (hi : InfoOk info) (hops : OpsOk ops)
    (hsz : ∀ a ∈ subsOf ops, a.sizeData ≤ 2147483647) (o : OpenOptions) (al : Alloc) (hal : ∀ n, al n = true) :
    ∃ disk done doc, writeDoc dup d0 info ops = some (disk, done) ∧ openDoc al disk.stream o = .ok doc ∧
      ∀ (c : Codecs) (mem : Memory) (sort : List Item → List Item) (pt : PixelType) (plane : Coord) (vo : ViewOptions) (pic : AddInfo → Nat → Nat → Nat → UInt8)
        (given frame : Frame) (zx zy x y : Int) (w h : Nat), Lossless c.zstd → SortsBy mKey sort → ViewableType pt →
        (∀ a ∈ subsOf done, SubPlausible a) → PlaneFits plane (subsOf done) →
        (∀ a ∈ subsOf done, InPlane plane a → Full a → a.pixelType = pt ∧ DataShows c a a.logicalWidth.toNat a.logicalHeight.toNat (pic a)) →
        (Coloured vo.background → vo.background.sum ≠ .nan) → (vo.sortByM = false → vo.useVisibilityCheck = false) →
        ZeroAt (subsOf done) (chooseDefaultFrame given) frame zx zy → w < 2 ^ 31 → h < 2 ^ 31 →
        ∃ out, getIn sort c mem al disk.stream doc (chooseDefaultFrame given) pt plane vo frame ⟨x, y, w, h⟩ = .ok ⟨pt, out⟩ ∧
          CorrectPicture c (subsOf done) pic pt plane vo (zx + x) (zy + y) w h out := by
  obtain ⟨disk, done, doc, h1, h2, H⟩ := holds_session dup d0 info ops hi hops hsz o al hal
  refine ⟨disk, done, doc, h1, h2, fun c mem sort pt plane vo pic given frame zx zy x y w h hz hs hpt hp hf hd hb hv hzero hw hh => ?_⟩
  obtain ⟨out, o1, o2⟩ := H.picture hz mem hs hpt hp hf hd hb hv (zx + x) (zy + y) w h
  refine ⟨out, ?_, o2⟩
  have u : ∀ n : Nat, n < 2 ^ 31 → toUInt32 (n : Int) = n := by
    intro n hn
    unfold toUInt32
    omega
  have key : ∀ f, (f = .Raw ∧ zx = 0 ∧ zy = 0) ∨ (f = .Pixel ∧ IsOrigin (subsOf done) zx zy) → consolidateFrame (chooseDefaultFrame given) frame = some f →
      transformRectangle (chooseDefaultFrame given) (docStats doc).bbox0.x (docStats doc).bbox0.y frame ⟨x, y, w, h⟩ .Raw = some (.Raw, ⟨zx + x, zy + y, w, h⟩) := by
    intro f hf hc
    unfold transformRectangle transformPoint
    rw [hc]
    rcases hf with ⟨rfl, rfl, rfl⟩ | ⟨rfl, ho⟩
    · simp [consolidateFrame]
    · obtain ⟨e1, e2⟩ := holds_origin H hp ho
      simp [consolidateFrame, e1, e2]
      omega
  have hkey : transformRectangle (chooseDefaultFrame given) (docStats doc).bbox0.x (docStats doc).bbox0.y frame ⟨x, y, w, h⟩ .Raw =
      some (.Raw, ⟨zx + x, zy + y, w, h⟩) := by
    cases frame with
    | Raw => exact key .Raw (.inl ⟨rfl, hzero⟩) rfl
    | Pixel => exact key .Pixel (.inr ⟨rfl, hzero⟩) rfl
    | Invalid => exact hzero.elim
    | Default =>
      unfold ZeroAt at hzero
      cases given
      all_goals first | exact key .Raw (.inl ⟨rfl, hzero⟩) rfl | exact key .Pixel (.inr ⟨rfl, hzero⟩) rfl
  unfold getIn
  rw [hkey]
  dsimp only
  rw [u w hw, u h hh]
  exact o1

/-- A region in the pixel coordinate system of the document above, seen from two sub-blocks at different places. -/
example : ZeroAt [viewSub 7 (-4) 0 5, viewSub 3 1 (-9) 6] (chooseDefaultFrame .Pixel) .Default (-4) (-9) ∧
    ZeroAt [viewSub 7 (-4) 0 5, viewSub 3 1 (-9) 6] (chooseDefaultFrame .Pixel) .Raw 0 0 := by
  refine ⟨⟨⟨⟨_, List.mem_cons_self, ⟨rfl, rfl⟩, rfl⟩, ?_⟩, ⟨⟨_, List.mem_cons_of_mem _ (List.mem_singleton.2 rfl), ⟨rfl, rfl⟩, rfl⟩, ?_⟩⟩, rfl, rfl⟩ <;>
  · intro a ha _
    simp only [List.mem_cons, List.not_mem_nil, or_false] at ha
    rcases ha with rfl | rfl <;> decide

/-- A new document: two sub-blocks are added, the first is replaced by one with other pixels, the second is removed. -/
def viewEdits : List EditOp :=
  [.addSubBlock (viewSub 7 0 0 5), .addSubBlock (viewSub 3 1 1 6), .replaceSubBlock 0 (viewSub 7 0 0 9), .removeSubBlock 1]

theorem viewEdits_ok : EditsOk 0 544 viewEdits ∧ ∀ op ∈ viewEdits, NoAttachment op := by
  have a1 : SubOk (viewSub 7 0 0 5) := viewSub_ok _ _ _ _ ⟨by decide, by decide⟩ ⟨by decide, by decide⟩ ⟨by decide, by decide⟩
  have a2 : SubOk (viewSub 3 1 1 6) := viewSub_ok _ _ _ _ ⟨by decide, by decide⟩ ⟨by decide, by decide⟩ ⟨by decide, by decide⟩
  have a3 : SubOk (viewSub 7 0 0 9) := viewSub_ok _ _ _ _ ⟨by decide, by decide⟩ ⟨by decide, by decide⟩ ⟨by decide, by decide⟩
  refine ⟨⟨fun op hop => ?_, by decide, by decide⟩, fun op hop => ?_⟩ <;>
    simp only [viewEdits, List.mem_cons, List.not_mem_nil, or_false] at hop <;> rcases hop with rfl | rfl | rfl | rfl
  · exact ⟨a1, by show 4 ≤ 2147483647; omega⟩
  · exact ⟨a2, by show 4 ≤ 2147483647; omega⟩
  · exact ⟨a3, (by show 4 ≤ 2147483647; omega), by decide⟩
  all_goals exact trivial

/-- All calls succeed, so the contents are then the replacing sub-block alone. -/
theorem viewEdits_contents : ConsistsOf (edit exNew Content.empty viewEdits).2 [viewSub 7 0 0 9] := by
  have e : (edit exNew Content.empty viewEdits).2.subs = fun k => if k = 1 then none else if k = 0 then some (viewAdded (viewSub 7 0 0 9)) else
      if k = 1 then some (viewAdded (viewSub 3 1 1 6)) else if k = 0 then some (viewAdded (viewSub 7 0 0 5)) else none := by
    have h1 : (editStep exNew (.addSubBlock (viewSub 7 0 0 5))).2.isNone = true := by decide +kernel
    have h2 : (editStep (editStep exNew (.addSubBlock (viewSub 7 0 0 5))).1 (.addSubBlock (viewSub 3 1 1 6))).2.isNone = true := by decide +kernel
    have h3 : (editStep (editStep (editStep exNew (.addSubBlock (viewSub 7 0 0 5))).1 (.addSubBlock (viewSub 3 1 1 6))).1
      (.replaceSubBlock 0 (viewSub 7 0 0 9))).2.isNone = true := by decide +kernel
    have h4 : (editStep (editStep (editStep (editStep exNew (.addSubBlock (viewSub 7 0 0 5))).1 (.addSubBlock (viewSub 3 1 1 6))).1
      (.replaceSubBlock 0 (viewSub 7 0 0 9))).1 (.removeSubBlock 1)).2.isNone = true := by decide +kernel
    simp only [viewEdits, edit, h1, h2, h3, h4, if_true, Content.after, Content.empty, Int.zero_add]
    rfl
  refine ⟨fun k v hv => ⟨_, List.mem_singleton.2 rfl, ?_⟩, fun a ha => ⟨0, ?_⟩⟩
  · rw [e] at hv
    dsimp only at hv
    by_cases h1 : k = 1
    · rw [if_pos h1] at hv; cases hv
    · rw [if_neg h1] at hv
      by_cases h0 : k = 0
      · rw [if_pos h0] at hv; exact (Option.some.inj hv).symm
      · rw [if_neg h0, if_neg h1, if_neg h0] at hv; cases hv
  · rw [e, List.mem_singleton.1 ha]; rfl

/-- The hypotheses are met; the picture shows the replacing sub-block, and the background where the removed one was. -/
example (c : Codecs) (hz : Lossless c.zstd) (mem : Memory) : ∃ w d doc, rwClose (edit exNew Content.empty viewEdits).1 = (⟨w, d⟩, none) ∧
    openDoc (fun _ => true) d.stream ⟨false, false, false, false⟩ = .ok doc ∧
    ∃ out, getTyped (fun l => l.mergeSort (fun a b => decide (mKey a ≤ mKey b))) c mem (fun _ => true) d.stream doc .Gray8 viewPlane
        ⟨⟨.num 0, .num 0, .num 0⟩, true, true⟩ 0 0 3 3 = .ok ⟨.Gray8, out⟩ ∧
      out.byteAt 1 1 1 0 = 9 ∧ out.byteAt 1 2 2 0 = 0 := by
  obtain ⟨s, h1, h2⟩ := C104_picture_of_new_partial (al := fun _ => true) (fun _ => rfl) (d0 := Disk.empty) (by decide) (o := ⟨false, false, false, false⟩) rfl
    ⟨false, exInfo.guid⟩ viewEdits_ok.1 viewEdits_ok.2
  have hs : s = exNew := by
    have := h1.symm.trans exNew_create
    injection this
  subst hs
  have hone : ∀ {P : AddInfo → Prop}, P (viewSub 7 0 0 9) → ∀ a ∈ [viewSub 7 0 0 9], P a := fun p a ha => by rw [List.mem_singleton.1 ha]; exact p
  obtain ⟨w, d, doc, h3, h4, h5⟩ := h2 _ viewEdits_contents (by simp) (hone (viewSub_ok 7 0 0 9 ⟨by decide, by decide⟩ ⟨by decide, by decide⟩ ⟨by decide, by decide⟩).fits)
  obtain ⟨out, e1, e2, e3, e4, bg, e5, e6⟩ := h5 c mem _ .Gray8 viewPlane ⟨⟨.num 0, .num 0, .num 0⟩, true, true⟩ (fun _ _ _ _ => 9) 0 0 3 3 hz mergeSort_sorts (.inl rfl)
    (hone (viewSub_plausible ..))
    ⟨rfl, (by
      intro d hd hn a ha b hb u v hu hv
      have key : ∀ a ∈ [viewSub 7 0 0 9], a.coordinate = viewPlane := hone rfl
      rw [key a ha, hn] at hu
      cases hu), (by
      intro d v hv
      have : d = .C ∧ v = 0 := by
        cases d <;> cases hv
        exact ⟨rfl, rfl⟩
      obtain ⟨rfl, rfl⟩ := this
      exact ⟨viewSub 7 0 0 9, by simp, viewSub 7 0 0 9, by simp, 0, 0, rfl, rfl, by omega, by omega⟩)⟩
    (hone (fun _ _ => ⟨rfl, viewSub_depicts c 7 0 0 9⟩)) (fun _ => (by decide +kernel)) (fun h => by cases h)
  refine ⟨w, d, doc, h3, h4, out, e1, ?_, ?_⟩
  · rcases e6 1 1 0 (by omega) (by omega) (by decide) with ⟨n, -⟩ | ⟨a, ha, -, -, q, r, t⟩
    · exact absurd ⟨by decide, by decide, by decide, by decide⟩ (n (viewSub 7 0 0 9) (by simp) (fun d v h => h) ⟨rfl, rfl⟩)
    · exact r
  · rcases e6 2 2 0 (by omega) (by omega) (by decide) with ⟨-, r⟩ | ⟨a, ha, -, -, q, r, t⟩
    · have := (e5 ⟨(by intro h; cases h), (by intro h; cases h), (by intro h; cases h)⟩ 2 2 (by omega) (by omega)).dark (le_refl (0 : ℚ)) (le_refl (0 : ℚ)) (le_refl (0 : ℚ))
      have e : bg 2 2 0 = 0 := by
        rw [← UInt8.toNat_inj]
        exact this
      exact r.trans e
    · rw [List.mem_singleton.1 ha] at q
      exact absurd q.2.1 (by decide)

end Verif
