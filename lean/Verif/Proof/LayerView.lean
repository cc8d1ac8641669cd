import Verif.Proof.ScaledView
import Verif.Props.Pyramid
import Verif.Spec.LayerView

/-! # Pictures of pyramid layers of written documents: lemmas -/

namespace Verif.Viewer
open Verif.Spec Verif.Czi Verif.Blit Verif.Bitonal Verif.Jxr Verif.Fill Verif.Zstd Verif.Accessor Verif.Scale Verif.Flt

theorem composeLayer_eq {c : Codecs} {mem : Memory} {al : Alloc} {s : Stream} {doc : Doc} {pt : PixelType} {n : Nat} {pix : Pictures}
    (hk : ∀ enc, kindOf enc pt pt = some (.same n)) (xPos yPos : Int) (f : Nat) :
    ∀ (L : List Item) (dst : Bitmap), (∀ p ∈ L, Fetched c mem al s doc pt pix p) →
      composeLayer c mem al s doc pt xPos yPos f (L.map (·.1.toNat)) dst =
        ofOutcome (orUndefined (composeTiles (.same n) 0 0 (L.map fun p =>
          (⟨(p.2.x - xPos).tdiv f, (p.2.y - yPos).tdiv f, (pix p.1).1, (pix p.1).2⟩ : Tile)) dst))
  | [], dst, _ => rfl
  | p :: L, dst, h => by
    obtain ⟨info, h1, h2, h3, h4⟩ := h p (List.mem_cons_self ..)
    simp only [List.map_cons, composeLayer, composeTiles]
    rw [h1]
    dsimp only
    rw [copyAt_kind (hk _), h2, h3]
    have e : composeMaskAware (.same n) dst ⟨(p.2.x - xPos).tdiv f, (p.2.y - yPos).tdiv f, (pix p.1).1, (pix p.1).2⟩ 0 0 =
        copyWithOffsetAndMask (.same n) (pix p.1).1 dst none ((p.2.x - xPos).tdiv f) ((p.2.y - yPos).tdiv f) := by
      unfold composeMaskAware
      dsimp only
      rw [h4, Int.sub_zero, Int.sub_zero]
    rw [e]
    cases hq : copyWithOffsetAndMask (.same n) (pix p.1).1 dst none ((p.2.x - xPos).tdiv f) ((p.2.y - yPos).tdiv f) with
    | none => rfl
    | some d =>
      exact composeLayer_eq hk xPos yPos f L d (fun q hq => h q (List.mem_cons_of_mem _ hq))

/-- The results of the accessor on pictures in memory. -/
def ofPyr (pt : PixelType) : PyrResult → Result Typed
  | .picture b => .ok ⟨pt, b⟩
  | .badPlane _ => .throws
  | .emptyBitmap => .throws
  | .outOfRange => .throws
  | .undefined => .undefined

theorem mapM_numbered {g : Item → Option Nat} : ∀ {l : List Item} {r : List (Nat × Item)}, l.mapM (fun p => (g p).map (fun n => (n, p))) = some r → r.map (·.2) = l
  | [], r, h => by
    rw [List.mapM_nil] at h
    cases h
    rfl
  | p :: l, r, h => by
    rw [List.mapM_cons] at h
    cases e : g p with
    | none => rw [e] at h; cases h
    | some n =>
      cases e2 : l.mapM (fun p => (g p).map (fun n => (n, p))) with
      | none => rw [e, e2] at h; cases h
      | some r' =>
        rw [e, e2] at h
        cases h
        rw [List.map_cons, mapM_numbered e2]

theorem layerOf_mem {factor no : Nat} {l tiles : List Item} (h : layerOf factor no l = some (some tiles)) : ∀ p ∈ tiles, p ∈ l := by
  unfold layerOf at h
  split at h
  · cases h
  · rename_i numbered hn
    have hm := mapM_numbered hn
    split at h
    · cases h
    · cases h
      intro p hp
      obtain ⟨q, q1, rfl⟩ := List.mem_map.1 hp
      rw [← hm]
      exact List.mem_map_of_mem (List.mem_filter.1 q1).1

theorem getLayerTyped_eq {c : Codecs} {mem : Memory} {al : Alloc} {s : Stream} {doc : Doc} {pt : PixelType} {pix : Pictures} (hpt : ViewableType pt)
    {sort : List Item → List Item} (hsort : SortsBy mKey sort) {plane : Coord} (o : LayerOptions) (info : LayerRequest) (roi : IntRect) {create : Nat → Nat → Bitmap}
    (hclear : ∀ w h, clear c.enc pt (newBitmap mem.dest w h (defaultPitch (pixelBytes pt) w)) o.background = .ok (create w h))
    (hf : ∀ p ∈ indexed doc.entries, Matches (some plane) none false p.2 → Fetched c mem al s doc pt pix p) :
    getLayerTyped sort c mem al s doc pt plane o info roi =
      ofPyr pt (pyramidGet sort (.same (pixelBytes pt)) (indexed doc.entries) (docStats doc).dimBounds plane o.scenes o.sortByM info pix create roi) := by
  classical
  obtain ⟨hb, -, -, hk, -⟩ := composable_bpp hpt
  unfold getLayerTyped pyramidGet
  cases hs : sizeOfPixel info with
  | none => rfl
  | some f =>
    dsimp only
    by_cases h0 : f = 0
    · rw [if_pos h0, if_pos h0]; rfl
    rw [if_neg h0, if_neg h0]
    by_cases h1 : toUInt32 (roi.w.tdiv f) = 0 ∨ toUInt32 (roi.h.tdiv f) = 0
    · rw [if_pos h1, if_pos h1]; rfl
    rw [if_neg h1, if_neg h1, hb]
    dsimp only
    unfold layerInternalGet pyramidInternalGet
    cases hp : checkPlane (docStats doc).dimBounds plane with
    | some e => rfl
    | none =>
      dsimp only
      rw [hclear]
      dsimp only
      generalize create (toUInt32 (roi.w.tdiv f)) (toUInt32 (roi.h.tdiv f)) = bg
      by_cases h2 : bg.w * f > 2147483647 ∨ bg.h * f > 2147483647
      · rw [if_pos h2, if_pos h2]; rfl
      rw [if_neg h2, if_neg h2]
      have hmem : ∀ p ∈ (if o.sortByM = true then sort (planeSubBlocks (indexed doc.entries) plane o.scenes ⟨roi.x, roi.y, (bg.w * f : Nat), (bg.h * f : Nat)⟩)
          else planeSubBlocks (indexed doc.entries) plane o.scenes ⟨roi.x, roi.y, (bg.w * f : Nat), (bg.h * f : Nat)⟩), Fetched c mem al s doc pt pix p := by
        intro p hpm
        have : p ∈ planeSubBlocks (indexed doc.entries) plane o.scenes ⟨roi.x, roi.y, (bg.w * f : Nat), (bg.h * f : Nat)⟩ := by
          split at hpm
          · exact (hsort _).1.mem_iff.1 hpm
          · exact hpm
        rw [planeSubBlocks_eq] at this
        obtain ⟨m1, m2⟩ := List.mem_filter.1 this
        have m2 := of_decide_eq_true m2
        exact hf p m1 ⟨m2.1.1, (fun _ h => by cases h), m2.1.2.2⟩
      generalize (if o.sortByM = true then sort (planeSubBlocks (indexed doc.entries) plane o.scenes ⟨roi.x, roi.y, (bg.w * f : Nat), (bg.h * f : Nat)⟩)
          else planeSubBlocks (indexed doc.entries) plane o.scenes ⟨roi.x, roi.y, (bg.w * f : Nat), (bg.h * f : Nat)⟩) = L at hmem
      by_cases h3 : L.isEmpty = true
      · rw [if_pos h3, if_pos h3]; rfl
      rw [if_neg h3, if_neg h3]
      cases hl : layerOf info.factor.toNat info.layerNo.toNat L with
      | none => rfl
      | some r =>
        cases r with
        | none => rfl
        | some tiles =>
          dsimp only
          rw [composeLayer_eq hk roi.x roi.y f tiles bg (fun p hp => hmem p (layerOf_mem hl p hp)), if_neg h0]
          cases composeTiles (.same (pixelBytes pt)) 0 0 (tiles.map fun p =>
            (⟨(p.2.x - roi.x).tdiv f, (p.2.y - roi.y).tdiv f, (pix p.1).1, (pix p.1).2⟩ : Tile)) bg <;> rfl

theorem ReadAs.stored {a : AddInfo} {e : Entry} {sb : SubBlock} (r : ReadAs a e sb) (hu : UsualSub a) : StoredOk e := by
  obtain ⟨u1, u2, u3, u4, u5, u6⟩ := hu
  unfold StoredOk
  rw [r.storedWidth, r.storedHeight]
  exact ⟨u1, by omega, u4, by omega⟩

theorem ReadAs.onLayer {a : AddInfo} {e : Entry} {sb : SubBlock} (r : ReadAs a e sb) (factor n : Nat) : OnLayer factor n e ↔ SubOnLayer factor n a := by
  unfold OnLayer SubOnLayer Minification SubMinification
  rw [r.storedWidth, r.storedHeight, r.width, r.height]

theorem Holds.layer {al : Alloc} {s : Stream} {doc : Doc} {subs : List AddInfo} (H : Holds al s doc subs) {c : Codecs} (hz : Lossless c.zstd) (mem : Memory)
    {sort : List Item → List Item} (hsort : SortsBy mKey sort) {pt : PixelType} (hpt : ViewableType pt) {plane : Coord} {o : LayerOptions} {info : LayerRequest} {roi : IntRect}
    {pic : AddInfo → Nat → Nat → Nat → UInt8} (hp : ∀ a ∈ subs, SubPlausible a) (hfit : PlaneFits plane subs) (hd : LayerSubs c subs plane pt info.factor.toNat pic)
    (hbg : Coloured o.background → o.background.sum ≠ .nan) (hreq : LayerRequested info.factor.toNat info.layerNo.toNat roi) :
    (o.sortByM = true →
      ((∃ a, Eligible subs plane (wholePixels (info.factor.toNat ^ info.layerNo.toNat) roi) o.scenes a ∧ SubOnLayer info.factor.toNat info.layerNo.toNat a) ∨
        ∀ a, ¬ Eligible subs plane (wholePixels (info.factor.toNat ^ info.layerNo.toNat) roi) o.scenes a) →
      ∃ out, getLayerTyped sort c mem al s doc pt plane o info roi = .ok ⟨pt, out⟩ ∧
        CorrectLayer c subs pic pt plane o.background o.scenes info.factor.toNat info.layerNo.toNat roi out) ∧
    ((∃ a, Eligible subs plane (wholePixels (info.factor.toNat ^ info.layerNo.toNat) roi) o.scenes a) →
      (∀ a, Eligible subs plane (wholePixels (info.factor.toNat ^ info.layerNo.toNat) roi) o.scenes a → ¬ SubOnLayer info.factor.toNat info.layerNo.toNat a) →
      getLayerTyped sort c mem al s doc pt plane o info roi = .throws) := by
  classical
  obtain ⟨hb, -, -, hk, -⟩ := composable_bpp hpt
  have hwf0 : ∀ w h, (newBitmap mem.dest w h (defaultPitch (pixelBytes pt) w)).WF (pixelBytes pt) := by
    intro w h
    unfold newBitmap Bitmap.WF defaultPitch
    dsimp only
    have e : w * pixelBytes pt ≤ (pixelBytes pt * w + 3) / 4 * 4 := by rw [Nat.mul_comm]; omega
    refine ⟨e, fun hh => ?_⟩
    obtain ⟨k, rfl⟩ : ∃ k, h = k + 1 := ⟨h - 1, by omega⟩
    rw [Nat.add_sub_cancel, Nat.succ_mul]
    omega
  have hcl := fun w h => clear_ok c.enc hpt _ (hwf0 w h) o.background hbg
  choose create g1 g2 g3 g4 g5 using hcl
  let pix := pictures c mem al s doc
  let items := indexed doc.entries
  have hitem : ∀ p ∈ items, ∃ a ∈ subs, ∃ sb, doc.readSubBlock al s p.1.toNat = .ok (some sb) ∧ ReadAs a p.2 sb := by
    rintro ⟨i, e⟩ hp
    obtain ⟨h0, he⟩ := (indexed_mem _ _ _).1 hp
    obtain ⟨hi, rfl⟩ := List.getElem?_eq_some_iff.1 he
    exact H.read _ hi
  have hwritten : ∀ a ∈ subs, ∃ p ∈ items, ∃ sb, doc.readSubBlock al s p.1.toNat = .ok (some sb) ∧ ReadAs a p.2 sb := by
    intro a ha
    obtain ⟨i, hi, sb, hr, r⟩ := H.written a ha
    exact ⟨((i : Int), doc.entries[i]), (indexed_mem _ _ _).2 ⟨by omega, by simp⟩, sb, hr, r⟩
  have hshow : ∀ p ∈ items, ∀ a ∈ subs, ∀ sb, doc.readSubBlock al s p.1.toNat = .ok (some sb) → ReadAs a p.2 sb → InPlane plane a →
      fetch c mem al s doc p.1.toNat = .ok (sb.info, ⟨pt, (pix p.1).1⟩) ∧
        ShowsImage ⟨pt, (pix p.1).1⟩ pt a.physicalWidth.toNat a.physicalHeight.toNat (pic a) := by
    rintro ⟨i, e⟩ hpm a ha sb hr r hin
    obtain ⟨h0, he⟩ := (indexed_mem _ _ _).1 hpm
    obtain ⟨hi, rfl⟩ := List.getElem?_eq_some_iff.1 he
    obtain ⟨t, t1, t2⟩ := H.fetchedStored hz mem hpt (fun a ha hin => ⟨(hd a ha hin).1, (hd a ha hin).2.1⟩) i.toNat hi a ha sb hr r hin (hd a ha hin).2.2.1
    have hpx : (pix i).1 = t.bm := by
      show (pictures c mem al s doc i).1 = t.bm
      unfold pictures
      rw [t1]
    have ht : (⟨pt, (pix i).1⟩ : Typed) = t := by
      rw [hpx]
      have := t2.typ
      cases t
      cases this
      rfl
    rw [ht]
    exact ⟨t1, t2⟩
  have hmask : ∀ p : Item, (pix p.1).2 = none := fun p => pictures_mask ..
  have hplane := (H.plane hp plane).2 hfit
  have hsel : ∀ p a sb, p ∈ items → a ∈ subs → ReadAs a p.2 sb →
      (Selected items plane o.scenes (coveredRegion info roi) p ↔ Eligible subs plane (wholePixels (info.factor.toNat ^ info.layerNo.toNat) roi) o.scenes a) :=
    fun p a sb hpm ha r => r.candidate ha hpm plane (coveredRegion info roi) o.scenes
  have hfetched : ∀ p ∈ items, Matches (some plane) none false p.2 → Fetched c mem al s doc pt pix p := by
    intro p hpm hm
    obtain ⟨a, ha, sb, hr, r⟩ := hitem p hpm
    have hin : InPlane plane a := by
      have := hm.1 plane rfl
      rw [r.coordinate] at this
      exact this
    exact ⟨sb.info, (hshow p hpm a ha sb hr r hin).1, r.sx.trans r.x.symm, r.sy.trans r.y.symm, hmask p⟩
  have hrq : RequestOk info roi := ⟨hreq.pixel.1, hreq.pixel.2, hreq.width.1, hreq.width.2, hreq.height.1, hreq.height.2⟩
  have hitems : ∀ p, Selected items plane o.scenes (coveredRegion info roi) p → -2147483648 ≤ p.2.mIndex ∧ StoredOk p.2 ∧
      (∃ n, OnLayer info.factor.toNat n p.2 ∧ info.factor.toNat ^ n ≤ 2147483647) ∧ TileOk (.same (pixelBytes pt)) (tileOnLayer pix info roi p) := by
    intro p hs
    obtain ⟨a, ha, sb, hr, r⟩ := hitem p hs.1
    have he := (hsel p a sb hs.1 ha r).1 hs
    obtain ⟨-, -, hu, n, n1, n2⟩ := hd a ha he.2.1
    refine ⟨(validM_range r.mIndex (H.fits a ha).mIndex).1, r.stored hu, ⟨n, (r.onLayer _ _).2 n1, n2⟩, (hshow p hs.1 a ha sb hr r he.2.1).2.wf, ?_⟩
    show (match (pix p.1).2 with | none => Kind.NoOverread (.same (pixelBytes pt)) | some m => Kind.IsSame (.same (pixelBytes pt)) ∧ m.WF)
    rw [hmask]
    trivial
  rw [getLayerTyped_eq hpt hsort o info roi g1 hfetched]
  constructor
  · intro hm hl
    rw [hm]
    obtain ⟨out, e1, e2, e3, e4⟩ := C46_layer_picture_partial sort hsort (.same (pixelBytes pt)) items (docStats doc).dimBounds plane o.scenes info pix create roi hrq hplane
      (fun w h => ⟨g2 w h, g3 w h, g4 w h⟩) hitems (by
        rcases hl with ⟨a, he, hl⟩ | hn
        · left
          obtain ⟨p, hpm, sb, hr, r⟩ := hwritten a he.1
          exact ⟨p, (hsel p a sb hpm he.1 r).2 he, (r.onLayer _ _).2 hl⟩
        · right
          intro p hs
          obtain ⟨a, ha, sb, hr, r⟩ := hitem p hs.1
          exact hn a ((hsel p a sb hs.1 ha r).1 hs))
    refine ⟨out, by rw [e1]; rfl, e2, e3, fun x y j => (create out.w out.h).byteAt (pixelBytes pt) x y j, fun hc x y hx hy => ?_, ?_⟩
    · exact g5 out.w out.h hc x y hx hy
    intro x y j hx hy hj
    have hpaints : ∀ p a sb, p ∈ items → a ∈ subs → doc.readSubBlock al s p.1.toNat = .ok (some sb) → ReadAs a p.2 sb → InPlane plane a →
        ((tileOnLayer pix info roi p).paints x y = true ↔ ∃ u v, PlacedAt (info.factor.toNat ^ info.layerNo.toNat) roi a u v x y) := by
      intro p a sb hpm ha hr r hin
      have hs := (hshow p hpm a ha sb hr r hin).2
      have hw : (pix p.1).1.w = a.physicalWidth.toNat := hs.width
      have hh : (pix p.1).1.h = a.physicalHeight.toNat := hs.height
      obtain ⟨-, -, ⟨u1, -, -, u4, -, -⟩, -⟩ := hd a ha hin
      unfold Tile.paints PlacedAt tileOnLayer pixelSize
      dsimp only
      rw [hmask]
      dsimp only
      rw [Bool.and_true, decide_eq_true_eq, r.x, r.y, hw, hh]
      generalize (a.x - roi.x).tdiv _ = tx
      generalize (a.y - roi.y).tdiv _ = ty
      constructor
      · rintro ⟨q1, q2, q3, q4⟩
        exact ⟨((x : Int) - tx).toNat, ((y : Int) - ty).toNat, by omega, by omega, by omega, by omega⟩
      · rintro ⟨u, v, q1, q2, q3, q4⟩
        omega
    rcases e4 x y j hx hy hj with ⟨n1, n2⟩ | ⟨p, ⟨p1, p2⟩, p3, p4, p5⟩
    · refine .inl ⟨?_, n2⟩
      rintro a ⟨he, hl⟩ u v hpl
      obtain ⟨p, hpm, sb, hr, r⟩ := hwritten a he.1
      have := n1 p ⟨(hsel p a sb hpm he.1 r).2 he, (r.onLayer _ _).2 hl⟩
      rw [(hpaints p a sb hpm he.1 hr r he.2.1).2 ⟨u, v, hpl⟩] at this
      cases this
    · right
      obtain ⟨a, ha, sb, hr, r⟩ := hitem p p1.1
      have he := (hsel p a sb p1.1 ha r).1 p1
      obtain ⟨u, v, hpl⟩ := (hpaints p a sb p1.1 ha hr r he.2.1).1 p3
      refine ⟨a, u, v, ⟨he, (r.onLayer _ _).1 p2⟩, hpl, ?_, ?_⟩
      · have hs := (hshow p p1.1 a ha sb hr r he.2.1).2
        obtain ⟨q1, q2, q3, q4⟩ := hpl
        have hby := hs.bytes u v j (by omega) (by omega) hj
        change out.byteAt (pixelBytes pt) x y j = _ at p4
        rw [p4, ← hby]
        unfold Tile.colour tileOnLayer pixelSize
        dsimp only [Kind.value, Kind.sb]
        rw [r.x, r.y, q3, q4]
        congr 1 <;> omega
      · rintro b u' v' ⟨hb1, hb2⟩ hpl' hab
        obtain ⟨q, hqm, sb', hr', r'⟩ := hwritten b hb1.1
        exact p5 q ⟨(hsel q b sb' hqm hb1.1 r').2 hb1, (r'.onLayer _ _).2 hb2⟩ ((hpaints q b sb' hqm hb1.1 hr' r' hb1.2.1).2 ⟨u', v', hpl'⟩) (liesAbove_painted r r' hab)
  · rintro ⟨a, he⟩ hn
    rw [C46_empty_layer_throws sort hsort (.same (pixelBytes pt)) items (docStats doc).dimBounds plane o.scenes o.sortByM info pix create roi hrq hplane
      (fun w h => ⟨g2 w h, g3 w h⟩) (fun p hs => ⟨(hitems p hs).2.1, (hitems p hs).2.2.1⟩) (by
        obtain ⟨p, hpm, sb, hr, r⟩ := hwritten a he.1
        exact ⟨p, (hsel p a sb hpm he.1 r).2 he⟩) (by
        intro p hs hl
        obtain ⟨b, hb', sb, hr, r⟩ := hitem p hs.1
        exact hn b ((hsel p b sb hs.1 hb' r).1 hs) ((r.onLayer _ _).1 hl))]
    rfl

end Verif.Viewer
