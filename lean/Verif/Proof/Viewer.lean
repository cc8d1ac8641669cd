import Verif.Props.Accessor
import Verif.Props.Convert
import Verif.Props.Document
import Verif.Props.Fill
import Verif.Props.Jxr
import Verif.Props.Zstd
import Verif.Proof.Lookup
import Verif.Spec.Viewer

/-! # Pictures of written documents: lemmas -/

namespace Verif.Viewer
open Verif.Spec Verif.Czi Verif.Blit Verif.Bitonal Verif.Jxr Verif.Fill Verif.Zstd Verif.Accessor

/-! ## The bitmap of a sub-block -/

theorem composable_bpp {pt : PixelType} (h : ViewableType pt) :
    bytesPerPel pt = some (pixelBytes pt) ∧ copySupported pt = true ∧ fillBytes pt = pixelBytes pt ∧
      (∀ enc, kindOf enc pt pt = some (.same (pixelBytes pt))) ∧ ∃ f, formatOf pt = some f := by
  rcases h with rfl | rfl | rfl | rfl | rfl
  · exact ⟨rfl, rfl, rfl, fun _ => rfl, _, rfl⟩
  · exact ⟨rfl, rfl, rfl, fun _ => rfl, _, rfl⟩
  · exact ⟨rfl, rfl, rfl, fun _ => rfl, _, rfl⟩
  · exact ⟨rfl, rfl, rfl, fun _ => rfl, _, rfl⟩
  · exact ⟨rfl, rfl, rfl, fun _ => rfl, _, rfl⟩

theorem dataShows_bitmap {c : Codecs} (hz : Lossless c.zstd) {a : AddInfo} (hpt : ViewableType a.pixelType) {w h : Nat} {f : Nat → Nat → Nat → UInt8}
    (hd : DataShows c a w h f) (fresh fresh2 : Nat → UInt8) :
    ∃ t, createBitmap c.lib c.zstd c.enc fresh fresh2 (compressionModeFromInt a.compression) (dataOf a) a.pixelType w h none = .ok t ∧
      ShowsImage t a.pixelType w h f := by
  obtain ⟨hb, hcopy, -, -, fm, hfm⟩ := composable_bpp hpt
  -- from rows to pixels
  have key : ∀ (mode : CompressionMode) (bm : Bitmap) (v : Nat → Nat → UInt8),
      createBitmap c.lib c.zstd c.enc fresh fresh2 mode (dataOf a) a.pixelType w h none = .ok ⟨a.pixelType, bm⟩ →
      (∀ y i, y < h → i < w * pixelBytes a.pixelType → bm.buf.get (y * bm.stride + i) = v y i) →
      (∀ x y j, x < w → y < h → j < pixelBytes a.pixelType → v y (x * pixelBytes a.pixelType + j) = f x y j) →
      ∃ t, createBitmap c.lib c.zstd c.enc fresh fresh2 mode (dataOf a) a.pixelType w h none = .ok t ∧ ShowsImage t a.pixelType w h f := by
    intro mode bm v h1 h2 h3
    obtain ⟨e1, e2, e3, bpp, e4, e5⟩ := C80_declared _ _ _ _ _ _ _ _ _ _ _ _ h1
    rw [hb] at e4
    cases e4
    refine ⟨_, h1, e1, e2, e3, e5, fun x y j hx hy hj => ?_⟩
    unfold Bitmap.byteAt
    have : x * pixelBytes a.pixelType + j < w * pixelBytes a.pixelType := by
      have : (x + 1) * pixelBytes a.pixelType ≤ w * pixelBytes a.pixelType := Nat.mul_le_mul_right _ hx
      rw [Nat.succ_mul] at this
      omega
    rw [Nat.add_assoc, h2 y _ hy this]
    exact h3 x y j hx hy hj
  cases hd with
  | raw hc hs hp =>
    rw [hc]
    have hlen : (dataOf a).length = a.sizeData := by
      unfold dataOf payloadOf
      cases a.data <;> simp
    refine key .UnCompressed ⟨w, h, w * pixelBytes a.pixelType, ⟨w * pixelBytes a.pixelType * h, (Buf.ofList (dataOf a)).get⟩⟩
      (fun y i => (Buf.ofList (dataOf a)).get (y * (w * pixelBytes a.pixelType) + i)) ?_ (fun y i _ _ => rfl) ?_
    · unfold createBitmap
      dsimp only
      unfold uncompressed
      rw [hb]
      dsimp only
      rw [if_pos (by rw [hlen, Nat.mul_comm]; exact hs)]
      rfl
    · intro x y j hx hy hj
      have := hp x y j hx hy hj
      dsimp only [Buf.ofList]
      rw [← Nat.add_assoc]
      simp [this]
  | zstd0 fr src stride dest hc hs hr hdat hp =>
    rw [hc]
    obtain ⟨r, h1, -, h3⟩ := C37_zstd0_round_trip c.zstd hz fr fresh w h stride a.pixelType _ src dest hb hs.size.1 hs.size.2 hs.lines hs.inside
      (.inr hcopy) hr
    rw [hdat] at h1
    cases h1
    obtain ⟨bm, b1, b2⟩ := h3 _ rfl true
    refine key .Zstd0 bm _ ?_ b2.value (fun x y j hx hy hj => by rw [← Nat.add_assoc]; exact hp x y j hx hy hj)
    unfold createBitmap
    dsimp only [Option.getD]
    rw [b1]
    rfl
  | zstd1 fr src stride dest packing hc hs hr hnp hdat hp =>
    rw [hc]
    obtain ⟨bm, b1, b2⟩ := C37_round_trip_partial c.zstd hz fr fresh w h stride a.pixelType _ packing src dest hb hs.size.1 hs.size.2 hs.lines hs.inside
      (.inr hcopy) hr.2 hr.1 _ hdat true (fun h1 h2 => absurd h2 (hnp h1))
    refine key .Zstd1 bm _ ?_ b2.value (fun x y j hx hy hj => by rw [← Nat.add_assoc]; exact hp x y j hx hy hj)
    unfold createBitmap
    dsimp only [Option.getD]
    rw [b1]
    rfl
  | jxr fr src stride par hc hs hq hl hdat hp =>
    rw [hc]
    obtain ⟨t, t1, t2⟩ := C80_roundtrip c.lib c.enc fr fresh fresh2 hfm (hl fm hfm) w h stride src par hq hs.size.1 hs.size.2 hs.lines hs.inside _ hdat true
    exact ⟨t, t1, t2.typ, t2.width, t2.height, t2.wf, fun x y j hx hy hj => (t2.bytes x y j hx hy hj).trans (hp x y j hx hy hj)⟩

/-! ## Background -/

theorem clear_ok (enc : Fl → Nat → UInt8) {pt : PixelType} (hpt : ViewableType pt) (bm : Bitmap) (hwf : bm.WF (pixelBytes pt)) (col : Colour)
    (hsum : Coloured col → col.sum ≠ .nan) :
    ∃ out, clear enc pt bm col = .ok out ∧ out.w = bm.w ∧ out.h = bm.h ∧ out.WF (pixelBytes pt) ∧
      (Coloured col → ∀ x y, x < bm.w → y < bm.h → ColourPixel enc pt col (out.byteAt (pixelBytes pt) x y)) := by
  unfold clear
  by_cases hc : Coloured col
  swap
  · exact ⟨bm, if_neg hc, rfl, rfl, hwf, fun h => absurd h hc⟩
  rw [if_pos (show col.r ≠ .nan ∧ col.g ≠ .nan ∧ col.b ≠ .nan from hc)]
  have wf' : ∀ {n : Nat} {out : Bitmap}, OnlyPixels n bm out → out.WF (pixelBytes pt) := by
    intro n out ho
    unfold Bitmap.WF
    rw [ho.w, ho.h, ho.stride, ho.size]
    exact hwf
  rcases hpt with rfl | rfl | rfl | rfl | rfl
  · obtain ⟨out, v, e1, e2, e3, e4⟩ := C79_grey enc .Gray8 (.inl rfl) bm hwf col (hsum hc)
    refine ⟨out, e1, e2.w, e2.h, wf' e2, fun _ x y hx hy => ?_⟩
    have := e4 x y hx hy
    show IsGreyValue 255 col _
    rw [show (out.byteAt (pixelBytes .Gray8) x y 0).toNat = v from this]
    exact e3
  · obtain ⟨out, v, e1, e2, e3, e4⟩ := C79_grey enc .Gray16 (.inr rfl) bm hwf col (hsum hc)
    refine ⟨out, e1, e2.w, e2.h, wf' e2, fun _ x y hx hy => ?_⟩
    have := e4 x y hx hy
    show IsGreyValue 65535 col ((out.byteAt (pixelBytes .Gray16) x y (2 * 0)).toNat + 256 * (out.byteAt (pixelBytes .Gray16) x y (2 * 0 + 1)).toNat)
    rw [show (out.byteAt (pixelBytes .Gray16) x y (2 * 0)).toNat + 256 * (out.byteAt (pixelBytes .Gray16) x y (2 * 0 + 1)).toNat = v from this]
    exact e3
  · obtain ⟨out, v, e1, e2, e3, e4⟩ := C79_float enc bm hwf col
    exact ⟨out, e1, e2.w, e2.h, wf' e2, fun _ x y hx hy => ⟨v, fun j hj => e3 x y j hx hy hj, e4⟩⟩
  · obtain ⟨out, b, g, r, e1, e2, e3, e4, e5, e6⟩ := C79_colour enc .Bgr24 (.inl rfl) bm hwf col hc.1 hc.2.1 hc.2.2
    refine ⟨out, e1, e2.w, e2.h, wf' e2, fun _ x y hx hy => ?_⟩
    obtain ⟨q1, q2, q3, -⟩ := e6 x y hx hy
    refine ⟨?_, ?_, ?_⟩
    · rw [show (out.byteAt (pixelBytes .Bgr24) x y 0).toNat = b from q1]; exact e3
    · rw [show (out.byteAt (pixelBytes .Bgr24) x y 1).toNat = g from q2]; exact e4
    · rw [show (out.byteAt (pixelBytes .Bgr24) x y 2).toNat = r from q3]; exact e5
  · obtain ⟨out, b, g, r, e1, e2, e3, e4, e5, e6⟩ := C79_colour enc .Bgr48 (.inr (.inr rfl)) bm hwf col hc.1 hc.2.1 hc.2.2
    refine ⟨out, e1, e2.w, e2.h, wf' e2, fun _ x y hx hy => ?_⟩
    obtain ⟨q1, q2, q3, -⟩ := e6 x y hx hy
    refine ⟨?_, ?_, ?_⟩
    · dsimp only; rw [show (out.byteAt (pixelBytes .Bgr48) x y (2 * 0)).toNat + 256 * (out.byteAt (pixelBytes .Bgr48) x y (2 * 0 + 1)).toNat = b from q1]; exact e3
    · dsimp only; rw [show (out.byteAt (pixelBytes .Bgr48) x y (2 * 1)).toNat + 256 * (out.byteAt (pixelBytes .Bgr48) x y (2 * 1 + 1)).toNat = g from q2]; exact e4
    · dsimp only; rw [show (out.byteAt (pixelBytes .Bgr48) x y (2 * 2)).toNat + 256 * (out.byteAt (pixelBytes .Bgr48) x y (2 * 2 + 1)).toNat = r from q3]; exact e5

/-! ## Composition -/

/-- The sub-block is read, and its bitmap is `pix`, at the place in the directory. -/
def Fetched (c : Codecs) (mem : Memory) (al : Alloc) (s : Stream) (doc : Doc) (pt : PixelType) (pix : Pictures) (p : Item) : Prop :=
  ∃ info, fetch c mem al s doc p.1.toNat = .ok (info, ⟨pt, (pix p.1).1⟩) ∧ info.x = p.2.x ∧ info.y = p.2.y ∧ (pix p.1).2 = none

theorem composeFetched_eq {c : Codecs} {mem : Memory} {al : Alloc} {s : Stream} {doc : Doc} {pt : PixelType} {n : Nat} {pix : Pictures}
    (hk : ∀ enc, kindOf enc pt pt = some (.same n)) (xPos yPos : Int) :
    ∀ (L : List Item) (dst : Bitmap), (∀ p ∈ L, Fetched c mem al s doc pt pix p) →
      composeFetched c mem al s doc pt xPos yPos (L.map (·.1.toNat)) dst =
        ofOutcome (orUndefined (composeTiles (.same n) xPos yPos (L.map (tileAt pix)) dst))
  | [], dst, _ => rfl
  | p :: L, dst, h => by
    obtain ⟨info, h1, h2, h3, h4⟩ := h p (List.mem_cons_self ..)
    simp only [List.map_cons, composeFetched, composeTiles]
    rw [h1]
    dsimp only
    rw [copyAt_kind (hk _), h2, h3]
    have e : composeMaskAware (.same n) dst (tileAt pix p) xPos yPos =
        copyWithOffsetAndMask (.same n) (pix p.1).1 dst none (p.2.x - xPos) (p.2.y - yPos) := by
      unfold composeMaskAware tileAt
      dsimp only
      rw [h4]
    rw [e]
    cases hq : copyWithOffsetAndMask (.same n) (pix p.1).1 dst none (p.2.x - xPos) (p.2.y - yPos) with
    | none => rfl
    | some d =>
      exact composeFetched_eq hk xPos yPos L d (fun q hq => h q (List.mem_cons_of_mem _ hq))

theorem composeFetched_shape {c : Codecs} {mem : Memory} {al : Alloc} {s : Stream} {doc : Doc} {pt : PixelType} (xPos yPos : Int) :
    ∀ (is : List Nat) (dst out : Bitmap), composeFetched c mem al s doc pt xPos yPos is dst = .ok out →
      out.w = dst.w ∧ out.h = dst.h ∧ out.stride = dst.stride ∧ out.buf.size = dst.buf.size
  | [], dst, out, h => by cases h; exact ⟨rfl, rfl, rfl, rfl⟩
  | i :: is, dst, out, h => by
    unfold composeFetched at h
    split at h
    · cases h
    · cases h
    · cases h
    · split at h
      · cases h
      · cases h
      · rename_i d' hd'
        obtain ⟨a1, a2, a3, a4⟩ := composeFetched_shape xPos yPos is d' out h
        obtain ⟨b1, b2, b3, b4⟩ := copyAt_shape hd'
        exact ⟨a1.trans b1, a2.trans b2, a3.trans b3, a4.trans b4⟩

theorem draw_eq {c : Codecs} {mem : Memory} {al : Alloc} {s : Stream} {doc : Doc} {pt : PixelType} {n : Nat} {pix : Pictures}
    (hk : ∀ enc, kindOf enc pt pt = some (.same n)) (vis : Bool) (xPos yPos : Int) (L : List Item) (dst : Bitmap)
    (h : ∀ p ∈ L, Fetched c mem al s doc pt pix p) :
    (match toDraw vis ⟨xPos, yPos, dst.w, dst.h⟩ L with
      | none => .undefined
      | some is => composeFetched c mem al s doc pt xPos yPos is dst) =
      ofOutcome (orUndefined (accessorComposeTiles (.same n) vis xPos yPos (L.map fun p => (p.2.rect, (pix p.1).1, (pix p.1).2)) dst)) := by
  unfold toDraw accessorComposeTiles
  cases vis with
  | false =>
    simp only [Bool.false_eq_true, if_false]
    rw [composeFetched_eq hk xPos yPos L dst h, List.map_map]
    rfl
  | true =>
    simp only [if_true, List.length_map]
    have e : (fun i => (((L.map fun p : Item => (p.2.rect, (pix p.1).1, (pix p.1).2))[i]?).map (fun q : IntRect × Bitmap × Option Mask => q.1)).getD (⟨0, 0, -1, -1⟩ : IntRect)) =
        fun i : Nat => ((L[i]?).map (fun q : Item => q.2.rect)).getD ⟨0, 0, -1, -1⟩ := by
      funext i
      rw [List.getElem?_map, Option.map_map]
      rfl
    rw [e]
    cases Coverage.checkForVisibility ⟨xPos, yPos, dst.w, dst.h⟩ L.length (fun i => ((L[i]?).map (·.2.rect)).getD ⟨0, 0, -1, -1⟩) with
    | none => rfl
    | some v =>
      simp only [Option.map_some, Option.bind_some]
      have e1 : (v.filterMap fun i => (L[i]?).map (·.1.toNat)) = (v.filterMap fun i => L[i]?).map (·.1.toNat) := by
        rw [List.map_filterMap]
      have e2 : (v.filterMap fun i => ((L.map fun p : Item => (p.2.rect, (pix p.1).1, (pix p.1).2))[i]?).map
          (fun s : IntRect × Bitmap × Option Mask => (⟨s.1.x, s.1.y, s.2.1, s.2.2⟩ : Tile))) = (v.filterMap fun i => L[i]?).map (tileAt pix) := by
        rw [List.map_filterMap]
        congr 1
        funext i
        rw [List.getElem?_map, Option.map_map]
        rfl
      rw [e1, e2]
      refine composeFetched_eq hk xPos yPos _ dst (fun p hp => ?_)
      obtain ⟨i, _, hi⟩ := List.mem_filterMap.1 hp
      exact h p (List.mem_of_getElem? hi)

theorem draw_ok {c : Codecs} {mem : Memory} {al : Alloc} {s : Stream} {doc : Doc} {pt : PixelType} {n : Nat} {pix : Pictures}
    (hk : ∀ enc, kindOf enc pt pt = some (.same n)) (vis : Bool) (xPos yPos : Int) (L : List Item) (dst out : Bitmap)
    (h : ∀ p ∈ L, Fetched c mem al s doc pt pix p)
    (ho : accessorComposeTiles (.same n) vis xPos yPos (L.map fun p => (p.2.rect, (pix p.1).1, (pix p.1).2)) dst = some out) :
    ∃ is, toDraw vis ⟨xPos, yPos, dst.w, dst.h⟩ L = some is ∧ composeFetched c mem al s doc pt xPos yPos is dst = .ok out := by
  have := draw_eq hk vis xPos yPos L dst h
  rw [ho] at this
  split at this
  · cases this
  · rename_i is his
    exact ⟨is, his, this⟩

/-! ## Written sub-blocks and entries -/

/-- The entry `e` and the sub-block `sb` are what is read of `a`. -/
structure ReadAs (a : AddInfo) (e : Entry) (sb : SubBlock) : Prop where
  coordinate : e.coordinate = a.coordinate
  mIndex : validM e.mIndex = a.mIndex.bind validM
  x : e.x = a.x
  y : e.y = a.y
  width : e.width = a.logicalWidth
  height : e.height = a.logicalHeight
  storedWidth : e.storedWidth = a.physicalWidth
  storedHeight : e.storedHeight = a.physicalHeight
  pixelType : pixelTypeFromInt e.pixelType = a.pixelType
  sx : sb.info.x = a.x
  sy : sb.info.y = a.y
  pw : sb.info.pw = a.physicalWidth
  ph : sb.info.ph = a.physicalHeight
  spixelType : sb.info.pixelType = a.pixelType
  compression : sb.info.compression = a.compression
  data : sb.data.bytes.getD [] = dataOf a

theorem readAs_of_views {a : AddInfo} {e : Entry} {sb : SubBlock} (h1 : viewRead sb = viewAdded a) (h2 : viewInfo (infoFromEntry e) = viewInfo sb.info) :
    ReadAs a e sb := by
  unfold viewRead viewAdded at h1
  unfold viewInfo infoFromEntry at h2
  simp only [SbView.mk.injEq, Prod.mk.injEq] at h1 h2
  obtain ⟨a1, a2, a3, a4, ⟨a5, a6, a7, a8⟩, ⟨a9, a10⟩, a11, a12, a13, a14⟩ := h1
  obtain ⟨b1, b2, b3, b4, ⟨b5, b6, b7, b8⟩, ⟨b9, b10⟩, b11⟩ := h2
  refine ⟨b3.trans a3, b4.trans a4, b5.trans a5, b6.trans a6, b7.trans a7, b8.trans a8, b9.trans a9, b10.trans a10, b1.trans a1, a5, a6, a9, a10, a1, a2, ?_⟩
  rw [a13]
  unfold payloadView dataOf
  dsimp only
  by_cases h : a.sizeData = 0
  · rw [if_pos h, h]
    unfold payloadOf
    cases a.data <;> simp
  · rw [if_neg h]; rfl

theorem validM_range {m : Int} {o : Option Int} (h : validM m = o.bind validM) (ho : ∀ v, o = some v → IsInt32 v) : intMin ≤ m ∧ m ≤ intMax := by
  have e1 : intMin = -2147483648 := rfl
  have e2 : intMax = 2147483647 := rfl
  unfold validM at h
  by_cases hm : m = -2147483648 ∨ m = 2147483647
  · rcases hm with rfl | rfl <;> omega
  · rw [if_neg hm] at h
    cases o with
    | none => simp at h
    | some v =>
      obtain ⟨h1, h2⟩ := ho v rfl
      simp only [Option.bind_some] at h
      split at h
      · cases h
      · cases h
        omega

/-- What is known of an opened document in terms of the sub-blocks written. -/
structure Holds (al : Alloc) (s : Stream) (doc : Doc) (subs : List AddInfo) : Prop where
  read : ∀ i (h : i < doc.entries.length), ∃ a ∈ subs, ∃ sb, doc.readSubBlock al s i = .ok (some sb) ∧ ReadAs a doc.entries[i] sb
  written : ∀ a ∈ subs, ∃ i, ∃ h : i < doc.entries.length, ∃ sb, doc.readSubBlock al s i = .ok (some sb) ∧ ReadAs a doc.entries[i] sb
  fits : ∀ a ∈ subs, AddFits a

theorem holds_session (dup : Bool) (d0 : Disk) (info : WriterInfo) (ops : List WOp) (hi : InfoOk info) (hops : OpsOk ops)
    (hsz : ∀ a ∈ subsOf ops, a.sizeData ≤ 2147483647) (o : OpenOptions) (al : Alloc) (hal : ∀ n, al n = true) :
    ∃ disk done doc, writeDoc dup d0 info ops = some (disk, done) ∧ openDoc al disk.stream o = .ok doc ∧ Holds al disk.stream doc (subsOf done) := by
  obtain ⟨disk, done, h1, doc, h2, sbs, h3, h4, h5, h6⟩ := C01_sub_blocks_read_back_partial dup d0 info ops hi hops hsz o al hal
  refine ⟨disk, done, doc, h1, h2, ?_, ?_, ?_⟩
  · intro i h
    have hs : i < sbs.length := by omega
    have hm : viewRead sbs[i] ∈ (subsOf done).map viewAdded := h5.mem_iff.1 (List.mem_map_of_mem (List.getElem_mem hs))
    obtain ⟨a, ha, hv⟩ := List.mem_map.1 hm
    exact ⟨a, ha, sbs[i], h4 i hs, readAs_of_views hv.symm (h6 i hs h)⟩
  · intro a ha
    obtain ⟨sb, hs1, hs2⟩ := List.mem_map.1 (h5.mem_iff.2 (List.mem_map_of_mem ha))
    obtain ⟨i, hi', rfl⟩ := List.getElem_of_mem hs1
    exact ⟨i, by omega, sbs[i], h4 i hi', readAs_of_views hs2 (h6 i hi' (by omega))⟩
  · intro a ha
    have ha' : a ∈ subsOf ops := ((writeDoc_sublist h1).filterMap _).subset ha
    obtain ⟨op, ho1, ho2⟩ := List.mem_filterMap.1 ha'
    have := hops.each op ho1
    cases op with
    | addSubBlock b => cases ho2; exact this.fits
    | _ => cases ho2

variable {al : Alloc} {s : Stream} {doc : Doc} {subs : List AddInfo}

theorem Holds.entryOk (H : Holds al s doc subs) (hp : ∀ a ∈ subs, SubPlausible a) : ∀ e ∈ doc.entries, EntryOk e := by
  intro e he
  obtain ⟨i, hi, rfl⟩ := List.getElem_of_mem he
  obtain ⟨a, ha, sb, -, r⟩ := H.read i hi
  obtain ⟨p1, p2, p3⟩ := hp a ha
  obtain ⟨m1, m2⟩ := validM_range r.mIndex (H.fits a ha).mIndex
  exact ⟨⟨by rw [r.width]; exact p1, by rw [r.height]; exact p2⟩, ⟨m2, m1⟩, fun _ => by rw [r.coordinate]; exact p3⟩

theorem Holds.values (H : Holds al s doc subs) (d : Dim) (v : Int) : v ∈ Spec.values doc.entries d ↔ ∃ a ∈ subs, a.coordinate d = some v := by
  unfold Spec.values
  rw [List.mem_filterMap]
  constructor
  · rintro ⟨e, he, hv⟩
    obtain ⟨i, hi, rfl⟩ := List.getElem_of_mem he
    obtain ⟨a, ha, sb, -, r⟩ := H.read i hi
    exact ⟨a, ha, by rw [← r.coordinate]; exact hv⟩
  · rintro ⟨a, ha, hv⟩
    obtain ⟨i, hi, sb, -, r⟩ := H.written a ha
    exact ⟨doc.entries[i], List.getElem_mem hi, by rw [r.coordinate]; exact hv⟩

theorem Holds.plane (H : Holds al s doc subs) (hp : ∀ a ∈ subs, SubPlausible a) (plane : Coord) :
    checkPlane (docStats doc).dimBounds plane = none ↔ PlaneFits plane subs := by
  unfold docStats
  rw [C34_plane_accepted_iff _ (H.entryOk hp)]
  constructor
  · rintro ⟨h1, h2⟩
    refine ⟨h1, fun d hd hn a ha b hb u v hu hv => ?_, fun d v hv => ?_⟩
    · exact (h2 d hd).1 hn u ((H.values d u).2 ⟨a, ha, hu⟩) v ((H.values d v).2 ⟨b, hb, hv⟩)
    · have hd : d ≠ .S := by rintro rfl; rw [h1] at hv; cases hv
      obtain ⟨lo, hlo, hi, hhi, e1, e2⟩ := (h2 d hd).2 v hv
      obtain ⟨a, ha, ha'⟩ := (H.values d lo).1 hlo
      obtain ⟨b, hb, hb'⟩ := (H.values d hi).1 hhi
      exact ⟨a, ha, b, hb, lo, hi, ha', hb', e1, e2⟩
  · rintro ⟨h1, h2, h3⟩
    refine ⟨h1, fun d hd => ⟨fun hn u hu v hv => ?_, fun v hv => ?_⟩⟩
    · obtain ⟨a, ha, ha'⟩ := (H.values d u).1 hu
      obtain ⟨b, hb, hb'⟩ := (H.values d v).1 hv
      exact h2 d hd hn a ha b hb u v ha' hb'
    · obtain ⟨a, ha, b, hb, lo, hi, ha', hb', e1, e2⟩ := h3 d v hv
      exact ⟨lo, (H.values d lo).2 ⟨a, ha, ha'⟩, hi, (H.values d hi).2 ⟨b, hb, hb'⟩, e1, e2⟩

/-- The pictures fetched. -/
noncomputable def pictures (c : Codecs) (mem : Memory) (al : Alloc) (s : Stream) (doc : Doc) : Pictures := fun i =>
  match fetch c mem al s doc i.toNat with
  | .ok (_, t) => (t.bm, none)
  | _ => (⟨0, 0, 0, ⟨0, fun _ => 0⟩⟩, none)

theorem pictures_mask (c : Codecs) (mem : Memory) (al : Alloc) (s : Stream) (doc : Doc) (i : Int) : (pictures c mem al s doc i).2 = none := by
  unfold pictures
  split <;> rfl

theorem layer0_mem (items : List Item) (plane : Coord) (roi : IntRect) (p : Item) (hp : p ∈ layer0SubBlocks items plane roi) :
    p ∈ items ∧ Matches (some plane) none true p.2 := by
  classical
  rw [layer0SubBlocks_eq, List.mem_filter, List.mem_filter, decide_eq_true_eq] at hp
  exact hp.1

theorem Holds.fetched (H : Holds al s doc subs) {c : Codecs} (hz : Lossless c.zstd) (mem : Memory) {pt : PixelType} (hpt : ViewableType pt) {plane : Coord}
    {pic : AddInfo → Nat → Nat → Nat → UInt8} (hp : ∀ a ∈ subs, SubPlausible a)
    (hd : ∀ a ∈ subs, InPlane plane a → Full a → a.pixelType = pt ∧ DataShows c a a.logicalWidth.toNat a.logicalHeight.toNat (pic a))
    (i : Nat) (hi : i < doc.entries.length) (a : AddInfo) (ha : a ∈ subs) (sb : SubBlock) (hr : doc.readSubBlock al s i = .ok (some sb))
    (r : ReadAs a doc.entries[i] sb) (hin : InPlane plane a) (hf : Full a) :
    ∃ t, fetch c mem al s doc i = .ok (sb.info, t) ∧ ShowsImage t pt a.logicalWidth.toNat a.logicalHeight.toNat (pic a) := by
  obtain ⟨e1, e2⟩ := hd a ha hin hf
  subst e1
  obtain ⟨p1, p2, -⟩ := hp a ha
  obtain ⟨t, t1, t2⟩ := dataShows_bitmap hz hpt e2 (mem.first i) (mem.second i)
  have u : ∀ v : Int, IsInt32 v → 0 ≤ v → toUInt32 v = v.toNat := by
    intro v ⟨_, h2⟩ h0
    unfold toUInt32
    rw [Int.emod_eq_of_lt h0 (by omega)]
  refine ⟨t, ?_, t2⟩
  unfold fetch
  rw [hr]
  dsimp only
  rw [r.compression, r.data, r.spixelType, r.pw, r.ph, hf.1, hf.2, u _ (H.fits a ha).logicalWidth p1, u _ (H.fits a ha).logicalHeight p2, t1]

theorem Holds.picture (H : Holds al s doc subs) {c : Codecs} (hz : Lossless c.zstd) (mem : Memory) {sort : List Item → List Item} (hsort : SortsBy mKey sort)
    {pt : PixelType} (hpt : ViewableType pt) {plane : Coord} {vo : ViewOptions} {pic : AddInfo → Nat → Nat → Nat → UInt8} (hp : ∀ a ∈ subs, SubPlausible a)
    (hfit : PlaneFits plane subs)
    (hd : ∀ a ∈ subs, InPlane plane a → Full a → a.pixelType = pt ∧ DataShows c a a.logicalWidth.toNat a.logicalHeight.toNat (pic a))
    (hbg : Coloured vo.background → vo.background.sum ≠ .nan) (hvis : vo.sortByM = false → vo.useVisibilityCheck = false)
    (xPos yPos : Int) (w h : Nat) :
    ∃ out, getTyped sort c mem al s doc pt plane vo xPos yPos w h = .ok ⟨pt, out⟩ ∧ CorrectPicture c subs pic pt plane vo xPos yPos w h out := by
  classical
  obtain ⟨hb, -, -, hk, -⟩ := composable_bpp hpt
  have hn : 0 < pixelBytes pt := by rcases hpt with rfl | rfl | rfl | rfl | rfl <;> decide
  have hwf0 : (newBitmap mem.dest w h (defaultPitch (pixelBytes pt) w)).WF (pixelBytes pt) := by
    unfold newBitmap Bitmap.WF defaultPitch
    dsimp only
    have e : w * pixelBytes pt ≤ (pixelBytes pt * w + 3) / 4 * 4 := by rw [Nat.mul_comm]; omega
    refine ⟨e, fun hh => ?_⟩
    obtain ⟨k, rfl⟩ : ∃ k, h = k + 1 := ⟨h - 1, by omega⟩
    rw [Nat.add_sub_cancel, Nat.succ_mul]
    omega
  obtain ⟨bg, g1, g2, g3, g4, g5⟩ := clear_ok c.enc hpt _ hwf0 vo.background hbg
  change bg.w = w at g2
  change bg.h = h at g3
  let pix := pictures c mem al s doc
  -- the entries
  have hitem : ∀ p ∈ indexed doc.entries, ∃ a ∈ subs, ∃ sb, doc.readSubBlock al s p.1.toNat = .ok (some sb) ∧ ReadAs a p.2 sb := by
    rintro ⟨i, e⟩ hp
    obtain ⟨h0, he⟩ := (indexed_mem _ _ _).1 hp
    obtain ⟨hi, rfl⟩ := List.getElem?_eq_some_iff.1 he
    exact H.read _ hi
  have hmatch : ∀ (a : AddInfo) (e : Entry) (sb : SubBlock), ReadAs a e sb → (Matches (some plane) none true e ↔ InPlane plane a ∧ Full a) := by
    intro a e sb r
    unfold Matches InPlane Full OnLayer0
    rw [r.coordinate, r.width, r.height, r.storedWidth, r.storedHeight]
    constructor
    · rintro ⟨q1, -, q3⟩
      exact ⟨q1 plane rfl, (q3 rfl).1.symm, (q3 rfl).2.symm⟩
    · rintro ⟨q1, q2, q3⟩
      exact ⟨fun c hc => by cases hc; exact q1, (fun _ hr => (by cases hr)), fun _ => ⟨q2.symm, q3.symm⟩⟩
  have hshow : ∀ p ∈ indexed doc.entries, ∀ a ∈ subs, ∀ sb, doc.readSubBlock al s p.1.toNat = .ok (some sb) → ReadAs a p.2 sb → InPlane plane a → Full a →
      fetch c mem al s doc p.1.toNat = .ok (sb.info, ⟨pt, (pix p.1).1⟩) ∧
        ShowsImage ⟨pt, (pix p.1).1⟩ pt a.logicalWidth.toNat a.logicalHeight.toNat (pic a) := by
    rintro ⟨i, e⟩ hpm a ha sb hr r hin hf
    obtain ⟨h0, he⟩ := (indexed_mem _ _ _).1 hpm
    obtain ⟨hi, rfl⟩ := List.getElem?_eq_some_iff.1 he
    obtain ⟨t, t1, t2⟩ := H.fetched hz mem hpt hp hd i.toNat hi a ha sb hr r hin hf
    have hpx : (pix i).1 = t.bm := by
      show (pictures c mem al s doc i).1 = t.bm
      unfold pictures
      rw [t1]
    have ht : (⟨pt, (pix i).1⟩ : Typed) = t := by
      rw [hpx]
      have := t2.typ
      cases t
      cases this
      rfl
    rw [ht]
    exact ⟨t1, t2⟩
  have hfetched : ∀ p ∈ indexed doc.entries, Matches (some plane) none true p.2 → Fetched c mem al s doc pt pix p := by
    intro p hpm hm
    obtain ⟨a, ha, sb, hr, r⟩ := hitem p hpm
    obtain ⟨q1, q2⟩ := (hmatch a _ sb r).1 hm
    exact ⟨sb.info, (hshow p hpm a ha sb hr r q1 q2).1, r.sx.trans r.x.symm, r.sy.trans r.y.symm, pictures_mask ..⟩
  have htile : ∀ p ∈ indexed doc.entries, Matches (some plane) none true p.2 → -2147483648 ≤ p.2.mIndex ∧ TileOk (.same (pixelBytes pt)) (tileAt pix p) ∧
      ((pix p.1).1.w : Int) = p.2.width ∧ ((pix p.1).1.h : Int) = p.2.height := by
    intro p hpm hm
    obtain ⟨a, ha, sb, hr, r⟩ := hitem p hpm
    obtain ⟨q1, q2⟩ := (hmatch a _ sb r).1 hm
    have hs := (hshow p hpm a ha sb hr r q1 q2).2
    obtain ⟨p1, p2, -⟩ := hp a ha
    refine ⟨(validM_range r.mIndex (H.fits a ha).mIndex).1, ⟨hs.wf, ?_⟩, ?_, ?_⟩
    · show (match (pix p.1).2 with | none => Kind.NoOverread (.same (pixelBytes pt)) | some m => Kind.IsSame (.same (pixelBytes pt)) ∧ m.WF)
      rw [pictures_mask]
      trivial
    · rw [show (pix p.1).1.w = a.logicalWidth.toNat from hs.width, r.width]; omega
    · rw [show (pix p.1).1.h = a.logicalHeight.toNat from hs.height, r.height]; omega
  have hplane := (H.plane hp plane).2 hfit
  have hget : ∀ sortByM vis, (∃ o2, tileAccessorGet sort (.same (pixelBytes pt)) (indexed doc.entries) (docStats doc).dimBounds plane sortByM vis pix xPos yPos bg = .ok (some o2)) →
      vo.sortByM = sortByM → vo.useVisibilityCheck = vis →
      ∀ o2, tileAccessorGet sort (.same (pixelBytes pt)) (indexed doc.entries) (docStats doc).dimBounds plane sortByM vis pix xPos yPos bg = .ok (some o2) →
        getTyped sort c mem al s doc pt plane vo xPos yPos w h = .ok ⟨pt, o2⟩ ∧ o2.WF (pixelBytes pt) := by
    rintro sortByM vis - hs hv o2 ho
    unfold getTyped
    rw [hb]
    dsimp only
    unfold internalGet
    rw [hplane]
    dsimp only
    rw [g1]
    dsimp only
    unfold tileAccessorGet at ho
    rw [hplane] at ho
    simp only [Except.ok.injEq] at ho
    rw [hs, hv]
    have hL : ∀ p ∈ (if sortByM = true then sort (layer0SubBlocks (indexed doc.entries) plane ⟨xPos, yPos, bg.w, bg.h⟩)
        else layer0SubBlocks (indexed doc.entries) plane ⟨xPos, yPos, bg.w, bg.h⟩), Fetched c mem al s doc pt pix p := by
      intro p hpm
      have : p ∈ layer0SubBlocks (indexed doc.entries) plane ⟨xPos, yPos, bg.w, bg.h⟩ := by
        split at hpm
        · exact (hsort _).1.mem_iff.1 hpm
        · exact hpm
      obtain ⟨m1, m2⟩ := layer0_mem _ _ _ _ this
      exact hfetched p m1 m2
    obtain ⟨is, i1, i2⟩ := draw_ok hk vis xPos yPos _ bg o2 hL ho
    rw [i1]
    dsimp only
    rw [i2]
    refine ⟨rfl, ?_⟩
    obtain ⟨a1, a2, a3, a4⟩ := composeFetched_shape xPos yPos is bg o2 i2
    unfold Bitmap.WF
    rw [a1, a2, a3, a4]
    exact g4
  -- the meaning of candidates
  have hpaints : ∀ p ∈ indexed doc.entries, Matches (some plane) none true p.2 → ∀ a sb, a ∈ subs → ReadAs a p.2 sb → ∀ px py,
      ((tileAt pix p).paints px py = true ↔ CoversPoint a px py) := by
    intro p hpm hm a sb ha r px py
    obtain ⟨-, -, hw', hh'⟩ := htile p hpm hm
    unfold Tile.paints CoversPoint tileAt
    dsimp only
    rw [show (pix p.1).2 = none from pictures_mask ..]
    dsimp only
    rw [Bool.and_true, decide_eq_true_eq, hw', hh', r.x, r.y, r.width, r.height]
  have hcolour : ∀ p ∈ indexed doc.entries, ∀ a ∈ subs, ∀ sb, doc.readSubBlock al s p.1.toNat = .ok (some sb) → ReadAs a p.2 sb → InPlane plane a → Full a →
      ∀ px py j, CoversPoint a px py → j < pixelBytes pt →
        (tileAt pix p).colour (.same (pixelBytes pt)) px py j = pic a (px - a.x).toNat (py - a.y).toNat j := by
    intro p hpm a ha sb hr r hin hf px py j hc hj
    have hs := (hshow p hpm a ha sb hr r hin hf).2
    obtain ⟨c1, c2, c3, c4⟩ := hc
    have := hs.bytes (px - a.x).toNat (py - a.y).toNat j (by omega) (by omega) hj
    rw [← this]
    unfold Tile.colour tileAt
    dsimp only [Kind.value, Kind.sb]
    rw [r.x, r.y]
  have habove : ∀ (a b : AddInfo) (e f : Entry) (sa sb : SubBlock), ReadAs a e sa → ReadAs b f sb → LiesAbove b a → PaintedAbove f e := by
    rintro a b e f sa sb ra rb ⟨m, h1, h2⟩
    rw [← rb.mIndex] at h1
    have hv : ∀ v m, validM v = some m → v = m ∧ v ≠ 2147483647 ∧ v ≠ -2147483648 := by
      intro v m hv
      unfold validM at hv
      split at hv
      · cases hv
      · cases hv
        exact ⟨rfl, by omega, by omega⟩
    obtain ⟨v1, v2, v3⟩ := hv _ _ h1
    refine ⟨⟨v2, v3⟩, fun hv' => ?_⟩
    have : validM e.mIndex = some e.mIndex := by
      unfold validM
      rw [if_neg (by have := hv'.1; have := hv'.2; omega)]
    rw [ra.mIndex] at this
    have := h2 _ this
    omega
  have hresult : ∀ out : Bitmap, out.w = bg.w → out.h = bg.h → out.WF (pixelBytes pt) →
      (∀ x y j, x < bg.w → y < bg.h → j < pixelBytes pt →
        CorrectPixel subs pic plane vo.sortByM (xPos + x) (yPos + y) j (bg.byteAt (pixelBytes pt) x y j) (out.byteAt (pixelBytes pt) x y j)) →
      CorrectPicture c subs pic pt plane vo xPos yPos w h out := by
    intro out o1 o2 o3 o4
    refine ⟨o1.trans g2, o2.trans g3, o3, fun x y j => bg.byteAt (pixelBytes pt) x y j, fun hc x y hx hy => g5 hc x y hx hy, fun x y j hx hy hj => ?_⟩
    exact o4 x y j (by omega) (by omega) hj
  have hcand : ∀ (a : AddInfo), a ∈ subs → InPlane plane a → Full a →
      ∃ p ∈ indexed doc.entries, Matches (some plane) none true p.2 ∧ ∃ sb, doc.readSubBlock al s p.1.toNat = .ok (some sb) ∧ ReadAs a p.2 sb := by
    intro a ha hin hf
    obtain ⟨i, hi, sb, hr, r⟩ := H.written a ha
    exact ⟨((i : Int), doc.entries[i]), (indexed_mem _ _ _).2 ⟨by omega, by simp⟩, (hmatch a _ sb r).2 ⟨hin, hf⟩, sb, hr, r⟩
  by_cases hs : vo.sortByM = true
  · obtain ⟨out, o1, o2, o3, o4, -⟩ := C33_accessor_topmost_partial sort hsort (.same (pixelBytes pt)) (indexed doc.entries) _ plane vo.useVisibilityCheck pix
      xPos yPos bg hplane g4 htile (fun _ => ⟨trivial, fun p _ => pictures_mask ..⟩)
    refine ⟨out, (hget _ _ ⟨out, o1⟩ hs rfl out o1).1, hresult out o2 o3 (hget _ _ ⟨out, o1⟩ hs rfl out o1).2 ?_⟩
    · intro x y j hx hy hj
      rcases o4 x y j hx hy hj with ⟨n1, n2⟩ | ⟨p, ⟨p1, p2⟩, p3, p4, p5⟩
      · refine .inl ⟨fun a ha hin hf hcov => ?_, n2⟩
        obtain ⟨p, p1, p2, sb, hr, r⟩ := hcand a ha hin hf
        have := n1 p ⟨p1, p2⟩
        rw [(hpaints p p1 p2 a sb ha r _ _).2 hcov] at this
        cases this
      · obtain ⟨a, ha, sb, hr, r⟩ := hitem p p1
        obtain ⟨q1, q2⟩ := (hmatch a _ sb r).1 p2
        have hcov := (hpaints p p1 p2 a sb ha r _ _).1 p3
        refine .inr ⟨a, ha, q1, q2, hcov, p4.trans (hcolour p p1 a ha sb hr r q1 q2 _ _ j hcov hj), fun _ b hb' hbin hbf hbc hab => ?_⟩
        obtain ⟨q, t1, t2, sb', hr', r'⟩ := hcand b hb' hbin hbf
        exact p5 q ⟨t1, t2⟩ ((hpaints q t1 t2 b sb' hb' r' _ _).2 hbc) (habove a b _ _ sb sb' r r' hab)
  · have hs' : vo.sortByM = false := by simpa using hs
    obtain ⟨out, o1, o2, o3, o4, -⟩ := C33_accessor_directory_order_partial sort (.same (pixelBytes pt)) (indexed doc.entries) _ plane pix
      xPos yPos bg hplane g4 (fun p h1 h2 => (htile p h1 h2).2)
    refine ⟨out, (hget _ _ ⟨out, o1⟩ hs' (hvis hs') out o1).1, hresult out o2 o3 (hget _ _ ⟨out, o1⟩ hs' (hvis hs') out o1).2 ?_⟩
    · intro x y j hx hy hj
      have := o4 x y j hx hy hj
      unfold expected at this
      split at this
      · rename_i t ht
        have hm := List.mem_of_getLast? ht
        obtain ⟨hm1, hm2⟩ := List.mem_filter.1 hm
        obtain ⟨p, hp1, rfl⟩ := List.mem_map.1 hm1
        obtain ⟨p1, p2⟩ := List.mem_filter.1 hp1
        have p2 := of_decide_eq_true p2
        obtain ⟨a, ha, sb, hr, r⟩ := hitem p p1
        obtain ⟨q1, q2⟩ := (hmatch a _ sb r).1 p2
        have hcov := (hpaints p p1 p2 a sb ha r _ _).1 hm2
        exact .inr ⟨a, ha, q1, q2, hcov, this.trans (hcolour p p1 a ha sb hr r q1 q2 _ _ j hcov hj), fun h => absurd h hs⟩
      · rename_i hnone
        rw [List.getLast?_eq_none_iff] at hnone
        refine .inl ⟨fun a ha hin hf hcov => ?_, this⟩
        obtain ⟨p, p1, p2, sb, hr, r⟩ := hcand a ha hin hf
        have := (hpaints p p1 p2 a sb ha r _ _).2 hcov
        have : tileAt pix p ∈ ([] : List Tile) := by
          rw [← hnone]
          exact List.mem_filter.2 ⟨List.mem_map_of_mem (List.mem_filter.2 ⟨p1, decide_eq_true p2⟩), this⟩
        cases this

/-! ## The pixel type -/

theorem enumerate_channel (c : Int) : ∀ l : List (Int × Entry),
    enumerate (fun st _ e => if e.coordinate .C = some c then (false, some e) else (true, st)) l none = (l.map (·.2)).find? (fun e => e.coordinate .C = some c)
  | [] => rfl
  | p :: l => by
    unfold enumerate
    by_cases hp : p.2.coordinate .C = some c
    · simp [hp]
    · simp [hp, enumerate_channel c l]

theorem indexed_snd {α : Type} (l : List α) : (indexed l).map (·.2) = l := by
  unfold indexed
  rw [List.map_map]
  exact List.zipIdx_map_fst 0 l

theorem Holds.channels (H : Holds al s doc subs) (hp : ∀ a ∈ subs, SubPlausible a) : (docStats doc).dimBounds .C = none ↔ ∀ a ∈ subs, a.coordinate .C = none := by
  unfold docStats
  rw [(C17_reader_statistics_exact_partial _ (H.entryOk hp)).dimPresent .C]
  constructor
  · intro h a ha
    cases hc : a.coordinate .C with
    | none => rfl
    | some v =>
      have := (H.values .C v).2 ⟨a, ha, hc⟩
      rw [h] at this
      cases this
  · intro h
    rw [List.eq_nil_iff_forall_not_mem]
    intro v hv
    obtain ⟨a, ha, hc⟩ := (H.values .C v).1 hv
    rw [h a ha] at hc
    cases hc

theorem Holds.pixelType (H : Holds al s doc subs) (hp : ∀ a ∈ subs, SubPlausible a) {plane : Coord} {pt : PixelType}
    (hC : plane .C = none → ∀ a ∈ subs, a.coordinate .C = none) (hex : ∃ a ∈ subs, InChannel plane a)
    (hpt : ∀ a ∈ subs, InChannel plane a → a.pixelType = pt) : pixelTypeOf doc plane = pt := by
  have hfound : ∀ e ∈ doc.entries, e.coordinate .C = plane .C → pixelTypeFromInt e.pixelType = pt := by
    intro e he hc
    obtain ⟨i, hi, rfl⟩ := List.getElem_of_mem he
    obtain ⟨a, ha, sb, -, r⟩ := H.read i hi
    rw [r.pixelType]
    exact hpt a ha (by rw [InChannel, ← r.coordinate]; exact hc.symm)
  obtain ⟨a, ha, hin⟩ := hex
  obtain ⟨i, hi, sb, -, r⟩ := H.written a ha
  unfold pixelTypeOf arbitraryInChannel
  by_cases hn : ∀ a ∈ subs, a.coordinate .C = none
  · rw [if_pos (by rw [(H.channels hp).2 hn]; rfl)]
    have hpl : plane .C = none := by rw [hin]; exact hn a ha
    cases he : doc.entries with
    | nil => rw [he] at hi; cases hi
    | cons e es =>
      have hhead : enumerate (fun (_ : Option Entry) (_ : Int) e => (false, some e)) (indexed (e :: es)) none = some e := by
        simp [indexed, enumerate, List.zipIdx_cons]
      rw [hhead]
      have hem : e ∈ doc.entries := by rw [he]; exact List.mem_cons_self ..
      refine hfound e hem ?_
      obtain ⟨k, hk, rfl⟩ := List.getElem_of_mem hem
      obtain ⟨b, hb, sb', -, r'⟩ := H.read k hk
      rw [r'.coordinate, hpl]
      exact hn b hb
  · rw [if_neg (by rw [Option.isNone_iff_eq_none, H.channels hp]; exact hn)]
    cases hpl : plane .C with
    | none => exact absurd (hC hpl) hn
    | some c =>
      simp only [Option.getD_some]
      rw [enumerate_channel, indexed_snd]
      cases hf : doc.entries.find? (fun e => e.coordinate .C = some c) with
      | none =>
        rw [List.find?_eq_none] at hf
        have := hf _ (List.getElem_mem hi)
        rw [r.coordinate, ← hin, hpl] at this
        simp at this
      | some e =>
        exact hfound e (List.mem_of_find?_eq_some hf) (by rw [hpl]; simpa using List.find?_some hf)

theorem Holds.noPixelType (H : Holds al s doc subs) (hp : ∀ a ∈ subs, SubPlausible a) {plane : Coord}
    (hex : ∃ a ∈ subs, (a.coordinate .C).isSome) (hno : ∀ a ∈ subs, a.coordinate .C ≠ some ((plane .C).getD intMin)) :
    pixelTypeOf doc plane = .Invalid := by
  unfold pixelTypeOf arbitraryInChannel
  rw [if_neg, enumerate_channel, indexed_snd]
  · cases hf : doc.entries.find? (fun e => e.coordinate .C = some ((plane .C).getD intMin)) with
    | none => rfl
    | some e =>
      obtain ⟨i, hi, rfl⟩ := List.getElem_of_mem (List.mem_of_find?_eq_some hf)
      obtain ⟨a, ha, sb, -, r⟩ := H.read i hi
      have := List.find?_some hf
      rw [r.coordinate] at this
      exact absurd (by simpa using this) (hno a ha)
  · obtain ⟨a, ha, hs⟩ := hex
    rw [Option.isNone_iff_eq_none, H.channels hp]
    intro h
    rw [h a ha] at hs
    cases hs

end Verif.Viewer
