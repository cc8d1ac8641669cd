import Verif.Proof.Viewer
import Verif.Proof.ScalingPaint
import Verif.Props.ScalingAccessor
import Verif.Spec.ScaledView

/-! # Scaled pictures of written documents: lemmas -/

namespace Verif.Viewer
open Verif.Spec Verif.Czi Verif.Blit Verif.Bitonal Verif.Jxr Verif.Fill Verif.Zstd Verif.Accessor Verif.Scale Verif.Flt

theorem composable_scale {pt : PixelType} (h : ViewableType pt) (enc : ℚ → Nat → UInt8) : scaleKind enc pt pt = some (.same (pixelBytes pt)) := by
  unfold scaleKind
  rw [if_neg (by rintro ⟨rfl, _⟩; rcases h with h | h | h | h | h <;> cases h)]
  exact (composable_bpp h).2.2.2.1 enc

theorem drawScaled_eq {c : Codecs} {mem : Memory} {al : Alloc} {s : Stream} {doc : Doc} {pt : PixelType} {pix : Pictures} (hpt : ViewableType pt) (zoom : ℚ) (roi : IntRect)
    (p : Item) (dst : Bitmap) (h : Fetched c mem al s doc pt pix p) :
    drawScaled c mem al s doc pt zoom roi p dst = ofOutcome (orUndefined (scaleBlt (.same (pixelBytes pt)) zoom roi pix p dst)) := by
  obtain ⟨info, h1, -, -, h4⟩ := h
  unfold drawScaled scaleBlt
  rw [h1]
  dsimp only
  by_cases hz : zoom = 1
  · rw [if_pos hz, if_pos hz, copyAt_kind ((composable_bpp hpt).2.2.2.1 _), h4]
  · rw [if_neg hz, if_neg hz, composable_scale hpt]
    dsimp only
    rw [h4]

theorem drawAll_eq {c : Codecs} {mem : Memory} {al : Alloc} {s : Stream} {doc : Doc} {pt : PixelType} {pix : Pictures} (hpt : ViewableType pt) (zoom : ℚ) (roi : IntRect) :
    ∀ (L : List Item) (dst : Bitmap), (∀ p ∈ L, Fetched c mem al s doc pt pix p) →
      drawAll c mem al s doc pt zoom roi L dst = ofOutcome (orUndefined (paintAll (.same (pixelBytes pt)) zoom roi pix L dst))
  | [], dst, _ => rfl
  | p :: L, dst, h => by
    unfold drawAll paintAll
    rw [drawScaled_eq hpt zoom roi p dst (h p (List.mem_cons_self ..))]
    cases hq : scaleBlt (.same (pixelBytes pt)) zoom roi pix p dst with
    | none => rfl
    | some d => exact drawAll_eq hpt zoom roi L d (fun q hq => h q (List.mem_cons_of_mem _ hq))

theorem paintSubsets_eq {c : Codecs} {mem : Memory} {al : Alloc} {s : Stream} {doc : Doc} {pt : PixelType} {pix : Pictures} (hpt : ViewableType pt) (zoom : ℚ) (roi : IntRect) :
    ∀ (Ls : List (List Item)) (dst : Bitmap), (∀ p ∈ (Ls.map (zoomRange zoom)).flatten, Fetched c mem al s doc pt pix p) →
      paintSubsets c mem al s doc pt zoom false roi Ls dst = ofOutcome (orUndefined (paintAll (.same (pixelBytes pt)) zoom roi pix (Ls.map (zoomRange zoom)).flatten dst))
  | [], dst, _ => rfl
  | L :: Ls, dst, h => by
    rw [List.map_cons, List.flatten_cons] at h ⊢
    have e : toPaint zoom roi false L = some (zoomRange zoom L) := by
      unfold toPaint
      dsimp only
      rw [if_neg (by simp)]
    unfold paintSubsets
    rw [e]
    dsimp only
    rw [drawAll_eq hpt zoom roi _ dst (fun q hq => h q (List.mem_append_left _ hq)), paintAll_append]
    cases hq : paintAll (.same (pixelBytes pt)) zoom roi pix (zoomRange zoom L) dst with
    | none => rfl
    | some d => exact paintSubsets_eq hpt zoom roi Ls d (fun q hq => h q (List.mem_append_right _ hq))

/-- The sub-blocks painted without the visibility check. -/
def paintedList (sort : List Item → List Item) (items : List Item) (stats : Stats) (plane : Coord) (filter : Option (Int → Bool)) (sortByM : Bool) (roi : IntRect) (zoom : ℚ) : List Item :=
  ((scenesSorted sort items stats plane filter sortByM roi).map (zoomRange zoom)).flatten

theorem paintedList_ok {sort : List Item → List Item} (hsort : SortsWith zoomLess sort) {items : List Item} {stats : Stats}
    {plane : Coord} {zoom : ℚ} (filter : Option (Int → Bool)) (sortByM : Bool) (roi : IntRect)
    (hst : DocumentStats stats items) (hn : items.Nodup) (hplane : checkPlane stats.dimBounds plane = none) (hu : ScenesUniform items)
    (hz : 0 < zoom) (hs : ∀ p, Candidate items plane roi filter p → Sized p.2 ∧ -2147483648 ≤ p.2.mIndex)
    (hd : sortByM = true → ∀ p, Candidate items plane roi filter p → ¬ OnLayer0 p.2 → exactZoom p.2 ≠ 1) :
    PaintList zoom (tieOf sortByM items) (Candidate items plane roi filter) (paintedList sort items stats plane filter sortByM roi zoom) := by
  have hshare : ∀ {pl : Coord} {e : Entry}, Matches (some pl) (some roi) false e → ∃ px py, roi.Has px py ∧ e.rect.Has px py :=
    fun h => h.2.1 roi rfl
  unfold paintedList scenesSorted
  dsimp only
  by_cases hlen : (involvedScenes stats.scenes filter roi).length ≤ 1
  · rw [if_pos hlen, List.map_cons, List.map_nil, List.flatten_cons, List.flatten_nil, List.append_nil]
    have hcand : ∀ p, Candidate items plane roi filter p ↔ p ∈ subSet items plane roi (some (involvedScenes stats.scenes filter roi)) := by
      intro p
      rw [subSet_mem]
      unfold Candidate
      rw [← and_assoc]
      apply and_congr_right
      rintro ⟨h1, h2⟩
      rw [passesScene_iff]
      constructor
      · intro h l hl s hS
        cases hl
        exact (involved_iff hst filter roi h1 (hshare h2) hS).mpr (h s hS)
      · intro h s hS
        exact (involved_iff hst filter roi h1 (hshare h2) hS).mp (h _ rfl s hS)
    have hl := scene_list (zoom := zoom) hsort sortByM hz hn
      (subSet_sublist items plane roi (some (involvedScenes stats.scenes filter roi)))
      (fun p hp => (hs p ((hcand p).mpr hp)).1)
      (fun h p hp => ⟨(hs p ((hcand p).mpr hp)).1, hd h p ((hcand p).mpr hp)⟩)
      (fun p hp => (hs p ((hcand p).mpr hp)).2)
      (by
        intro p hp q hq
        rw [subSet_mem] at hp hq
        unfold SameScene
        rcases hu with hu | hu
        · obtain ⟨s, hS⟩ := Option.ne_none_iff_exists'.mp (hu p hp.1.1)
          obtain ⟨t, hT⟩ := Option.ne_none_iff_exists'.mp (hu q hq.1.1)
          have m1 := hp.2 _ rfl s hS
          have m2 := hq.2 _ rfl t hT
          rw [hS, hT]
          congr 1
          match hI : involvedScenes stats.scenes filter roi, hlen, m1, m2 with
          | [], _, m1, _ => cases m1
          | [a], _, m1, m2 =>
            rw [List.mem_singleton] at m1 m2
            rw [m1, m2]
        · rw [hu p hp.1.1, hu q hq.1.1])
    have e : Candidate items plane roi filter = (· ∈ subSet items plane roi (some (involvedScenes stats.scenes filter roi))) := by
      funext p; exact propext (hcand p)
    rw [e]
    exact hl
  · rw [if_neg hlen, List.map_map]
    have hS0 := checkPlane_noS hplane
    have hall : ∀ p ∈ items, p.2.coordinate .S ≠ none := by
      rcases hu with hu | hu
      · exact hu
      · exfalso
        apply hlen
        match hI : involvedScenes stats.scenes filter roi with
        | [] => simp
        | a :: r =>
          obtain ⟨p, hp, hpS⟩ := scene_has_item (filter := filter) (roi := roi) (s := a) hst (by rw [hI]; simp)
          rw [hu p hp] at hpS; cases hpS
    have hmem : ∀ s p, p ∈ subSet items (plane.set .S s) roi none ↔
        p ∈ items ∧ Matches (some plane) (some roi) false p.2 ∧ p.2.coordinate .S = some s := by
      intro s p
      rw [subSet_mem, matches_set hS0]
      simp
    have hcand : ∀ p, Candidate items plane roi filter p ↔
        ∃ s ∈ involvedScenes stats.scenes filter roi, p ∈ subSet items (plane.set .S s) roi none := by
      intro p
      unfold Candidate
      rw [passesScene_iff]
      constructor
      · rintro ⟨h1, h2, h3⟩
        obtain ⟨s, hS⟩ := Option.ne_none_iff_exists'.mp (hall p h1)
        exact ⟨s, (involved_iff hst filter roi h1 (hshare h2) hS).mpr (h3 s hS), (hmem s p).mpr ⟨h1, h2, hS⟩⟩
      · rintro ⟨s, hs1, hs2⟩
        obtain ⟨h1, h2, hS⟩ := (hmem s p).mp hs2
        refine ⟨h1, h2, ?_⟩
        intro t hT
        rw [hS] at hT; cases hT
        exact (involved_iff hst filter roi h1 (hshare h2) hS).mp hs1
    refine scenes_list (involved_sorted hst filter roi) (f := fun s => subSet items (plane.set .S s) roi none)
      (L := fun s => zoomRange zoom (createSortByZoom sort sortByM (subSet items (plane.set .S s) roi none))) ?_ ?_ hcand
    · intro s hs1
      have hc : ∀ p ∈ subSet items (plane.set .S s) roi none, Candidate items plane roi filter p :=
        fun p hp => (hcand p).mpr ⟨s, hs1, hp⟩
      exact scene_list (zoom := zoom) hsort sortByM hz hn (subSet_sublist items _ roi none)
        (fun p hp => (hs p (hc p hp)).1)
        (fun h p hp => ⟨(hs p (hc p hp)).1, hd h p (hc p hp)⟩)
        (fun p hp => (hs p (hc p hp)).2)
        (fun p hp q hq => by
          unfold SameScene
          rw [((hmem s p).mp hp).2.2, ((hmem s q).mp hq).2.2])
    · intro s _ p hp
      exact ((hmem s p).mp hp).2.2


theorem Holds.fetchedStored {al : Alloc} {s : Stream} {doc : Doc} {subs : List AddInfo} (H : Holds al s doc subs) {c : Codecs} (hz : Lossless c.zstd) (mem : Memory) {pt : PixelType} (hpt : ViewableType pt) {plane : Coord}
    {pic : AddInfo → Nat → Nat → Nat → UInt8}
    (hd : ∀ a ∈ subs, InPlane plane a → a.pixelType = pt ∧ DataShows c a a.physicalWidth.toNat a.physicalHeight.toNat (pic a))
    (i : Nat) (hi : i < doc.entries.length) (a : AddInfo) (ha : a ∈ subs) (sb : SubBlock) (hr : doc.readSubBlock al s i = .ok (some sb))
    (r : ReadAs a doc.entries[i] sb) (hin : InPlane plane a) (hu : UsualSub a) :
    ∃ t, fetch c mem al s doc i = .ok (sb.info, t) ∧ ShowsImage t pt a.physicalWidth.toNat a.physicalHeight.toNat (pic a) := by
  obtain ⟨e1, e2⟩ := hd a ha hin
  subst e1
  obtain ⟨t, t1, t2⟩ := dataShows_bitmap hz hpt e2 (mem.first i) (mem.second i)
  have u : ∀ v : Int, IsInt32 v → 0 ≤ v → toUInt32 v = v.toNat := by
    intro v ⟨_, h2⟩ h0
    unfold toUInt32
    rw [Int.emod_eq_of_lt h0 (by omega)]
  refine ⟨t, ?_, t2⟩
  unfold fetch
  rw [hr]
  dsimp only
  rw [r.compression, r.data, r.spixelType, r.pw, r.ph, u _ (H.fits a ha).physicalWidth hu.1.le, u _ (H.fits a ha).physicalHeight hu.2.2.2.1.le, t1]

theorem indexed_nodup {α : Type} (l : List α) : (indexed l).Nodup := by
  apply List.Nodup.of_map (·.1)
  have : (indexed l).map (·.1) = (List.range l.length).map (fun i : Nat => (i : Int)) := by
    apply List.ext_getElem?
    intro i
    unfold indexed
    simp only [List.map_map, List.getElem?_map, List.getElem?_zipIdx, List.getElem?_range]
    by_cases h : i < l.length
    · simp [h]
    · simp [h]
  rw [this]
  exact List.Nodup.map (fun a b h => by simpa using h) List.nodup_range

/-- The columns of the picture a sub-block shows, and the columns of the sub-block shown there. -/
def axisX (a : AddInfo) (roi : IntRect) (w : Nat) : Axis :=
  bltAxis a.x a.logicalWidth a.physicalWidth (IntRect.intersect ⟨a.x, a.y, a.logicalWidth, a.logicalHeight⟩ roi).x
    (IntRect.intersect ⟨a.x, a.y, a.logicalWidth, a.logicalHeight⟩ roi).w roi.x roi.w a.physicalWidth.toNat w

/-- The rows. -/
def axisY (a : AddInfo) (roi : IntRect) (h : Nat) : Axis :=
  bltAxis a.y a.logicalHeight a.physicalHeight (IntRect.intersect ⟨a.x, a.y, a.logicalWidth, a.logicalHeight⟩ roi).y
    (IntRect.intersect ⟨a.x, a.y, a.logicalWidth, a.logicalHeight⟩ roi).h roi.y roi.h a.physicalHeight.toNat h

section
variable {al : Alloc} {s : Stream} {doc : Doc} {subs : List AddInfo}

theorem ReadAs.rect {a : AddInfo} {e : Entry} {sb : SubBlock} (r : ReadAs a e sb) : e.rect = ⟨a.x, a.y, a.logicalWidth, a.logicalHeight⟩ := by
  unfold Entry.rect
  rw [r.x, r.y, r.width, r.height]

theorem ReadAs.zoom {a : AddInfo} {e : Entry} {sb : SubBlock} (r : ReadAs a e sb) : exactZoom e = subZoom a := by
  unfold exactZoom subZoom
  rw [r.storedWidth, r.storedHeight, r.width, r.height]

theorem ReadAs.layer0 {a : AddInfo} {e : Entry} {sb : SubBlock} (r : ReadAs a e sb) : OnLayer0 e ↔ Full a := by
  unfold OnLayer0 Full
  rw [r.storedWidth, r.storedHeight, r.width, r.height]
  exact ⟨fun h => ⟨h.1.symm, h.2.symm⟩, fun h => ⟨h.1.symm, h.2.symm⟩⟩

theorem ReadAs.candidate {a : AddInfo} {p : Item} {sb : SubBlock} (r : ReadAs a p.2 sb) (ha : a ∈ subs) {items : List Item} (hp : p ∈ items) (plane : Coord) (roi : IntRect)
    (filter : Option (Int → Bool)) : Candidate items plane roi filter p ↔ Eligible subs plane roi filter a := by
  unfold Candidate Eligible Matches PassesScene InPlane CoversPoint
  rw [r.coordinate, r.x, r.y, r.width, r.height]
  constructor
  · rintro ⟨-, ⟨h1, h2, -⟩, h3⟩
    refine ⟨ha, h1 plane rfl, ?_, h3⟩
    obtain ⟨px, py, q1, q2⟩ := h2 roi rfl
    exact ⟨px, py, q1, q2⟩
  · rintro ⟨-, h1, ⟨px, py, q1, q2⟩, h3⟩
    exact ⟨hp, ⟨fun c hc => by cases hc; exact h1, (fun q hq => by cases hq; exact ⟨px, py, q1, q2⟩), fun h => by cases h⟩, h3⟩

theorem liesAbove_painted {a b : AddInfo} {e f : Entry} {sa sb : SubBlock} (ra : ReadAs a e sa) (rb : ReadAs b f sb) (h : LiesAbove b a) : PaintedAbove f e := by
  obtain ⟨m, h1, h2⟩ := h
  rw [← rb.mIndex] at h1
  have hv : ∀ v m, validM v = some m → v = m ∧ v ≠ 2147483647 ∧ v ≠ -2147483648 := by
    intro v m hv
    unfold validM at hv
    split at hv
    · cases hv
    · cases hv
      exact ⟨rfl, by omega, by omega⟩
  obtain ⟨v1, v2, v3⟩ := hv _ _ h1
  refine ⟨⟨v2, v3⟩, fun hv' => ?_⟩
  have : validM e.mIndex = some e.mIndex := by
    unfold validM
    rw [if_neg (by have := hv'.1; have := hv'.2; omega)]
  rw [ra.mIndex] at this
  have := h2 _ this
  omega

theorem shownOver_over {a b : AddInfo} {p q : Item} {sa sb : SubBlock} (ra : ReadAs a p.2 sa) (rb : ReadAs b q.2 sb) {sortByM : Bool} {items : List Item}
    (h : ShownOver sortByM b a) : Over (tieOf sortByM items) q p := by
  rcases h with ⟨u, v, h1, h2, h3⟩ | ⟨h1, h2⟩ | ⟨h0, h1, h2, h3, h4⟩
  · exact .inl ⟨u, v, by rw [rb.coordinate]; exact h1, by rw [ra.coordinate]; exact h2, h3⟩
  · refine .inr (.inl ⟨?_, by rw [ra.zoom, rb.zoom]; exact h2⟩)
    unfold SameScene
    rw [rb.coordinate, ra.coordinate]
    exact h1
  · subst h0
    refine .inr (.inr ⟨?_, rb.layer0.2 h2, ra.layer0.2 h3, liesAbove_painted ra rb h4⟩)
    unfold SameScene
    rw [rb.coordinate, ra.coordinate]
    exact h1

theorem Holds.scaled (H : Holds al s doc subs) {c : Codecs} (hz : Lossless c.zstd) (mem : Memory) {sort : List Item → List Item} (hsort : SortsWith zoomLess sort)
    {pt : PixelType} (hpt : ViewableType pt) {plane : Coord} {o : ScaledOptions} {pic : AddInfo → Nat → Nat → Nat → UInt8} (hp : ∀ a ∈ subs, SubPlausible a)
    (hfit : PlaneFits plane subs) (hscene : (∀ a ∈ subs, a.coordinate .S ≠ none) ∨ (∀ a ∈ subs, a.coordinate .S = none))
    (hd : ∀ a ∈ subs, InPlane plane a → a.pixelType = pt ∧ DataShows c a a.physicalWidth.toNat a.physicalHeight.toNat (pic a))
    (hbg : Coloured o.view.background → o.view.background.sum ≠ .nan) (hvis : o.view.useVisibilityCheck = false)
    {zoom : ℚ} (hz0 : 0 < zoom) (hz1 : zoom ≠ 1) {roi : IntRect} {w h : Nat} (hsize : calcSize roi zoom = some (w, h)) (hus : UsualSize roi w h)
    (hu : ∀ a, Eligible subs plane roi o.scenes a → UsualSub a)
    (h1 : o.view.sortByM = true → ∀ a, Eligible subs plane roi o.scenes a → ¬ Full a → subZoom a ≠ 1) :
    ∃ out, getScaledTyped sort c mem al s doc pt plane o zoom roi = .ok ⟨pt, out⟩ ∧ CorrectScaled c subs pic pt plane o zoom roi w h out := by
  classical
  obtain ⟨hb, -, -, hk, -⟩ := composable_bpp hpt
  have hwf0 : (newBitmap mem.dest w h (defaultPitch (pixelBytes pt) w)).WF (pixelBytes pt) := by
    unfold newBitmap Bitmap.WF defaultPitch
    dsimp only
    have e : w * pixelBytes pt ≤ (pixelBytes pt * w + 3) / 4 * 4 := by rw [Nat.mul_comm]; omega
    refine ⟨e, fun hh => ?_⟩
    obtain ⟨k, rfl⟩ : ∃ k, h = k + 1 := ⟨h - 1, by omega⟩
    rw [Nat.add_sub_cancel, Nat.succ_mul]
    omega
  obtain ⟨bg, g1, g2, g3, g4, g5⟩ := clear_ok c.enc hpt _ hwf0 o.view.background hbg
  change bg.w = w at g2
  change bg.h = h at g3
  let pix := pictures c mem al s doc
  let items := indexed doc.entries
  have hitem : ∀ p ∈ items, ∃ a ∈ subs, ∃ sb, doc.readSubBlock al s p.1.toNat = .ok (some sb) ∧ ReadAs a p.2 sb := by
    rintro ⟨i, e⟩ hp
    obtain ⟨h0, he⟩ := (indexed_mem _ _ _).1 hp
    obtain ⟨hi, rfl⟩ := List.getElem?_eq_some_iff.1 he
    exact H.read _ hi
  have hwritten : ∀ a ∈ subs, ∃ p ∈ items, ∃ sb, doc.readSubBlock al s p.1.toNat = .ok (some sb) ∧ ReadAs a p.2 sb := by
    intro a ha
    obtain ⟨i, hi, sb, hr, r⟩ := H.written a ha
    exact ⟨((i : Int), doc.entries[i]), (indexed_mem _ _ _).2 ⟨by omega, by simp⟩, sb, hr, r⟩
  have hshow : ∀ p ∈ items, ∀ a ∈ subs, ∀ sb, doc.readSubBlock al s p.1.toNat = .ok (some sb) → ReadAs a p.2 sb → InPlane plane a → UsualSub a →
      fetch c mem al s doc p.1.toNat = .ok (sb.info, ⟨pt, (pix p.1).1⟩) ∧
        ShowsImage ⟨pt, (pix p.1).1⟩ pt a.physicalWidth.toNat a.physicalHeight.toNat (pic a) := by
    rintro ⟨i, e⟩ hpm a ha sb hr r hin hf
    obtain ⟨h0, he⟩ := (indexed_mem _ _ _).1 hpm
    obtain ⟨hi, rfl⟩ := List.getElem?_eq_some_iff.1 he
    obtain ⟨t, t1, t2⟩ := H.fetchedStored hz mem hpt hd i.toNat hi a ha sb hr r hin hf
    have hpx : (pix i).1 = t.bm := by
      show (pictures c mem al s doc i).1 = t.bm
      unfold pictures
      rw [t1]
    have ht : (⟨pt, (pix i).1⟩ : Typed) = t := by
      rw [hpx]
      have := t2.typ
      cases t
      cases this
      rfl
    rw [ht]
    exact ⟨t1, t2⟩
  have hmask : ∀ p : Item, (pix p.1).2 = none := fun p => pictures_mask ..
  have hst : DocumentStats (docStats doc) items := by
    have := documentStats_reader items (by
      intro p hpm
      refine H.entryOk hp _ ?_
      have := List.mem_map_of_mem (f := (·.2)) hpm
      rwa [indexed_snd] at this)
    rw [indexed_snd] at this
    exact this
  have hplane := (H.plane hp plane).2 hfit
  have hscenes : ScenesUniform items := by
    rcases hscene with hs | hs
    · left
      intro p hpm
      obtain ⟨a, ha, sb, -, r⟩ := hitem p hpm
      rw [r.coordinate]; exact hs a ha
    · right
      intro p hpm
      obtain ⟨a, ha, sb, -, r⟩ := hitem p hpm
      rw [r.coordinate]; exact hs a ha
  have husual : ∀ p, Candidate items plane roi o.scenes p → Usual (.same (pixelBytes pt)) p.2 (pix p.1).1 (pix p.1).2 := by
    intro p hc
    obtain ⟨a, ha, sb, hr, r⟩ := hitem p hc.1
    have he := (r.candidate ha hc.1 plane roi o.scenes).1 hc
    have hua := hu a he
    have hs := (hshow p hc.1 a ha sb hr r he.2.1 hua).2
    obtain ⟨u1, u2, u3, u4, u5, u6⟩ := hua
    refine ⟨?_, ?_, (validM_range r.mIndex (H.fits a ha).mIndex).1, ⟨?_, ?_⟩, hs.wf, fun m hm => ?_⟩
    · rw [r.storedWidth, r.width]; exact ⟨u1, u2, u3⟩
    · rw [r.storedHeight, r.height]; exact ⟨u4, u5, u6⟩
    · rw [show (pix p.1).1.w = a.physicalWidth.toNat from hs.width, r.storedWidth]; omega
    · rw [show (pix p.1).1.h = a.physicalHeight.toNat from hs.height, r.storedHeight]; omega
    · rw [hmask] at hm; cases hm
  have hL := paintedList_ok hsort o.scenes o.view.sortByM roi hst (indexed_nodup _) hplane hscenes hz0
    (fun p hc => ⟨sized_of_usual (husual p hc), (husual p hc).m⟩) (fun hs p hc hnl => by
      obtain ⟨a, ha, sb, hr, r⟩ := hitem p hc.1
      rw [r.zoom]
      exact h1 hs a ((r.candidate ha hc.1 plane roi o.scenes).1 hc) (fun hf => hnl (r.layer0.2 hf)))
  generalize hLdef : paintedList sort items (docStats doc) plane o.scenes o.view.sortByM roi zoom = L at hL
  have hreq : UsualRequest roi bg := by
    obtain ⟨r1, r2, r3, r4⟩ := hus
    exact ⟨r1, r2, by rw [g2]; exact r3, by rw [g3]; exact r4⟩
  have hone : ∀ p ∈ L, ∀ d : Bitmap, d.WF (pixelBytes pt) → d.w = bg.w → d.h = bg.h → _ := fun p hpL d hd hw hh =>
    scaleBlt_scaled (k := .same (pixelBytes pt)) trivial hz1 (husual p (hL.selects.candidate p hpL)) hd hw hh hreq ((hL.selects.candidate p hpL).2.1.2.1 roi rfl)
  obtain ⟨out, o1, o2, o3, o4, o5, o6, o7⟩ := paintAll_ok (.same (pixelBytes pt)) zoom roi pix _ _ L bg g4 (fun p hp d hd hw hh => by
    obtain ⟨out, h1, h2, -, -⟩ := hone p hp d hd hw hh
    exact ⟨out, h1, h2⟩)
  have hfetched : ∀ p ∈ L, Fetched c mem al s doc pt pix p := by
    intro p hpL
    have hc := hL.selects.candidate p hpL
    obtain ⟨a, ha, sb, hr, r⟩ := hitem p hc.1
    have he := (r.candidate ha hc.1 plane roi o.scenes).1 hc
    exact ⟨sb.info, (hshow p hc.1 a ha sb hr r he.2.1 (hu a he)).1, r.sx.trans r.x.symm, r.sy.trans r.y.symm, hmask p⟩
  refine ⟨out, ?_, o2.trans g2, o3.trans g3, (by have := g4; unfold Bitmap.WF at this ⊢; rw [o2, o3, o4, o5]; exact this), fun x y j => bg.byteAt (pixelBytes pt) x y j, fun hc x y hx hy => g5 hc x y hx hy, ?_⟩
  · unfold getScaledTyped
    rw [hsize]
    dsimp only
    rw [hb]
    dsimp only
    unfold scaledInternalGet
    rw [hplane]
    dsimp only
    rw [g1]
    dsimp only
    rw [hvis, paintSubsets_eq hpt zoom roi _ bg (by
      intro p hpm
      exact hfetched p (by rw [← hLdef]; exact hpm))]
    have : paintAll (.same (pixelBytes pt)) zoom roi pix
        ((scenesSorted sort (indexed doc.entries) (docStats doc) plane o.scenes o.view.sortByM roi).map (zoomRange zoom)).flatten bg = some out := by
      rw [← o1, ← hLdef]
      rfl
    rw [this]
    rfl
  -- in terms of the sub-blocks given to the writer
  let sel : AddInfo → Prop := fun a => a ∈ subs ∧ ∃ p ∈ L, ∃ sb, doc.readSubBlock al s p.1.toNat = .ok (some sb) ∧ ReadAs a p.2 sb
  have hselE : ∀ a, sel a → Eligible subs plane roi o.scenes a := by
    rintro a ⟨ha, p, hpL, sb, hr, r⟩
    have hc := hL.selects.candidate p hpL
    exact (r.candidate ha hc.1 plane roi o.scenes).1 hc
  have hcandOf : ∀ a, Eligible subs plane roi o.scenes a → ∃ p ∈ items, ∃ sb, doc.readSubBlock al s p.1.toNat = .ok (some sb) ∧ ReadAs a p.2 sb ∧
      Candidate items plane roi o.scenes p := by
    intro a he
    obtain ⟨p, hpm, sb, hr, r⟩ := hwritten a he.1
    exact ⟨p, hpm, sb, hr, r, (r.candidate he.1 hpm plane roi o.scenes).2 he⟩
  have hax : ∀ a p sb, a ∈ subs → p ∈ L → doc.readSubBlock al s p.1.toNat = .ok (some sb) → ReadAs a p.2 sb →
      bltX p.2 roi (pix p.1).1 bg = axisX a roi w ∧ bltY p.2 roi (pix p.1).1 bg = axisY a roi h := by
    intro a p sb ha hpL hr r
    have hc := hL.selects.candidate p hpL
    have he := (r.candidate ha hc.1 plane roi o.scenes).1 hc
    have hs := (hshow p hc.1 a ha sb hr r he.2.1 (hu a he)).2
    unfold bltX bltY axisX axisY
    rw [r.rect, r.x, r.y, r.width, r.height, r.storedWidth, r.storedHeight, g2, g3, show (pix p.1).1.w = a.physicalWidth.toNat from hs.width,
      show (pix p.1).1.h = a.physicalHeight.toNat from hs.height]
    exact ⟨rfl, rfl⟩
  refine ⟨sel, ⟨hselE, ?_, ?_, ?_⟩, fun a => visited (axisX a roi w), fun a => visited (axisY a roi h), fun a x => ((axisX a roi w).source x).toNat,
    fun a y => ((axisY a roi h).source y).toNat, ?_, ?_⟩
  · rintro a ⟨ha, p, hpL, sb, hr, r⟩
    rw [← r.zoom]
    exact hL.selects.fineEnough p hpL
  · rintro a ⟨ha, p, hpL, sb, hr, r⟩ b hb' hab hzb
    obtain ⟨q, hq, sb', hr', r', hcq⟩ := hcandOf b hb'
    rw [← r.zoom, ← r'.zoom]
    refine hL.selects.notTooFine p hpL q hcq ?_ (by rw [r'.zoom]; exact hzb)
    unfold SameScene
    rw [r.coordinate, r'.coordinate]
    exact hab
  · intro a he hza hall
    obtain ⟨p, hpm, sb, hr, r, hc⟩ := hcandOf a he
    refine ⟨he.1, p, hL.selects.complete p hc (by rw [r.zoom]; exact hza) ?_, sb, hr, r⟩
    intro q hcq hs hzq
    obtain ⟨b, hb', sb', hr', r'⟩ := hitem q hcq.1
    rw [r.zoom, r'.zoom]
    refine hall b ((r'.candidate hb' hcq.1 plane roi o.scenes).1 hcq) ?_ (by rw [← r'.zoom]; exact hzq)
    unfold SameScene at hs
    rw [r.coordinate, r'.coordinate] at hs
    exact hs
  · rintro a ⟨ha, p, hpL, sb, hr, r⟩
    obtain ⟨_, -, -, h3, h4⟩ := hone p hpL bg g4 rfl rfl
    obtain ⟨e1, e2⟩ := hax a p sb ha hpL hr r
    rw [e1, r.x, r.width, r.storedWidth, g2] at h3
    rw [e2, r.y, r.height, r.storedHeight, g3] at h4
    exact ⟨h3, h4⟩
  · intro x y j hx hy hj
    have hval : out.byteAt (pixelBytes pt) x y j = _ := o6 x y j (by omega) (by omega) hj
    rw [hval]
    have ht := topMost_of_list hL (fun p => (decide (visited (bltX p.2 roi (pix p.1).1 bg) x ∧ visited (bltY p.2 roi (pix p.1).1 bg) y)) &&
          shown (pix p.1).2 ((bltX p.2 roi (pix p.1).1 bg).source x).toNat ((bltY p.2 roi (pix p.1).1 bg).source y).toNat)
        (fun p => (Kind.same (pixelBytes pt)).value (fun i => (pix p.1).1.byteAt (pixelBytes pt) ((bltX p.2 roi (pix p.1).1 bg).source x).toNat
          ((bltY p.2 roi (pix p.1).1 bg).source y).toNat i) j) (bg.byteAt (pixelBytes pt) x y j)
    have hmk : ∀ p : Item, ((decide (visited (bltX p.2 roi (pix p.1).1 bg) x ∧ visited (bltY p.2 roi (pix p.1).1 bg) y)) &&
          shown (pix p.1).2 ((bltX p.2 roi (pix p.1).1 bg).source x).toNat ((bltY p.2 roi (pix p.1).1 bg).source y).toNat) = true ↔
        visited (bltX p.2 roi (pix p.1).1 bg) x ∧ visited (bltY p.2 roi (pix p.1).1 bg) y := by
      intro p
      rw [Bool.and_eq_true, decide_eq_true_eq, shown_iff, hmask]
      exact ⟨fun h => h.1, fun h => ⟨h, trivial⟩⟩
    rcases ht with ⟨n1, n2⟩ | ⟨p, hpL, p3, p4, p5⟩
    · refine .inl ⟨?_, n2⟩
      rintro a ⟨ha, p, hpL, sb, hr, r⟩ hv
      obtain ⟨e1, e2⟩ := hax a p sb ha hpL hr r
      refine n1 p hpL ((hmk p).2 ?_)
      rw [e1, e2]
      exact hv
    · have hc := hL.selects.candidate p hpL
      obtain ⟨a, ha, sb, hr, r⟩ := hitem p hc.1
      obtain ⟨e1, e2⟩ := hax a p sb ha hpL hr r
      have hv := (hmk p).1 p3
      have he := (r.candidate ha hc.1 plane roi o.scenes).1 hc
      have hs := (hshow p hc.1 a ha sb hr r he.2.1 (hu a he)).2
      obtain ⟨_, -, -, h3, h4⟩ := hone p hpL bg g4 rfl rfl
      have b1 := (h3.nearest x hv.1).1
      have b2 := (h4.nearest y hv.2).1
      rw [e1, r.storedWidth] at b1
      rw [e2, r.storedHeight] at b2
      rw [e1, e2] at hv
      refine .inr ⟨a, ⟨ha, p, hpL, sb, hr, r⟩, hv.1, hv.2, ?_, ?_⟩
      · refine p4.trans ?_
        dsimp only
        rw [e1, e2]
        exact hs.bytes _ _ j b1 b2 hj
      · rintro b ⟨hb', q, hqL, sb', hr', r'⟩ hvx hvy hover
        obtain ⟨f1, f2⟩ := hax b q sb' hb' hqL hr' r'
        refine p5 q hqL ((hmk q).2 ?_) (shownOver_over r r' hover)
        rw [f1, f2]
        exact ⟨hvx, hvy⟩

end

end Verif.Viewer
