import Verif.Proof.ScalingOrder
import Verif.Proof.BltNum
import Verif.Props.Scale
import Verif.Proof.Compose

/-! # Painting by the scaling tile accessor -/

namespace Verif.Accessor
open Blit Flt Scale Spec

/-! ## Painting a list -/

theorem wf_of_shape {d d' : Bitmap} {n : Nat} (h : d.WF n) (h1 : d'.w = d.w) (h2 : d'.h = d.h) (h3 : d'.stride = d.stride)
    (h4 : d'.buf.size = d.buf.size) : d'.WF n := by
  unfold Bitmap.WF at *
  rw [h1, h2, h3, h4]
  exact h

/-- Every pixel gets the value of the last sub-block of the list that shows it. -/
theorem paintAll_ok (k : Kind) (zoom : ℚ) (roi : IntRect) (pix : Pictures) (mk : Item → Nat → Nat → Bool)
    (val : Item → Nat → Nat → Nat → UInt8) : ∀ (L : List Item) (dst : Bitmap), dst.WF k.db →
    (∀ p ∈ L, ∀ d : Bitmap, d.WF k.db → d.w = dst.w → d.h = dst.h →
      ∃ out, scaleBlt k zoom roi pix p d = some out ∧ TilePost k.db d out (mk p) (val p)) →
    ∃ out, paintAll k zoom roi pix L dst = some out ∧ out.w = dst.w ∧ out.h = dst.h ∧ out.stride = dst.stride ∧
      out.buf.size = dst.buf.size ∧
      (∀ x y j, x < dst.w → y < dst.h → j < k.db → out.byteAt k.db x y j =
        match (L.filter (fun p => mk p x y)).getLast? with
        | some p => val p x y j
        | none => dst.byteAt k.db x y j) ∧
      (∀ i, dst.IsPadding k.db i → out.buf.get i = dst.buf.get i) := by
  intro L
  induction L with
  | nil => intro dst _ _; exact ⟨dst, rfl, rfl, rfl, rfl, rfl, by intros; rfl, by intros; rfl⟩
  | cons p L ih =>
    intro dst hwf hp
    obtain ⟨mid, m1, m2⟩ := hp p (by simp) dst hwf rfl rfl
    have hmid : mid.WF k.db := wf_of_shape hwf m2.w m2.h m2.stride m2.size
    obtain ⟨out, o1, o2, o3, o4, o5, o6, o7⟩ := ih mid hmid (by
      intro q hq d hd h1 h2
      exact hp q (by simp [hq]) d hd (by rw [h1, m2.w]) (by rw [h2, m2.h]))
    refine ⟨out, ?_, by rw [o2, m2.w], by rw [o3, m2.h], by rw [o4, m2.stride], by rw [o5, m2.size], ?_, ?_⟩
    · show (scaleBlt k zoom roi pix p dst).bind _ = _
      rw [m1]; exact o1
    · intro x y j hx hy hj
      rw [o6 x y j (by rw [m2.w]; exact hx) (by rw [m2.h]; exact hy) hj, List.filter_cons]
      have h3 := m2.inside x y j hx hy hj
      by_cases hb : mk p x y = true
      · rw [if_pos hb, List.getLast?_cons]
        rw [if_pos hb] at h3
        cases (L.filter (fun p => mk p x y)).getLast? <;> simp [h3]
      · rw [if_neg hb]
        rw [if_neg hb] at h3
        cases (L.filter (fun p => mk p x y)).getLast? <;> simp [h3]
    · intro i hi
      have hpad : mid.IsPadding k.db i := by
        intro x y j hx hy hj
        rw [m2.stride]
        exact hi x y j (by rw [← m2.w]; exact hx) (by rw [← m2.h]; exact hy) hj
      rw [o7 i hpad, m2.outside i hi]

theorem paintAll_append (k : Kind) (zoom : ℚ) (roi : IntRect) (pix : Pictures) : ∀ (a b : List Item) (dst : Bitmap),
    paintAll k zoom roi pix (a ++ b) dst = (paintAll k zoom roi pix a dst).bind (paintAll k zoom roi pix b) := by
  intro a
  induction a with
  | nil => intro b dst; rfl
  | cons p a ih =>
    intro b dst
    show (scaleBlt k zoom roi pix p dst).bind _ = ((scaleBlt k zoom roi pix p dst).bind _).bind _
    rw [Option.bind_assoc]
    congr 1
    funext d
    exact ih b d

theorem paintScenes_eq (sort : List Item → List Item) (k : Kind) (items : List Item) (plane : Coord) (zoom : ℚ) (sortByM : Bool)
    (pix : Pictures) (roi : IntRect) : ∀ (ss : List Int) (dst : Bitmap),
    paintScenes sort k items plane zoom sortByM false pix roi ss dst =
      paintAll k zoom roi pix (ss.map fun s => zoomRange zoom (createSortByZoom sort sortByM (subSet items (plane.set .S s) roi none))).flatten dst := by
  intro ss
  induction ss with
  | nil => intro dst; rfl
  | cons s ss ih =>
    intro dst
    rw [List.map_cons, List.flatten_cons, paintAll_append]
    show (paint k zoom roi pix false _ dst).bind _ = _
    unfold paint
    dsimp only
    rw [if_neg (by simp)]
    congr 1
    funext d
    exact ih d

/-! ## The visibility optimisation -/

/-- In every pixel of the region, the last one of both lists that covers the pixel is the same. -/
def SameLast (roi : IntRect) (a b : List Item) : Prop :=
  ∀ px py, roi.Has px py → ∀ f : Item → Bool, (∀ p ∈ a, f p = true ↔ p.2.rect.Has px py) →
    (b.filter f).getLast? = (a.filter f).getLast?

theorem visible_list (roi : IntRect) (L : List Item) : ∃ vis : List Nat,
    Coverage.checkForVisibility roi L.length (fun i => ((L[i]?).map (·.2.rect)).getD ⟨0, 0, -1, -1⟩) = some vis ∧
    (∀ p ∈ vis.filterMap (fun i => L[i]?), p ∈ L) ∧ SameLast roi L (vis.filterMap fun i => L[i]?) := by
  obtain ⟨vis, v1, v2, v3, v4⟩ := checkForVisibility_ok roi L.length (fun i => ((L[i]?).map (·.2.rect)).getD ⟨0, 0, -1, -1⟩)
  refine ⟨vis, v1, ?_, ?_⟩
  · intro p hp
    obtain ⟨i, -, hi⟩ := List.mem_filterMap.mp hp
    exact List.mem_of_getElem? hi
  · intro px py hroi f hf
    have h := select_top L (fun p => p) vis f v2 v3 (by
      intro i hi hpi hlast
      refine v4 i hi px py hroi ?_ ?_
      · simp only [List.getElem?_eq_getElem hi, Option.map_some, Option.getD_some]
        exact (hf _ (List.getElem_mem _)).mp hpi
      · intro l hl1 hl2 hc
        simp only [List.getElem?_eq_getElem hl2, Option.map_some, Option.getD_some] at hc
        have := hlast l hl1 hl2
        rw [(hf _ (List.getElem_mem _)).mpr hc] at this
        exact absurd this (by simp))
    simpa using h

theorem sameLast_append {roi : IntRect} {a a' b b' : List Item} (h1 : SameLast roi a a') (h2 : SameLast roi b b') :
    SameLast roi (a ++ b) (a' ++ b') := by
  intro px py hroi f hf
  rw [List.filter_append, List.filter_append, List.getLast?_append, List.getLast?_append,
    h1 px py hroi f (fun p hp => hf p (by simp [hp])), h2 px py hroi f (fun p hp => hf p (by simp [hp]))]

theorem paint_vis (k : Kind) (zoom : ℚ) (roi : IntRect) (pix : Pictures) (sorted : List Item) : ∃ L' : List Item,
    (∀ dst, paint k zoom roi pix true sorted dst = paintAll k zoom roi pix L' dst) ∧ (∀ p ∈ L', p ∈ zoomRange zoom sorted) ∧
      SameLast roi (zoomRange zoom sorted) L' := by
  obtain ⟨vis, v1, v2, v3⟩ := visible_list roi (zoomRange zoom sorted)
  by_cases hne : zoomRange zoom sorted = []
  · refine ⟨[], ?_, by simp, ?_⟩
    · intro dst
      unfold paint
      dsimp only
      rw [if_neg (by simp [hne]), hne]
    · rw [hne]; intro _ _ _ _ _; rfl
  · refine ⟨vis.filterMap fun i => (zoomRange zoom sorted)[i]?, ?_, v2, v3⟩
    intro dst
    unfold paint
    dsimp only
    rw [if_pos ⟨rfl, hne⟩, v1]
    rfl

theorem paintScenes_vis (sort : List Item → List Item) (k : Kind) (items : List Item) (plane : Coord) (zoom : ℚ) (sortByM : Bool)
    (pix : Pictures) (roi : IntRect) : ∀ (ss : List Int), ∃ L' : List Item,
    (∀ dst, paintScenes sort k items plane zoom sortByM true pix roi ss dst = paintAll k zoom roi pix L' dst) ∧
    (∀ p ∈ L', p ∈ (ss.map fun s => zoomRange zoom (createSortByZoom sort sortByM (subSet items (plane.set .S s) roi none))).flatten) ∧
    SameLast roi (ss.map fun s => zoomRange zoom (createSortByZoom sort sortByM (subSet items (plane.set .S s) roi none))).flatten L' := by
  intro ss
  induction ss with
  | nil => exact ⟨[], fun _ => rfl, by simp, fun _ _ _ _ _ => rfl⟩
  | cons s ss ih =>
    obtain ⟨L', h2, h3, h4⟩ := ih
    obtain ⟨M, m1, m2, m3⟩ := paint_vis k zoom roi pix (createSortByZoom sort sortByM (subSet items (plane.set .S s) roi none))
    refine ⟨M ++ L', ?_, ?_, ?_⟩
    · intro dst
      rw [paintAll_append]
      show (paint k zoom roi pix true _ dst).bind _ = _
      rw [m1]
      congr 1
      funext d
      exact h2 d
    · intro p hp
      rw [List.map_cons, List.flatten_cons]
      rcases List.mem_append.mp hp with h | h
      · exact List.mem_append.mpr (Or.inl (m2 p h))
      · exact List.mem_append.mpr (Or.inr (h3 p h))
    · rw [List.map_cons, List.flatten_cons]
      exact sameLast_append m3 h4

/-- The value of a pixel is that of a topmost sub-block. -/
theorem topMost_of_list {zoom : ℚ} {tie : Item → Item → Prop} {cand : Item → Prop} {L : List Item} (h : PaintList zoom tie cand L)
    (mk : Item → Bool) (val : Item → UInt8) (bg : UInt8) :
    TopMost (· ∈ L) (Over tie) (fun p => mk p = true) val bg
      (match (L.filter mk).getLast? with | some p => val p | none => bg) := by
  cases hl : (L.filter mk).getLast? with
  | none =>
    left
    rw [List.getLast?_eq_none_iff, List.filter_eq_nil_iff] at hl
    exact ⟨hl, rfl⟩
  | some p =>
    right
    obtain ⟨ys, hys⟩ := List.getLast?_eq_some_iff.mp hl
    have hp : p ∈ L.filter mk := by rw [hys]; simp
    rw [List.mem_filter] at hp
    refine ⟨p, hp.1, hp.2, rfl, ?_⟩
    intro q hq hq2
    have hf := h.order.sublist (List.filter_sublist (p := mk))
    rw [hys, List.pairwise_append] at hf
    have hq3 : q ∈ ys ++ [p] := by rw [← hys, List.mem_filter]; exact ⟨hq, hq2⟩
    rcases List.mem_append.mp hq3 with h1 | h1
    · exact hf.2.2 q h1 p (by simp)
    · rw [List.mem_singleton] at h1; subst h1; exact h.irrefl _ hp.1

/-! ## The candidates -/

open Classical in
theorem subSet_eq (items : List Item) (plane : Coord) (roi : IntRect) (allowed : Option (List Int)) :
    subSet items plane roi allowed =
      (items.filter (fun p => Matches (some plane) (some roi) false p.2)).filter
        (fun p => !sceneRejects (allowed.map fun l s => decide (s ∈ l)) p.2) := by
  unfold subSet
  rw [C19_subset_exact]
  have h : (fun (st : List Item) (i : Int) (e : Entry) =>
      if sceneRejects (allowed.map fun l s => decide (s ∈ l)) e = true then (true, st) else (true, st ++ [(i, e)])) =
      (fun (st : List Item) i e => if (fun (_ : Int) e => !sceneRejects (allowed.map fun l s => decide (s ∈ l)) e) i e = true
        then (true, st ++ [(i, e)]) else (true, st)) := by
    funext st i e
    dsimp only
    by_cases hr : sceneRejects (allowed.map fun l s => decide (s ∈ l)) e = true
    · rw [if_pos hr, if_neg (by simp [hr])]
    · rw [if_neg hr, if_pos (by simp [hr])]
  rw [h, present_collect]
  simp

theorem subSet_sublist (items : List Item) (plane : Coord) (roi : IntRect) (allowed : Option (List Int)) :
    (subSet items plane roi allowed).Sublist items := by
  rw [subSet_eq]
  exact List.filter_sublist.trans List.filter_sublist

theorem subSet_mem (items : List Item) (plane : Coord) (roi : IntRect) (allowed : Option (List Int)) (p : Item) :
    p ∈ subSet items plane roi allowed ↔ (p ∈ items ∧ Matches (some plane) (some roi) false p.2) ∧
      ∀ l, allowed = some l → ∀ s, p.2.coordinate .S = some s → s ∈ l := by
  classical
  rw [subSet_eq, List.mem_filter, List.mem_filter, decide_eq_true_eq]
  apply and_congr_right
  intro _
  unfold sceneRejects
  cases allowed with
  | none => simp
  | some l =>
    cases hS : p.2.coordinate .S with
    | none => simp [hS]
    | some s => simp [hS]

theorem mapFind_mem {α : Type} {m : List (Int × α)} {k : Int} {v : α} (h : mapFind m k = some v) : (k, v) ∈ m := by
  unfold mapFind at h
  cases hf : m.find? (fun p => p.1 == k) with
  | none => rw [hf] at h; cases h
  | some p =>
    rw [hf] at h
    have h1 := List.find?_some hf
    have h2 := List.mem_of_find?_eq_some hf
    simp only [Option.map_some, Option.some.injEq] at h
    simp only [beq_iff_eq] at h1
    obtain ⟨a, b⟩ := p
    dsimp only at h h1
    subst h; subst h1
    exact h2

/-- The filter lets the scene pass. -/
def passes (filter : Option (Int → Bool)) (s : Int) : Bool := match filter with | none => true | some contained => contained s

theorem involved_iff {stats : Stats} {items : List Item} (hst : DocumentStats stats items) (filter : Option (Int → Bool)) (roi : IntRect)
    {p : Item} (hp : p ∈ items) (hm : ∃ px py, roi.Has px py ∧ p.2.rect.Has px py) {s : Int} (hs : p.2.coordinate .S = some s) :
    s ∈ involvedScenes stats.scenes filter roi ↔ passes filter s = true := by
  unfold involvedScenes
  constructor
  · intro h
    obtain ⟨q, hq, rfl⟩ := List.mem_map.mp h
    rw [List.mem_filter, Bool.and_eq_true] at hq
    exact hq.2.1
  · intro h
    have hmem : p.2 ∈ ofScene (items.map (·.2)) s := by
      unfold ofScene
      rw [List.mem_filter, decide_eq_true_eq]
      exact ⟨List.mem_map.mpr ⟨p, hp, rfl⟩, hs⟩
    have hne : ofScene (items.map (·.2)) s ≠ [] := List.ne_nil_of_mem hmem
    cases hf : mapFind stats.scenes s with
    | none => exact absurd ((hst.exact.scenePresent s).mp hf) hne
    | some v =>
      obtain ⟨b, b0⟩ := v
      have hb := (hst.exact.sceneBox s b b0 hf).1.2 hne
      refine List.mem_map.mpr ⟨(s, (b, b0)), ?_, rfl⟩
      rw [List.mem_filter, Bool.and_eq_true]
      refine ⟨mapFind_mem hf, h, ?_⟩
      obtain ⟨px, py, h1, h2⟩ := hm
      have h3 := hb.1 p.2 hmem
      unfold IntRect.Has at h1 h2
      dsimp only [Entry.rect] at h2
      have hv : b.isValid = true ∧ roi.isValid = true := by
        unfold IntRect.isValid
        simp only [Bool.and_eq_true, decide_eq_true_eq]
        omega
      dsimp only
      unfold IntRect.intersectsWith
      rw [hv.1, hv.2]
      simp
      omega

theorem involved_sorted {stats : Stats} {items : List Item} (hst : DocumentStats stats items) (filter : Option (Int → Bool)) (roi : IntRect) :
    (involvedScenes stats.scenes filter roi).Pairwise (· < ·) := by
  unfold involvedScenes
  rw [List.pairwise_map]
  exact hst.sorted.sublist List.filter_sublist

/-- Every scene listed has a sub-block. -/
theorem scene_has_item {stats : Stats} {items : List Item} (hst : DocumentStats stats items) {s : Int} {filter : Option (Int → Bool)}
    {roi : IntRect} (h : s ∈ involvedScenes stats.scenes filter roi) : ∃ p ∈ items, p.2.coordinate .S = some s := by
  obtain ⟨q, hq, rfl⟩ := List.mem_map.mp h
  rw [List.mem_filter] at hq
  have hf : mapFind stats.scenes q.1 ≠ none := by
    unfold mapFind
    intro h0
    rw [Option.map_eq_none_iff, List.find?_eq_none] at h0
    exact h0 q hq.1 (by simp)
  have hne : ofScene (items.map (·.2)) q.1 ≠ [] := fun h0 => hf ((hst.exact.scenePresent q.1).mpr h0)
  obtain ⟨e, he⟩ := List.exists_mem_of_ne_nil _ hne
  unfold ofScene at he
  rw [List.mem_filter, decide_eq_true_eq] at he
  obtain ⟨p, hp, rfl⟩ := List.mem_map.mp he.1
  exact ⟨p, hp, he.2⟩

theorem passesScene_iff (filter : Option (Int → Bool)) (e : Entry) :
    PassesScene filter e ↔ ∀ s, e.coordinate .S = some s → passes filter s = true := by
  unfold PassesScene passes
  cases filter with
  | none => simp
  | some c => simp

theorem matches_set {plane : Coord} {roi : IntRect} {s : Int} (hp : plane .S = none) (e : Entry) :
    Matches (some (plane.set .S s)) (some roi) false e ↔ Matches (some plane) (some roi) false e ∧ e.coordinate .S = some s := by
  unfold Matches
  constructor
  · rintro ⟨h1, h2, h3⟩
    refine ⟨⟨?_, h2, h3⟩, h1 _ rfl .S s (by simp [Coord.set])⟩
    intro c hc d v hv
    cases hc
    apply h1 _ rfl d v
    unfold Coord.set
    rw [if_neg]
    · exact hv
    · rintro rfl; rw [hp] at hv; cases hv
  · rintro ⟨⟨h1, h2, h3⟩, h4⟩
    refine ⟨?_, h2, h3⟩
    intro c hc d v hv
    cases hc
    unfold Coord.set at hv
    split at hv
    · rename_i hd; subst hd; cases hv; exact h4
    · exact h1 _ rfl d v hv

theorem checkPlane_noS {b : Bounds} {c : Coord} (h : checkPlane b c = none) : c .S = none := by
  unfold checkPlane at h
  cases hc : c .S with
  | none => rfl
  | some v => rw [hc] at h; simp at h

/-- The list of the sub-blocks painted. -/
theorem scalingGet_list {sort : List Item → List Item} (hsort : SortsWith zoomLess sort) (k : Kind) {items : List Item} {stats : Stats}
    {plane : Coord} {zoom : ℚ} (filter : Option (Int → Bool)) (sortByM : Bool) (pix : Pictures) (roi : IntRect) (dst : Bitmap)
    (hst : DocumentStats stats items) (hn : items.Nodup) (hplane : checkPlane stats.dimBounds plane = none) (hu : ScenesUniform items)
    (hz : 0 < zoom) (hs : ∀ p, Candidate items plane roi filter p → Sized p.2 ∧ -2147483648 ≤ p.2.mIndex)
    (hd : sortByM = true → ∀ p, Candidate items plane roi filter p → ¬ OnLayer0 p.2 → exactZoom p.2 ≠ 1) :
    ∃ L L', PaintList zoom (tieOf sortByM items) (Candidate items plane roi filter) L ∧
      scalingGet sort k items stats plane zoom filter sortByM false pix roi dst = .ok (paintAll k zoom roi pix L dst) ∧
      scalingGet sort k items stats plane zoom filter sortByM true pix roi dst = .ok (paintAll k zoom roi pix L' dst) ∧
      (∀ p ∈ L', p ∈ L) ∧ SameLast roi L L' := by
  unfold scalingGet
  rw [hplane]
  dsimp only
  have hshare : ∀ {pl : Coord} {e : Entry}, Matches (some pl) (some roi) false e → ∃ px py, roi.Has px py ∧ e.rect.Has px py :=
    fun h => h.2.1 roi rfl
  by_cases hlen : (involvedScenes stats.scenes filter roi).length ≤ 1
  · rw [if_pos hlen, if_pos hlen]
    have hcand : ∀ p, Candidate items plane roi filter p ↔ p ∈ subSet items plane roi (some (involvedScenes stats.scenes filter roi)) := by
      intro p
      rw [subSet_mem]
      unfold Candidate
      rw [← and_assoc]
      apply and_congr_right
      rintro ⟨h1, h2⟩
      rw [passesScene_iff]
      constructor
      · intro h l hl s hS
        cases hl
        exact (involved_iff hst filter roi h1 (hshare h2) hS).mpr (h s hS)
      · intro h s hS
        exact (involved_iff hst filter roi h1 (hshare h2) hS).mp (h _ rfl s hS)
    obtain ⟨M, m1, m2, m3⟩ := paint_vis k zoom roi pix
      (createSortByZoom sort sortByM (subSet items plane roi (some (involvedScenes stats.scenes filter roi))))
    refine ⟨zoomRange zoom (createSortByZoom sort sortByM (subSet items plane roi (some (involvedScenes stats.scenes filter roi)))), M,
      ?_, ?_, by rw [m1], m2, m3⟩
    · have hl := scene_list (zoom := zoom) hsort sortByM hz hn
        (subSet_sublist items plane roi (some (involvedScenes stats.scenes filter roi)))
        (fun p hp => (hs p ((hcand p).mpr hp)).1)
        (fun h p hp => ⟨(hs p ((hcand p).mpr hp)).1, hd h p ((hcand p).mpr hp)⟩)
        (fun p hp => (hs p ((hcand p).mpr hp)).2)
        (by
          intro p hp q hq
          rw [subSet_mem] at hp hq
          unfold SameScene
          rcases hu with hu | hu
          · obtain ⟨s, hS⟩ := Option.ne_none_iff_exists'.mp (hu p hp.1.1)
            obtain ⟨t, hT⟩ := Option.ne_none_iff_exists'.mp (hu q hq.1.1)
            have m1 := hp.2 _ rfl s hS
            have m2 := hq.2 _ rfl t hT
            rw [hS, hT]
            congr 1
            match hI : involvedScenes stats.scenes filter roi, hlen, m1, m2 with
            | [], _, m1, _ => cases m1
            | [a], _, m1, m2 =>
              rw [List.mem_singleton] at m1 m2
              rw [m1, m2]
          · rw [hu p hp.1.1, hu q hq.1.1])
      have e : Candidate items plane roi filter = (· ∈ subSet items plane roi (some (involvedScenes stats.scenes filter roi))) := by
        funext p; exact propext (hcand p)
      rw [e]
      exact hl
    · unfold paint
      dsimp only
      rw [if_neg (by simp)]
  · rw [if_neg hlen, if_neg hlen, paintScenes_eq]
    obtain ⟨M, m1, m2, m3⟩ := paintScenes_vis sort k items plane zoom sortByM pix roi (involvedScenes stats.scenes filter roi)
    have hS0 := checkPlane_noS hplane
    have hall : ∀ p ∈ items, p.2.coordinate .S ≠ none := by
      rcases hu with hu | hu
      · exact hu
      · exfalso
        apply hlen
        match hI : involvedScenes stats.scenes filter roi with
        | [] => simp
        | a :: r =>
          obtain ⟨p, hp, hpS⟩ := scene_has_item (filter := filter) (roi := roi) (s := a) hst (by rw [hI]; simp)
          rw [hu p hp] at hpS; cases hpS
    have hmem : ∀ s p, p ∈ subSet items (plane.set .S s) roi none ↔
        p ∈ items ∧ Matches (some plane) (some roi) false p.2 ∧ p.2.coordinate .S = some s := by
      intro s p
      rw [subSet_mem, matches_set hS0]
      simp
    have hcand : ∀ p, Candidate items plane roi filter p ↔
        ∃ s ∈ involvedScenes stats.scenes filter roi, p ∈ subSet items (plane.set .S s) roi none := by
      intro p
      unfold Candidate
      rw [passesScene_iff]
      constructor
      · rintro ⟨h1, h2, h3⟩
        obtain ⟨s, hS⟩ := Option.ne_none_iff_exists'.mp (hall p h1)
        exact ⟨s, (involved_iff hst filter roi h1 (hshare h2) hS).mpr (h3 s hS), (hmem s p).mpr ⟨h1, h2, hS⟩⟩
      · rintro ⟨s, hs1, hs2⟩
        obtain ⟨h1, h2, hS⟩ := (hmem s p).mp hs2
        refine ⟨h1, h2, ?_⟩
        intro t hT
        rw [hS] at hT; cases hT
        exact (involved_iff hst filter roi h1 (hshare h2) hS).mp hs1
    refine ⟨_, M, ?_, rfl, by rw [m1], m2, m3⟩
    refine scenes_list (involved_sorted hst filter roi) (f := fun s => subSet items (plane.set .S s) roi none)
      (L := fun s => zoomRange zoom (createSortByZoom sort sortByM (subSet items (plane.set .S s) roi none))) ?_ ?_ hcand
    · intro s hs1
      have hc : ∀ p ∈ subSet items (plane.set .S s) roi none, Candidate items plane roi filter p :=
        fun p hp => (hcand p).mpr ⟨s, hs1, hp⟩
      exact scene_list (zoom := zoom) hsort sortByM hz hn (subSet_sublist items _ roi none)
        (fun p hp => (hs p (hc p hp)).1)
        (fun h p hp => ⟨(hs p (hc p hp)).1, hd h p (hc p hp)⟩)
        (fun p hp => (hs p (hc p hp)).2)
        (fun p hp q hq => by
          unfold SameScene
          rw [((hmem s p).mp hp).2.2, ((hmem s q).mp hq).2.2])
    · intro s _ p hp
      exact ((hmem s p).mp hp).2.2

/-! ## One sub-block -/

theorem intersect_shared {a b : IntRect} (h : ∃ px py, b.Has px py ∧ a.Has px py) :
    IntRect.intersect a b = ⟨max a.x b.x, max a.y b.y, min (a.x + a.w) (b.x + b.w) - max a.x b.x, min (a.y + a.h) (b.y + b.h) - max a.y b.y⟩ ∧
    max a.x b.x < min (a.x + a.w) (b.x + b.w) ∧ max a.y b.y < min (a.y + a.h) (b.y + b.h) := by
  obtain ⟨px, py, h1, h2⟩ := h
  unfold IntRect.Has at h1 h2
  unfold IntRect.intersect
  dsimp only
  rw [if_pos (by omega)]
  refine ⟨rfl, by omega, by omega⟩

theorem scaleBlt_scaled {k : Kind} (hk : k.NoOverread) {zoom : ℚ} (hz : zoom ≠ 1) {roi : IntRect} {pix : Pictures} {p : Item}
    (hu : Usual k p.2 (pix p.1).1 (pix p.1).2) {dst d : Bitmap} (hd : d.WF k.db) (hw : d.w = dst.w) (hh : d.h = dst.h)
    (hr : UsualRequest roi dst) (hm : ∃ px py, roi.Has px py ∧ p.2.rect.Has px py) :
    ∃ out, scaleBlt k zoom roi pix p d = some out ∧
      TilePost k.db d out
        (fun x y => (open Classical in decide (visited (bltX p.2 roi (pix p.1).1 dst) x ∧ visited (bltY p.2 roi (pix p.1).1 dst) y)) &&
          shown (pix p.1).2 ((bltX p.2 roi (pix p.1).1 dst).source x).toNat ((bltY p.2 roi (pix p.1).1 dst).source y).toNat)
        (fun x y j => k.value (fun i => (pix p.1).1.byteAt k.sb ((bltX p.2 roi (pix p.1).1 dst).source x).toNat
          ((bltY p.2 roi (pix p.1).1 dst).source y).toNat i) j) ∧
      ShowsAxis p.2.x p.2.width p.2.storedWidth roi.x roi.w dst.w (visited (bltX p.2 roi (pix p.1).1 dst))
        (fun x => ((bltX p.2 roi (pix p.1).1 dst).source x).toNat) ∧
      ShowsAxis p.2.y p.2.height p.2.storedHeight roi.y roi.h dst.h (visited (bltY p.2 roi (pix p.1).1 dst))
        (fun y => ((bltY p.2 roi (pix p.1).1 dst).source y).toNat) := by
  classical
  obtain ⟨i1, i2, i3⟩ := intersect_shared (a := p.2.rect) (b := roi) hm
  have gx : GoodAxis p.2.x p.2.width p.2.storedWidth (IntRect.intersect p.2.rect roi).x (IntRect.intersect p.2.rect roi).w roi.x roi.w dst.w := by
    rw [i1]
    have h1 := hu.w; have h2 := hr.w; have h3 := hr.dw
    dsimp only [Entry.rect] at i2 ⊢
    exact ⟨⟨by omega, h1.2.2⟩, ⟨h1.1, h1.2.1⟩, h2, h3, rfl, ⟨by omega, by omega⟩⟩
  have gy : GoodAxis p.2.y p.2.height p.2.storedHeight (IntRect.intersect p.2.rect roi).y (IntRect.intersect p.2.rect roi).h roi.y roi.h dst.h := by
    rw [i1]
    have h1 := hu.h; have h2 := hr.h; have h3 := hr.dh
    dsimp only [Entry.rect] at i3 ⊢
    exact ⟨⟨by omega, h1.2.2⟩, ⟨h1.1, h1.2.1⟩, h2, h3, rfl, ⟨by omega, by omega⟩⟩
  obtain ⟨mx, sx⟩ := blt_shows (srcN := (pix p.1).1.w) gx hu.size.1
  obtain ⟨my, sy⟩ := blt_shows (srcN := (pix p.1).1.h) gy hu.size.2
  have eX : bltX p.2 roi (pix p.1).1 d = bltX p.2 roi (pix p.1).1 dst := by unfold bltX; rw [hw]
  have eY : bltY p.2 roi (pix p.1).1 d = bltY p.2 roi (pix p.1).1 dst := by unfold bltY; rw [hh]
  obtain ⟨f1, f2, f3, f4⟩ := convOf_facts hk
  have hrx := range_some (a := bltX p.2 roi (pix p.1).1 dst) mx
  have hry := range_some (a := bltY p.2 roi (pix p.1).1 dst) my
  obtain ⟨out, o1, o2⟩ := scaleLoops_ok (c := convOf k) f1 hu.mask (src := (pix p.1).1) (dst := d) (by rw [f2]; exact hu.wf)
    (by rw [f3]; exact hd) (by have := hu.w.1; have := hu.size.1; omega) (by have := hu.h.1; have := hu.size.2; omega)
    (ax := bltX p.2 roi (pix p.1).1 dst) (ay := bltY p.2 roi (pix p.1).1 dst) ⟨rfl, hw.symm⟩ ⟨rfl, hh.symm⟩ hrx hry
  refine ⟨out, ?_, ?_, sx, sy⟩
  · unfold scaleBlt
    rw [if_neg hz, eX, eY]
    exact o1
  · rw [f3] at o2
    refine ⟨o2.w, o2.h, o2.stride, o2.size, ?_, o2.outside⟩
    intro x y j hx hy hj
    rw [o2.inside x y j hx hy hj]
    simp only [visited_range hrx, visited_range hry]
    simp only [f4, f2, and_assoc]

end Verif.Accessor
