import Verif.Props.SubBlock
import Verif.Props.Coord
import Mathlib.Data.List.Count

/-!
# C09, C17, C18, C21: exactly when the properties are violated
-/

namespace Verif
open Spec

/-! ## C18 pyramid statistics of the reader-writer -/

/-- A successful replacement or removal of a sub-block. -/
def Edits : RWOp × RWOut → Prop
  | (.modify _ _, .done) => True
  | (.remove _, .found _) => True
  | _ => False

theorem ofSceneKey_count (es : List Entry) (k : Int) : (ofSceneKey es k).length = (es.map sceneKey).count k := by
  rw [ofSceneKey_eq]
  unfold ofKey
  induction es with
  | nil => rfl
  | cons e es ih =>
    rw [List.map_cons, List.count_cons, ← ih]
    by_cases h : sceneKey e = k <;> simp [h]

/-- Statistics that are exact for two lists of sub-blocks: these have the same length. -/
theorem pyramidExact_length {p : PyrStats} {es es' : List Entry} (h : PyramidExact p es) (h' : PyramidExact p es') : es.length = es'.length := by
  have : (es.map sceneKey).Perm (es'.map sceneKey) := by
    rw [List.perm_iff_count]
    intro k
    rw [← ofSceneKey_count, ← ofSceneKey_count]
    cases hk : mapFind p k with
    | none => rw [(h.1 k).1 hk, (h'.1 k).1 hk]
    | some v => rw [← (h.2 k v hk).2.2, ← (h'.2 k v hk).2.2]
  simpa using this.length_eq

/-- What the pyramid statistics have counted. -/
structure PyrCounted (d : RWDir) (edited : Prop) : Prop where
  inv : RWInv d
  next : 0 ≤ d.next
  some : ∃ es, PyrInv d.upd.pyr es ∧ (¬ edited → d.statsCurrent = true ∧ es = d.subBlks.map (·.2)) ∧
    (edited → (d.statsCurrent = true → d.subBlks.length < es.length) ∧ (d.statsCurrent = false → es ≠ []))

theorem pyrInv_list {p : PyrStats} {es : List Entry} (h : PyrInv p es) : ∀ l : List Entry, PyrInv (l.foldl PyrStats.update p) (es ++ l)
  | [] => by simpa using h
  | e :: l => by
    have := pyrInv_list (pyrInv_update h e) l
    simpa using this

theorem foldl_pyr : ∀ (l : List (Int × Entry)) (u : Updater), (l.foldl (fun u p => u.update p.2) u).pyr = (l.map (·.2)).foldl PyrStats.update u.pyr
  | [], _ => rfl
  | p :: l, u => by rw [List.foldl_cons, foldl_pyr l]; rfl

theorem pyrCounted_recreate {d : RWDir} {ed : Prop} (h : PyrCounted d ed) : PyrCounted (if d.statsCurrent then d else d.recreate) ed := by
  by_cases hc : d.statsCurrent = true
  · rw [if_pos hc]; exact h
  · rw [if_neg hc]
    obtain ⟨es, h1, h2, h3⟩ := h.some
    refine ⟨⟨h.inv.sorted, h.inv.below⟩, h.next, es ++ d.subBlks.map (·.2), ?_, ?_, ?_⟩
    · unfold RWDir.recreate
      dsimp only
      rw [foldl_pyr]
      exact pyrInv_list h1 _
    · intro hn
      exact absurd (h2 hn).1 hc
    · intro hed
      have := (h3 hed).2 (by simpa using hc)
      have hl : 0 < es.length := List.length_pos_iff.2 this
      refine ⟨fun _ => ?_, fun hf => ?_⟩
      · rw [List.length_append, List.length_map]
        show d.subBlks.length < _
        omega
      · unfold RWDir.recreate at hf; cases hf

theorem pyrCounted_add {d : RWDir} {ed : Prop} (h : PyrCounted d ed) (e : Entry) : PyrCounted (d.add e).1 ed := by
  obtain ⟨es, h1, h2, h3⟩ := h.some
  have hsub : (d.add e).1.subBlks = d.subBlks ++ [(d.next, e)] := by
    unfold RWDir.add; exact mapInsert_append _ _ _ h.inv.below
  refine ⟨rwInv_add h.inv e, by have := h.next; show 0 ≤ d.next + 1; omega, ?_⟩
  by_cases hc : d.statsCurrent = true
  · refine ⟨es ++ [e], ?_, ?_, ?_⟩
    · show PyrInv (if d.statsCurrent then d.upd.update e else d.upd).pyr _
      rw [if_pos hc]
      exact pyrInv_update h1 e
    · intro hn
      exact ⟨hc, by rw [hsub, (h2 hn).2, List.map_append]; rfl⟩
    · intro hed
      refine ⟨fun _ => ?_, fun hf => ?_⟩
      · rw [hsub]
        have := (h3 hed).1 hc
        simp; omega
      · rw [show (d.add e).1.statsCurrent = d.statsCurrent from rfl, hc] at hf; cases hf
  · refine ⟨es, ?_, ?_, ?_⟩
    · show PyrInv (if d.statsCurrent then d.upd.update e else d.upd).pyr _
      rw [if_neg hc]
      exact h1
    · intro hn
      exact absurd (h2 hn).1 hc
    · intro hed
      exact ⟨fun hf => absurd hf hc, fun _ => (h3 hed).2 (by simpa using hc)⟩

theorem pyrCounted_es_ne {d : RWDir} {ed : Prop} {es : List Entry} (h2 : ¬ ed → d.statsCurrent = true ∧ es = d.subBlks.map (·.2))
    (h3 : ed → (d.statsCurrent = true → d.subBlks.length < es.length) ∧ (d.statsCurrent = false → es ≠ [])) {k : Int} {e : Entry}
    (hk : mapFind d.subBlks k = some e) : es ≠ [] := by
  have hm := mem_of_mapFind hk
  by_cases hed : ed
  · cases hc : d.statsCurrent with
    | false => exact (h3 hed).2 hc
    | true =>
      have := (h3 hed).1 hc
      intro h; rw [h] at this; simp at this
  · rw [(h2 hed).2]
    intro h
    rw [List.map_eq_nil_iff] at h
    rw [h] at hm; simp at hm

theorem pyrCounted_step {d : RWDir} {ed : Prop} (h : PyrCounted d ed) (op : RWOp) : PyrCounted (rwStep d op).1 (ed ∨ Edits (op, (rwStep d op).2)) := by
  have hsame : ∀ {P Q : Prop} {d : RWDir}, (P ↔ Q) → PyrCounted d P → PyrCounted d Q := by
    intro P Q d hpq hd
    rw [← propext hpq]; exact hd
  have hno : ∀ {o : RWOut} {d' : RWDir}, ¬ Edits (op, o) → PyrCounted d' ed → PyrCounted d' (ed ∨ Edits (op, o)) := by
    intro o d' hn hd
    exact hsame ⟨Or.inl, fun h => h.resolve_right hn⟩ hd
  have hinv := rwStep_sim h.inv h.next op
  have heq : ∀ {d' : RWDir} {o : RWOut}, rwStep d op = (d', o) → ¬ Edits (op, o) → PyrCounted d' ed → PyrCounted (rwStep d op).1 (ed ∨ Edits (op, (rwStep d op).2)) := by
    intro d' o he hn hd
    rw [he]; exact hno hn hd
  have hed : ∀ {d' : RWDir} {o : RWOut} {k : Int} {old : Entry}, rwStep d op = (d', o) → Edits (op, o) → mapFind d.subBlks k = some old →
      d'.upd = d.upd → d'.statsCurrent = false → PyrCounted (rwStep d op).1 (ed ∨ Edits (op, (rwStep d op).2)) := by
    intro d' o k old he hx hk hu hc
    obtain ⟨es, h1, h2, h3⟩ := h.some
    refine ⟨hinv.1, hinv.2.1, es, ?_, fun hn => ?_, fun _ => ⟨fun hf => ?_, fun _ => pyrCounted_es_ne h2 h3 hk⟩⟩
    · rw [he]; dsimp only; rw [hu]; exact h1
    · rw [he] at hn; exact absurd (Or.inr hx) hn
    · rw [he] at hf; dsimp only at hf; rw [hc] at hf; cases hf
  cases op with
  | add e => exact hno (by simp [Edits]) (pyrCounted_add h e)
  | tryAdd e =>
    by_cases hd : d.subBlks.any (fun p => p.2.equalCoordinate e) = true
    · exact heq (d' := d) (o := .rejected) (by simp [rwStep, RWDir.tryAdd, hd]) (by simp [Edits]) h
    · exact heq (d' := (d.add e).1) (o := .key (d.add e).2) (by simp only [rwStep, RWDir.tryAdd, if_neg hd]) (by simp [Edits]) (pyrCounted_add h e)
  | get k =>
    cases hk : d.tryGet k with
    | none => exact heq (d' := d) (o := .notFound) (by simp [rwStep, hk]) (by simp [Edits]) h
    | some e => exact heq (d' := d) (o := .found e) (by simp [rwStep, hk]) (by simp [Edits]) h
  | statistics => exact hno (by simp [Edits]) (pyrCounted_recreate h)
  | pyramidStatistics => exact hno (by simp [Edits]) (pyrCounted_recreate h)
  | modify k e =>
    cases hk : mapFind d.subBlks k with
    | none => exact heq (d' := d) (o := .notFound) (by simp [rwStep, RWDir.tryModify, hk]) (by simp [Edits]) h
    | some old =>
      exact hed (d' := { d with subBlks := mapSet d.subBlks k e, isModified := true, statsCurrent := false }) (o := .done)
        (by simp [rwStep, RWDir.tryModify, hk]) trivial hk rfl rfl
  | remove k =>
    cases hk : mapFind d.subBlks k with
    | none => exact heq (d' := d) (o := .notFound) (by simp [rwStep, RWDir.tryRemove, hk]) (by simp [Edits]) h
    | some old =>
      exact hed (d' := { d with subBlks := mapErase d.subBlks k, isModified := true, statsCurrent := false }) (o := .found old)
        (by simp [rwStep, RWDir.tryRemove, hk]) trivial hk rfl rfl

theorem pyrCounted_run : ∀ (ops : List RWOp) (d : RWDir) (ed : Prop), PyrCounted d ed →
    PyrCounted (rwRun d ops).1 (ed ∨ ∃ x ∈ (rwRun d ops).2, Edits x)
  | [], d, ed, h => by
    have : (ed ∨ ∃ x ∈ (rwRun d []).2, Edits x) = ed := by simp [rwRun]
    rw [this]; exact h
  | op :: ops, d, ed, h => by
    have h1 := pyrCounted_run ops (rwStep d op).1 _ (pyrCounted_step h op)
    have : (ed ∨ ∃ x ∈ (rwRun d (op :: ops)).2, Edits x) = ((ed ∨ Edits (op, (rwStep d op).2)) ∨ ∃ x ∈ (rwRun (rwStep d op).1 ops).2, Edits x) := by
      simp only [rwRun, List.mem_cons, exists_eq_or_imp, or_assoc]
    rw [this]; exact h1

/-- **C18 (reader-writer, exactly when).** For every history of operations: the pyramid statistics are exact if and only if no sub-block was ever replaced or
removed successfully. So the property is violated by every history with a successful replacement or removal, however long ago and whatever came after
it: the statistics then count more sub-blocks than there are. -/
theorem C18_reader_writer_exact_iff (ops : List RWOp) :
    PyramidExact (rwRun RWDir.init ops).1.getPyramidStatistics.2 ((rwRun RWDir.init ops).1.subBlks.map (·.2)) ↔
      ∀ x ∈ (rwRun RWDir.init ops).2, ¬ Edits x := by
  have h0 : PyrCounted RWDir.init False := ⟨⟨List.Pairwise.nil, by simp [RWDir.init]⟩, le_refl _, [], pyrInv_init, fun _ => ⟨rfl, rfl⟩, fun h => h.elim⟩
  have h1 := pyrCounted_recreate (pyrCounted_run ops _ _ h0)
  have hsub : (if (rwRun RWDir.init ops).1.statsCurrent then (rwRun RWDir.init ops).1 else (rwRun RWDir.init ops).1.recreate).subBlks =
      (rwRun RWDir.init ops).1.subBlks := by split <;> rfl
  have hcur : (if (rwRun RWDir.init ops).1.statsCurrent then (rwRun RWDir.init ops).1 else (rwRun RWDir.init ops).1.recreate).statsCurrent = true := by
    split
    · assumption
    · rfl
  obtain ⟨es, hp, h2, h3⟩ := h1.some
  rw [hsub] at h2 h3
  have hp' : PyramidExact (rwRun RWDir.init ops).1.getPyramidStatistics.2 es := hp.exact
  constructor
  · intro hx x hx' hed
    have := (h3 (Or.inr ⟨x, hx', hed⟩)).1 hcur
    have hl := pyramidExact_length hx hp'
    rw [List.length_map] at hl
    omega
  · intro hn
    have := (h2 (by rintro (h | ⟨x, hx, hed⟩); exact h; exact hn x hx hed)).2
    rw [← this]; exact hp'

/-- Both cases occur: adding twice and looking is fine, replacing is not. -/
example : PyramidExact (rwRun RWDir.init [.tryAdd (exEntry 0 0 0 0 10 10), .pyramidStatistics, .tryAdd (exEntry 0 1 0 0 10 10)]).1.getPyramidStatistics.2
    [exEntry 0 0 0 0 10 10, exEntry 0 1 0 0 10 10] :=
  (C18_reader_writer_exact_iff [.tryAdd (exEntry 0 0 0 0 10 10), .pyramidStatistics, .tryAdd (exEntry 0 1 0 0 10 10)]).2 (by
    intro x hx
    have : x.1 = .tryAdd (exEntry 0 0 0 0 10 10) ∨ x.1 = .pyramidStatistics ∨ x.1 = .tryAdd (exEntry 0 1 0 0 10 10) := by
      simp only [rwRun, List.mem_cons, List.not_mem_nil, or_false] at hx
      rcases hx with rfl | rfl | rfl <;> simp
    obtain ⟨o, r⟩ := x
    rcases this with h | h | h <;> (dsimp only at h; subst h; simp [Edits]))

example : ∃ x ∈ (rwRun RWDir.init [.add (exEntry 0 0 0 0 10 10), .remove 0]).2, Edits x :=
  ⟨(.remove 0, .found (exEntry 0 0 0 0 10 10)), List.mem_cons_of_mem _ (List.mem_singleton.2 rfl), trivial⟩

/-! ## C17 m-index without dimensions -/

/-- **C17 (violated in general).** A sub-block without any dimension does not count for the m-index range: whenever its m-index lies outside the range of the
m-indices of the other sub-blocks, the statistics are not exact. -/
theorem C17_m_index_violated (es : List Entry) (h : ∀ e ∈ es, EntryOk e) (e : Entry) (hm : HasM e) (hd : ∀ d, e.coordinate d = none)
    (hout : ¬ ∃ lo ∈ mIndices es, ∃ hi ∈ mIndices es, lo ≤ e.mIndex ∧ e.mIndex ≤ hi) :
    ¬ StatsExact ((es ++ [e]).foldl ReaderDir.add ReaderDir.init).upd.stats (es ++ [e]) := by
  have hs := statsInv_fold es h
  intro hx
  rw [readerDir_fold] at hx
  rw [List.foldl_append] at hx
  change StatsExact ((es.foldl Stats.update Stats.init).update e) (es ++ [e]) at hx
  generalize es.foldl Stats.update Stats.init = s at hs hx
  have hfold : ∀ (ds : List Dim) (s : Stats), ds.foldl (updateDim e) s = s := by
    intro ds
    induction ds with
    | nil => intro s; rfl
    | cons d ds ih => intro s; rw [List.foldl_cons, show updateDim e s d = s by unfold updateDim; rw [hd d]]; exact ih s
  have hmin : (s.update e).minM = s.minM ∧ (s.update e).maxM = s.maxM := by
    unfold Stats.update
    simp only [hfold]
    exact ⟨trivial, trivial⟩
  have hmem : mIndices (es ++ [e]) = mIndices es ++ [e.mIndex] := by
    rw [mIndices_snoc, if_pos ((isMIndexValid_iff e).2 hm)]
  have hr := hx.mRange (by rw [hmem]; simp)
  rw [hmem, hmin.1, hmin.2] at hr
  obtain ⟨_, _, hall⟩ := hr
  have hb := hall e.mIndex (by simp)
  by_cases hne : mIndices es = []
  · have := hs.m.1 hne
    rw [this.1, this.2] at hb
    have : intMin < intMax := by decide
    omega
  · obtain ⟨a1, a2, _⟩ := hs.m.2 hne
    exact hout ⟨s.minM, a1, s.maxM, a2, hb⟩

private def mEntry (c : Coord) (m : Int) : Entry := ⟨c, m, 0, 0, 1, 1, 1, 1, 0, 0, 0, 0⟩

/-- A case: m-index 5 and no dimension, beside a sub-block with m-index 7. -/
example : ¬ StatsExact (([mEntry (Coord.empty.set .Z 1) 7] ++ [mEntry Coord.empty 5]).foldl ReaderDir.add ReaderDir.init).upd.stats
    ([mEntry (Coord.empty.set .Z 1) 7] ++ [mEntry Coord.empty 5]) :=
  C17_m_index_violated [mEntry (Coord.empty.set .Z 1) 7] (by
    intro e he
    rw [List.mem_singleton.1 he]
    exact ⟨by decide, by decide, fun _ => ⟨.Z, by decide⟩⟩) (mEntry Coord.empty 5) (by decide) (fun _ => rfl) (by decide)

/-! ## C21 documents without channels -/

/-- **C21 (violated in general).** In a document in which no sub-block has a channel, a sub-block is found for every channel whatsoever (if there is any). -/
theorem C21_wrong_channel_violated (es : List Entry) (h : ∀ e ∈ es, EntryOk e) (hC : ∀ e ∈ es, e.coordinate .C = none) (c : Int) :
    let d := es.foldl ReaderDir.add ReaderDir.init
    arbitraryInChannel (indexed d.subBlks) d.upd.stats c = es.head? := by
  have hs := statsInv_fold es h
  dsimp only
  rw [readerDir_fold]
  change arbitraryInChannel (indexed ([] ++ es)) (es.foldl Stats.update Stats.init) c = _
  rw [List.nil_append]
  have hnone : (es.foldl Stats.update Stats.init).dimBounds .C = none := by
    refine (hs.dims .C).1.2 ?_
    unfold values
    rw [List.filterMap_eq_nil_iff]
    exact hC
  unfold arbitraryInChannel
  rw [if_pos (by rw [hnone]; rfl)]
  cases es with
  | nil => rfl
  | cons e es => rfl

/-- A case: a document with one sub-block. -/
example : arbitraryInChannel (indexed (ReaderDir.init.add (exEntry 0 0 0 0 1 1)).subBlks) (ReaderDir.init.add (exEntry 0 0 0 0 1 1)).upd.stats 7 =
    some (exEntry 0 0 0 0 1 1) :=
  C21_wrong_channel_violated [exEntry 0 0 0 0 1 1] (by
    intro e he
    rw [List.mem_singleton.1 he]
    exact ⟨by decide, by decide, fun _ => ⟨.Z, by decide⟩⟩) (by
    intro e he
    rw [List.mem_singleton.1 he]
    decide) 7

/-! ## C09 zooms within the tolerance -/

/-- **C09 (violated in general).** Two sub-blocks with the same coordinate and m-index (or position, if they have none) whose zooms differ, but by not more
than 0.0001: the second one is rejected as a duplicate of the first. -/
theorem C09_close_zooms_violated (a b : Entry) (hc : ∀ d, a.coordinate d = b.coordinate d)
    (hm : (HasM a ∧ HasM b ∧ a.mIndex = b.mIndex) ∨ (¬ HasM a ∧ ¬ HasM b ∧ a.x = b.x ∧ a.y = b.y)) (hz : |zoom a - zoom b| ≤ 1 / 10000) :
    (addAllTo (WriterDir.init false) [a, b]).2 = [true, false] := by
  have hcmp : ∀ a b : Entry, (∀ d, a.coordinate d = b.coordinate d) → a.coordinate.compare b.coordinate = 0 :=
    fun a b h => (C22_compare_total_order.2.1 _ _).2 h
  have hlt : ∀ a b : Entry, (∀ d, a.coordinate d = b.coordinate d) →
      ((HasM a ∧ HasM b ∧ a.mIndex = b.mIndex) ∨ (¬ HasM a ∧ ¬ HasM b ∧ a.x = b.x ∧ a.y = b.y)) → |zoom a - zoom b| ≤ 1 / 10000 →
      entryLt false a b = false := by
    intro a b hc hm hz
    unfold entryLt
    rw [abs_if, if_neg (not_lt.2 hz)]
    simp only [hcmp a b hc]
    rw [← isMIndexValid_iff, ← isMIndexValid_iff] at hm
    rcases hm with ⟨h1, h2, h3⟩ | ⟨h1, h2, h3, h4⟩
    · simp [h1, h2, h3]
    · have h1' : a.isMIndexValid = false := by simpa using h1
      have h2' : b.isMIndexValid = false := by simpa using h2
      simp [h1', h2', h3, h4]
  have h1 := hlt a b hc hm hz
  have h2 := hlt b a (fun d => (hc d).symm) (by
    rcases hm with ⟨h1, h2, h3⟩ | ⟨h1, h2, h3, h4⟩
    · exact Or.inl ⟨h2, h1, h3.symm⟩
    · exact Or.inr ⟨h2, h1, h3.symm, h4.symm⟩) (by rwa [abs_sub_comm])
  simp [addAllTo, WriterDir.tryAdd, WriterDir.init, setInsert, h1, h2]

/-- A case: zooms 1 and 20000/20001. -/
example : (addAllTo (WriterDir.init false) [zEntry 20000 20000, zEntry 20001 20000]).2 = [true, false] :=
  C09_close_zooms_violated _ _ (fun _ => rfl) (by decide) (by decide +kernel)

end Verif
