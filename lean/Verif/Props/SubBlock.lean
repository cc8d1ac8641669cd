import Verif.Proof.SubBlock
import Verif.Proof.Rect

/-!
# C09 duplicates, C10 declared bounds, C12 keys, C17/C18 statistics, C19 subset, C21 channel, C34 plane coordinates
-/

namespace Verif
open Spec

/-! ## C17 statistics -/

/-- **C17 (reader; partial: see `Spec.EntryOk`).** The statistics of a directory to which the entries `es` were added are
exact. The excluded case (an m-index without any dimension) is violated by the code:
`C17_m_index_lost`. -/
theorem C17_reader_statistics_exact_partial (es : List Entry) (h : ∀ e ∈ es, EntryOk e) :
    StatsExact (es.foldl ReaderDir.add ReaderDir.init).upd.stats es := by
  rw [readerDir_fold]
  exact (statsInv_fold es h).exact

/-- **C17 (order).** The statistics do not depend on the order in which the sub-blocks are stored. -/
theorem C17_order_independent (es es' : List Entry) (h : ∀ e ∈ es, EntryOk e) (hp : es.Perm es') :
    (es.foldl ReaderDir.add ReaderDir.init).upd.stats = (es'.foldl ReaderDir.add ReaderDir.init).upd.stats := by
  rw [readerDir_fold, readerDir_fold]
  exact statsInv_unique hp.length_eq (fun e => hp.mem_iff) (statsInv_fold es h)
    (statsInv_fold es' (fun e he => h e (hp.mem_iff.2 he)))

/-- **C17 (reader-writer).** After any history of operations on the reader-writer's directory (adding, replacing,
removing, looking up, requesting statistics in between), the statistics reported are exact for the sub-blocks then
present. -/
theorem C17_reader_writer_statistics_exact_partial (ops : List RWOp) (h : ∀ op ∈ ops, match op with
      | .add e => EntryOk e | .tryAdd e => EntryOk e | .modify _ e => EntryOk e | _ => True) :
    StatsExact ((rwRun RWDir.init ops).1.getStatistics).2 ((rwRun RWDir.init ops).1.subBlks.map (·.2)) := by
  have hi : RWStatsInv RWDir.init := ⟨⟨List.Pairwise.nil, by simp [RWDir.init]⟩, by simp [RWDir.entries, RWDir.init],
    fun _ => statsInv_init⟩
  have hr := rwStats_run ops RWDir.init hi (by
    intro op hop
    have := h op hop
    cases op <;> exact this)
  unfold RWDir.getStatistics
  dsimp only
  split
  · rename_i hc; exact (hr.stats hc).exact
  · exact (recreate_stats _ hr.ok).exact

/-- A sub-block at (x,y) of the given size, with the coordinate Z=z and m-index m, on layer 0. -/
def exEntry (z m x y w h : Int) : Entry :=
  ⟨Coord.empty.set .Z z, m, x, y, w, h, w, h, 0, 0, 0, 0⟩

example : ∀ e ∈ [exEntry 0 0 0 0 10 10, exEntry 3 1 (-5) 2 10 10], EntryOk e := by
  intro e he
  simp only [List.mem_cons, List.not_mem_nil, or_false] at he
  rcases he with rfl | rfl
  all_goals
    refine ⟨by simp [exEntry], by simp [exEntry, intMax, intMin], fun _ => ⟨.Z, by simp [exEntry, Coord.set]⟩⟩

example : let s := ([exEntry 0 0 0 0 10 10, exEntry 3 1 (-5) 2 10 10].foldl ReaderDir.add ReaderDir.init).upd.stats
    s.bbox = ⟨-5, 0, 15, 12⟩ ∧ s.dimBounds .Z = some (0, 4) ∧ s.minM = 0 ∧ s.maxM = 1 ∧ s.count = 2 := by decide

/-- **C17 violated:** for a sub-block with m-index 5 and no dimension at all, the statistics report no m-index. -/
theorem C17_m_index_lost :
    ∃ e : Entry, HasM e ∧ e.mIndex = 5 ∧
      (ReaderDir.init.add e).upd.stats.minM = intMax ∧ (ReaderDir.init.add e).upd.stats.maxM = intMin := by
  refine ⟨⟨Coord.empty, 5, 0, 0, 1, 1, 1, 1, 0, 0, 0, 0⟩, by decide, rfl, by decide, by decide⟩

/-! ## C18 pyramid statistics -/

/-- **C18 (reader).** The pyramid statistics of a directory are exact: each scene and each layer is listed once, with
the right count, and the counts of a scene add up to the number of its sub-blocks. -/
theorem C18_reader_pyramid_exact (es : List Entry) :
    PyramidExact (es.foldl ReaderDir.add ReaderDir.init).upd.pyr es := by
  rw [readerDir_fold]
  exact (pyrInv_fold es).exact

/-- **C18 (reader-writer, partial: only insertions so far).** -/
theorem C18_reader_writer_pyramid_exact_partial (es : List Entry) :
    let d := es.foldl (fun d e => (RWDir.add d e).1) RWDir.init
    PyramidExact d.getPyramidStatistics.2 (d.subBlks.map (·.2)) := by
  have key : ∀ (es : List Entry) (d : RWDir), d.statsCurrent = true → RWInv d → PyrInv d.upd.pyr (d.subBlks.map (·.2)) →
      let d' := es.foldl (fun d e => (RWDir.add d e).1) d
      d'.statsCurrent = true ∧ PyrInv d'.upd.pyr (d'.subBlks.map (·.2)) := by
    intro es
    induction es with
    | nil => intro d h1 _ h2; exact ⟨h1, h2⟩
    | cons e es ih =>
      intro d h1 hi h2
      rw [List.foldl_cons]
      refine ih _ h1 (rwInv_add hi e) ?_
      unfold RWDir.add
      simp only [h1, if_true]
      rw [mapInsert_append _ _ _ hi.below, List.map_append]
      exact pyrInv_update h2 e
  have h := key es RWDir.init rfl ⟨List.Pairwise.nil, by simp [RWDir.init]⟩ pyrInv_init
  dsimp only at h ⊢
  unfold RWDir.getPyramidStatistics
  dsimp only
  rw [if_pos h.1]
  exact h.2.exact

example : PyrStats.update (PyrStats.update [] ⟨Coord.empty, 0, 0, 0, 100, 50, 50, 25, 0, 0, 0, 0⟩)
    ⟨Coord.empty, 0, 0, 0, 50, 25, 50, 25, 0, 0, 0, 0⟩ = [(intMax, [((2, 1), 1), ((0, 0), 1)])] := by decide

/-- **C18 violated after editing:** add one sub-block, ask for the pyramid statistics, replace the sub-block by
itself: now the pyramid statistics count two sub-blocks although there is one. -/
theorem C18_double_count_after_modify :
    ∃ ops : List RWOp, (rwRun RWDir.init ops).1.subBlks.length = 1 ∧
      (rwRun RWDir.init ops).1.getPyramidStatistics.2 = [(intMax, [((0, 0), 2)])] :=
  ⟨[.add (exEntry 0 0 0 0 10 10), .modify 0 (exEntry 0 0 0 0 10 10)], by decide, by decide⟩

/-! ## C12 stable keys -/

/-- **C12.** For every history of operations on the reader-writer's directory, the results are those of a finite map
from keys to sub-blocks with fresh keys (`Spec.KeyRun`): in particular a key is never handed out twice, a look-up gives
what was last stored under the key, a removed key is not found, and an insertion is rejected iff a layer-0 sub-block
with the same coordinate and m-index is present. -/
theorem C12_keys_refine_map (ops : List RWOp) :
    ∃ used, KeyRun (rwRun RWDir.init ops).2 (rwRun RWDir.init ops).1.tryGet used := by
  have h0 : KeyRun [] RWDir.init.tryGet (fun j => 0 ≤ j ∧ j < RWDir.init.next) := by
    have e1 : RWDir.init.tryGet = fun _ => none := by funext j; rfl
    have e2 : (fun j => 0 ≤ j ∧ j < RWDir.init.next) = fun _ => False := by
      funext j; simp only [RWDir.init, eq_iff_iff, iff_false]; omega
    rw [e1, e2]; exact KeyRun.nil
  have := rwRun_sim ops RWDir.init [] ⟨List.Pairwise.nil, by simp [RWDir.init]⟩ (by simp [RWDir.init]) h0
  exact ⟨_, by simpa using this⟩

/-- The keys handed out in a history. -/
def keysOf : List (RWOp × RWOut) → List Int
  | [] => []
  | (_, .key k) :: r => k :: keysOf r
  | _ :: r => keysOf r

/-- **C12 (no re-use).** In every history all keys handed out are different. -/
theorem C12_keys_never_reused (ops : List RWOp) : (keysOf (rwRun RWDir.init ops).2).Nodup := by
  obtain ⟨used, h⟩ := C12_keys_refine_map ops
  suffices hk : ∀ hist m used, KeyRun hist m used → (keysOf hist).Nodup ∧ ∀ k ∈ keysOf hist, used k from (hk _ _ _ h).1
  clear h used
  have happ : ∀ (h : List (RWOp × RWOut)) p, keysOf (h ++ [p]) = keysOf h ++ keysOf [p] := by
    intro h p
    induction h with
    | nil => rfl
    | cons q h ih => obtain ⟨op, out⟩ := q; cases out <;> simp [keysOf, ih]
  intro hist m used hr
  induction hr with
  | nil => simp [keysOf]
  | snoc h m used op out m' used' hrun hstep ih =>
    rw [happ]
    cases hstep <;> simp only [keysOf, List.append_nil] <;> first | exact ih | skip
    all_goals
      rename_i k hk
      first
      | (refine ⟨?_, ?_⟩
         · rw [List.nodup_append]
           refine ⟨ih.1, by simp, ?_⟩
           intro a ha b hb hab
           rw [List.mem_singleton] at hb
           subst hb; subst hab
           first | exact hk (ih.2 _ ha) | exact k (ih.2 _ ha)
         · intro a ha
           rw [List.mem_append, List.mem_singleton] at ha
           rcases ha with ha | ha
           · right; exact ih.2 a ha
           · left; exact ha)

example : keysOf (rwRun RWDir.init [.add (exEntry 0 0 0 0 1 1), .remove 0, .tryAdd (exEntry 0 0 0 0 1 1),
    .tryAdd (exEntry 0 0 5 5 1 1), .tryAdd (exEntry 0 1 5 5 1 1)]).2 = [0, 1, 2] := by decide

/-! ## C09 duplicates -/

/-- Adding the entries one after the other; the directory and the answers. -/
def addAllTo (d : WriterDir) : List Entry → WriterDir × List Bool
  | [] => (d, [])
  | e :: es => let r := d.tryAdd e; let rest := addAllTo r.1 es; (rest.1, r.2 :: rest.2)

/-- What the answers should be: `false` iff an entry in the same slot (and, if duplicates are allowed, even with
the same file position) came before. -/
def expectedAnswers (allowDuplicates : Bool) : List Entry → List Entry → List Prop
  | _, [] => []
  | before, e :: es =>
    (¬ ∃ b ∈ before, SameSlot b e ∧ (allowDuplicates = true → b.filePosition = e.filePosition)) ::
      expectedAnswers allowDuplicates (before ++ [e]) es

/-- **C09 (partial: any two zooms are equal or differ by more than the tolerance 0.0001).** Adding any
sequence of sub-blocks to the writer's directory: each is rejected iff one in the same slot (same zoom, coordinate and
m-index, or position if there is no m-index) was added before. With zooms differing by less than the tolerance the
property is violated, see the next two theorems. -/
theorem C09_duplicates_exact_partial (allow : Bool) (es : List Entry)
    (hz : ∀ a ∈ es, ∀ b ∈ es, zoom a = zoom b ∨ |zoom a - zoom b| > 1 / 10000) :
    ((addAllTo (WriterDir.init allow) es).2.map (· = true)) = expectedAnswers allow [] es := by
  have key : ∀ (post pre : List Entry) (d : WriterDir), d.allowDuplicates = allow → pre ++ post = es →
      d.subBlks.Pairwise (fun x y => fullCmp allow x y < 0) → (∀ x ∈ d.subBlks, x ∈ pre) →
      (∀ x ∈ pre, ∃ y ∈ d.subBlks, fullCmp allow x y = 0) →
      (addAllTo d post).2.map (· = true) = expectedAnswers allow pre post := by
    intro post
    induction post with
    | nil => intros; rfl
    | cons e post ih =>
      intro pre d hd hpp hs hsub hrep
      have hc := fullCmp_cmp allow
      have hmem : ∀ b ∈ d.subBlks, b ∈ es := fun b hb => by rw [← hpp]; simp [hsub b hb]
      have hee : e ∈ es := by rw [← hpp]; simp
      obtain ⟨h1, h2⟩ := setInsert_spec (entryLt d.allowDuplicates) (fullCmp allow) hc e d.subBlks (by
        intro b hb
        rw [hd]
        exact ⟨entryLt_iff allow e b (hz e hee b (hmem b hb)), entryLt_iff allow b e (hz b (hmem b hb) e hee)⟩) hs
      have hex : (∃ b ∈ d.subBlks, fullCmp allow e b = 0) ↔
          ∃ b ∈ pre, SameSlot b e ∧ (allow = true → b.filePosition = e.filePosition) := by
        constructor
        · rintro ⟨b, hb, h0⟩
          refine ⟨b, hsub b hb, (fullCmp_zero allow b e).1 ?_⟩
          have := hc.neg e b; omega
        · rintro ⟨b, hb, h0⟩
          obtain ⟨y, hy, hy0⟩ := hrep b hb
          refine ⟨y, hy, ?_⟩
          have hbe := (fullCmp_zero allow b e).2 h0
          have hn := hc.neg b e
          exact hc.eq_trans (by omega : fullCmp allow e b = 0) hy0
      unfold addAllTo expectedAnswers
      cases hi : setInsert (entryLt d.allowDuplicates) e d.subBlks with
      | none =>
        have ht : d.tryAdd e = (d, false) := by simp only [WriterDir.tryAdd, hi]
        simp only [ht, List.map_cons, Bool.false_eq_true, List.cons.injEq]
        have hdup := h1.1 hi
        refine ⟨?_, ?_⟩
        · rw [eq_iff_iff, false_iff, not_not]; exact hex.1 hdup
        · refine ih (pre ++ [e]) d hd (by simp [← hpp]) hs (fun x hx => by simp [hsub x hx]) ?_
          intro x hx
          rcases List.mem_append.1 hx with hx | hx
          · exact hrep x hx
          · rw [List.mem_singleton.1 hx]; exact hdup
      | some l =>
        have ht : d.tryAdd e = ({ d with subBlks := l, upd := d.upd.update e }, true) := by simp only [WriterDir.tryAdd, hi]
        obtain ⟨m1, m2, m3⟩ := h2 l hi
        simp only [ht, List.map_cons, List.cons.injEq]
        have hnd : ¬ ∃ b ∈ d.subBlks, fullCmp allow e b = 0 := by rw [← h1, hi]; simp
        refine ⟨?_, ?_⟩
        · rw [eq_iff_iff]; exact ⟨fun _ => fun h => hnd (hex.2 h), fun _ => trivial⟩
        · refine ih (pre ++ [e]) _ hd (by simp [← hpp]) m3 ?_ ?_
          · intro x hx
            rcases (m1 x).1 hx with rfl | hx
            · simp
            · simp [hsub x hx]
          · intro x hx
            rcases List.mem_append.1 hx with hx | hx
            · obtain ⟨y, hy, hy0⟩ := hrep x hx
              exact ⟨y, (m1 y).2 (Or.inr hy), hy0⟩
            · rw [List.mem_singleton.1 hx]
              refine ⟨e, (m1 e).2 (Or.inl rfl), ?_⟩
              have := hc.neg e e; omega
  exact key es [] (WriterDir.init allow) rfl rfl List.Pairwise.nil (by simp [WriterDir.init]) (by simp)

/-- An entry with given logical and stored width (height 1), without dimensions and m-index, at (0,0). -/
def zEntry (w sw : Int) : Entry := ⟨Coord.empty, intMin, 0, 0, w, 1, sw, 1, 0, 0, 0, 0⟩

/-- The hypothesis of C09 holds e.g. for zooms 1 and 1/2, and the third of these is rejected. -/
example : (∀ a ∈ [zEntry 4 4, zEntry 8 4, zEntry 2 2], ∀ b ∈ [zEntry 4 4, zEntry 8 4, zEntry 2 2],
    zoom a = zoom b ∨ |zoom a - zoom b| > 1 / 10000) ∧
    (addAllTo (WriterDir.init false) [zEntry 4 4, zEntry 8 4, zEntry 2 2]).2 = [true, true, false] := by
  constructor
  · intro a ha b hb
    simp only [List.mem_cons, List.not_mem_nil, or_false] at ha hb
    rcases ha with rfl | rfl | rfl <;> rcases hb with rfl | rfl | rfl <;>
      simp [zoom, zoomFraction, zEntry] <;> norm_num [abs_of_neg, abs_of_pos]
  · decide +kernel

/-- **C09 violated (distinct sub-block rejected):** a pyramid sub-block with a zoom slightly below 1 (20000/20001) is
rejected as a duplicate of a layer-0 sub-block, although the zooms differ. -/
theorem C09_distinct_zoom_rejected :
    zoom (zEntry 20001 20000) ≠ zoom (zEntry 20000 20000) ∧
    (addAllTo (WriterDir.init false) [zEntry 20000 20000, zEntry 20001 20000]).2 = [true, false] := by
  refine ⟨by decide +kernel, by decide +kernel⟩

/-- **C09 violated (depends on the order):** three sub-blocks with zooms z1 > z2 > z3, neighbours within the tolerance:
in one order two are accepted, in another only one. -/
theorem C09_outcome_depends_on_order :
    (addAllTo (WriterDir.init false) [zEntry 20000 20000, zEntry 20001 20000, zEntry 20003 20000]).2 = [true, false, true] ∧
    (addAllTo (WriterDir.init false) [zEntry 20001 20000, zEntry 20000 20000, zEntry 20003 20000]).2 = [true, false, false] := by
  refine ⟨by decide +kernel, by decide +kernel⟩

/-! ## C10 declared bounds -/

theorem count_eq_iff (b : Bounds) (c : Coord) (h : ∀ d, (b d).isSome → (c d).isSome) :
    (Dim.all.filter (fun d => (b d).isSome)).length = c.count ↔ ∀ d, (c d).isSome → (b d).isSome := by
  unfold Coord.count
  have hsub : (Dim.all.filter (fun d => (b d).isSome)).Sublist (Dim.all.filter (fun d => (c d).isSome)) := by
    have : Dim.all.filter (fun d => (b d).isSome) = (Dim.all.filter (fun d => (c d).isSome)).filter (fun d => (b d).isSome) := by
      rw [List.filter_filter]
      apply List.filter_congr
      intro d _
      cases hb : (b d).isSome
      · rfl
      · rw [h d hb]; rfl
    rw [this]; exact List.filter_sublist
  constructor
  · intro hl d hd
    have := hsub.eq_of_length hl
    have hm : d ∈ Dim.all.filter (fun d => (c d).isSome) := by simp [Dim.mem_all, hd]
    rw [← this] at hm
    exact (List.mem_filter.1 hm).2
  · intro h'
    congr 1
    apply List.filter_congr
    intro d _
    rw [Bool.eq_iff_iff]; exact ⟨h d, h' d⟩

/-- **C10 (partial: dimension bounds are declared).** A sub-block is accepted iff its coordinate has exactly
the declared dimensions, each value within its interval, and - if m-index bounds are declared - a valid m-index within
them. If only m-index bounds are declared they are not enforced: `C10_m_bounds_ignored`. -/
theorem C10_accept_iff_partial (b : Bounds) (mb : Option (Int × Int)) (c : Coord) (m : Option Int) :
    checkCoordinate (some b) mb c m = .Ok ↔
      InBounds b c ∧ ∀ lo hi, mb = some (lo, hi) → ∃ v, m = some v ∧ lo ≤ v ∧ v ≤ hi := by
  obtain ⟨h1, h2, h3, h4, h5⟩ := checkDims_spec b c Dim.all 0
  have hin : InBounds b c ↔ (∀ d ∈ Dim.all, ∀ s z, b d = some (s, z) → ∃ v, c d = some v ∧ s ≤ v ∧ v < s + z) ∧
      ∀ d, (c d).isSome → (b d).isSome := by
    unfold InBounds
    constructor
    · intro h
      refine ⟨fun d _ s z hb => by have := h d; rw [hb] at this; exact this, fun d hd => ?_⟩
      have := h d
      cases hb : b d with
      | none => rw [hb] at this; dsimp only at this; rw [this] at hd; simp at hd
      | some p => rfl
    · rintro ⟨g1, g2⟩ d
      cases hb : b d with
      | none =>
        cases hc : c d with
        | none => rfl
        | some v => have := g2 d (by simp [hc]); simp [hb] at this
      | some p => exact g1 d (Dim.mem_all d) p.1 p.2 hb
  unfold checkCoordinate
  dsimp only
  cases hcd : checkDims b c Dim.all 0 with
  | error e =>
    dsimp only
    have hne : ¬ InBounds b c := by
      rw [hin]
      rintro ⟨g1, _⟩
      have := (h1 _).2 ⟨rfl, g1⟩
      rw [hcd] at this; simp at this
    simp only [hne, false_and, iff_false]
    rintro rfl
    exact h5 hcd
  | ok n =>
    dsimp only
    obtain ⟨hn, hd⟩ := (h1 n).1 hcd
    have hsub : ∀ d, (b d).isSome → (c d).isSome := by
      intro d hb
      obtain ⟨⟨s, z⟩, hb⟩ := Option.isSome_iff_exists.1 hb
      obtain ⟨v, hv, _⟩ := hd d (Dim.mem_all d) s z hb
      simp [hv]
    have hcount := count_eq_iff b c hsub
    rw [Nat.zero_add] at hn
    rw [← hn] at hcount
    by_cases hcn : n = c.count
    · rw [if_neg (by simpa using hcn)]
      have hI : InBounds b c := hin.2 ⟨hd, hcount.1 hcn⟩
      simp only [hI, true_and]
      cases mb with
      | none => simp
      | some p =>
        obtain ⟨lo, hi⟩ := p
        cases m with
        | none => simp
        | some v =>
          dsimp only
          by_cases hv : lo ≤ v ∧ hi ≥ v
          · rw [if_neg (by simpa using hv)]
            simp only [Option.some.injEq, Prod.mk.injEq, true_iff]
            rintro lo' hi' ⟨rfl, rfl⟩
            exact ⟨v, rfl, hv.1, hv.2⟩
          · rw [if_pos hv]
            simp only [reduceCtorEq, false_iff]
            intro h
            obtain ⟨w, hw, h6, h7⟩ := h lo hi rfl
            cases hw
            exact hv ⟨h6, h7⟩
    · rw [if_pos hcn]
      simp only [reduceCtorEq, false_iff, not_and]
      intro hI
      exact absurd (hcount.2 (hin.1 hI).2) hcn

/-- **C10 (reasons).** A rejection reports a reason that applies. -/
theorem C10_reasons (b : Bounds) (mb : Option (Int × Int)) (c : Coord) (m : Option Int) :
    (checkCoordinate (some b) mb c m = .OutOfBounds →
      (∃ d s z v, b d = some (s, z) ∧ c d = some v ∧ ¬ (s ≤ v ∧ v < s + z)) ∨
      (∃ lo hi v, mb = some (lo, hi) ∧ m = some v ∧ ¬ (lo ≤ v ∧ v ≤ hi))) ∧
    (checkCoordinate (some b) mb c m = .InsufficientCoordinate →
      (∃ d, (b d).isSome ∧ c d = none) ∨ (mb.isSome ∧ m = none)) ∧
    (checkCoordinate (some b) mb c m = .UnexpectedCoordinate → ∃ d, (c d).isSome ∧ b d = none) := by
  obtain ⟨h1, h2, h3, h4, h5⟩ := checkDims_spec b c Dim.all 0
  unfold checkCoordinate
  dsimp only
  cases hcd : checkDims b c Dim.all 0 with
  | error e =>
    rw [hcd] at h2 h3 h4
    dsimp only
    refine ⟨fun h => Or.inl (h2 (by rw [h])), fun h => Or.inl (h3 (by rw [h])), fun h => absurd (by rw [h]) h4⟩
  | ok n =>
    dsimp only
    obtain ⟨hn, hd⟩ := (h1 n).1 hcd
    rw [Nat.zero_add] at hn
    have hsub : ∀ d, (b d).isSome → (c d).isSome := by
      intro d hb
      obtain ⟨⟨s, z⟩, hb⟩ := Option.isSome_iff_exists.1 hb
      obtain ⟨v, hv, _⟩ := hd d (Dim.mem_all d) s z hb
      simp [hv]
    have hcount := count_eq_iff b c hsub
    rw [← hn] at hcount
    by_cases hcn : n = c.count
    · rw [if_neg (by simpa using hcn)]
      cases mb with
      | none => simp
      | some p =>
        obtain ⟨lo, hi⟩ := p
        cases m with
        | none => simp
        | some v =>
          dsimp only
          by_cases hv : lo ≤ v ∧ hi ≥ v
          · rw [if_neg (by simpa using hv)]; simp
          · rw [if_pos hv]
            refine ⟨fun _ => Or.inr ⟨lo, hi, v, rfl, rfl, hv⟩, by simp, by simp⟩
    · rw [if_pos hcn]
      refine ⟨by simp, by simp, fun _ => ?_⟩
      have : ¬ ∀ d, (c d).isSome → (b d).isSome := fun h => hcn (hcount.2 h)
      simp only [not_forall] at this
      obtain ⟨d, hd1, hd2⟩ := this
      exact ⟨d, hd1, by simpa using hd2⟩

example : checkCoordinate (some (fun d => if d = .Z then some (0, 3) else none)) (some (0, 9)) (Coord.empty.set .Z 2) (some 4) = .Ok ∧
    checkCoordinate (some (fun d => if d = .Z then some (0, 3) else none)) (some (0, 9)) (Coord.empty.set .Z 3) (some 4) = .OutOfBounds ∧
    checkCoordinate (some (fun d => if d = .Z then some (0, 3) else none)) (some (0, 9)) ((Coord.empty.set .Z 2).set .T 0) (some 4) = .UnexpectedCoordinate := by
  decide

/-- **C10 violated:** if only m-index bounds are declared (no dimension bounds), every m-index is accepted. -/
theorem C10_m_bounds_ignored (c : Coord) (lo hi : Int) (m : Option Int) :
    checkCoordinate none (some (lo, hi)) c m = .Ok := rfl

/-! ## C19 subset enumeration -/

theorem doIntersect_iff_shared (a b : IntRect) : a.doIntersect b = true ↔ ∃ px py, a.Has px py ∧ b.Has px py := by
  unfold IntRect.doIntersect IntRect.intersect IntRect.Has
  dsimp only
  constructor
  · intro h
    split at h
    · rename_i hc
      simp only [Bool.and_eq_true, decide_eq_true_eq] at h
      exact ⟨max a.x b.x, max a.y b.y, by omega, by omega⟩
    · simp at h
  · rintro ⟨px, py, h1, h2⟩
    rw [if_pos (by omega)]
    simp only [Bool.and_eq_true, decide_eq_true_eq]
    omega

theorem ite_and2 {α : Type} (P Q : Prop) [Decidable P] [Decidable Q] [Decidable (Q ∧ P)] (x y : α) :
    (if P then if Q then x else y else y) = if Q ∧ P then x else y := by
  by_cases hP : P <;> by_cases hQ : Q <;> simp [hP, hQ]

theorem ite_and3 {α : Type} (P Q R : Prop) [Decidable P] [Decidable Q] [Decidable R] [Decidable (Q ∧ R ∧ P)] (x y : α) :
    (if P then if Q then if R then x else y else y else y) = if Q ∧ R ∧ P then x else y := by
  by_cases hP : P <;> by_cases hQ : Q <;> by_cases hR : R <;> simp [hP, hQ, hR]

open Classical in
/-- **C19.** For every directory content, plane, region and callback: `EnumSubset` presents to the callback exactly the
sub-blocks that are in the plane, share a pixel with the region and (if requested) are on layer 0 - with their
index, in directory order - and stops at the first answer `false`. -/
theorem C19_subset_exact {σ : Type} (items : List (Int × Entry)) (plane : Option Coord) (roi : Option IntRect) (l0 : Bool)
    (f : σ → Int → Entry → Bool × σ) (st : σ) :
    enumSubset items plane roi l0 f st = presentItems f (items.filter (fun p => Matches plane roi l0 p.2)) st := by
  rw [← enumerate_filter]
  unfold enumSubset
  congr 1
  funext st i e
  have hp : ∀ c, compareCoordinate c e.coordinate = true ↔ ∀ d v, c d = some v → e.coordinate d = some v := by
    intro c
    unfold compareCoordinate
    rw [compareCoordinateFrom_iff]
    exact ⟨fun h d => h d (Dim.mem_all d), fun h d _ => h d⟩
  have hr : ∀ r : IntRect, r.doIntersect e.rect = true ↔
      ∃ px py, r.Has px py ∧ IntRect.Has ⟨e.x, e.y, e.width, e.height⟩ px py := fun r => doIntersect_iff_shared r e.rect
  have hl : (l0 = false ∨ (e.storedWidth = e.width ∧ e.storedHeight = e.height)) ↔ (l0 = true → OnLayer0 e) := by
    unfold OnLayer0
    cases l0
    · simp
    · simp [eq_comm]
  unfold Matches
  cases plane <;> cases roi <;>
    simp only [hl, hp, hr, Option.some.injEq, forall_eq', reduceCtorEq, false_imp_iff, implies_true, if_true, true_and]
  · exact ite_and2 _ _ _ _
  · exact ite_and2 _ _ _ _
  · exact ite_and3 _ _ _ _ _

/-- The indices reported for the reader's directory are those under which `TryGetSubBlock` finds the sub-blocks. -/
theorem C19_index_valid (d : ReaderDir) (i : Int) (e : Entry) (h : (i, e) ∈ indexed d.subBlks) :
    0 ≤ i ∧ d.get i.toNat = some e := by
  unfold indexed at h
  rw [List.mem_map] at h
  obtain ⟨⟨a, n⟩, hm, he⟩ := h
  rw [List.mem_zipIdx_iff_getElem?] at hm
  simp only [Prod.mk.injEq] at he
  obtain ⟨rfl, rfl⟩ := he
  exact ⟨by simp, by simpa [ReaderDir.get] using hm⟩

example : enumSubset (indexed [exEntry 0 0 0 0 10 10, exEntry 1 1 0 0 10 10, exEntry 0 2 20 20 5 5, exEntry 0 3 9 9 5 5])
    (some (Coord.empty.set .Z 0)) (some ⟨8, 8, 4, 4⟩) true (fun (l : List Int) i _ => (true, l ++ [i])) [] = [0, 3] := by decide

/-! ## C21 representative sub-block of a channel -/

/-- **C21 (partial: the document has a C dimension, or c = 0).** The look-up succeeds iff the document contains a
sub-block with C = c, or no sub-block has a C index (and there is one at all); what is returned is such a sub-block.
For documents without C dimension and c ≠ 0 the documented rule is violated: `C21_wrong_channel_found`. -/
theorem C21_channel_lookup_partial (es : List Entry) (h : ∀ e ∈ es, EntryOk e) (c : Int)
    (hc : (∃ e ∈ es, (e.coordinate .C).isSome) ∨ c = 0) :
    let d := es.foldl ReaderDir.add ReaderDir.init
    let fits := fun e : Entry => e.coordinate .C = some c ∨ ((∀ e' ∈ es, e'.coordinate .C = none) ∧ c = 0)
    ((arbitraryInChannel (indexed d.subBlks) d.upd.stats c).isSome ↔ ∃ e ∈ es, fits e) ∧
    ∀ e, arbitraryInChannel (indexed d.subBlks) d.upd.stats c = some e → e ∈ es ∧ fits e := by
  dsimp only
  have hst := (C17_reader_statistics_exact_partial es h).dimPresent .C
  rw [readerDir_fold] at *
  simp only [ReaderDir.init, List.nil_append] at *
  have hval : values es .C = [] ↔ ∀ e' ∈ es, e'.coordinate .C = none := by
    unfold values; rw [List.filterMap_eq_nil_iff]
  rw [hval] at hst
  unfold arbitraryInChannel
  by_cases hn : ∀ e' ∈ es, e'.coordinate .C = none
  · have hc0 : c = 0 := by
      rcases hc with ⟨e, he, h'⟩ | h'
      · rw [hn e he] at h'; simp at h'
      · exact h'
    rw [if_pos (by rw [hst.2 hn]; rfl)]
    cases es with
    | nil => simp [indexed, enumerate]
    | cons e es =>
      have : enumerate (fun (_ : Option Entry) (_ : Int) e => (false, some e)) (indexed (e :: es)) none = some e := by
        simp [indexed, enumerate, List.zipIdx_cons]
      rw [this]
      refine ⟨by simp only [Option.isSome_some, true_iff]; exact ⟨e, by simp, Or.inr ⟨hn, hc0⟩⟩, ?_⟩
      intro e' he'
      cases he'
      exact ⟨by simp, Or.inr ⟨hn, hc0⟩⟩
  · rw [if_neg (by rw [Option.isNone_iff_eq_none, hst]; exact hn)]
    have key : ∀ l : List (Int × Entry), enumerate (fun st _ e => if e.coordinate .C = some c then (false, some e) else (true, st)) l none =
        (l.map (·.2)).find? (fun e => e.coordinate .C = some c) := by
      intro l
      induction l with
      | nil => rfl
      | cons p l ih =>
        unfold enumerate
        by_cases hp : p.2.coordinate .C = some c
        · simp [hp]
        · simp [hp, ih]
    have hmap : (indexed es).map (·.2) = es := by
      unfold indexed
      rw [List.map_map]
      exact List.zipIdx_map_fst 0 es
    rw [key, hmap]
    constructor
    · rw [List.find?_isSome]
      constructor
      · rintro ⟨e, he, h'⟩; exact ⟨e, he, Or.inl (by simpa using h')⟩
      · rintro ⟨e, he, h' | h'⟩
        · exact ⟨e, he, by simpa using h'⟩
        · exact absurd h'.1 hn
    · intro e he
      exact ⟨List.mem_of_find?_eq_some he, Or.inl (by simpa using List.find?_some he)⟩

example : let es : List Entry := [⟨Coord.empty.set .C 0, 0, 0, 0, 1, 1, 1, 1, 0, 0, 0, 0⟩, ⟨Coord.empty.set .C 3, 0, 0, 0, 1, 1, 1, 1, 1, 0, 0, 0⟩]
    let d := es.foldl ReaderDir.add ReaderDir.init
    (arbitraryInChannel (indexed d.subBlks) d.upd.stats 3).map (·.pixelType) = some 1 ∧
    (arbitraryInChannel (indexed d.subBlks) d.upd.stats 1).isNone := by decide

/-- **C21 violated:** in a document whose only sub-block has no channel, a sub-block is found for channel 7. -/
theorem C21_wrong_channel_found :
    ∃ e : Entry, e.coordinate .C = none ∧
      (arbitraryInChannel (indexed (ReaderDir.init.add e).subBlks) (ReaderDir.init.add e).upd.stats 7).isSome :=
  ⟨exEntry 0 0 0 0 1 1, by decide, by decide⟩

/-! ## C34 plane coordinates -/

/-- **C34.** In terms of the document's sub-blocks `es`: a plane coordinate is accepted iff it has no S, each
dimension without value occurs with at most one index, and each given value lies between two occurring indices of
that dimension. -/
theorem C34_plane_accepted_iff (es : List Entry) (h : ∀ e ∈ es, EntryOk e) (c : Coord) :
    checkPlane (es.foldl ReaderDir.add ReaderDir.init).upd.stats.dimBounds c = none ↔
      c .S = none ∧ ∀ d, d ≠ .S →
        (c d = none → ∀ u ∈ values es d, ∀ v ∈ values es d, u = v) ∧
        (∀ v, c d = some v → ∃ lo ∈ values es d, ∃ hi ∈ values es d, lo ≤ v ∧ v ≤ hi) := by
  have hx := C17_reader_statistics_exact_partial es h
  generalize (es.foldl ReaderDir.add ReaderDir.init).upd.stats = s at hx
  unfold checkPlane
  have hmem : ∀ d : Dim, d ≠ .S ↔ d ∈ ([.Z, .C, .T, .R, .I, .H, .V, .B] : List Dim) := by intro d; cases d <;> decide
  by_cases hS : (c .S).isSome
  · rw [if_pos hS]
    simp only [reduceCtorEq, false_iff, not_and]
    intro h'; rw [h'] at hS; simp at hS
  · rw [if_neg hS, (checkPlaneDims_spec s.dimBounds c _).1]
    have hS' : c .S = none := by simpa using hS
    simp only [hS', true_and]
    refine forall_congr' (fun d => ?_)
    rw [← hmem]
    refine imp_congr_right (fun _ => ?_)
    refine and_congr ?_ ?_
    · refine imp_congr_right (fun _ => ?_)
      constructor
      · intro h1 u hu v hv
        cases hb : s.dimBounds d with
        | none => rw [(hx.dimPresent d).1 hb] at hu; simp at hu
        | some p =>
          obtain ⟨st, n⟩ := p
          have hn := h1 st n hb
          obtain ⟨_, _, h3⟩ := hx.dimRange d st n hb
          have := h3 u hu; have := h3 v hv
          omega
      · intro h1 st n hb
        obtain ⟨h2, h3, _⟩ := hx.dimRange d st n hb
        have := h1 _ h2 _ h3
        omega
    · refine forall_congr' (fun v => imp_congr_right (fun _ => ?_))
      constructor
      · rintro ⟨st, n, hb, h1, h2⟩
        obtain ⟨h3, h4, _⟩ := hx.dimRange d st n hb
        exact ⟨_, h3, _, h4, h1, by omega⟩
      · rintro ⟨lo, hlo, hi, hhi, h1, h2⟩
        cases hb : s.dimBounds d with
        | none => rw [(hx.dimPresent d).1 hb] at hlo; simp at hlo
        | some p =>
          obtain ⟨st, n⟩ := p
          obtain ⟨_, _, h3⟩ := hx.dimRange d st n hb
          have := h3 lo hlo; have := h3 hi hhi
          exact ⟨st, n, rfl, by omega, by omega⟩

/-- **C34 (reasons).** A rejection names a reason that applies (for any bounds `b` of the document). -/
theorem C34_reasons (b : Bounds) (c : Coord) :
    (checkPlane b c = some .InvalidDimension ↔ (c .S).isSome) ∧
    (checkPlane b c = some .MissingDimension → ∃ d, d ≠ .S ∧ c d = none ∧ ∃ s n, b d = some (s, n) ∧ 1 < n) ∧
    (checkPlane b c = some .CoordinateOutOfRange →
      ∃ d, d ≠ .S ∧ ∃ v s n, c d = some v ∧ b d = some (s, n) ∧ ¬ (s ≤ v ∧ v < s + n)) ∧
    (checkPlane b c = some .SurplusDimension → ∃ d, d ≠ .S ∧ (c d).isSome ∧ b d = none) := by
  unfold checkPlane
  obtain ⟨_, h2, h3, h4, h5⟩ := checkPlaneDims_spec b c [.Z, .C, .T, .R, .I, .H, .V, .B]
  have hmem : ∀ d ∈ ([.Z, .C, .T, .R, .I, .H, .V, .B] : List Dim), d ≠ .S := by intro d; cases d <;> decide
  by_cases hS : (c .S).isSome
  · rw [if_pos hS]; simp [hS]
  · rw [if_neg hS]
    refine ⟨⟨fun h => absurd h h5, fun h => absurd h hS⟩, ?_, ?_, ?_⟩
    · intro h; obtain ⟨d, hd, h'⟩ := h2 h; exact ⟨d, hmem d hd, h'⟩
    · intro h; obtain ⟨d, hd, h'⟩ := h3 h; exact ⟨d, hmem d hd, h'⟩
    · intro h; obtain ⟨d, hd, h'⟩ := h4 h; exact ⟨d, hmem d hd, h'⟩

example : let b := ([exEntry 0 0 0 0 10 10, exEntry 3 1 0 0 10 10].foldl ReaderDir.add ReaderDir.init).upd.stats.dimBounds
    checkPlane b (Coord.empty.set .Z 2) = none ∧ checkPlane b (Coord.empty.set .Z 4) = some .CoordinateOutOfRange ∧
    checkPlane b Coord.empty = some .MissingDimension ∧ checkPlane b ((Coord.empty.set .Z 2).set .T 0) = some .SurplusDimension := by
  decide

end Verif
