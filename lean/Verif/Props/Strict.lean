import Verif.Proof.Parsing

/-! # C16: strict and lax parsing -/

namespace Verif

open Czi Spec

theorem exBind_ok {ε α β : Type} {a : Except ε α} {f : α → Except ε β} {b : β} : a.bind f = .ok b ↔ ∃ x, a = .ok x ∧ f x = .ok b := by
  cases a with
  | error e => simp [Except.bind]
  | ok x => simp [Except.bind]

/-- The kinds of letters exclude each other. -/
theorem letter_cases (b : UInt8) :
    (dimKind b = some .x ∧ IsX b ∧ ¬ IsY b ∧ ¬ IsM b ∧ ¬ IsOther b) ∨ (dimKind b = some .y ∧ ¬ IsX b ∧ IsY b ∧ ¬ IsM b ∧ ¬ IsOther b) ∨
    (dimKind b = some .m ∧ ¬ IsX b ∧ ¬ IsY b ∧ IsM b ∧ ¬ IsOther b) ∨
    (∃ k, dimKind b = some (.dim k) ∧ ¬ IsX b ∧ ¬ IsY b ∧ ¬ IsM b ∧ IsOther b) ∨
    (dimKind b = none ∧ ¬ IsX b ∧ ¬ IsY b ∧ ¬ IsM b ∧ ¬ IsOther b) := by
  rw [← dimKind_x, ← dimKind_y, ← dimKind_m, ← dimKind_other]
  cases h : dimKind b with
  | none => simp
  | some k => cases k <;> simp

/-- The rules checked inside of the loop. -/
def LoopRules (o : ParseOptions) (d : DimEntry) : Prop :=
  (o.otherMustHaveSizeOne = true → IsOther d.char → d.size = 1) ∧ (o.physicalOtherMustHaveSizeOne = true → IsOther d.char → d.stored = 1) ∧
  (o.mMustHaveSizeOne = true → IsM d.char → d.size = 1)

theorem dvStep_iff (o : ParseOptions) (st st' : DvState) (d : DimEntry) :
    dvStep o st d = .ok st' ↔ dvStep ParseOptions.lax st d = .ok st' ∧ LoopRules o d := by
  unfold dvStep LoopRules ParseOptions.lax
  rcases letter_cases d.char with ⟨hk, h1, h2, h3, h4⟩ | ⟨hk, h1, h2, h3, h4⟩ | ⟨hk, h1, h2, h3, h4⟩ | ⟨k, hk, h1, h2, h3, h4⟩ | ⟨hk, h1, h2, h3, h4⟩
  · simp [hk, h3, h4]
  · simp [hk, h3, h4]
  · simp only [hk, h3, h4]
    by_cases hs : d.size = 1
    · simp [hs]
    · cases o.mMustHaveSizeOne <;> simp [hs]
  · simp only [hk, h3, h4]
    cases o.physicalOtherMustHaveSizeOne <;> cases o.otherMustHaveSizeOne <;> simp <;> by_cases hs : d.size = 1 <;>
      by_cases ht : d.stored = 1 <;> simp [hs, ht]
  · simp [hk]

theorem dvLoop_iff (o : ParseOptions) (ds : List DimEntry) (st st' : DvState) :
    dvLoop o ds st = .ok st' ↔ dvLoop ParseOptions.lax ds st = .ok st' ∧ ∀ d ∈ ds, LoopRules o d := by
  induction ds generalizing st with
  | nil => simp [dvLoop]
  | cons d ds ih =>
    unfold dvLoop
    show Except.bind _ _ = _ ↔ Except.bind _ _ = _ ∧ _
    rw [exBind_ok, exBind_ok]
    constructor
    · rintro ⟨x, h1, h2⟩
      obtain ⟨h1, h3⟩ := (dvStep_iff o st x d).1 h1
      obtain ⟨h2, h4⟩ := (ih x).1 h2
      exact ⟨⟨x, h1, h2⟩, by simpa using ⟨h3, h4⟩⟩
    · rintro ⟨⟨x, h1, h2⟩, h3⟩
      simp only [List.mem_cons, forall_eq_or_imp] at h3
      exact ⟨x, (dvStep_iff o st x d).2 ⟨h1, h3.1⟩, (ih x).2 ⟨h2, h3.2⟩⟩

theorem dvStep_lax (st : DvState) (d : DimEntry) (hk : KnownLetter d.char) :
    ∃ st', dvStep ParseOptions.lax st d = .ok st' ∧ (st'.xGiven = true ↔ st.xGiven = true ∨ IsX d.char) ∧
      (st'.yGiven = true ↔ st.yGiven = true ∨ IsY d.char) ∧ (st'.mBad = true ↔ st.mBad = true ∨ (IsM d.char ∧ d.size ≠ 1)) := by
  unfold dvStep ParseOptions.lax
  rcases letter_cases d.char with ⟨hd, h1, h2, h3, h4⟩ | ⟨hd, h1, h2, h3, h4⟩ | ⟨hd, h1, h2, h3, h4⟩ | ⟨k, hd, h1, h2, h3, h4⟩ | ⟨hd, h1, h2, h3, h4⟩
  · simp only [hd]; exact ⟨_, rfl, by simp [h1], by simp [h2], by simp [h3]⟩
  · simp only [hd]; exact ⟨_, rfl, by simp [h1], by simp [h2], by simp [h3]⟩
  · simp only [hd]
    by_cases hs : d.size = 1
    · simp only [hs, ne_eq, not_true_eq_false, if_false]; exact ⟨_, rfl, by simp [h1], by simp [h2], by simp⟩
    · simp only [hs, ne_eq, not_false_eq_true, if_true, Bool.false_eq_true, if_false]; exact ⟨_, rfl, by simp [h1], by simp [h2], by simp [h3]⟩
  · simp only [hd, Bool.false_and, Bool.false_eq_true, if_false]; exact ⟨_, rfl, by simp [h1], by simp [h2], by simp [h3]⟩
  · exact absurd hk ((dimKind_none _).1 hd)

theorem dvLoop_lax (ds : List DimEntry) (st : DvState) (hk : ∀ d ∈ ds, KnownLetter d.char) :
    ∃ st', dvLoop ParseOptions.lax ds st = .ok st' ∧ (st'.xGiven = true ↔ st.xGiven = true ∨ ∃ d ∈ ds, IsX d.char) ∧
      (st'.yGiven = true ↔ st.yGiven = true ∨ ∃ d ∈ ds, IsY d.char) ∧
      (st'.mBad = true ↔ st.mBad = true ∨ ∃ d ∈ ds, IsM d.char ∧ d.size ≠ 1) := by
  induction ds generalizing st with
  | nil => exact ⟨st, rfl, by simp, by simp, by simp⟩
  | cons d ds ih =>
    simp only [List.mem_cons, forall_eq_or_imp] at hk
    obtain ⟨x, h0, h1, h2, h3⟩ := dvStep_lax st d hk.1
    obtain ⟨y, g0, g1, g2, g3⟩ := ih x hk.2
    refine ⟨y, ?_, ?_, ?_, ?_⟩
    · unfold dvLoop
      rw [h0]; exact g0
    · rw [g1, h1]; simp [or_assoc]
    · rw [g2, h2]; simp [or_assoc]
    · rw [g3, h3]; simp [or_assoc]

theorem dvLoop_lax_known (ds : List DimEntry) (st st' : DvState) (h : dvLoop ParseOptions.lax ds st = .ok st') : ∀ d ∈ ds, KnownLetter d.char := by
  induction ds generalizing st with
  | nil => simp
  | cons d ds ih =>
    unfold dvLoop at h
    change Except.bind _ _ = _ at h
    rw [exBind_ok] at h
    obtain ⟨x, h1, h2⟩ := h
    simp only [List.mem_cons, forall_eq_or_imp]
    refine ⟨?_, ih x h2⟩
    apply Classical.byContradiction
    intro hn
    rw [← dimKind_none] at hn
    unfold dvStep at h1
    simp [hn] at h1

theorem addEntryDV_bind (o : ParseOptions) (start : Entry) (ds : List DimEntry) (e : Entry) :
    addEntryDV o start ds = .ok e ↔ ∃ st, dvLoop o ds ⟨start, false, false, false⟩ = .ok st ∧
      (o.xyMustBePresent && (!st.xGiven || !st.yGiven)) = false ∧
      (st.mBad && o.mMustHaveSizeOneExceptForPyramid && st.entry.isLayer0) = false ∧ st.entry = e := by
  unfold addEntryDV
  show Except.bind _ _ = _ ↔ _
  rw [exBind_ok]
  constructor
  · rintro ⟨st, h1, h2⟩
    refine ⟨st, h1, ?_⟩
    split at h2
    · cases h2
    · rename_i hx
      split at h2
      · cases h2
      · rename_i hm
        cases h2
        exact ⟨by simpa using hx, by simpa using hm, rfl⟩
  · rintro ⟨st, h1, h2, h3, rfl⟩
    refine ⟨st, h1, ?_⟩
    rw [if_neg (by simpa using h2), if_neg (by simpa using h3)]

/-- **C16 (lax).** Lax parsing accepts an entry exactly if all its dimensions are known. -/
theorem C16_lax_accepts_iff (start : Entry) (ds : List DimEntry) :
    (∃ e, addEntryDV ParseOptions.lax start ds = .ok e) ↔ ∀ d ∈ ds, KnownLetter d.char := by
  constructor
  · rintro ⟨e, h⟩
    obtain ⟨st, h1, _⟩ := (addEntryDV_bind _ _ _ _).1 h
    exact dvLoop_lax_known ds _ _ h1
  · intro h
    obtain ⟨st, h1, _⟩ := dvLoop_lax ds ⟨start, false, false, false⟩ h
    exact ⟨st.entry, (addEntryDV_bind _ _ _ _).2 ⟨st, h1, by simp [ParseOptions.lax], by simp [ParseOptions.lax], rfl⟩⟩

/-- **C16 (all combinations of options, one entry).** With any options, an entry is accepted with the result `e` exactly if lax parsing
accepts it with the result `e` and the entry satisfies the rules of these options. -/
theorem C16_accept_iff (o : ParseOptions) (start : Entry) (ds : List DimEntry) (e : Entry) :
    addEntryDV o start ds = .ok e ↔ addEntryDV ParseOptions.lax start ds = .ok e ∧ Rules o ds e := by
  rw [addEntryDV_bind, addEntryDV_bind]
  constructor
  · rintro ⟨st, h1, h2, h3, rfl⟩
    obtain ⟨h1, hr⟩ := (dvLoop_iff o ds _ st).1 h1
    obtain ⟨st2, g0, g1, g2, g3⟩ := dvLoop_lax ds ⟨start, false, false, false⟩ (dvLoop_lax_known ds _ _ h1)
    rw [h1] at g0
    cases g0
    refine ⟨⟨st, h1, by simp [ParseOptions.lax], by simp [ParseOptions.lax], rfl⟩, ?_, ?_, ?_, ?_, ?_⟩
    · intro ho
      simp only [ho, Bool.true_and, Bool.or_eq_false_iff, Bool.not_eq_false'] at h2
      simp only [Bool.false_eq_true, false_or] at g1 g2
      exact ⟨g1.1 h2.1, g2.1 h2.2⟩
    · intro ho d hd; exact (hr d hd).1 ho
    · intro ho d hd; exact (hr d hd).2.1 ho
    · intro ho d hd; exact (hr d hd).2.2 ho
    · intro ho
      simp only [ho, Bool.and_true, Bool.and_eq_false_iff] at h3
      rcases h3 with h3 | h3
      · left
        intro d hd hm
        apply Classical.byContradiction
        intro hs
        have := g3.2 (Or.inr ⟨d, hd, hm, hs⟩)
        rw [h3] at this; cases this
      · right
        rintro ⟨ha, hb⟩
        simp [Entry.isLayer0, ha, hb] at h3
  · rintro ⟨⟨st, h1, -, -, rfl⟩, hr⟩
    obtain ⟨st2, g0, g1, g2, g3⟩ := dvLoop_lax ds ⟨start, false, false, false⟩ (dvLoop_lax_known ds _ _ h1)
    rw [h1] at g0
    cases g0
    simp only [Bool.false_eq_true, false_or] at g1 g2 g3
    refine ⟨st, (dvLoop_iff o ds _ st).2 ⟨h1, fun d hd => ⟨fun ho => hr.other ho d hd, fun ho => hr.physical ho d hd, fun ho => hr.m ho d hd⟩⟩, ?_, ?_, rfl⟩
    · cases ho : o.xyMustBePresent with
      | false => rfl
      | true =>
        obtain ⟨hx, hy⟩ := hr.xy ho
        simp [g1.2 hx, g2.2 hy]
    · cases ho : o.mMustHaveSizeOneExceptForPyramid with
      | false => simp
      | true =>
        rcases hr.mLayer0 ho with h | h
        · have : st.mBad = false := by
            cases hm : st.mBad with
            | false => rfl
            | true =>
              obtain ⟨d, hd, hmd, hs⟩ := g3.1 hm
              exact absurd (h d hd hmd) hs
          simp [this]
        · have : st.entry.isLayer0 = false := by
            simp only [Entry.isLayer0, Bool.and_eq_false_iff, decide_eq_false_iff_not]
            exact Classical.not_and_iff_not_or_not.1 h
          simp [this]

theorem exMap_ok {ε α β : Type} {a : Except ε α} {f : α → β} {b : β} : a.map f = .ok b ↔ ∃ x, a = .ok x ∧ f x = b := by
  cases a with
  | error e => simp [Except.map]
  | ok x => simp [Except.map]

theorem parse_strict_iff (o : ParseOptions) (buf : List UInt8) (n cur : Nat) (hc : CountsOk buf n cur) (es : List Entry) :
    parseEntries o buf n cur = .ok es ↔ parseEntries ParseOptions.lax buf n cur = .ok es ∧
      Each (fun p e => Rules o (dimsAt buf p) e) (dvPositions buf n cur) es := by
  induction n generalizing cur es with
  | zero =>
    simp only [parseEntries, dvPositions]
    constructor
    · intro h; cases h; exact ⟨rfl, Each.nil⟩
    · rintro ⟨h, _⟩; exact h
  | succ n ih =>
    rw [parseEntries_head, parseEntries_head]
    cases hh : headOf buf cur with
    | error e => simp [Except.bind]
    | ok r =>
      simp only [Except.bind]
      have hcur : field buf cur 2 = [68, 86] → 0 ≤ countAt buf cur ∧ countAt buf cur ≤ 40 := by
        intro h
        exact hc cur (by rw [dvPositions_dv buf n cur h]; simp)
      rcases headOf_ok buf cur r hh hcur with ⟨hd, st, rfl⟩ | ⟨hd, rfl⟩
      · have hc' : CountsOk buf n (cur + 32 + 20 * (countAt buf cur).toNat) := by
          intro p hp
          exact hc p (by rw [dvPositions_dv buf n cur hd]; simp [hp])
        rw [dvPositions_dv buf n cur hd]
        simp only [afterHead]
        rw [exBind_ok, exBind_ok]
        simp only [exMap_ok]
        constructor
        · rintro ⟨e, h1, xs, h2, rfl⟩
          obtain ⟨h1, hr⟩ := (C16_accept_iff o st (dimsAt buf cur) e).1 h1
          obtain ⟨h2, hrs⟩ := (ih _ hc' xs).1 h2
          exact ⟨⟨e, h1, xs, h2, rfl⟩, Each.cons hr hrs⟩
        · rintro ⟨⟨e, h1, xs, h2, rfl⟩, hr⟩
          cases hr with
          | cons hr hrs => exact ⟨e, (C16_accept_iff o st (dimsAt buf cur) e).2 ⟨h1, hr⟩, xs, (ih _ hc' xs).2 ⟨h2, hrs⟩, rfl⟩
      · have hc' : CountsOk buf n (cur + 2) := by
          intro p hp
          exact hc p (by rw [dvPositions_skip buf n cur hd]; exact hp)
        rw [dvPositions_skip buf n cur hd]
        exact ih _ hc' es

/-- **C16 (all combinations of options, whole directory).** Let `buf` be the bytes of a directory of `n` entries, in which every DV entry gives a valid
number of dimensions. With any options it is parsed to `es` exactly if lax parsing parses it to `es` and each DV entry satisfies the rules of these
options. -/
theorem C16_directory_iff_partial (o : ParseOptions) (buf : List UInt8) (n : Nat) (hc : CountsOk buf n 0) (es : List Entry) :
    parseEntries o buf n 0 = .ok es ↔ parseEntries ParseOptions.lax buf n 0 = .ok es ∧
      Each (fun p e => Rules o (dimsAt buf p) e) (dvPositions buf n 0) es :=
  parse_strict_iff o buf n 0 hc es

theorem parse_strict_lax (o : ParseOptions) (buf : List UInt8) (n cur : Nat) (es : List Entry) (h : parseEntries o buf n cur = .ok es) :
    parseEntries ParseOptions.lax buf n cur = .ok es := by
  induction n generalizing cur es with
  | zero => exact h
  | succ n ih =>
    rw [parseEntries_head] at h ⊢
    cases hh : headOf buf cur with
    | error e => rw [hh] at h; cases h
    | ok r =>
      rw [hh] at h
      simp only [Except.bind] at h ⊢
      obtain ⟨a, next⟩ := r
      cases a with
      | none => exact ih _ _ h
      | some p =>
        obtain ⟨st, ds⟩ := p
        simp only [afterHead] at h ⊢
        rw [exBind_ok] at h ⊢
        simp only [exMap_ok] at h ⊢
        obtain ⟨e, h1, xs, h2, rfl⟩ := h
        exact ⟨e, ((C16_accept_iff o st ds e).1 h1).1, xs, ih _ _ h2, rfl⟩

theorem readSubDir_lax (alloc : Alloc) (s : Stream) (o : ParseOptions) (off : Nat) (r : List Entry × Int)
    (h : readSubDir alloc s o off = .ok r) : readSubDir alloc s ParseOptions.lax off = .ok r := by
  unfold readSubDir at h ⊢
  change Except.bind _ _ = _ at h
  show Except.bind _ _ = _
  rw [exBind_ok] at h ⊢
  obtain ⟨b, h1, h2⟩ := h
  refine ⟨b, h1, ?_⟩
  have key : ∀ size : Nat, (if size < 128 then Except.error RErr.corrupted else do
        let buf ← readMalloc alloc s (u64 (off + 160)) (size - 128)
        let es ← parseEntries o buf (fieldInt b 32 4).toNat 0
        .ok (es, segAlloc b)) = .ok r →
      (if size < 128 then Except.error RErr.corrupted else do
        let buf ← readMalloc alloc s (u64 (off + 160)) (size - 128)
        let es ← parseEntries ParseOptions.lax buf (fieldInt b 32 4).toNat 0
        .ok (es, segAlloc b)) = .ok r := by
    intro size h
    split at h
    · cases h
    · rename_i hs
      rw [if_neg hs]
      change Except.bind _ _ = _ at h
      show Except.bind _ _ = _
      rw [exBind_ok] at h ⊢
      obtain ⟨buf, h1, h2⟩ := h
      refine ⟨buf, h1, ?_⟩
      change Except.bind _ _ = _ at h2
      show Except.bind _ _ = _
      rw [exBind_ok] at h2 ⊢
      obtain ⟨es, h3, h4⟩ := h2
      exact ⟨es, parse_strict_lax o buf _ _ es h3, h4⟩
  split at h2
  · cases h2
  · rename_i hm
    rw [if_neg hm]
    exact key _ h2

/-- **C16 (documents).** For every file: if a document can be opened with any options, it can be opened with lax parsing, with the same result. -/
theorem C16_open_lax (alloc : Alloc) (s : Stream) (o : OpenOptions) (doc : Doc) (h : openDoc alloc s o = .ok doc) :
    openDoc alloc s { o with lax := true } = .ok { doc with options := { o with lax := true } } := by
  unfold openDoc openDocWith at h ⊢
  change Except.bind _ _ = _ at h
  show Except.bind _ _ = _
  rw [exBind_ok] at h ⊢
  obtain ⟨hd, h1, h2⟩ := h
  refine ⟨hd, h1, ?_⟩
  change Except.bind _ _ = _ at h2
  show Except.bind _ _ = _
  rw [exBind_ok] at h2 ⊢
  obtain ⟨r, h3, h4⟩ := h2
  refine ⟨r, readSubDir_lax alloc s _ _ r h3, ?_⟩
  obtain ⟨es, sz⟩ := r
  dsimp only at h4 ⊢
  split at h4
  · rename_i hp
    rw [if_pos hp]
    change Except.bind _ _ = _ at h4
    show Except.bind _ _ = _
    rw [exBind_ok] at h4 ⊢
    obtain ⟨r, h5, h6⟩ := h4
    refine ⟨r, h5, ?_⟩
    obtain ⟨as, _⟩ := r
    cases h6; rfl
  · rename_i hp
    rw [if_neg hp]
    cases h4; rfl

/-- **C16 (meaning of the open options).** Not lax: X and Y must be present, all sizes other than of X and Y must be one; with
`ignoreSizeM` the size of M needs to be one for sub-blocks that are not in a pyramid layer only. -/
theorem C16_options (o : OpenOptions) (ds : List DimEntry) (e : Entry) :
    Rules (parseOptions o) ds e ↔ (o.lax = false →
      ((∃ d ∈ ds, IsX d.char) ∧ (∃ d ∈ ds, IsY d.char)) ∧ (∀ d ∈ ds, IsOther d.char → d.size = 1 ∧ d.stored = 1) ∧
      ((∀ d ∈ ds, IsM d.char → d.size = 1) ∨ (o.ignoreSizeM = true ∧ ¬ (e.width = e.storedWidth ∧ e.height = e.storedHeight)))) := by
  unfold parseOptions
  cases o.lax with
  | true =>
    simp only [if_true, Bool.true_eq_false, false_implies, iff_true]
    exact ⟨by simp [ParseOptions.lax], by simp [ParseOptions.lax], by simp [ParseOptions.lax], by simp [ParseOptions.lax], by simp [ParseOptions.lax]⟩
  | false =>
    simp only [Bool.false_eq_true, if_false, true_implies]
    cases o.ignoreSizeM with
    | true =>
      simp only [if_true, true_and]
      constructor
      · rintro ⟨a, b, c, d, f⟩
        exact ⟨a rfl, fun x hx ho => ⟨b rfl x hx ho, c rfl x hx ho⟩, f rfl⟩
      · rintro ⟨a, b, f⟩
        exact ⟨fun _ => a, fun _ x hx ho => (b x hx ho).1, fun _ x hx ho => (b x hx ho).2, by simp, fun _ => f⟩
    | false =>
      simp only [Bool.false_eq_true, if_false, false_and, or_false]
      constructor
      · rintro ⟨a, b, c, d, f⟩
        exact ⟨a rfl, fun x hx ho => ⟨b rfl x hx ho, c rfl x hx ho⟩, d rfl⟩
      · rintro ⟨a, b, f⟩
        exact ⟨fun _ => a, fun _ x hx ho => (b x hx ho).1, fun _ x hx ho => (b x hx ho).2, fun _ => f, by simp⟩

/-! ## Non-vacuity -/

example : (addEntryDV (parseOptions ⟨false, false, false, false⟩) (Entry.start 0 0 0 0) [⟨88, 0, 5, 5⟩, ⟨121, 0, 5, 5⟩, ⟨67, 1, 1, 1⟩]).isOk = true := by
  decide
example : (addEntryDV (parseOptions ⟨false, false, false, false⟩) (Entry.start 0 0 0 0) [⟨88, 0, 5, 5⟩, ⟨121, 0, 5, 5⟩, ⟨67, 1, 2, 1⟩]).isOk = false := by
  decide
example : (addEntryDV ParseOptions.lax (Entry.start 0 0 0 0) [⟨67, 1, 2, 1⟩]).isOk = true := by decide
/-- A directory with a DV entry of one dimension, preceded by an entry with an unknown schema. -/
example : CountsOk ([65, 65] ++ ([68, 86] ++ List.replicate 26 0 ++ [1, 0, 0, 0]) ++ List.replicate 20 88) 2 0 ∧
    dvPositions ([65, 65] ++ ([68, 86] ++ List.replicate 26 0 ++ [1, 0, 0, 0]) ++ List.replicate 20 88) 2 0 = [2] := by
  have e : dvPositions ([65, 65] ++ ([68, 86] ++ List.replicate 26 0 ++ [1, 0, 0, 0]) ++ List.replicate 20 88) 2 0 = [2] := by decide +kernel
  refine ⟨?_, e⟩
  intro p hp
  rw [e] at hp
  simp only [List.mem_singleton] at hp
  subst hp
  decide +kernel

end Verif
