import Verif.Model.EditFault
import Verif.Proof.EditTrace
import Verif.Proof.FailedAdd

/-! A reader-writer on a stream that can fail: what a failing write leaves, and that `Close` can be repeated. -/

namespace Verif.Czi

open Spec

attribute [local irreducible] zeros

/-! ## Writes made again -/

/-- The byte number `i` is written. -/
def Covered (ws : List Write) (i : Nat) : Prop := ∃ w ∈ ws, w.1 ≤ i ∧ i < w.1 + w.2.length

/-- The end of the last byte written. -/
def extent : List Write → Nat
  | [] => 0
  | w :: ws => max (if w.2 = [] then 0 else w.1 + w.2.length) (extent ws)

theorem apply_extent (ws : List Write) : ∀ d, (apply d ws).size = max d.size (extent ws) := by
  induction ws with
  | nil => intro d; show d.size = max d.size 0; omega
  | cons w ws ih =>
    intro d
    show (apply (d.write w.1 w.2) ws).size = max d.size (max (if w.2 = [] then 0 else w.1 + w.2.length) (extent ws))
    rw [ih]
    show max (if w.2 = [] then d.size else max d.size (w.1 + w.2.length)) _ = _
    split <;> omega

theorem apply_uncovered {ws : List Write} {i : Nat} : ∀ (d : Disk), ¬ Covered ws i → (apply d ws).get i = d.get i := by
  induction ws with
  | nil => intro d _; rfl
  | cons w ws ih =>
    intro d h
    show (apply (d.write w.1 w.2) ws).get i = _
    rw [ih _ (fun ⟨v, hv, hc⟩ => h ⟨v, List.mem_cons_of_mem _ hv, hc⟩)]
    show (if w.1 ≤ i ∧ i < w.1 + w.2.length then _ else _) = _
    rw [if_neg (fun hc => h ⟨w, List.mem_cons_self .., hc⟩)]

theorem apply_covered {ws : List Write} {i : Nat} : ∀ (d d' : Disk), Covered ws i → (apply d ws).get i = (apply d' ws).get i := by
  induction ws with
  | nil => intro d d' ⟨w, hw, _⟩; cases hw
  | cons w ws ih =>
    intro d d' h
    show (apply (d.write w.1 w.2) ws).get i = (apply (d'.write w.1 w.2) ws).get i
    by_cases hc : Covered ws i
    · exact ih _ _ hc
    · rw [apply_uncovered _ hc, apply_uncovered _ hc]
      obtain ⟨v, hv, h1⟩ := h
      rcases List.mem_cons.1 hv with rfl | hv
      · show (if v.1 ≤ i ∧ i < v.1 + v.2.length then _ else _) = (if v.1 ≤ i ∧ i < v.1 + v.2.length then _ else _)
        rw [if_pos h1, if_pos h1]
      · exact absurd ⟨v, hv, h1⟩ hc

theorem covered_append {a b : List Write} {i : Nat} : Covered (a ++ b) i ↔ Covered a i ∨ Covered b i := by
  constructor
  · rintro ⟨w, hw, hc⟩
    rcases List.mem_append.1 hw with hw | hw
    · exact .inl ⟨w, hw, hc⟩
    · exact .inr ⟨w, hw, hc⟩
  · rintro (⟨w, hw, hc⟩ | ⟨w, hw, hc⟩)
    · exact ⟨w, List.mem_append_left _ hw, hc⟩
    · exact ⟨w, List.mem_append_right _ hw, hc⟩

theorem extent_append (a b : List Write) : extent (a ++ b) = max (extent a) (extent b) := by
  induction a with
  | nil => show extent b = max 0 (extent b); omega
  | cons w a ih =>
    show max _ (extent (a ++ b)) = max (max _ (extent a)) (extent b)
    rw [ih]
    omega

/-- Each of these writes is the beginning of one of the others. -/
def PartOf (ws' ws : List Write) : Prop := ∀ w ∈ ws', ∃ v ∈ ws, w.1 = v.1 ∧ w.2.length ≤ v.2.length

theorem PartOf.covered {ws' ws : List Write} (h : PartOf ws' ws) {i : Nat} (hc : Covered ws' i) : Covered ws i := by
  obtain ⟨w, hw, h1⟩ := hc
  obtain ⟨v, hv, h2, h3⟩ := h w hw
  exact ⟨v, hv, by omega⟩

theorem le_extent {ws : List Write} {v : Write} (hv : v ∈ ws) (hl : 0 < v.2.length) : v.1 + v.2.length ≤ extent ws := by
  induction ws with
  | nil => cases hv
  | cons w ws ih =>
    show _ ≤ max (if w.2 = [] then 0 else w.1 + w.2.length) (extent ws)
    rcases List.mem_cons.1 hv with rfl | hv
    · rw [if_neg (by intro h; rw [h] at hl; cases hl)]
      omega
    · have := ih hv
      omega

theorem PartOf.extent_le {ws' ws : List Write} (h : PartOf ws' ws) : extent ws' ≤ extent ws := by
  induction ws' with
  | nil => exact Nat.zero_le _
  | cons w ws' ih =>
    show max (if w.2 = [] then 0 else w.1 + w.2.length) (extent ws') ≤ _
    have h1 := ih (fun x hx => h x (List.mem_cons_of_mem _ hx))
    obtain ⟨v, hv, h2, h3⟩ := h w (List.mem_cons_self ..)
    split
    · omega
    · rename_i hne
      have h4 : 0 < w.2.length := List.length_pos_iff.2 hne
      have := le_extent hv (by omega)
      omega

theorem performWrites_part : ∀ (ws : List Write) (d : Disk) (fs fs' : List Fault) (d' : Disk), performWrites d ws fs = (d', false, fs') →
    ∃ ws', d' = apply d ws' ∧ PartOf ws' ws := by
  intro ws
  induction ws with
  | nil => intro d fs fs' d' h; rw [performWrites_none] at h; cases h
  | cons w ws ih =>
    intro d fs fs' d' h
    have step : ∀ fs, performWrites (d.write w.1 w.2) ws fs = (d', false, fs') → ∃ ws', d' = apply d ws' ∧ PartOf ws' (w :: ws) := by
      intro fs h
      obtain ⟨ws', h1, h2⟩ := ih _ _ _ _ h
      refine ⟨w :: ws', h1, ?_⟩
      intro x hx
      rcases List.mem_cons.1 hx with rfl | hx
      · exact ⟨x, List.mem_cons_self .., rfl, Nat.le_refl _⟩
      · obtain ⟨v, hv, h3⟩ := h2 x hx
        exact ⟨v, List.mem_cons_of_mem _ hv, h3⟩
    match fs with
    | [] => exact step [] h
    | none :: fs => exact step fs h
    | some j :: fs =>
      rw [performWrites] at h
      injection h with h1 _
      refine ⟨[(w.1, w.2.take j)], h1.symm, ?_⟩
      intro x hx
      rw [List.mem_singleton] at hx
      subst hx
      exact ⟨w, List.mem_cons_self .., rfl, by rw [List.length_take]; exact Nat.min_le_right _ _⟩

theorem performWrites_all : ∀ (ws : List Write) (d : Disk) (fs fs' : List Fault) (d' : Disk), performWrites d ws fs = (d', true, fs') →
    d' = apply d ws := by
  intro ws
  induction ws with
  | nil => intro d fs fs' d' h; rw [performWrites_none] at h; injection h with h _; exact h.symm
  | cons w ws ih =>
    intro d fs fs' d' h
    match fs with
    | [] => exact ih _ _ _ _ h
    | none :: fs => exact ih _ _ _ _ h
    | some j :: fs => rw [performWrites] at h; injection h with _ h; injection h with h _; cases h

theorem redo1 {ws' ws : List Write} (h : PartOf ws' ws) (d : Disk) : apply (apply d ws') ws = apply d ws := by
  apply Disk.ext'
  · rw [apply_extent, apply_extent, apply_extent]
    have := h.extent_le
    omega
  · intro i
    by_cases hc : Covered ws i
    · exact apply_covered _ _ hc
    · rw [apply_uncovered _ hc, apply_uncovered _ hc, apply_uncovered _ (fun x => hc (h.covered x))]

theorem redo2 {ws' b w : List Write} (h : PartOf ws' b) (d : Disk) :
    apply (apply (apply (apply d w) ws') w) b = apply (apply d w) b := by
  apply Disk.ext'
  · simp only [apply_extent]
    have := h.extent_le
    omega
  · intro i
    by_cases hb : Covered b i
    · exact apply_covered _ _ hb
    · rw [apply_uncovered _ hb, apply_uncovered _ hb]
      by_cases hw : Covered w i
      · exact apply_covered _ _ hw
      · rw [apply_uncovered _ hw, apply_uncovered _ (fun x => hb (h.covered x))]

theorem redo3 {ws' c w v m : List Write} (h : PartOf ws' c) (d : Disk) (hm : ∀ i, Covered m i → ¬ Covered w i) :
    apply (apply (apply (apply (apply (apply (apply d w) m) v) ws') w) v) c = apply (apply (apply (apply d w) m) v) c := by
  apply Disk.ext'
  · simp only [apply_extent]
    have := h.extent_le
    omega
  · intro i
    by_cases hc : Covered c i
    · exact apply_covered _ _ hc
    · rw [apply_uncovered _ hc, apply_uncovered _ hc]
      by_cases hv : Covered v i
      · exact apply_covered _ _ hv
      · rw [apply_uncovered _ hv]
        by_cases hw : Covered w i
        · rw [apply_uncovered (ws := v) _ hv, apply_uncovered (ws := m) _ (fun x => hm i x hw)]
          exact apply_covered _ _ hw
        · rw [apply_uncovered _ hw, apply_uncovered _ (fun x => hc (h.covered x))]

/-! ## The calls without a fault -/

theorem execF_nil {α : Type} (s : RW) (p : Plan α) (k : RW → α → RW × Option WErr) :
    s.execF p [] k = ((s.exec p k).1, (s.exec p k).2, []) := by
  unfold RW.execF RW.exec
  rw [performWrites_nil]
  dsimp only
  cases p.result with
  | error e => rfl
  | ok a => rfl

theorem closeF_nil (s : RW) : rwCloseF s [] = ((rwClose s).1, (rwClose s).2, []) := by
  have h1 : ∀ s, rwCloseSubDirF s [] = ((rwCloseSubDir s).1, (rwCloseSubDir s).2, []) := by
    intro s
    unfold rwCloseSubDirF rwCloseSubDir
    cases s.w.dir.isModified with
    | false => rfl
    | true =>
      simp only [if_true]
      cases s.ensureNext with
      | error e => rfl
      | ok r => exact execF_nil ..
  have h2 : ∀ s, rwCloseAttDirF s [] = ((rwCloseAttDir s).1, (rwCloseAttDir s).2, []) := by
    intro s
    unfold rwCloseAttDirF rwCloseAttDir
    cases s.w.att.isModified with
    | false => rfl
    | true =>
      simp only [if_true]
      cases s.ensureNext with
      | error e => rfl
      | ok r => exact execF_nil ..
  have h3 : ∀ s, rwCloseHeaderF s [] = ((rwCloseHeader s).1, (rwCloseHeader s).2, []) := by
    intro s
    unfold rwCloseHeaderF rwCloseHeader
    split
    · exact execF_nil ..
    · rfl
  unfold rwCloseF rwClose andThenF andThen
  rw [h1]
  dsimp only
  cases e1 : (rwCloseSubDir s).2 with
  | some e => dsimp only; rw [e1]; dsimp only; rw [e1]
  | none =>
    dsimp only
    rw [h2]
    dsimp only
    cases e2 : (rwCloseAttDir (rwCloseSubDir s).1).2 with
    | some e => dsimp only; rw [e2]
    | none => exact h3 _

theorem stepF_nil (s : RW) (op : EditOp) : editStepF s op [] = ((editStep s op).1, (editStep s op).2, []) := by
  unfold editStepF editStep
  split
  · rfl
  · cases op with
    | addSubBlock a =>
      dsimp only
      unfold rwAddSubBlockF rwAddSubBlock
      split
      · rfl
      · cases s.ensureNext with
        | error e => rfl
        | ok r =>
          obtain ⟨s', n⟩ := r
          dsimp only
          rcases s'.w.dir.tryAdd (a.entry n) with ⟨d, _ | _⟩
          · rfl
          · exact execF_nil ..
    | addAttachment a =>
      dsimp only
      unfold rwAddAttachmentF rwAddAttachment
      split
      · rfl
      · cases s.ensureNext with
        | error e => rfl
        | ok r =>
          obtain ⟨s', n⟩ := r
          dsimp only
          rcases s'.w.att.tryAdd (a.entry n) with _ | _
          · rfl
          · exact execF_nil ..
    | replaceSubBlock k a =>
      dsimp only
      unfold rwReplaceSubBlockF rwReplaceSubBlock
      cases s.w.dir.tryGet k with
      | none => rfl
      | some e =>
        dsimp only
        cases readSegmentHeader s.disk.stream subBlockMagic e.filePosition with
        | error e => rfl
        | ok r =>
          dsimp only
          split
          · unfold rwReplaceSubBlockAtEndF rwReplaceSubBlockAtEnd
            cases s.ensureNext with
            | error e => rfl
            | ok r => exact execF_nil ..
          · exact execF_nil ..
    | replaceAttachment k a =>
      dsimp only
      unfold rwReplaceAttachmentF rwReplaceAttachment
      cases s.w.att.tryGet k with
      | none => rfl
      | some e =>
        dsimp only
        cases readSegmentHeader s.disk.stream attMagic e.filePosition with
        | error e => rfl
        | ok r =>
          dsimp only
          split
          · unfold rwReplaceAttachmentAtEndF rwReplaceAttachmentAtEnd
            cases s.ensureNext with
            | error e => rfl
            | ok r => exact execF_nil ..
          · exact execF_nil ..
    | removeSubBlock k =>
      dsimp only
      unfold rwRemoveSubBlockF rwRemoveSubBlock
      rcases s.w.dir.tryRemove k with ⟨d, _ | _⟩
      · rfl
      · exact execF_nil ..
    | removeAttachment k =>
      dsimp only
      unfold rwRemoveAttachmentF rwRemoveAttachment
      rcases s.w.att.tryRemove k with ⟨d, _ | _⟩
      · rfl
      · exact execF_nil ..
    | writeMetadata m =>
      dsimp only
      unfold rwWriteMetadataF rwWriteMetadata
      split
      · rfl
      · cases s.ensureNext with
        | error e => rfl
        | ok r => exact execF_nil ..
    | close => exact closeF_nil s

/-! ## A plan that fails -/

theorem execF_fault {α : Type} {s : RW} {p : Plan α} {fs fs' : List Fault} {k : RW → α → RW × Option WErr} {s' : RW}
    (hk : ∀ s a, (k s a).2 = none) (hp : p.result ≠ .error .ioError) (h : s.execF p fs k = (s', some .ioError, fs')) :
    ∃ ws', s' = ⟨s.w, apply s.disk ws'⟩ ∧ PartOf ws' p.writes := by
  unfold RW.execF at h
  cases hw : performWrites s.disk p.writes fs with
  | mk d r =>
    obtain ⟨b, fs1⟩ := r
    rw [hw] at h
    cases b with
    | false =>
      dsimp only at h
      obtain ⟨ws', h1, h2⟩ := performWrites_part _ _ _ _ _ hw
      injection h with h _
      exact ⟨ws', by rw [← h, h1], h2⟩
    | true =>
      dsimp only at h
      cases hr : p.result with
      | error e =>
        rw [hr] at h
        dsimp only at h
        injection h with _ h
        injection h with h _
        injection h with h
        exact absurd (h ▸ hr) hp
      | ok a =>
        rw [hr] at h
        dsimp only at h
        injection h with _ h
        injection h with h _
        rw [hk] at h
        cases h

theorem execF_done {α : Type} {s : RW} {p : Plan α} {fs fs' : List Fault} {k : RW → α → RW × Option WErr} {s' : RW}
    (h : s.execF p fs k = (s', none, fs')) : s.exec p k = (s', none) := by
  unfold RW.execF at h
  unfold RW.exec
  cases hw : performWrites s.disk p.writes fs with
  | mk d r =>
    obtain ⟨b, fs1⟩ := r
    rw [hw] at h
    cases b with
    | false => dsimp only at h; injection h with _ h; injection h with h _; cases h
    | true =>
      dsimp only at h ⊢
      have hd := performWrites_all _ _ _ _ _ hw
      cases hr : p.result with
      | error e => rw [hr] at h; dsimp only at h; injection h with _ h; injection h with h _; cases h
      | ok a =>
        rw [hr] at h
        dsimp only at h ⊢
        rw [← hd]
        injection h with h1 h2
        injection h2 with h2 _
        exact Prod.ext h1 h2

/-! ## The directories -/

/-- Where a segment is put that may reuse an existing one. -/
def placed (existing : Option SegInfo) (n need own : Nat) : Nat × Nat :=
  match existing with
  | some s => if s.alloc ≥ need then (s.pos, s.alloc) else (n, own)
  | none => (n, own)

/-- The writes marking the existing segment. -/
def placeMarks (existing : Option SegInfo) (need : Nat) : List Write :=
  match existing with
  | some s => if s.alloc ≥ need then [] else (markUnused (some s) (fun _ => true)).writes
  | none => []

theorem place_shape (existing : Option SegInfo) (n need own : Nat) :
    place existing (fun _ => true) n need own = ⟨placeMarks existing need, .ok (placed existing n need own)⟩ := by
  unfold place placeMarks placed
  cases existing with
  | none => rfl
  | some s =>
    dsimp only
    split
    · rfl
    · unfold markUnused
      dsimp only
      split
      · rfl
      · rfl

/-- Writing the sub-block directory at its place. -/
def subTail (es : List Entry) (r : Nat × Nat) : Plan (Nat × Nat) := do
  Plan.write r.1 (subDirBytes r.2 es)
  if 160 + (es.map entryBytes).flatten.length < r.2 + 32 then do
    let _ ← writeZeroes (r.1 + (160 + (es.map entryBytes).flatten.length)) (r.2 + 32 - (160 + (es.map entryBytes).flatten.length))
    return r
  else return r

/-- The space needed. -/
def subNeed (es : List Entry) : Nat := align (128 + (es.map entryBytes).flatten.length)

/-- Writing the attachment directory at its place. -/
def attTail (es : List AttEntry) (r : Nat × Nat) : Plan (Nat × Nat) := do
  Plan.write r.1 (attDirSegBytes r.2 es.length)
  Plan.write (r.1 + 288) (es.map (fun e => attEntryBytes e.filePosition e.guid e.contentFileType e.name)).flatten
  if 288 + (es.map (fun e => attEntryBytes e.filePosition e.guid e.contentFileType e.name)).flatten.length < r.2 + 32 then do
    let _ ← writeZeroes (r.1 + (es.map (fun e => attEntryBytes e.filePosition e.guid e.contentFileType e.name)).flatten.length)
      (r.2 + 32 - (es.map (fun e => attEntryBytes e.filePosition e.guid e.contentFileType e.name)).flatten.length)
    return r
  else return r

/-- The space needed. -/
def attNeed (es : List AttEntry) : Nat := 256 + es.length * 128

theorem writeSubDir_shape (existing : Option SegInfo) (n : Nat) (es : List Entry) :
    writeSubDir existing (fun _ => true) n es =
      ⟨placeMarks existing (subNeed es) ++ (subTail es (placed existing n (subNeed es) (subNeed es))).writes,
        (subTail es (placed existing n (subNeed es) (subNeed es))).result⟩ := by
  unfold writeSubDir
  dsimp only
  rw [place_shape]
  rfl

theorem writeAttDir_shape (existing : Option SegInfo) (n : Nat) (es : List AttEntry) :
    writeAttDir existing (fun _ => true) n es =
      ⟨placeMarks existing (attNeed es) ++ (attTail es (placed existing n (attNeed es) (align (attNeed es)))).writes,
        (attTail es (placed existing n (attNeed es) (align (attNeed es)))).result⟩ := by
  unfold writeAttDir
  dsimp only
  rw [place_shape]
  rfl

theorem zeroes_result (p c : Nat) : (∃ k, (writeZeroes p c).result = .ok k) ∨ (writeZeroes p c).result = .error .diverges := by
  unfold writeZeroes
  split
  · exact .inl ⟨_, rfl⟩
  · exact .inr rfl

theorem bind_result {α β : Type} (p : Plan α) (f : α → Plan β) :
    (p >>= f).result = (match p.result with | .ok a => (f a).result | .error e => .error e) := by
  show (Plan.bind p f).result = _
  unfold Plan.bind
  cases p.result with
  | ok a => rfl
  | error e => rfl

theorem subTail_result (es : List Entry) (r : Nat × Nat) : (subTail es r).result = .ok r ∨ (subTail es r).result = .error .diverges := by
  unfold subTail
  rw [bind_result]
  show (if _ then _ else _ : Plan (Nat × Nat)).result = _ ∨ _
  split
  · rw [bind_result]
    rcases zeroes_result (r.1 + (160 + (es.map entryBytes).flatten.length)) (r.2 + 32 - (160 + (es.map entryBytes).flatten.length)) with ⟨k, h⟩ | h
    · rw [h]; exact .inl rfl
    · rw [h]; exact .inr rfl
  · exact .inl rfl

theorem attTail_result (es : List AttEntry) (r : Nat × Nat) : (attTail es r).result = .ok r ∨ (attTail es r).result = .error .diverges := by
  unfold attTail
  rw [bind_result]
  show (_ >>= _ : Plan (Nat × Nat)).result = _ ∨ _
  rw [bind_result]
  show (if _ then _ else _ : Plan (Nat × Nat)).result = _ ∨ _
  split
  · rw [bind_result]
    rcases zeroes_result (r.1 + (es.map (fun e => attEntryBytes e.filePosition e.guid e.contentFileType e.name)).flatten.length)
      (r.2 + 32 - (es.map (fun e => attEntryBytes e.filePosition e.guid e.contentFileType e.name)).flatten.length) with ⟨k, h⟩ | h
    · rw [h]; exact .inl rfl
    · rw [h]; exact .inr rfl
  · exact .inl rfl

theorem placed_again (existing : Option SegInfo) (n n' need own : Nat) (h : need ≤ own) (b : Bool) :
    placed (some ⟨(placed existing n need own).1, (placed existing n need own).2, b⟩) n' need own = placed existing n need own ∧
    placeMarks (some ⟨(placed existing n need own).1, (placed existing n need own).2, b⟩) need = [] ∧
    need ≤ (placed existing n need own).2 := by
  have h1 : need ≤ (placed existing n need own).2 := by
    unfold placed
    cases existing with
    | none => exact h
    | some s =>
      dsimp only
      split
      · rename_i h; exact h
      · exact h
  refine ⟨?_, ?_, h1⟩
  · show (if (placed existing n need own).2 ≥ need then _ else _) = _
    rw [if_pos h1]
  · show (if (placed existing n need own).2 ≥ need then _ else _) = _
    rw [if_pos h1]

/-! ## The parts of `Close` -/

/-- The object after the sub-block directory was written. -/
def subClosed (w : RWState) (n : Nat) : RWState :=
  let r := placed w.subDirSeg n (subNeed (w.dir.subBlks.map Prod.snd)) (subNeed (w.dir.subBlks.map Prod.snd))
  { w with subDirSeg := some ⟨r.1, r.2, false⟩, next := if r.1 = n then some (r.1 + r.2) else w.next }

/-- The object after the attachment directory was written. -/
def attClosed (w : RWState) (n : Nat) : RWState :=
  let r := placed w.attDirSeg n (attNeed (w.att.atts.map Prod.snd)) (align (attNeed (w.att.atts.map Prod.snd)))
  { w with attDirSeg := some ⟨r.1, r.2, false⟩, next := if r.1 = n then some (r.1 + r.2) else w.next }

/-- The place of the sub-block directory. -/
def subAt (w : RWState) (n : Nat) : Nat × Nat :=
  placed w.subDirSeg n (subNeed (w.dir.subBlks.map Prod.snd)) (subNeed (w.dir.subBlks.map Prod.snd))

def attAt (w : RWState) (n : Nat) : Nat × Nat :=
  placed w.attDirSeg n (attNeed (w.att.atts.map Prod.snd)) (align (attNeed (w.att.atts.map Prod.snd)))

theorem ensureNext_known {s : RW} {n : Nat} (h : s.w.next = some n) : s.ensureNext = .ok (s, n) := by
  unfold RW.ensureNext
  rw [h]

theorem closeSubDir_shape {w : RWState} {d : Disk} {n : Nat} (hm : w.dir.isModified = true) (hn : w.next = some n) :
    rwCloseSubDir ⟨w, d⟩ =
      (match (subTail (w.dir.subBlks.map Prod.snd) (subAt w n)).result with
       | .ok _ => (⟨subClosed w n, apply (apply d (placeMarks w.subDirSeg (subNeed (w.dir.subBlks.map Prod.snd))))
            (subTail (w.dir.subBlks.map Prod.snd) (subAt w n)).writes⟩, none)
       | .error e => (⟨w, apply (apply d (placeMarks w.subDirSeg (subNeed (w.dir.subBlks.map Prod.snd))))
            (subTail (w.dir.subBlks.map Prod.snd) (subAt w n)).writes⟩, some e)) := by
  unfold rwCloseSubDir
  rw [if_pos hm, ensureNext_known (s := ⟨w, d⟩) hn]
  dsimp only
  unfold RW.exec
  rw [writeSubDir_shape]
  dsimp only
  rw [apply_append]
  rcases subTail_result (w.dir.subBlks.map Prod.snd) (subAt w n) with h | h
  · have h' := h
    unfold subAt at h'
    rw [h', h]
    rfl
  · have h' := h
    unfold subAt at h'
    rw [h', h]
    rfl

theorem closeAttDir_shape {w : RWState} {d : Disk} {n : Nat} (hm : w.att.isModified = true) (hn : w.next = some n) :
    rwCloseAttDir ⟨w, d⟩ =
      (match (attTail (w.att.atts.map Prod.snd) (attAt w n)).result with
       | .ok _ => (⟨attClosed w n, apply (apply d (placeMarks w.attDirSeg (attNeed (w.att.atts.map Prod.snd))))
            (attTail (w.att.atts.map Prod.snd) (attAt w n)).writes⟩, none)
       | .error e => (⟨w, apply (apply d (placeMarks w.attDirSeg (attNeed (w.att.atts.map Prod.snd))))
            (attTail (w.att.atts.map Prod.snd) (attAt w n)).writes⟩, some e)) := by
  unfold rwCloseAttDir
  rw [if_pos hm, ensureNext_known (s := ⟨w, d⟩) hn]
  dsimp only
  unfold RW.exec
  rw [writeAttDir_shape]
  dsimp only
  rw [apply_append]
  rcases attTail_result (w.att.atts.map Prod.snd) (attAt w n) with h | h
  · have h' := h
    unfold attAt at h'
    rw [h', h]
    rfl
  · have h' := h
    unfold attAt at h'
    rw [h', h]
    rfl

theorem ensureNext_shape {s s1 : RW} {n : Nat} (h : s.ensureNext = .ok (s1, n)) : s1 = ⟨{ s.w with next := some n }, s.disk⟩ := by
  obtain ⟨h1, h2⟩ := ensureNext_disk h
  obtain ⟨w, d⟩ := s1
  dsimp only at h1 h2
  rw [h1, h2]

/-- A step that fails because of the stream: the object has determined the next position, and parts of the writes are in the file. -/
theorem closeSubDirF_fault {s s' : RW} {fs fs' : List Fault} (h : rwCloseSubDirF s fs = (s', some .ioError, fs')) :
    s.w.dir.isModified = true ∧ ∃ n ws, s.ensureNext = .ok (⟨{ s.w with next := some n }, s.disk⟩, n) ∧
      s' = ⟨{ s.w with next := some n }, apply s.disk ws⟩ ∧
      PartOf ws (placeMarks s.w.subDirSeg (subNeed (s.w.dir.subBlks.map Prod.snd)) ++
        (subTail (s.w.dir.subBlks.map Prod.snd) (subAt s.w n)).writes) := by
  unfold rwCloseSubDirF at h
  cases hm : s.w.dir.isModified with
  | false => rw [hm] at h; simp only [Bool.false_eq_true, if_false] at h; injection h with _ h; injection h with h _; cases h
  | true =>
    rw [hm, if_pos rfl] at h
    cases hn : s.ensureNext with
    | error e => rw [hn] at h; dsimp only at h; injection h with _ h; injection h with h _
                 exfalso
                 unfold RW.ensureNext at hn
                 split at hn
                 · cases hn
                 · split at hn
                   · injection hn with hn; rw [← hn] at h; injection h with h; cases h
                   · cases hn
    | ok r =>
      obtain ⟨s1, n⟩ := r
      rw [hn] at h
      dsimp only at h
      have he := ensureNext_shape hn
      subst he
      rw [writeSubDir_shape] at h
      obtain ⟨ws, h1, h2⟩ := execF_fault (fun _ _ => rfl) (by
        dsimp only
        intro x
        rcases subTail_result (s.w.dir.subBlks.map Prod.snd) (subAt s.w n) with h | h
        · unfold subAt at h; rw [h] at x; cases x
        · unfold subAt at h; rw [h] at x; cases x) h
      exact ⟨rfl, n, ws, rfl, h1, h2⟩

theorem closeAttDirF_fault {s s' : RW} {fs fs' : List Fault} (h : rwCloseAttDirF s fs = (s', some .ioError, fs')) :
    s.w.att.isModified = true ∧ ∃ n ws, s.ensureNext = .ok (⟨{ s.w with next := some n }, s.disk⟩, n) ∧
      s' = ⟨{ s.w with next := some n }, apply s.disk ws⟩ ∧
      PartOf ws (placeMarks s.w.attDirSeg (attNeed (s.w.att.atts.map Prod.snd)) ++
        (attTail (s.w.att.atts.map Prod.snd) (attAt s.w n)).writes) := by
  unfold rwCloseAttDirF at h
  cases hm : s.w.att.isModified with
  | false => rw [hm] at h; simp only [Bool.false_eq_true, if_false] at h; injection h with _ h; injection h with h _; cases h
  | true =>
    rw [hm, if_pos rfl] at h
    cases hn : s.ensureNext with
    | error e => rw [hn] at h; dsimp only at h; injection h with _ h; injection h with h _
                 exfalso
                 unfold RW.ensureNext at hn
                 split at hn
                 · cases hn
                 · split at hn
                   · injection hn with hn; rw [← hn] at h; injection h with h; cases h
                   · cases hn
    | ok r =>
      obtain ⟨s1, n⟩ := r
      rw [hn] at h
      dsimp only at h
      have he := ensureNext_shape hn
      subst he
      rw [writeAttDir_shape] at h
      obtain ⟨ws, h1, h2⟩ := execF_fault (fun _ _ => rfl) (by
        dsimp only
        intro x
        rcases attTail_result (s.w.att.atts.map Prod.snd) (attAt s.w n) with h | h
        · unfold attAt at h; rw [h] at x; cases x
        · unfold attAt at h; rw [h] at x; cases x) h
      exact ⟨rfl, n, ws, rfl, h1, h2⟩

/-! ## `Close` again -/

theorem closeSubDir_ensured {s : RW} {n : Nat} (hn : s.ensureNext = .ok (⟨{ s.w with next := some n }, s.disk⟩, n)) (hm : s.w.dir.isModified = true) :
    rwCloseSubDir s = rwCloseSubDir ⟨{ s.w with next := some n }, s.disk⟩ := by
  unfold rwCloseSubDir
  rw [hn, ensureNext_known (s := ⟨{ s.w with next := some n }, s.disk⟩) rfl]
  rw [if_pos hm, if_pos hm]

theorem closeAttDir_ensured {s : RW} {n : Nat} (hn : s.ensureNext = .ok (⟨{ s.w with next := some n }, s.disk⟩, n)) (hm : s.w.att.isModified = true) :
    rwCloseAttDir s = rwCloseAttDir ⟨{ s.w with next := some n }, s.disk⟩ := by
  unfold rwCloseAttDir
  rw [hn, ensureNext_known (s := ⟨{ s.w with next := some n }, s.disk⟩) rfl]
  rw [if_pos hm, if_pos hm]

theorem subNeed_pos (es : List Entry) : 128 ≤ subNeed es := by
  have := le_align (128 + (es.map entryBytes).flatten.length)
  unfold subNeed
  omega

/-- The sub-block directory was written: how, and what happens if it is written again. -/
theorem sub_done {s s1 : RW} (h : rwCloseSubDir s = (s1, none)) :
    ∃ m W, s1.disk = apply (apply s.disk m) W ∧ s1.w.dir = s.w.dir ∧ s1.w.att = s.w.att ∧ s1.w.attDirSeg = s.w.attDirSeg ∧
      (s.w.dir.isModified = true → s1.w.next.isSome ∧ ∃ n, s.ensureNext = .ok (⟨{ s.w with next := some n }, s.disk⟩, n) ∧
        W = (subTail (s.w.dir.subBlks.map Prod.snd) (subAt s.w n)).writes ∧ ∀ n', subAt s1.w n' = subAt s.w n) ∧
      (s.w.dir.isModified = false → s1 = s ∧ m = [] ∧ W = []) ∧
      ∀ x y d, (s.w.dir.isModified = true → y.isSome = true) →
        ∃ y', rwCloseSubDir ⟨{ s1.w with attDirSeg := x, next := y }, d⟩ = (⟨{ s1.w with attDirSeg := x, next := y' }, apply d W⟩, none) ∧
          (y.isSome = true → y'.isSome = true) ∧ ((y = s1.w.next ∨ s.w.dir.isModified = false) → y' = y) := by
  cases hm : s.w.dir.isModified with
  | false =>
    have h1 : s1 = s := by
      unfold rwCloseSubDir at h
      rw [hm] at h
      simp only [Bool.false_eq_true, if_false] at h
      injection h with h _
      exact h.symm
    subst h1
    refine ⟨[], [], rfl, rfl, rfl, rfl, (fun x => by cases x), fun _ => ⟨rfl, rfl, rfl⟩, ?_⟩
    intro x y d _
    refine ⟨y, ?_, id, fun _ => rfl⟩
    unfold rwCloseSubDir
    rw [if_neg]
    · rfl
    · show ¬ s1.w.dir.isModified = true
      rw [hm]
      exact Bool.false_ne_true
  | true =>
    cases hn : s.ensureNext with
    | error e =>
      unfold rwCloseSubDir at h
      rw [if_pos hm, hn] at h
      injection h with _ h
      cases h
    | ok r =>
      obtain ⟨s0, n⟩ := r
      have he := ensureNext_shape hn
      subst he
      rw [closeSubDir_ensured hn hm, closeSubDir_shape (w := { s.w with next := some n }) (n := n) hm rfl] at h
      rcases subTail_result (s.w.dir.subBlks.map Prod.snd) (subAt { s.w with next := some n } n) with hr | hr
      case inr => dsimp only at h; rw [hr] at h; dsimp only at h; injection h with _ h; cases h
      dsimp only at h
      rw [hr] at h
      dsimp only at h
      injection h with h _
      have hag : ∀ n', placed s1.w.subDirSeg n' (subNeed (s.w.dir.subBlks.map Prod.snd)) (subNeed (s.w.dir.subBlks.map Prod.snd)) = subAt s.w n ∧
          placeMarks s1.w.subDirSeg (subNeed (s.w.dir.subBlks.map Prod.snd)) = [] := by
        intro n'
        rw [← h]
        have := placed_again s.w.subDirSeg n n' (subNeed (s.w.dir.subBlks.map Prod.snd)) (subNeed (s.w.dir.subBlks.map Prod.snd)) (Nat.le_refl _) false
        exact ⟨this.1, this.2.1⟩
      have hpos : 128 ≤ (subAt s.w n).2 := by
        have := (placed_again s.w.subDirSeg n n (subNeed (s.w.dir.subBlks.map Prod.snd)) (subNeed (s.w.dir.subBlks.map Prod.snd)) (Nat.le_refl _) false).2.2
        have h2 := subNeed_pos (s.w.dir.subBlks.map Prod.snd)
        unfold subAt
        omega
      have hw : s1.w = { s.w with subDirSeg := some ⟨(subAt s.w n).1, (subAt s.w n).2, false⟩, next := if (subAt s.w n).1 = n then some ((subAt s.w n).1 + (subAt s.w n).2) else some n } := by
        rw [← h]; rfl
      have hnx : ∃ n1, s1.w.next = some n1 ∧ (subAt s.w n).1 ≠ n1 := by
        rw [hw]
        dsimp only
        by_cases hc : (subAt s.w n).1 = n
        · rw [if_pos hc]; exact ⟨_, rfl, by omega⟩
        · rw [if_neg hc]; exact ⟨_, rfl, hc⟩
      refine ⟨placeMarks s.w.subDirSeg (subNeed (s.w.dir.subBlks.map Prod.snd)), (subTail (s.w.dir.subBlks.map Prod.snd) (subAt s.w n)).writes,
        by rw [← h]; rfl, by rw [hw], by rw [hw], by rw [hw], ?_, (fun x => by cases x), ?_⟩
      · intro _
        obtain ⟨n1, hn1, _⟩ := hnx
        refine ⟨by rw [hn1]; rfl, n, rfl, rfl, fun n' => ?_⟩
        have := (hag n').1
        unfold subAt at this ⊢
        rw [show s1.w.dir = s.w.dir by rw [hw]]
        exact this
      · intro x y d hy
        obtain ⟨m, rfl⟩ := Option.isSome_iff_exists.1 (hy rfl)
        have hd : s1.w.dir = s.w.dir := by rw [hw]
        have hsa : subAt { s1.w with attDirSeg := x, next := some m } m = subAt s.w n := by
          have := (hag m).1
          unfold subAt at this ⊢
          dsimp only
          rw [hd]
          exact this
        have hsc : subClosed { s1.w with attDirSeg := x, next := some m } m =
            { s1.w with attDirSeg := x, next := if (subAt s.w n).1 = m then some ((subAt s.w n).1 + (subAt s.w n).2) else some m } := by
          have : subClosed { s1.w with attDirSeg := x, next := some m } m =
            { s1.w with attDirSeg := x, subDirSeg := some ⟨(subAt { s1.w with attDirSeg := x, next := some m } m).1, (subAt { s1.w with attDirSeg := x, next := some m } m).2, false⟩, next := if (subAt { s1.w with attDirSeg := x, next := some m } m).1 = m then some ((subAt { s1.w with attDirSeg := x, next := some m } m).1 + (subAt { s1.w with attDirSeg := x, next := some m } m).2) else some m } := rfl
          rw [this, hsa, hw]
        rw [closeSubDir_shape (w := { s1.w with attDirSeg := x, next := some m }) (n := m) (by show s1.w.dir.isModified = true; rw [hd, hm]) rfl, hsc, hsa]
        dsimp only
        rw [hd]
        have hr' : (subTail (s.w.dir.subBlks.map Prod.snd) (subAt s.w n)).result = .ok (subAt s.w n) := hr
        rw [hr', (hag m).2]
        dsimp only
        refine ⟨_, rfl, ?_, ?_⟩
        · intro _
          split <;> rfl
        · rintro (hy' | hf)
          · obtain ⟨n1, hn1, hne⟩ := hnx
            rw [hn1] at hy'
            injection hy' with hy'
            rw [hy', if_neg hne]
          · cases hf

/-- The same for the attachment directory. -/
theorem att_done {s s1 : RW} (h : rwCloseAttDir s = (s1, none)) :
    ∃ V, s1.disk = apply (apply s.disk (if s.w.att.isModified = true then placeMarks s.w.attDirSeg (attNeed (s.w.att.atts.map Prod.snd)) else [])) V ∧
      (∃ x y, s1.w = { s.w with attDirSeg := x, next := y } ∧ (s.w.next.isSome = true → y.isSome = true) ∧ (s.w.att.isModified = true → y.isSome = true ∧
        placeMarks x (attNeed (s.w.att.atts.map Prod.snd)) = [])) ∧
      ∀ y d, (s.w.att.isModified = true → y.isSome = true) →
        ∃ y', rwCloseAttDir ⟨{ s1.w with next := y }, d⟩ = (⟨{ s1.w with next := y' }, apply d V⟩, none) := by
  cases hm : s.w.att.isModified with
  | false =>
    have h1 : s1 = s := by
      unfold rwCloseAttDir at h
      rw [hm] at h
      simp only [Bool.false_eq_true, if_false] at h
      injection h with h _
      exact h.symm
    subst h1
    refine ⟨[], rfl, ⟨s1.w.attDirSeg, s1.w.next, rfl, id, (fun x => by cases x)⟩, ?_⟩
    intro y d _
    refine ⟨y, ?_⟩
    unfold rwCloseAttDir
    rw [if_neg]
    · rfl
    · show ¬ s1.w.att.isModified = true
      rw [hm]
      exact Bool.false_ne_true
  | true =>
    cases hn : s.ensureNext with
    | error e =>
      unfold rwCloseAttDir at h
      rw [if_pos hm, hn] at h
      injection h with _ h
      cases h
    | ok r =>
      obtain ⟨s0, n⟩ := r
      have he := ensureNext_shape hn
      subst he
      rw [closeAttDir_ensured hn hm, closeAttDir_shape (w := { s.w with next := some n }) (n := n) hm rfl] at h
      rcases attTail_result (s.w.att.atts.map Prod.snd) (attAt { s.w with next := some n } n) with hr | hr
      case inr => dsimp only at h; rw [hr] at h; dsimp only at h; injection h with _ h; cases h
      dsimp only at h
      rw [hr] at h
      dsimp only at h
      injection h with h _
      have hag : ∀ n', placed s1.w.attDirSeg n' (attNeed (s.w.att.atts.map Prod.snd)) (align (attNeed (s.w.att.atts.map Prod.snd))) = attAt s.w n ∧
          placeMarks s1.w.attDirSeg (attNeed (s.w.att.atts.map Prod.snd)) = [] := by
        intro n'
        rw [← h]
        have := placed_again s.w.attDirSeg n n' (attNeed (s.w.att.atts.map Prod.snd)) (align (attNeed (s.w.att.atts.map Prod.snd))) (le_align _) false
        exact ⟨this.1, this.2.1⟩
      have hw : s1.w = { s.w with attDirSeg := some ⟨(attAt s.w n).1, (attAt s.w n).2, false⟩, next := if (attAt s.w n).1 = n then some ((attAt s.w n).1 + (attAt s.w n).2) else some n } := by
        rw [← h]; rfl
      refine ⟨(attTail (s.w.att.atts.map Prod.snd) (attAt s.w n)).writes, by rw [if_pos rfl, ← h]; rfl, ⟨_, _, hw, ?_, ?_⟩, ?_⟩
      · intro _; split <;> rfl
      · intro _
        refine ⟨by split <;> rfl, ?_⟩
        have := (hag n).2
        rw [hw] at this
        exact this
      · intro y d hy
        obtain ⟨m, rfl⟩ := Option.isSome_iff_exists.1 (hy rfl)
        have hd : s1.w.att = s.w.att := by rw [hw]
        have hsa : attAt { s1.w with next := some m } m = attAt s.w n := by
          have := (hag m).1
          unfold attAt at this ⊢
          dsimp only
          rw [hd]
          exact this
        have hsc : attClosed { s1.w with next := some m } m =
            { s1.w with next := if (attAt s.w n).1 = m then some ((attAt s.w n).1 + (attAt s.w n).2) else some m } := by
          have : attClosed { s1.w with next := some m } m =
            { s1.w with attDirSeg := some ⟨(attAt { s1.w with next := some m } m).1, (attAt { s1.w with next := some m } m).2, false⟩, next := if (attAt { s1.w with next := some m } m).1 = m then some ((attAt { s1.w with next := some m } m).1 + (attAt { s1.w with next := some m } m).2) else some m } := rfl
          rw [this, hsa, hw]
        rw [closeAttDir_shape (w := { s1.w with next := some m }) (n := m) (by show s1.w.att.isModified = true; rw [hd, hm]) rfl, hsc, hsa]
        dsimp only
        rw [hd]
        have hr' : (attTail (s.w.att.atts.map Prod.snd) (attAt s.w n)).result = .ok (attAt s.w n) := hr
        rw [hr', (hag m).2]
        dsimp only
        exact ⟨_, rfl⟩

/-- The file header is written. -/
theorem closeHeader_shape (w : RWState) (d : Disk) : rwCloseHeader ⟨w, d⟩ = (⟨w, apply d (closeHeaderWrites ⟨w, d⟩)⟩, none) := by
  unfold rwCloseHeader closeHeaderWrites
  split <;> rfl

theorem closeHeaderF_fault {s s' : RW} {fs fs' : List Fault} (h : rwCloseHeaderF s fs = (s', some .ioError, fs')) :
    ∃ ws, s' = ⟨s.w, apply s.disk ws⟩ ∧ PartOf ws (closeHeaderWrites s) := by
  unfold rwCloseHeaderF at h
  unfold closeHeaderWrites
  split at h
  · rename_i hc
    rw [if_pos hc]
    exact execF_fault (fun _ _ => rfl) (fun x => by cases x) h
  · injection h with _ h; injection h with h _; cases h

theorem closeSubDirF_done {s s' : RW} {fs fs' : List Fault} (h : rwCloseSubDirF s fs = (s', none, fs')) : rwCloseSubDir s = (s', none) := by
  unfold rwCloseSubDirF at h
  unfold rwCloseSubDir
  split at h
  · rename_i hc
    rw [if_pos hc]
    cases hn : s.ensureNext with
    | error e => rw [hn] at h; dsimp only at h; injection h with _ h; injection h with h _; cases h
    | ok r => rw [hn] at h; exact execF_done h
  · rename_i hc
    rw [if_neg hc]
    injection h with h _
    rw [h]

theorem closeAttDirF_done {s s' : RW} {fs fs' : List Fault} (h : rwCloseAttDirF s fs = (s', none, fs')) : rwCloseAttDir s = (s', none) := by
  unfold rwCloseAttDirF at h
  unfold rwCloseAttDir
  split at h
  · rename_i hc
    rw [if_pos hc]
    cases hn : s.ensureNext with
    | error e => rw [hn] at h; dsimp only at h; injection h with _ h; injection h with h _; cases h
    | ok r => rw [hn] at h; exact execF_done h
  · rename_i hc
    rw [if_neg hc]
    injection h with h _
    rw [h]

/-- Marking the old attachment directory does not touch the sub-block directory. -/
def MarksApart (s : RW) : Prop :=
  s.w.dir.isModified = true → s.w.att.isModified = true → ∀ n d, s.ensureNext = .ok (⟨{ s.w with next := some n }, d⟩, n) →
    ∀ i, Covered (placeMarks s.w.attDirSeg (attNeed (s.w.att.atts.map Prod.snd))) i →
      ¬ Covered (subTail (s.w.dir.subBlks.map Prod.snd) (subAt s.w n)).writes i

theorem rwClose_of {s s1 s2 : RW} (h1 : rwCloseSubDir s = (s1, none)) (h2 : rwCloseAttDir s1 = (s2, none)) : rwClose s = rwCloseHeader s2 := by
  unfold rwClose andThen
  rw [h1]
  dsimp only
  rw [h2]

theorem rwClose_sub {s s' : RW} (h : rwCloseSubDir s' = rwCloseSubDir s) : rwClose s' = rwClose s := by
  unfold rwClose
  rw [h]

theorem rwClose_att {s s' s1 s1' : RW} (h1 : rwCloseSubDir s = (s1, none)) (h2 : rwCloseSubDir s' = (s1', none))
    (h : rwCloseAttDir s1' = rwCloseAttDir s1) : rwClose s' = rwClose s := by
  unfold rwClose andThen
  rw [h1, h2]
  dsimp only
  rw [h]

/-- `Close` after a `Close` that failed leaves the same file as a `Close` that did not fail. -/
theorem close_again {s s' : RW} {fs fs' : List Fault} (h : rwCloseF s fs = (s', some .ioError, fs')) (hp : MarksApart s) :
    (rwClose s').2 = (rwClose s).2 ∧ (rwClose s').1.disk = (rwClose s).1.disk ∧ MarksApart s' := by
  unfold rwCloseF andThenF at h
  cases hA : rwCloseSubDirF s fs with
  | mk s1 r1 =>
    obtain ⟨e1, fs1⟩ := r1
    rw [hA] at h
    dsimp only at h
    cases e1 with
    | some e =>
      dsimp only at h
      injection h with h1 h2
      injection h2 with h2 h3
      injection h2 with h2
      subst h1 h2 h3
      obtain ⟨hm, n, ws, hn, hs', hpart⟩ := closeSubDirF_fault hA
      have key : rwCloseSubDir s1 = rwCloseSubDir s := by
        rw [closeSubDir_ensured hn hm, hs', closeSubDir_shape (w := { s.w with next := some n }) (n := n) hm rfl,
          closeSubDir_shape (w := { s.w with next := some n }) (n := n) hm rfl]
        have := redo1 hpart s.disk
        rw [apply_append, apply_append] at this
        have h2 : subAt { s.w with next := some n } n = subAt s.w n := rfl
        rw [h2]
        dsimp only
        rw [this]
      refine ⟨by rw [rwClose_sub key], by rw [rwClose_sub key], ?_⟩
      rw [hs']
      intro hm1 hm2 n' d' hn'
      rw [ensureNext_known (s := ⟨{ s.w with next := some n }, apply s.disk ws⟩) rfl] at hn'
      injection hn' with hn'
      injection hn' with _ hn'
      subst hn'
      exact hp hm1 hm2 n s.disk hn
    | none =>
      have hA' := closeSubDirF_done hA
      obtain ⟨m, W, hd1, hdir, hatt, haseg, hmod, hunmod, hre⟩ := sub_done hA'
      cases hB : rwCloseAttDirF s1 fs1 with
      | mk s2 r2 =>
        obtain ⟨e2, fs2⟩ := r2
        rw [hB] at h
        dsimp only at h
        cases e2 with
        | some e =>
          dsimp only at h
          injection h with h1 h2
          injection h2 with h2 h3
          injection h2 with h2
          subst h1 h2 h3
          obtain ⟨hm, n, ws, hn, hs', hpart⟩ := closeAttDirF_fault hB
          obtain ⟨y', hy1, hy2, hy3⟩ := hre s1.w.attDirSeg (some n) (apply s1.disk ws) (fun _ => rfl)
          have hyn : y' = some n := by
            apply hy3
            cases hdm : s.w.dir.isModified with
            | false => exact .inr rfl
            | true =>
              left
              obtain ⟨k, hk⟩ := Option.isSome_iff_exists.1 (hmod hdm).1
              rw [ensureNext_known hk] at hn
              injection hn with hn
              injection hn with _ hn
              rw [hk, hn]
          subst hyn
          have hsub : rwCloseSubDir s2 = (⟨{ s1.w with next := some n }, apply (apply s1.disk ws) W⟩, none) := by
            rw [hs']; exact hy1
          have key : rwCloseAttDir ⟨{ s1.w with next := some n }, apply (apply s1.disk ws) W⟩ = rwCloseAttDir s1 := by
            rw [closeAttDir_ensured hn hm, closeAttDir_shape (w := { s1.w with next := some n }) (n := n) hm rfl,
              closeAttDir_shape (w := { s1.w with next := some n }) (n := n) hm rfl]
            have := redo2 (w := W) hpart (apply s.disk m)
            rw [← hd1, apply_append, apply_append] at this
            have h2 : attAt { s1.w with next := some n } n = attAt s1.w n := rfl
            rw [h2]
            dsimp only
            rw [this]
          have hcl := rwClose_att hA' hsub key
          refine ⟨by rw [hcl], by rw [hcl], ?_⟩
          rw [hs']
          intro hm1 hm2 n' d' hn' i hc
          have hm1' : s.w.dir.isModified = true := by rw [← hdir]; exact hm1
          obtain ⟨_, n0, hn0, _, hsa⟩ := hmod hm1'
          have e1 : subAt { s1.w with next := some n } n' = subAt s.w n0 := hsa n'
          rw [e1]
          dsimp only at hc ⊢
          rw [hatt, haseg] at hc
          rw [hdir]
          exact hp hm1' (by rw [← hatt]; exact hm2) n0 s.disk hn0 i hc
        | none =>
          dsimp only at h
          have hB' := closeAttDirF_done hB
          obtain ⟨V, hd2, ⟨x, y, hw2, hnx, hmx⟩, hre2⟩ := att_done hB'
          obtain ⟨ws, hs', hpart⟩ := closeHeaderF_fault h
          rw [rwClose_of hA' hB']
          have hyn : s.w.dir.isModified = true → y.isSome = true := fun hdm => hnx (hmod hdm).1
          obtain ⟨y1, hy1, hy2, hy3⟩ := hre x y (apply s2.disk ws) hyn
          have hsub : rwCloseSubDir s' = (⟨{ s2.w with next := y1 }, apply (apply s2.disk ws) W⟩, none) := by
            rw [hs', hw2]; exact hy1
          obtain ⟨y2, hy4⟩ := hre2 y1 (apply (apply s2.disk ws) W) (fun ham => hy2 (hmx ham).1)
          rw [rwClose_of hsub hy4]
          have hh : ∀ d, closeHeaderWrites ⟨{ s2.w with next := y2 }, d⟩ = closeHeaderWrites s2 := fun _ => rfl
          have hh2 : closeHeaderWrites ⟨s2.w, s2.disk⟩ = closeHeaderWrites s2 := rfl
          rw [closeHeader_shape, show s2 = ⟨s2.w, s2.disk⟩ from rfl, closeHeader_shape, hh, hh2]
          refine ⟨rfl, ?_, ?_⟩
          · dsimp only
            have hmarks : ∀ i, Covered (if s1.w.att.isModified = true then placeMarks s1.w.attDirSeg (attNeed (s1.w.att.atts.map Prod.snd)) else []) i → ¬ Covered W i := by
              intro i hc
              cases ham : s1.w.att.isModified with
              | false =>
                rw [ham] at hc
                simp only [Bool.false_eq_true, if_false] at hc
                obtain ⟨w, hw, _⟩ := hc
                cases hw
              | true =>
                rw [ham, if_pos rfl] at hc
                cases hdm : s.w.dir.isModified with
                | false =>
                  rw [(hunmod hdm).2.2]
                  rintro ⟨w, hw, _⟩
                  cases hw
                | true =>
                  obtain ⟨_, n0, hn0, hW, _⟩ := hmod hdm
                  rw [hatt, haseg] at hc
                  rw [hW]
                  exact hp hdm (by rw [← hatt]; exact ham) n0 s.disk hn0 i hc
            have := redo3 (v := V) hpart (apply s.disk m) hmarks
            rw [← hd1, ← hd2] at this
            exact this
          · rw [hs']
            intro hm1 hm2 n' d' hn' i hc
            have ham : s1.w.att.isModified = true := by
              have := hm2
              rw [hw2] at this
              exact this
            dsimp only at hc
            rw [show placeMarks s2.w.attDirSeg (attNeed (s2.w.att.atts.map Prod.snd)) = [] by rw [hw2]; exact (hmx ham).2] at hc
            obtain ⟨w, hw, _⟩ := hc
            cases hw

end Verif.Czi
