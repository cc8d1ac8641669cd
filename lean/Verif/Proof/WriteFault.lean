import Verif.Spec.WriteFault
import Verif.Proof.EditFault

/-! Calls of the writer made again after a failing write. -/

namespace Verif.Czi

open Spec

attribute [local irreducible] zeros

/-! ## Phases -/

theorem performWrites_parts (d : Disk) (ws : List Write) (fs : List Fault) :
    ∃ P, (performWrites d ws fs).1 = apply d P ∧ PartOf P ws ∧ ((performWrites d ws fs).2.1 = true → (performWrites d ws fs).1 = apply d ws) := by
  rcases h : performWrites d ws fs with ⟨d', ok, fs'⟩
  cases ok with
  | true =>
    have := performWrites_all _ _ _ _ _ h
    exact ⟨ws, this, fun w hw => ⟨w, hw, rfl, Nat.le_refl _⟩, fun _ => this⟩
  | false =>
    obtain ⟨P, h1, h2⟩ := performWrites_part _ _ _ _ _ h
    exact ⟨P, h1, h2, fun h => by cases h⟩

/-- Where a call throws. -/
theorem run_throws {p : Phase} {ps : List Phase} {s u : Sys} {fs fs' : List Fault} {e : WErr} (h : runPhases (p :: ps) s fs = (u, some e, fs')) :
    (∃ P, PartOf P (p s.w).writes ∧ u = ⟨s.w, apply s.disk P⟩) ∨
    ∃ w fs1, (p s.w).result = .ok w ∧ runPhases ps ⟨w, apply s.disk (p s.w).writes⟩ fs1 = (u, some e, fs') := by
  obtain ⟨P, h1, h2, h3⟩ := performWrites_parts s.disk (p s.w).writes fs
  unfold runPhases at h
  dsimp only at h
  split at h
  · rename_i hok
    split at h
    · rename_i w hw
      exact .inr ⟨w, _, hw, by rw [← h3 hok]; exact h⟩
    · injection h with h _
      exact .inl ⟨P, h2, by rw [← h, h1]⟩
  · injection h with h _
    exact .inl ⟨P, h2, by rw [← h, h1]⟩

/-- A call that does not throw because of a failing write is as on a stream that does not fail. -/
theorem run_same : ∀ (ps : List Phase) {s u : Sys} {fs fs' : List Fault} {e : Option WErr}, e ≠ some .ioError → runPhases ps s fs = (u, e, fs') →
    runPhases ps s [] = (u, e, []) := by
  intro ps
  induction ps with
  | nil => intro s u fs fs' e _ h; unfold runPhases at h ⊢; injection h with h h'; injection h' with h' _; rw [h, h']
  | cons p ps ih =>
    intro s u fs fs' e he h
    obtain ⟨P, h1, h2, h3⟩ := performWrites_parts s.disk (p s.w).writes fs
    unfold runPhases at h
    dsimp only at h
    split at h
    · rename_i hok
      split at h
      · rename_i w hw
        rw [h3 hok] at h
        rw [runPhases_ok (ws := (p s.w).writes) (w := w) (by rw [← hw])]
        exact ih he h
      · rename_i e' hw
        rw [h3 hok] at h
        rw [runPhases_err (ws := (p s.w).writes) (e := e') (by rw [← hw])]
        injection h with h h'
        injection h' with h' _
        rw [h, h']
    · injection h with _ h
      injection h with h _
      exact absurd h.symm he

/-- What has been written by a phase that is made again does not matter. -/
theorem run_disk {p : Phase} {ps : List Phase} {w : WState} {d d' : Disk} (h : apply d' (p w).writes = apply d (p w).writes) :
    runPhases (p :: ps) ⟨w, d'⟩ [] = runPhases (p :: ps) ⟨w, d⟩ [] := by
  rw [runPhases, runPhases]
  simp only [performWrites_nil, h]

theorem run_pass {p : Phase} {ps : List Phase} {w : WState} {d : Disk} (h : p w = ⟨[], .ok w⟩) : runPhases (p :: ps) ⟨w, d⟩ [] = runPhases ps ⟨w, d⟩ [] :=
  runPhases_ok (s := ⟨w, d⟩) h

/-! ## Writing metadata -/

theorem meta_again {s u : Sys} {m : MetaInfo} {fs fs' : List Fault} {e : WErr} (h : stepOp s (.writeMetadata m) fs = (u, some e, fs')) :
    step u (.writeMetadata m) = step s (.writeMetadata m) := by
  have h' : runPhases (writeMetadataPhases m) s fs = (u, some e, fs') := h
  unfold writeMetadataPhases at h'
  rcases run_throws h' with ⟨P, h1, rfl⟩ | ⟨w, fs1, _, h1⟩
  · have : runPhases (writeMetadataPhases m) ⟨s.w, apply s.disk P⟩ [] = runPhases (writeMetadataPhases m) s [] := by
      unfold writeMetadataPhases
      exact run_disk (redo1 h1 s.disk)
    unfold step stepOp
    show (_, _) = (_, _)
    unfold WOp.phases
    dsimp only
    rw [this]
  · rw [runPhases] at h1; injection h1 with _ h1; injection h1 with h1 _; cases h1

/-! ## Close -/

/-- The writes marking a segment that is not reused. -/
def liveMarks (existing : Option SegInfo) (need : Nat) : List Write :=
  match existing with
  | some s => if s.alloc ≥ need then [] else (markUnused (some s) markIfLive).writes
  | none => []

theorem place_live (existing : Option SegInfo) (n need own : Nat) :
    place existing markIfLive n need own = ⟨liveMarks existing need, .ok (placed existing n need own)⟩ := by
  unfold place liveMarks placed
  cases existing with
  | none => rfl
  | some s =>
    dsimp only
    split
    · rfl
    · unfold markUnused
      dsimp only
      split
      · rfl
      · rfl

theorem subDir_live (existing : Option SegInfo) (n : Nat) (es : List Entry) :
    writeSubDir existing markIfLive n es =
      ⟨liveMarks existing (subNeed es) ++ (subTail es (placed existing n (subNeed es) (subNeed es))).writes,
        (subTail es (placed existing n (subNeed es) (subNeed es))).result⟩ := by
  unfold writeSubDir
  dsimp only
  rw [place_live]
  rfl

theorem attDir_live (existing : Option SegInfo) (n : Nat) (es : List AttEntry) :
    writeAttDir existing markIfLive n es =
      ⟨liveMarks existing (attNeed es) ++ (attTail es (placed existing n (attNeed es) (align (attNeed es)))).writes,
        (attTail es (placed existing n (attNeed es) (align (attNeed es)))).result⟩ := by
  unfold writeAttDir
  dsimp only
  rw [place_live]
  rfl

/-- Where the sub-block directory is put, and the writer after that. -/
def subPlace (w : WState) : Nat × Nat := placed w.subDirSeg w.next (subNeed w.dir.subBlks) (subNeed w.dir.subBlks)

def subDone (w : WState) : WState :=
  { w with subDirSeg := some ⟨(subPlace w).1, (subPlace w).2, false⟩, next := if (subPlace w).1 = w.next then w.next + ((subPlace w).2 + 32) else w.next }

def attPlace (w : WState) : Nat × Nat := placed w.attDirSeg w.next (attNeed w.att) (align (attNeed w.att))

def attDone (w : WState) : WState :=
  { w with attDirSeg := some ⟨(attPlace w).1, (attPlace w).2, false⟩, next := if (attPlace w).1 = w.next then w.next + ((attPlace w).2 + 32) else w.next }

theorem closeSubDir_writes (w : WState) :
    (closeSubDir w).writes = liveMarks w.subDirSeg (subNeed w.dir.subBlks) ++ (subTail w.dir.subBlks (subPlace w)).writes ∧
    ∀ w', (closeSubDir w).result = .ok w' → w' = subDone w ∧ (subTail w.dir.subBlks (subPlace w)).result = .ok (subPlace w) := by
  unfold closeSubDir
  rw [subDir_live]
  show ((Plan.bind _ _).writes = _) ∧ ∀ w', (Plan.bind _ _).result = _ → _
  unfold Plan.bind
  dsimp only
  rcases subTail_result w.dir.subBlks (subPlace w) with h | h
  · have h' := h
    unfold subPlace at h'
    rw [h']
    refine ⟨?_, ?_⟩
    · show (_ ++ _) ++ [] = _
      rw [List.append_nil]
      rfl
    · intro w' hw
      injection hw with hw
      exact ⟨hw.symm, h⟩
  · have h' := h
    unfold subPlace at h'
    rw [h']
    exact ⟨rfl, by intro w' hw; cases hw⟩

theorem closeSubDir_settled {w : WState} {p a : Nat} (hs : w.subDirSeg = some ⟨p, a, false⟩) (ha : subNeed w.dir.subBlks ≤ a) (hp : p < w.next)
    (hr : (subTail w.dir.subBlks (p, a)).result = .ok (p, a)) : closeSubDir w = ⟨(subTail w.dir.subBlks (p, a)).writes, .ok w⟩ := by
  have e1 : liveMarks w.subDirSeg (subNeed w.dir.subBlks) = [] := by
    rw [hs]; unfold liveMarks; dsimp only; rw [if_pos ha]
  have e2 : placed w.subDirSeg w.next (subNeed w.dir.subBlks) (subNeed w.dir.subBlks) = (p, a) := by
    rw [hs]; unfold placed; dsimp only; rw [if_pos ha]
  unfold closeSubDir
  rw [subDir_live, e1, e2]
  show Plan.bind _ _ = _
  unfold Plan.bind
  dsimp only
  rw [hr]
  dsimp only
  show (⟨([] ++ _) ++ [], Except.ok _⟩ : Plan WState) = _
  rw [List.append_nil, List.nil_append, if_neg (Nat.ne_of_lt hp), ← hs]

theorem closeAttDir_writes {w : WState} (hm : liveMarks w.attDirSeg (attNeed w.att) = []) :
    ∀ w', (closeAttDir w).result = .ok w' →
      (w.att.length > 0 ∧ w' = attDone w ∧ (closeAttDir w).writes = (attTail w.att (attPlace w)).writes ∧ (attTail w.att (attPlace w)).result = .ok (attPlace w)) ∨
      (¬ w.att.length > 0 ∧ w' = w ∧ (closeAttDir w).writes = []) := by
  intro w' hw
  unfold closeAttDir at hw ⊢
  by_cases hl : w.att.length > 0
  · rw [if_pos hl] at hw ⊢
    rw [attDir_live, hm, List.nil_append] at hw ⊢
    change (Plan.bind _ _).result = _ at hw
    unfold Plan.bind at hw
    dsimp only at hw
    left
    rcases attTail_result w.att (attPlace w) with h | h
    · have h' := h
      unfold attPlace at h'
      rw [h'] at hw
      injection hw with hw
      refine ⟨hl, hw.symm, ?_, h⟩
      show (Plan.bind _ _).writes = _
      unfold Plan.bind
      dsimp only
      rw [h']
      show _ ++ [] = _
      rw [List.append_nil]
      rfl
    · unfold attPlace at h
      rw [h] at hw
      cases hw
  · rw [if_neg hl] at hw ⊢
    injection hw with hw
    exact .inr ⟨hl, hw.symm, rfl⟩

theorem closeAttDir_settled {w : WState} {p a : Nat} (hl : w.att.length > 0) (hs : w.attDirSeg = some ⟨p, a, false⟩) (ha : attNeed w.att ≤ a) (hp : p < w.next)
    (hr : (attTail w.att (p, a)).result = .ok (p, a)) : closeAttDir w = ⟨(attTail w.att (p, a)).writes, .ok w⟩ := by
  have e1 : liveMarks w.attDirSeg (attNeed w.att) = [] := by
    rw [hs]; unfold liveMarks; dsimp only; rw [if_pos ha]
  have e2 : placed w.attDirSeg w.next (attNeed w.att) (align (attNeed w.att)) = (p, a) := by
    rw [hs]; unfold placed; dsimp only; rw [if_pos ha]
  unfold closeAttDir
  rw [if_pos hl, attDir_live, e1, e2]
  show Plan.bind _ _ = _
  unfold Plan.bind
  dsimp only
  rw [hr]
  dsimp only
  show (⟨([] ++ _) ++ [], Except.ok _⟩ : Plan WState) = _
  rw [List.append_nil, List.nil_append, if_neg (Nat.ne_of_lt hp), ← hs]

/-- The directories known to the writer are in front of the end; an attachment directory is not going to be marked as deleted. -/
structure Calm (w : WState) : Prop where
  sub : ∀ i, w.subDirSeg = some i → i.pos < w.next
  att : ∀ i, w.attDirSeg = some i → i.pos < w.next
  marks : liveMarks w.attDirSeg (attNeed w.att) = []

theorem align_ge (n : Nat) : n ≤ align n := by unfold align; omega

theorem placed_ge (existing : Option SegInfo) (n need own : Nat) (ho : need ≤ own) : need ≤ (placed existing n need own).2 := by
  unfold placed
  split
  · split
    · assumption
    · exact ho
  · exact ho

theorem placed_next (existing : Option SegInfo) (n need own : Nat) (h : ∀ i, existing = some i → i.pos < n) :
    (placed existing n need own).1 < (if (placed existing n need own).1 = n then n + ((placed existing n need own).2 + 32) else n) := by
  have h1 : (placed existing n need own).1 ≤ n := by
    unfold placed
    split
    · rename_i i
      split
      · exact Nat.le_of_lt (h i rfl)
      · exact Nat.le_refl _
    · exact Nat.le_refl _
  split <;> omega

theorem subDone_next (w : WState) : w.next ≤ (subDone w).next := by
  show _ ≤ if _ then _ else _
  split
  · exact Nat.le_add_right ..
  · exact Nat.le_refl _

theorem attDone_next (w : WState) : w.next ≤ (attDone w).next := by
  show _ ≤ if _ then _ else _
  split
  · exact Nat.le_add_right ..
  · exact Nat.le_refl _

theorem Calm.subDone {w : WState} (h : Calm w) : Calm (subDone w) where
  sub := by
    intro i hi
    injection hi with hi
    subst hi
    exact placed_next _ _ _ _ h.sub
  att := fun i hi => Nat.lt_of_lt_of_le (h.att i hi) (subDone_next w)
  marks := h.marks

theorem Calm.attDone {w : WState} (h : Calm w) : Calm (attDone w) where
  sub := fun i hi => Nat.lt_of_lt_of_le (h.sub i hi) (attDone_next w)
  att := by
    intro i hi
    injection hi with hi
    subst hi
    exact placed_next _ _ _ _ h.att
  marks := by
    show liveMarks (some _) (attNeed w.att) = []
    unfold liveMarks
    dsimp only
    rw [if_pos (show attNeed w.att ≤ (attPlace w).2 from placed_ge _ _ _ _ (align_ge _))]

theorem close_info {s u : Sys} {fs fs' : List Fault} {e : WErr} (h : stepOp s .close fs = (u, some e, fs')) :
    u = s ∨ ∃ i fs1, s.w.info = some i ∧ runPhases [closeSubDir, closeAttDir, closeHeader] s fs1 = (u, some e, fs') := by
  have h' : runPhases closePhases s fs = (u, some e, fs') := h
  unfold closePhases at h'
  cases hi : s.w.info with
  | none =>
    left
    rcases run_throws h' with ⟨P, h1, rfl⟩ | ⟨w, fs1, h1, _⟩
    · rw [hi] at h1
      cases P with
      | nil => rfl
      | cons x P => obtain ⟨v, hv, _⟩ := h1 x (List.mem_cons_self ..); cases hv
    · rw [hi] at h1
      cases h1
  | some i =>
    rcases run_throws h' with ⟨P, h1, rfl⟩ | ⟨w, fs1, h1, h2⟩
    · left
      rw [hi] at h1
      cases P with
      | nil => rfl
      | cons x P => obtain ⟨v, hv, _⟩ := h1 x (List.mem_cons_self ..); cases hv
    · right
      rw [hi] at h1 h2
      injection h1 with h1
      subst h1
      exact ⟨i, fs1, rfl, h2⟩

theorem step_close_phases {w : WState} {d : Disk} {i : WriterInfo} (h : w.info = some i) :
    step ⟨w, d⟩ .close = ((runPhases [closeSubDir, closeAttDir, closeHeader] ⟨w, d⟩ []).1, (runPhases [closeSubDir, closeAttDir, closeHeader] ⟨w, d⟩ []).2.1) := by
  unfold step stepOp WOp.phases closePhases
  dsimp only
  rw [run_pass]
  rw [h]
  rfl

theorem close_again' {s u : Sys} {fs fs' : List Fault} {e : WErr} (h : stepOp s .close fs = (u, some e, fs')) (hc : Calm s.w) :
    step u .close = step s .close ∧ Calm u.w := by
  rcases close_info h with rfl | ⟨i, fs1, hi, h⟩
  · exact ⟨rfl, hc⟩
  obtain ⟨w, d⟩ := s
  dsimp only at hi hc
  have hsub := closeSubDir_writes w
  rcases run_throws h with ⟨P, h1, rfl⟩ | ⟨w1, fs2, h1, h2⟩
  · refine ⟨?_, hc⟩
    rw [step_close_phases hi, step_close_phases hi, run_disk (redo1 h1 d)]
  dsimp only at h1 h2
  obtain ⟨rfl, hr⟩ := hsub.2 _ h1
  have hc1 := hc.subDone
  have hneed : subNeed (subDone w).dir.subBlks ≤ (subPlace w).2 := placed_ge _ _ _ _ (Nat.le_refl _)
  -- the sub-block directory made again
  have hset : closeSubDir (subDone w) = ⟨(subTail w.dir.subBlks (subPlace w)).writes, .ok (subDone w)⟩ :=
    closeSubDir_settled (w := subDone w) rfl hneed (hc1.sub _ rfl) hr
  have hi1 : (subDone w).info = some i := hi
  generalize hS : (subTail w.dir.subBlks (subPlace w)).writes = S at *
  generalize hM : liveMarks w.subDirSeg (subNeed w.dir.subBlks) = M at *
  have hs : step ⟨w, d⟩ .close = ((runPhases [closeAttDir, closeHeader] ⟨subDone w, apply (apply d M) S⟩ []).1,
      (runPhases [closeAttDir, closeHeader] ⟨subDone w, apply (apply d M) S⟩ []).2.1) := by
    rw [step_close_phases hi, runPhases_ok (ws := M ++ S) (w := subDone w) (by rw [← hsub.1, ← h1]), apply_append]
  rw [hsub.1, apply_append] at h2
  rcases run_throws h2 with ⟨P, h3, rfl⟩ | ⟨w2, fs3, h3, h4⟩
  · refine ⟨?_, hc1⟩
    rw [hs, step_close_phases hi1, runPhases_ok (ws := S) (w := subDone w) hset]
    dsimp only
    rw [run_disk (redo2 h3 _)]
  dsimp only at h3 h4
  have hatt := closeAttDir_writes hc1.marks _ h3
  rcases run_throws h4 with ⟨P, h5, rfl⟩ | ⟨w3, fs4, h5, h6⟩
  · dsimp only at h5
    have hs' : step ⟨w, d⟩ .close = ((runPhases [closeHeader] ⟨w2, apply (apply (apply d M) S) (closeAttDir (subDone w)).writes⟩ []).1,
        (runPhases [closeHeader] ⟨w2, apply (apply (apply d M) S) (closeAttDir (subDone w)).writes⟩ []).2.1) := by
      rw [hs, runPhases_ok (ws := (closeAttDir (subDone w)).writes) (w := w2) (by rw [← h3])]
    have hredo : ∀ A, apply (apply (apply (apply (apply (apply (apply d M) S) A) P) S) A) (closeHeader w2).writes =
        apply (apply (apply (apply d M) S) A) (closeHeader w2).writes := by
      intro A
      exact redo3 (m := []) h5 (apply d M) (fun i hi => by obtain ⟨_, hw, _⟩ := hi; cases hw)
    rcases hatt with ⟨hl, rfl, hA, hra⟩ | ⟨hl, rfl, hA⟩
    · have hc2 := hc1.attDone
      refine ⟨?_, hc2⟩
      have hset2 : closeSubDir (attDone (subDone w)) = ⟨S, .ok (attDone (subDone w))⟩ := by
        rw [← hS]
        exact closeSubDir_settled (w := attDone (subDone w)) rfl hneed (hc2.sub _ rfl) hr
      have hset3 : closeAttDir (attDone (subDone w)) = ⟨(closeAttDir (subDone w)).writes, .ok (attDone (subDone w))⟩ := by
        rw [hA]
        exact closeAttDir_settled (w := attDone (subDone w)) hl rfl (placed_ge _ _ _ _ (align_ge _)) (hc2.att _ rfl) hra
      have hi2 : (attDone (subDone w)).info = some i := hi
      rw [hs', step_close_phases hi2, runPhases_ok (ws := S) (w := attDone (subDone w)) hset2,
        runPhases_ok (ws := (closeAttDir (subDone w)).writes) (w := attDone (subDone w)) hset3]
      dsimp only
      rw [run_disk (hredo _)]
    · refine ⟨?_, hc1⟩
      have hset3 : closeAttDir (subDone w) = ⟨(closeAttDir (subDone w)).writes, .ok (subDone w)⟩ := by rw [← h3]
      rw [hs', step_close_phases hi1, runPhases_ok (ws := S) (w := subDone w) hset,
        runPhases_ok (ws := (closeAttDir (subDone w)).writes) (w := subDone w) hset3]
      dsimp only
      rw [run_disk (hredo _)]
  · rw [runPhases] at h6; injection h6 with _ h6; injection h6 with h6 _; cases h6

/-! ## Insisting -/

theorem insist_of {op : WOp} (C : WState → Prop) (again : ∀ {s u : Sys} {fs fs' : List Fault} {e : WErr}, stepOp s op fs = (u, some e, fs') → C s.w →
    step u op = step s op ∧ C u.w) : ∀ (tries : List (List Fault)) (s : Sys), C s.w → insist s op tries = step s op := by
  intro tries
  induction tries with
  | nil => intro s _; rfl
  | cons fs tries ih =>
    intro s hs
    unfold insist
    dsimp only
    rcases hr : stepOp s op fs with ⟨u, e, fs'⟩
    dsimp only
    split
    · rename_i he
      subst he
      obtain ⟨h1, h2⟩ := again hr hs
      rw [ih u h2, h1]
    · rename_i he
      have := run_same _ he hr
      unfold step stepOp
      dsimp only
      rw [this]

theorem insist_meta (m : MetaInfo) (tries : List (List Fault)) (s : Sys) : insist s (.writeMetadata m) tries = step s (.writeMetadata m) :=
  insist_of (fun _ => True) (fun h _ => ⟨meta_again h, trivial⟩) tries s trivial

theorem insist_close (tries : List (List Fault)) (s : Sys) (h : Calm s.w) : insist s .close tries = step s .close :=
  insist_of Calm (fun h hc => close_again' h hc) tries s h

theorem repeated_of {op : WOp} (C : WState → Prop) (again : ∀ {s u : Sys} {fs fs' : List Fault} {e : WErr}, stepOp s op fs = (u, some e, fs') → C s.w →
    step u op = step s op ∧ C u.w) {s t : Sys} (h : Repeated op s t) (hs : C s.w) : step t op = step s op ∧ C t.w := by
  induction h with
  | never => exact ⟨rfl, hs⟩
  | again _ h ih =>
    obtain ⟨h1, h2⟩ := again h ih.2
    exact ⟨h1.trans ih.1, h2⟩

theorem sessionOn_eq : ∀ (cs : List (WOp × List (List Fault))) (s : Sys), AddsDoNotFail cs → sessionOn s cs = session s (cs.map Prod.fst) := by
  intro cs
  induction cs with
  | nil => intro s _; rfl
  | cons c cs ih =>
    intro s h
    have hc := h c (List.mem_cons_self ..)
    have he : insist s c.1 c.2 = step s c.1 := by
      obtain ⟨op, tries⟩ := c
      cases op with
      | create i => exact hc.elim
      | close => exact hc.elim
      | addSubBlock a => dsimp only at hc; subst hc; rfl
      | addAttachment a => dsimp only at hc; subst hc; rfl
      | writeMetadata m => exact insist_meta m tries s
    unfold sessionOn
    rw [List.map_cons]
    unfold session
    dsimp only
    rw [he, ih _ (fun x hx => h x (List.mem_cons_of_mem _ hx))]

/-! ## The state of the writer before `Close` -/

/-- The directories are not yet written. -/
structure Fresh (w : WState) : Prop where
  sub : ∀ i, w.subDirSeg = some i → i.pos < w.next
  att : ∀ i, w.attDirSeg = some i → i.pos < w.next ∧ i.deleted = true

theorem Fresh.calm {w : WState} (h : Fresh w) : Calm w where
  sub := h.sub
  att := fun i hi => (h.att i hi).1
  marks := by
    unfold liveMarks
    split
    · rename_i i hi
      split
      · rfl
      · unfold markUnused
        dsimp only
        rw [if_neg (fun hc => by
          have h1 := hc.2.2
          unfold markIfLive at h1
          rw [(h.att i hi).2] at h1
          cases h1)]
        rfl
    · rfl

/-- The directories stay where they are, and the end does not go back. -/
def Ahead (w w' : WState) : Prop := w'.subDirSeg = w.subDirSeg ∧ w'.attDirSeg = w.attDirSeg ∧ w.next ≤ w'.next

theorem Fresh.ahead {w w' : WState} (h : Fresh w) (ha : Ahead w w') : Fresh w' where
  sub := fun i hi => Nat.lt_of_lt_of_le (h.sub i (by rw [← ha.1, hi])) ha.2.2
  att := fun i hi => by
    have := h.att i (by rw [← ha.2.1, hi])
    exact ⟨Nat.lt_of_lt_of_le this.1 ha.2.2, this.2⟩

theorem run_ahead : ∀ (ps : List Phase), (∀ p ∈ ps, ∀ w w', (p w).result = .ok w' → Ahead w w') → ∀ (s : Sys) (fs : List Fault), Ahead s.w (runPhases ps s fs).1.w := by
  intro ps
  induction ps with
  | nil => intro _ s fs; exact ⟨rfl, rfl, Nat.le_refl _⟩
  | cons p ps ih =>
    intro h s fs
    unfold runPhases
    dsimp only
    split
    · split
      · rename_i w hw
        have h1 := h p (List.mem_cons_self ..) _ _ hw
        have h2 := ih (fun q hq => h q (List.mem_cons_of_mem _ hq)) ⟨w, (performWrites s.disk (p s.w).writes fs).1⟩ (performWrites s.disk (p s.w).writes fs).2.2
        exact ⟨h2.1.trans h1.1, h2.2.1.trans h1.2.1, Nat.le_trans h1.2.2 h2.2.2⟩
      · exact ⟨rfl, rfl, Nat.le_refl _⟩
    · exact ⟨rfl, rfl, Nat.le_refl _⟩

theorem bind_ok {α β : Type} {p : Plan α} {f : α → Plan β} {b : β} (h : (p >>= f).result = .ok b) : ∃ a, p.result = .ok a ∧ (f a).result = .ok b := by
  rw [bind_result] at h
  cases hp : p.result with
  | error e => rw [hp] at h; cases h
  | ok a => rw [hp] at h; exact ⟨a, rfl, h⟩

theorem phases_ahead {op : WOp} (h1 : ∀ i, op ≠ .create i) (h2 : op ≠ .close) : ∀ p ∈ op.phases, ∀ w w', (p w).result = .ok w' → Ahead w w' := by
  intro p hp w w' hw
  cases op with
  | create i => exact absurd rfl (h1 i)
  | close => exact absurd rfl h2
  | addSubBlock a =>
    unfold WOp.phases addSubBlockPhases at hp
    rcases List.mem_cons.1 hp with rfl | hp
    · dsimp only at hw
      split at hw
      · cases hw
      · split at hw
        · cases hw
        · split at hw
          · cases hw
          · split at hw
            · cases hw
            · injection hw with hw; subst hw; exact ⟨rfl, rfl, Nat.le_refl _⟩
    · rw [List.mem_singleton] at hp
      subst hp
      obtain ⟨n, _, hw⟩ := bind_ok hw
      injection hw with hw; subst hw; exact ⟨rfl, rfl, Nat.le_add_right ..⟩
  | addAttachment a =>
    unfold WOp.phases addAttachmentPhases at hp
    rcases List.mem_cons.1 hp with rfl | hp
    · dsimp only at hw
      split at hw
      · cases hw
      · split at hw
        · cases hw
        · split at hw
          · cases hw
          · injection hw with hw; subst hw; exact ⟨rfl, rfl, Nat.le_refl _⟩
    · rw [List.mem_singleton] at hp
      subst hp
      obtain ⟨n, _, hw⟩ := bind_ok hw
      injection hw with hw; subst hw; exact ⟨rfl, rfl, Nat.le_add_right ..⟩
  | writeMetadata m =>
    unfold WOp.phases writeMetadataPhases at hp
    rw [List.mem_singleton] at hp
    subst hp
    dsimp only at hw
    split at hw
    · cases hw
    · split at hw
      · cases hw
      · obtain ⟨⟨pos, alloc⟩, _, hw⟩ := bind_ok hw
        injection hw with hw
        subst hw
        refine ⟨rfl, rfl, ?_⟩
        show _ ≤ if _ then _ else _
        split
        · exact Nat.le_add_right ..
        · exact Nat.le_refl _

theorem create_fresh (dup : Bool) (d : Disk) (info : WriterInfo) : Fresh (step ⟨WState.init dup, d⟩ (.create info)).1.w := by
  have e : (step ⟨WState.init dup, d⟩ (.create info)).1.w = (tracePhases (createPhases info) (WState.init dup)).1 := by rw [step_trace]; rfl
  rw [e]
  unfold createPhases
  rw [tracePhases_ok (w' := { WState.init dup with info := some info }) rfl, tracePhases_ok (w' := { WState.init dup with info := some info, next := 544 }) rfl]
  dsimp only
  generalize hw : ({ WState.init dup with info := some info, next := 544 } : WState) = w
  have hw1 : w.subDirSeg = none := by rw [← hw]; rfl
  have hw2 : w.attDirSeg = none := by rw [← hw]; rfl
  have step3 : ∃ w', ((match info.reservedMetadata with | some s => reserveMetadata s w | none => return w : Plan WState)).result = .ok w' ∧
      w'.subDirSeg = none ∧ w'.attDirSeg = none := by
    cases info.reservedMetadata with
    | none => exact ⟨w, rfl, hw1, hw2⟩
    | some n => exact ⟨_, rfl, hw1, hw2⟩
  obtain ⟨w3, e3, k1, k2⟩ := step3
  rw [tracePhases_ok e3]
  dsimp only
  have step4 : ∃ w', ((match info.reservedSubDir with | some s => reserveSubDir info s w3 | none => return w3 : Plan WState)).result = .ok w' ∧
      (∀ i, w'.subDirSeg = some i → i.pos < w'.next) ∧ w'.attDirSeg = none := by
    cases info.reservedSubDir with
    | none => exact ⟨w3, rfl, (by intro i hi; rw [k1] at hi; cases hi), k2⟩
    | some n =>
      refine ⟨_, rfl, ?_, k2⟩
      intro i hi
      injection hi with hi
      subst hi
      exact Nat.lt_add_of_pos_right (by omega)
  obtain ⟨w4, e4, k3, k4⟩ := step4
  rw [tracePhases_ok e4]
  dsimp only
  have step5 : ∃ w', ((match info.reservedAttDir with | some s => reserveAttDir s w4 | none => return w4 : Plan WState)).result = .ok w' ∧ Fresh w' := by
    cases info.reservedAttDir with
    | none => exact ⟨w4, rfl, k3, (by intro i hi; rw [k4] at hi; cases hi)⟩
    | some n =>
      refine ⟨_, rfl, ?_, ?_⟩
      · intro i hi
        exact Nat.lt_of_lt_of_le (k3 i hi) (Nat.le_add_right ..)
      · intro i hi
        injection hi with hi
        subst hi
        exact ⟨Nat.lt_add_of_pos_right (by omega), rfl⟩
  obtain ⟨w5, e5, k5⟩ := step5
  rw [tracePhases_ok e5]
  exact k5

theorem session_fresh : ∀ (ops : List WOp), (∀ op ∈ ops, (∀ i, op ≠ .create i) ∧ op ≠ .close) → ∀ s : Sys, Fresh s.w → Fresh (session s ops).1.w := by
  intro ops
  induction ops with
  | nil => intro _ s h; exact h
  | cons op ops ih =>
    intro ho s h
    have := ho op (List.mem_cons_self ..)
    unfold session
    dsimp only
    exact ih (fun x hx => ho x (List.mem_cons_of_mem _ hx)) _ (h.ahead (run_ahead _ (phases_ahead this.1 this.2) s []))

theorem writeDocOn_eq (dup : Bool) (d : Disk) (info : WriterInfo) {cs : List (WOp × List (List Fault))} (close : List (List Fault)) (h : AddsDoNotFail cs) :
    writeDocOn dup d info cs close = writeDoc dup d info (cs.map Prod.fst) := by
  unfold writeDocOn writeDoc
  dsimp only
  rw [sessionOn_eq cs _ h, insist_close]
  apply Fresh.calm
  apply session_fresh
  · intro op hop
    obtain ⟨c, hc, rfl⟩ := List.mem_map.1 hop
    have := h c hc
    refine ⟨?_, ?_⟩
    · intro i hi; rw [hi] at this; exact this
    · intro hi; rw [hi] at this; exact this
  · exact create_fresh dup d info

end Verif.Czi
