import Verif.Proof.Crash2

/-! What a failed add leaves behind. -/

namespace Verif.Czi

open Spec

attribute [local irreducible] zeros

theorem performWrites_low {lo : Nat} : ∀ (ws : List Write) (d : Disk) (fs : List Fault), (∀ w ∈ ws, lo ≤ w.1) →
    ∃ ws', (performWrites d ws fs).1 = apply d ws' ∧ ∀ w ∈ ws', lo ≤ w.1 := by
  intro ws
  induction ws with
  | nil => intro d fs _; exact ⟨[], by cases fs <;> rfl, by simp⟩
  | cons w ws ih =>
    intro d fs h
    have hr : ∀ fs', ∃ ws', (performWrites (d.write w.1 w.2) ws fs').1 = apply d ws' ∧ ∀ w ∈ ws', lo ≤ w.1 := by
      intro fs'
      obtain ⟨ws', e, k⟩ := ih (d.write w.1 w.2) fs' (fun x hx => h x (List.mem_cons_of_mem _ hx))
      refine ⟨w :: ws', e, ?_⟩
      intro x hx
      rcases List.mem_cons.1 hx with rfl | hx
      · exact h _ (List.mem_cons_self ..)
      · exact k x hx
    cases fs with
    | nil => exact hr []
    | cons f fs =>
      cases f with
      | none => exact hr fs
      | some j =>
        refine ⟨[(w.1, w.2.take j)], rfl, ?_⟩
        intro x hx
        rw [List.mem_singleton.1 hx]
        exact h w (List.mem_cons_self ..)

theorem performWrites_none (d : Disk) (fs : List Fault) : performWrites d [] fs = (d, true, fs) := by cases fs <;> rfl

/-- An add that fails after the first phase. -/
theorem failed_second {p : Phase} {q : WState → Plan WState} {s : Sys} {fs : List Fault} {e : WErr} {lo : Nat}
    (hp : (p s.w).writes = []) (herr : (p s.w).result ≠ .error e) (hio : e ≠ .ioError → True)
    (hq : ∀ w, (p s.w).result = .ok w → ∀ x ∈ (q w).writes, lo ≤ x.1)
    (he : (runPhases [p, q] s fs).2.1 = some e) :
    ∃ w ws, (p s.w).result = .ok w ∧ (runPhases [p, q] s fs).1 = ⟨w, apply s.disk ws⟩ ∧ ∀ x ∈ ws, lo ≤ x.1 := by
  unfold runPhases at he ⊢
  dsimp only at he ⊢
  rw [hp, performWrites_none] at he ⊢
  dsimp only at he ⊢
  rw [if_pos rfl] at he ⊢
  cases hr : (p s.w).result with
  | error e' =>
    rw [hr] at he
    injection he with he
    rw [hr, he] at herr
    exact absurd rfl herr
  | ok w =>
    rw [hr] at he
    dsimp only at he ⊢
    obtain ⟨ws', k1, k2⟩ := performWrites_low (q w).writes s.disk fs (hq w hr)
    unfold runPhases at he ⊢
    dsimp only at he ⊢
    rcases hpw : performWrites s.disk (q w).writes fs with ⟨d, ok, fs'⟩
    rw [hpw] at he k1
    dsimp only at he k1 ⊢
    cases ok with
    | true =>
      rw [if_pos rfl] at he ⊢
      cases hqr : (q w).result with
      | ok w' => rw [hqr] at he; simp only [runPhases] at he; cases he
      | error e' => exact ⟨w, ws', rfl, by rw [k1], k2⟩
    | false =>
      rw [if_neg (by decide)] at he ⊢
      exact ⟨w, ws', rfl, by rw [k1], k2⟩

/-- A sub-block whose callback fails, or whose writing fails: the entry is in the directory, and only bytes behind all segments have changed. -/
theorem add_fails {s : Sys} {a : AddInfo} {fs : List Fault} {e : WErr} (hc : e = .getDataCall ∨ e = .ioError)
    (he : (stepOp s (.addSubBlock a) fs).2.1 = some e) :
    (s.w.dir.tryAdd (a.entry s.w.next)).2 = true ∧
    ∃ ws, (stepOp s (.addSubBlock a) fs).1 = ⟨{ s.w with dir := (s.w.dir.tryAdd (a.entry s.w.next)).1 }, apply s.disk ws⟩ ∧ ∀ x ∈ ws, s.w.next ≤ x.1 := by
  unfold stepOp WOp.phases addSubBlockPhases at he ⊢
  dsimp only at he ⊢
  generalize hp : (fun w : WState => _ : Phase) = p at he ⊢
  have hcase : ((∃ e', p s.w = ⟨[], .error e'⟩ ∧ e' ≠ e) ∨
      ((s.w.dir.tryAdd (a.entry s.w.next)).2 = true ∧ p s.w = ⟨[], .ok { s.w with dir := (s.w.dir.tryAdd (a.entry s.w.next)).1 }⟩)) := by
    rw [← hp]
    dsimp only
    split
    · exact .inl ⟨_, rfl, by rcases hc with rfl | rfl <;> decide⟩
    · split
      · exact .inl ⟨_, rfl, by rcases hc with rfl | rfl <;> decide⟩
      · split
        · rename_i hco
          refine .inl ⟨_, rfl, ?_⟩
          unfold coordErr at hco
          split at hco <;> cases hco <;> rcases hc with rfl | rfl <;> decide
        · split
          · exact .inl ⟨_, rfl, by rcases hc with rfl | rfl <;> decide⟩
          · rename_i hb
            exact .inr ⟨by simpa using hb, rfl⟩
  rcases hcase with ⟨e', h1, h2⟩ | ⟨h1, h2⟩
  · exfalso
    unfold runPhases at he
    dsimp only at he
    rw [h1] at he
    simp only [performWrites_none, if_true] at he
    injection he with he
    exact h2 he
  · refine ⟨h1, ?_⟩
    obtain ⟨w, ws, k1, k2, k3⟩ := failed_second (lo := s.w.next) (by rw [h2]) (by rw [h2]; simp) (fun _ => trivial) (by
      intro w hw x hx
      rw [h2] at hw
      injection hw with hw
      subst hw
      exact Plan.low_bind (writeSubBlock_low _ _ _) (fun _ _ => Plan.low_pure _ _) x hx) he
    rw [h2] at k1
    injection k1 with k1
    subst k1
    exact ⟨ws, k2, k3⟩

/-- The same for an attachment. -/
theorem addAtt_fails {s : Sys} {a : AddAtt} {fs : List Fault} (he : (stepOp s (.addAttachment a) fs).2.1 = some .ioError) :
    ∃ ws, (stepOp s (.addAttachment a) fs).1 = ⟨{ s.w with att := s.w.att ++ [a.entry s.w.next] }, apply s.disk ws⟩ ∧ ∀ x ∈ ws, s.w.next ≤ x.1 := by
  unfold stepOp WOp.phases addAttachmentPhases at he ⊢
  dsimp only at he ⊢
  generalize hp : (fun w : WState => _ : Phase) = p at he ⊢
  have hcase : ((∃ e', p s.w = ⟨[], .error e'⟩ ∧ e' ≠ .ioError) ∨ p s.w = ⟨[], .ok { s.w with att := s.w.att ++ [a.entry s.w.next] }⟩) := by
    rw [← hp]
    dsimp only
    split
    · exact .inl ⟨_, rfl, by decide⟩
    · split
      · exact .inl ⟨_, rfl, by decide⟩
      · unfold tryAddAtt
        split
        · exact .inl ⟨_, rfl, by decide⟩
        · rename_i hx
          split at hx
          · cases hx
          · injection hx with hx
            subst hx
            exact .inr rfl
  rcases hcase with ⟨e', h1, h2⟩ | h2
  · exfalso
    unfold runPhases at he
    dsimp only at he
    rw [h1] at he
    simp only [performWrites_none, if_true] at he
    injection he with he
    exact h2 he
  · obtain ⟨w, ws, k1, k2, k3⟩ := failed_second (lo := s.w.next) (by rw [h2]) (by rw [h2]; simp) (fun _ => trivial) (by
      intro w hw x hx
      rw [h2] at hw
      injection hw with hw
      subst hw
      exact Plan.low_bind (writeAttachment_low _ _ _) (fun _ _ => Plan.low_pure _ _) x hx) he
    rw [h2] at k1
    injection k1 with k1
    subst k1
    exact ⟨ws, k2, k3⟩

/-- Bytes written behind all segments do not matter. -/
theorem InvPhys.garbage {s s' : Sys} {info : WriterInfo} {segs : List Seg} {mt : Option MetaInfo} (h : InvPhys s info segs mt) {ws : List Write}
    (hd : s'.disk = apply s.disk ws) (hw : ∀ x ∈ ws, s.w.next ≤ x.1) (h1 : s'.w.info = s.w.info) (h2 : s'.w.next = s.w.next) (h3 : s'.w.metaSeg = s.w.metaSeg)
    (h4 : s'.w.subDirSeg = s.w.subDirSeg) (h5 : s'.w.attDirSeg = s.w.attDirSeg) : InvPhys s' info segs mt := by
  have hle := h.chain.le
  obtain ⟨hi, hwi⟩ : ∃ hi, WithinW s.w.next hi ws := by
    clear hd
    induction ws with
    | nil => exact ⟨s.w.next, by intro w hw; cases hw⟩
    | cons w ws ih =>
      obtain ⟨hi, k⟩ := ih (fun x hx => hw x (List.mem_cons_of_mem _ hx))
      refine ⟨max hi (w.1 + w.2.length), ?_⟩
      intro x hx
      rcases List.mem_cons.1 hx with rfl | hx
      · exact ⟨hw _ (List.mem_cons_self ..), by omega⟩
      · have := k x hx
        exact ⟨this.1, by omega⟩
  exact {
    operational := by rw [h1]; exact h.operational
    header := by rw [hd]; exact h.header.frame hwi (.inl (by rw [fileHeader_length]; omega))
    chain := by rw [h2]; exact h.chain
    onDisk := by rw [hd]; exact h.onDisk.outside h.chain hwi (.inl (Nat.le_refl _))
    metaSeg := by rw [h3]; exact h.metaSeg
    metaNone := by rw [h3]; exact h.metaNone
    subDirSeg := by rw [h4]; exact h.subDirSeg
    attDirSeg := by rw [h5]; exact h.attDirSeg }

theorem _root_.Verif.Spec.AddFits.entryFits {a : AddInfo} (h : AddFits a) {pos : Nat} (hp : pos < 2 ^ 64) : EntryFits (a.entry pos) where
  coordinate := h.coordinate
  mIndex := by
    show IsInt32 (a.mIndex.getD intMin)
    cases hm : a.mIndex with
    | none => constructor <;> decide
    | some m => exact h.mIndex m hm
  x := h.x
  y := h.y
  width := h.logicalWidth
  height := h.logicalHeight
  storedWidth := h.physicalWidth
  storedHeight := h.physicalHeight
  pixelType := by
    show IsInt32 (intFromPixelType a.pixelType)
    cases a.pixelType <;> constructor <;> decide
  filePosition := hp
  compression := h.compression

theorem InvCore.fits {s : Sys} {info : WriterInfo} {segs : List Seg} {subs : List AddInfo} {atts : List AddAtt} {mt : Option MetaInfo}
    (h : InvCore s info segs subs atts mt) (hn : s.w.next < 2 ^ 60) : ∀ e ∈ s.w.dir.subBlks, EntryFits e := by
  intro e he
  have he := h.dir.mem_iff.1 he
  rw [← subPairs_entry, List.mem_map] at he
  obtain ⟨p, hp, rfl⟩ := he
  obtain ⟨al, hg⟩ := subPairs_mem hp
  have := h.chain.mem hg
  refine (h.subsOk p.1 ?_).1.entryFits (by dsimp only at this; omega)
  rw [← h.subs_eq, ← subPairs_fst]
  exact List.mem_map_of_mem hp

theorem InvCore.dir_length {s : Sys} {info : WriterInfo} {segs : List Seg} {subs : List AddInfo} {atts : List AddAtt} {mt : Option MetaInfo}
    (h : InvCore s info segs subs atts mt) : s.w.dir.subBlks.length = subs.length := by
  rw [h.dir.length_eq, ← h.subs_eq]
  refine filterMap_length_eq ?_ _
  intro g
  unfold Seg.subEntry Seg.addInfo
  cases g.owner <;> rfl

theorem InvCore.att_length {s : Sys} {info : WriterInfo} {segs : List Seg} {subs : List AddInfo} {atts : List AddAtt} {mt : Option MetaInfo}
    (h : InvCore s info segs subs atts mt) : s.w.att.length = atts.length := by
  rw [h.att, ← h.atts_eq]
  refine filterMap_length_eq ?_ _
  intro g
  unfold Seg.attEntry Seg.addAtt
  cases g.owner <;> rfl

theorem InvCore.att_pos {s : Sys} {info : WriterInfo} {segs : List Seg} {subs : List AddInfo} {atts : List AddAtt} {mt : Option MetaInfo}
    (h : InvCore s info segs subs atts mt) (hn : s.w.next < 2 ^ 60) : ∀ e ∈ s.w.att, e.filePosition < 2 ^ 64 := by
  intro e he
  rw [h.att, ← attPairs_entry, List.mem_map] at he
  obtain ⟨p, hp, rfl⟩ := he
  obtain ⟨al, hg⟩ := attPairs_mem hp
  have := h.chain.mem hg
  dsimp only at this
  show p.2 < 2 ^ 64
  omega

/-- The writer between `Create` and `Close`. -/
theorem opened_inv (dup : Bool) (d0 : Disk) (info : WriterInfo) (ops : List WOp) (hi : InfoOk info) (hops : OpsOk ops) :
    ∃ segs, Inv (opened dup d0 info ops).1 info segs (subsOf (opened dup d0 info ops).2) (attsOf (opened dup d0 info ops).2) (lastMeta (opened dup d0 info ops).2) ∧
      (opened dup d0 info ops).1.w.next < 2 ^ 60 ∧ (opened dup d0 info ops).2.length ≤ ops.length := by
  obtain ⟨s, segs0, e1, hinv, hn, _⟩ := step_create dup d0 info hi
  have hlen := hops.count
  have htot := hops.total
  have hos : opsSize ops = (ops.map opBytes).sum + 4096 * ops.length := rfl
  obtain ⟨segs, hinv2, hn2, hl2⟩ := session_inv ops hinv hops.each (by omega)
  unfold opened
  rw [e1]
  rw [List.nil_append, List.nil_append, Option.or_none] at hinv2
  exact ⟨segs, hinv2, by dsimp only; omega, by dsimp only; omega⟩

end Verif.Czi
