import Verif.Proof.DocMore

/-! Where the writer writes, whatever it is given. -/

namespace Verif.Czi

open Spec

attribute [local irreducible] zeros

/-- Nothing is written below `lo`. -/
def Plan.Low {α : Type} (lo : Nat) (p : Plan α) : Prop := ∀ w ∈ p.writes, lo ≤ w.1

theorem Plan.low_pure {α : Type} (lo : Nat) (a : α) : Plan.Low lo (Pure.pure a : Plan α) := by
  intro w hw; cases hw

theorem Plan.low_throw {α : Type} (lo : Nat) (e : WErr) : Plan.Low lo (Plan.throw e : Plan α) := by
  intro w hw; cases hw

theorem Plan.low_write {lo p : Nat} {l : List UInt8} (h : lo ≤ p) : Plan.Low lo (Plan.write p l) := by
  intro w hw
  rcases List.mem_singleton.1 hw with rfl
  exact h

theorem Plan.low_bind {α β : Type} {lo : Nat} {p : Plan α} {f : α → Plan β} (h1 : p.Low lo) (h2 : ∀ a, p.result = .ok a → (f a).Low lo) :
    Plan.Low lo (p >>= f) := by
  show Plan.Low lo (Plan.bind p f)
  unfold Plan.bind
  split
  · exact h1
  · rename_i a ha
    intro w hw
    rcases List.mem_append.1 hw with hw | hw
    · exact h1 w hw
    · exact h2 a ha w hw

theorem Plan.low_mono {α : Type} {lo lo' : Nat} {p : Plan α} (h : p.Low lo) (hl : lo' ≤ lo) : p.Low lo' :=
  fun w hw => Nat.le_trans hl (h w hw)

theorem zeroLoop_low (p : Nat) : ∀ (fuel i c : Nat) (r : List Write × Nat), zeroLoop p fuel i c = some r → ∀ w ∈ r.1, p ≤ w.1 := by
  intro fuel
  induction fuel with
  | zero => intro i c r h; cases h
  | succ fuel ih =>
    intro i c r h
    unfold zeroLoop at h
    split at h
    · rw [Option.map_eq_some_iff] at h
      obtain ⟨r', hr', e⟩ := h
      subst e
      intro w hw
      rcases List.mem_cons.1 hw with rfl | hw
      · dsimp only
        omega
      · exact ih _ _ _ hr' w hw
    · injection h with h
      subst h
      intro w hw
      cases hw

theorem writeZeroes_low (p n : Nat) : (writeZeroes p n).Low p := by
  unfold writeZeroes
  split
  · rename_i ws k h
    exact zeroLoop_low p _ _ _ _ h
  · intro w hw; cases hw

theorem payloadLoop_low (p size : Nat) (null : Bool) : ∀ (chunks : List (List UInt8)) (off : Nat), (payloadLoop p size null off chunks).Low p := by
  intro chunks
  induction chunks with
  | nil =>
    intro off
    unfold payloadLoop
    split
    · exact Plan.low_throw _ _
    · split
      · exact Plan.low_bind (Plan.low_mono (writeZeroes_low _ _) (by omega)) (fun _ _ => Plan.low_pure _ _)
      · exact Plan.low_pure _ _
  | cons c cs ih =>
    intro off
    unfold payloadLoop
    refine Plan.low_bind (Plan.low_write (by omega)) ?_
    intro _ _
    split
    · exact Plan.low_pure _ _
    · exact ih _

theorem writePayload_low (p size : Nat) (src : Option Source) : (writePayload p size src).Low p := by
  unfold writePayload
  split
  · split
    · exact payloadLoop_low _ _ _ _ _
    · exact Plan.low_throw _ _
  · exact Plan.low_pure _ _

theorem writeSubBlock_low (pos : Nat) (sp : Option Nat) (a : AddInfo) : (writeSubBlock pos sp a).Low pos := by
  unfold writeSubBlock
  dsimp only
  split
  · exact Plan.low_bind (Plan.low_throw _ _) (fun _ h => by cases h)
  split
  · exact Plan.low_bind (Plan.low_throw _ _) (fun _ h => by cases h)
  refine Plan.low_bind ?_ (fun _ _ => ?_)
  · split
    · split
      · exact Plan.low_throw _ _
      · exact Plan.low_pure _ _
    · exact Plan.low_pure _ _
  refine Plan.low_bind (Plan.low_write (Nat.le_refl _)) (fun _ _ => ?_)
  refine Plan.low_bind (Plan.low_mono (writePayload_low _ _ _) (by omega)) (fun _ _ => ?_)
  refine Plan.low_bind (Plan.low_mono (writePayload_low _ _ _) (by omega)) (fun _ _ => ?_)
  refine Plan.low_bind (Plan.low_mono (writePayload_low _ _ _) (by omega)) (fun _ _ => ?_)
  split
  · exact Plan.low_bind (Plan.low_mono (writeZeroes_low _ _) (by omega)) (fun _ _ => Plan.low_pure _ _)
  · exact Plan.low_pure _ _

theorem writeAttachment_low (pos : Nat) (sp : Option Nat) (a : AddAtt) : (writeAttachment pos sp a).Low pos := by
  unfold writeAttachment
  refine Plan.low_bind (Plan.low_write (Nat.le_refl _)) (fun _ _ => ?_)
  refine Plan.low_bind (Plan.low_write (by omega)) (fun _ _ => ?_)
  dsimp only
  split
  · exact Plan.low_bind (Plan.low_mono (writeZeroes_low _ _) (by omega)) (fun _ _ => Plan.low_pure _ _)
  · exact Plan.low_pure _ _

theorem markUnused_low {lo : Nat} {ex : Option SegInfo} (mark : SegInfo → Bool) (h : ∀ i, ex = some i → lo ≤ i.pos) : (markUnused ex mark).Low lo := by
  unfold markUnused
  split
  · split
    · exact Plan.low_write (h _ rfl)
    · exact Plan.low_pure _ _
  · exact Plan.low_pure _ _

theorem place_low {lo new : Nat} {ex : Option SegInfo} (mark : SegInfo → Bool) (need own : Nat) (h : ∀ i, ex = some i → lo ≤ i.pos) (hn : lo ≤ new) :
    (place ex mark new need own).Low lo ∧ ∀ r, (place ex mark new need own).result = .ok r → lo ≤ r.1 := by
  unfold place
  split
  · rename_i s
    split
    · refine ⟨Plan.low_pure _ _, ?_⟩
      intro r hr
      cases hr
      exact h _ rfl
    · refine ⟨Plan.low_bind (markUnused_low mark h) (fun _ _ => Plan.low_pure _ _), ?_⟩
      intro r hr
      rw [markUnused_eq, Plan.bind_ok] at hr
      cases hr
      exact hn
  · refine ⟨Plan.low_pure _ _, ?_⟩
    intro r hr
    cases hr
    exact hn

theorem Plan.bind_result {α β : Type} {p : Plan α} {f : α → Plan β} {b : β} (h : (p >>= f).result = .ok b) :
    ∃ a, p.result = .ok a ∧ (f a).result = .ok b := by
  have h : (Plan.bind p f).result = .ok b := h
  unfold Plan.bind at h
  split at h
  · cases h
  · rename_i a ha
    exact ⟨a, ha, h⟩

/-- A plan that writes nothing below `lo` and returns a position not below `lo`. -/
def Plan.LowP (lo : Nat) (p : Plan (Nat × Nat)) : Prop := p.Low lo ∧ ∀ r, p.result = .ok r → lo ≤ r.1

theorem Plan.lowP_bind {α : Type} {lo : Nat} {p : Plan α} {f : α → Plan (Nat × Nat)} (h1 : p.Low lo) (h2 : ∀ a, p.result = .ok a → (f a).LowP lo) :
    Plan.LowP lo (p >>= f) := by
  refine ⟨Plan.low_bind h1 (fun a ha => (h2 a ha).1), ?_⟩
  intro r hr
  obtain ⟨a, ha, hb⟩ := Plan.bind_result hr
  exact (h2 a ha).2 r hb

theorem Plan.lowP_pure {lo a b : Nat} (h : lo ≤ a) : Plan.LowP lo (Pure.pure (a, b)) := by
  refine ⟨Plan.low_pure _ _, ?_⟩
  intro r hr
  cases hr
  exact h

theorem writeIf_low {lo p : Nat} (l : List UInt8) (h : lo ≤ p) : (writeIf p l).Low lo := by
  unfold writeIf
  split
  · exact Plan.low_write h
  · exact Plan.low_pure _ _

section
variable {lo new : Nat} {ex : Option SegInfo} (mark : SegInfo → Bool) (h : ∀ i, ex = some i → lo ≤ i.pos) (hn : lo ≤ new)
include h hn

theorem writeMetadata_low (m : MetaInfo) : (writeMetadata ex mark new m).LowP lo := by
  unfold writeMetadata
  obtain ⟨p1, p2⟩ := place_low mark (align (256 + (m.xmlBytes.length + m.attBytes.length))) (align (256 + (m.xmlBytes.length + m.attBytes.length))) h hn
  refine Plan.lowP_bind p1 ?_
  rintro ⟨pos, alloc⟩ ha
  have hp := p2 _ ha
  dsimp only at hp ⊢
  refine Plan.lowP_bind (Plan.low_write hp) (fun _ _ => ?_)
  refine Plan.lowP_bind (writeIf_low _ (by omega)) (fun _ _ => ?_)
  refine Plan.lowP_bind (writeIf_low _ (by omega)) (fun _ _ => ?_)
  split
  · exact Plan.lowP_bind (Plan.low_mono (writeZeroes_low _ _) (by omega)) (fun _ _ => Plan.lowP_pure hp)
  · exact Plan.lowP_pure hp

theorem writeSubDir_low (es : List Entry) : (writeSubDir ex mark new es).LowP lo := by
  unfold writeSubDir
  obtain ⟨p1, p2⟩ := place_low mark (align (128 + (es.map entryBytes).flatten.length)) (align (128 + (es.map entryBytes).flatten.length)) h hn
  refine Plan.lowP_bind p1 ?_
  rintro ⟨pos, alloc⟩ ha
  have hp := p2 _ ha
  dsimp only at hp ⊢
  refine Plan.lowP_bind (Plan.low_write hp) (fun _ _ => ?_)
  split
  · exact Plan.lowP_bind (Plan.low_mono (writeZeroes_low _ _) (by omega)) (fun _ _ => Plan.lowP_pure hp)
  · exact Plan.lowP_pure hp

theorem writeAttDir_low (es : List AttEntry) : (writeAttDir ex mark new es).LowP lo := by
  unfold writeAttDir
  obtain ⟨p1, p2⟩ := place_low mark (256 + es.length * 128) (align (256 + es.length * 128)) h hn
  refine Plan.lowP_bind p1 ?_
  rintro ⟨pos, alloc⟩ ha
  have hp := p2 _ ha
  dsimp only at hp ⊢
  refine Plan.lowP_bind (Plan.low_write hp) (fun _ _ => ?_)
  refine Plan.lowP_bind (Plan.low_write (by omega)) (fun _ _ => ?_)
  split
  · exact Plan.lowP_bind (Plan.low_mono (writeZeroes_low _ _) (by omega)) (fun _ _ => Plan.lowP_pure hp)
  · exact Plan.lowP_pure hp

end

/-- The positions the writer knows lie beyond the file header. -/
structure LowState (w : WState) : Prop where
  next : 544 ≤ w.next
  metaSeg : ∀ i, w.metaSeg = some i → 544 ≤ i.pos
  subDirSeg : ∀ i, w.subDirSeg = some i → 544 ≤ i.pos
  attDirSeg : ∀ i, w.attDirSeg = some i → 544 ≤ i.pos

/-- A phase that does not touch the file header. -/
def LowPhase (p : Phase) : Prop := ∀ w, LowState w → (p w).Low 544 ∧ ∀ w', (p w).result = .ok w' → LowState w'

theorem addSubBlock_low (a : AddInfo) : ∀ p ∈ addSubBlockPhases a, LowPhase p := by
  intro p hp w hw
  simp only [addSubBlockPhases, List.mem_cons, List.not_mem_nil, or_false] at hp
  rcases hp with rfl | rfl
  · dsimp only
    split
    · exact ⟨Plan.low_throw _ _, by intro w' h; cases h⟩
    · split
      · exact ⟨Plan.low_throw _ _, by intro w' h; cases h⟩
      · split
        · exact ⟨Plan.low_throw _ _, by intro w' h; cases h⟩
        · split
          · exact ⟨Plan.low_throw _ _, by intro w' h; cases h⟩
          · refine ⟨Plan.low_pure _ _, ?_⟩
            intro w' h
            cases h
            exact ⟨hw.next, hw.metaSeg, hw.subDirSeg, hw.attDirSeg⟩
  · refine ⟨Plan.low_bind (Plan.low_mono (writeSubBlock_low _ _ _) hw.next) (fun _ _ => Plan.low_pure _ _), ?_⟩
    intro w' h
    obtain ⟨n, _, h⟩ := Plan.bind_result h
    cases h
    exact ⟨Nat.le_trans hw.next (Nat.le_add_right _ _), hw.metaSeg, hw.subDirSeg, hw.attDirSeg⟩

theorem addAttachment_low (a : AddAtt) : ∀ p ∈ addAttachmentPhases a, LowPhase p := by
  intro p hp w hw
  simp only [addAttachmentPhases, List.mem_cons, List.not_mem_nil, or_false] at hp
  rcases hp with rfl | rfl
  · dsimp only
    split
    · exact ⟨Plan.low_throw _ _, by intro w' h; cases h⟩
    · split
      · exact ⟨Plan.low_throw _ _, by intro w' h; cases h⟩
      · split
        · exact ⟨Plan.low_throw _ _, by intro w' h; cases h⟩
        · refine ⟨Plan.low_pure _ _, ?_⟩
          intro w' h
          cases h
          exact ⟨hw.next, hw.metaSeg, hw.subDirSeg, hw.attDirSeg⟩
  · refine ⟨Plan.low_bind (Plan.low_mono (writeAttachment_low _ _ _) hw.next) (fun _ _ => Plan.low_pure _ _), ?_⟩
    intro w' h
    obtain ⟨n, _, h⟩ := Plan.bind_result h
    cases h
    exact ⟨Nat.le_trans hw.next (Nat.le_add_right _ _), hw.metaSeg, hw.subDirSeg, hw.attDirSeg⟩

theorem next_low {w : WState} (hw : LowState w) {pos alloc : Nat} : 544 ≤ (if pos = w.next then w.next + (alloc + 32) else w.next) := by
  have := hw.next
  split <;> omega

theorem some_low {p : Nat} {a : Nat} {b : Bool} (h : 544 ≤ p) : ∀ i, (some ⟨p, a, b⟩ : Option SegInfo) = some i → 544 ≤ i.pos := by
  intro i hi
  cases hi
  exact h

theorem writeMetadata_phase_low (m : MetaInfo) : ∀ p ∈ writeMetadataPhases m, LowPhase p := by
  intro p hp w hw
  simp only [writeMetadataPhases, List.mem_cons, List.not_mem_nil, or_false] at hp
  subst hp
  dsimp only
  split
  · exact ⟨Plan.low_throw _ _, by intro w' h; cases h⟩
  · split
    · exact ⟨Plan.low_throw _ _, by intro w' h; cases h⟩
    · have hl := writeMetadata_low markIfLive hw.metaSeg hw.next m
      refine ⟨Plan.low_bind hl.1 (fun _ _ => Plan.low_pure _ _), ?_⟩
      intro w' h
      obtain ⟨⟨pos, alloc⟩, h1, h⟩ := Plan.bind_result h
      cases h
      exact ⟨next_low hw, some_low (hl.2 _ h1), hw.subDirSeg, hw.attDirSeg⟩

theorem closeSubDir_low : LowPhase closeSubDir := by
  intro w hw
  have hl := writeSubDir_low markIfLive hw.subDirSeg hw.next w.dir.subBlks
  refine ⟨Plan.low_bind hl.1 (fun _ _ => Plan.low_pure _ _), ?_⟩
  intro w' h
  obtain ⟨⟨pos, alloc⟩, h1, h⟩ := Plan.bind_result h
  cases h
  exact ⟨next_low hw, hw.metaSeg, some_low (hl.2 _ h1), hw.attDirSeg⟩

theorem closeAttDir_low : LowPhase closeAttDir := by
  intro w hw
  unfold closeAttDir
  split
  · have hl := writeAttDir_low markIfLive hw.attDirSeg hw.next w.att
    refine ⟨Plan.low_bind hl.1 (fun _ _ => Plan.low_pure _ _), ?_⟩
    intro w' h
    obtain ⟨⟨pos, alloc⟩, h1, h⟩ := Plan.bind_result h
    cases h
    exact ⟨next_low hw, hw.metaSeg, hw.subDirSeg, some_low (hl.2 _ h1)⟩
  · refine ⟨Plan.low_pure _ _, ?_⟩
    intro w' h
    cases h
    exact hw

/-- The last phases of `Create`. -/
theorem reserve_low (info : WriterInfo) : ∀ p ∈ (createPhases info).drop 2, LowPhase p := by
  intro p hp w hw
  simp only [createPhases, List.drop_succ_cons, List.drop_zero, List.mem_cons, List.not_mem_nil, or_false] at hp
  rcases hp with rfl | rfl | rfl
  · dsimp only
    split
    · refine ⟨Plan.low_bind (Plan.low_write hw.next) (fun _ _ => Plan.low_pure _ _), ?_⟩
      intro w' h
      obtain ⟨n, _, h⟩ := Plan.bind_result h
      cases h
      exact ⟨Nat.le_trans hw.next (Nat.le_add_right _ _), some_low hw.next, hw.subDirSeg, hw.attDirSeg⟩
    · refine ⟨Plan.low_pure _ _, ?_⟩
      intro w' h; cases h; exact hw
  · dsimp only
    split
    · refine ⟨Plan.low_bind (Plan.low_write hw.next) (fun _ _ => Plan.low_pure _ _), ?_⟩
      intro w' h
      obtain ⟨n, _, h⟩ := Plan.bind_result h
      cases h
      exact ⟨Nat.le_trans hw.next (Nat.le_add_right _ _), hw.metaSeg, some_low hw.next, hw.attDirSeg⟩
    · refine ⟨Plan.low_pure _ _, ?_⟩
      intro w' h; cases h; exact hw
  · dsimp only
    split
    · refine ⟨Plan.low_bind (Plan.low_write hw.next) (fun _ _ => Plan.low_pure _ _), ?_⟩
      intro w' h
      obtain ⟨n, _, h⟩ := Plan.bind_result h
      cases h
      exact ⟨Nat.le_trans hw.next (Nat.le_add_right _ _), hw.metaSeg, hw.subDirSeg, some_low hw.next⟩
    · refine ⟨Plan.low_pure _ _, ?_⟩
      intro w' h; cases h; exact hw

end Verif.Czi
