import Verif.Proof.Low
import Verif.Spec.Crash

/-! What a crash leaves behind. -/

namespace Verif.Czi

open Spec

attribute [local irreducible] zeros

theorem tracePhases_ok {p : Phase} {ps : List Phase} {w w' : WState} (h : (p w).result = .ok w') :
    tracePhases (p :: ps) w = ((tracePhases ps w').1, (p w).writes ++ (tracePhases ps w').2) := by
  simp only [tracePhases, h]

theorem tracePhases_err {p : Phase} {ps : List Phase} {w : WState} {e : WErr} (h : (p w).result = .error e) :
    tracePhases (p :: ps) w = (w, (p w).writes) := by
  simp only [tracePhases, h]

theorem runPhases_trace : ∀ (ps : List Phase) (s : Sys), (runPhases ps s []).1 = ⟨(tracePhases ps s.w).1, apply s.disk (tracePhases ps s.w).2⟩ := by
  intro ps
  induction ps with
  | nil => intro s; rfl
  | cons p ps ih =>
    intro s
    unfold runPhases
    dsimp only
    rw [performWrites_nil]
    dsimp only
    rw [if_pos rfl]
    cases h : (p s.w).result with
    | ok w' =>
      dsimp only
      rw [ih, tracePhases_ok h, apply_append]
    | error e =>
      dsimp only
      rw [tracePhases_err h]

theorem step_trace (s : Sys) (op : WOp) : (step s op).1 = ⟨(tracePhases op.phases s.w).1, apply s.disk (tracePhases op.phases s.w).2⟩ := runPhases_trace _ _

theorem session_trace : ∀ (ops : List WOp) (s : Sys), (session s ops).1 = ⟨(traceOps s.w ops).1, apply s.disk (traceOps s.w ops).2⟩ := by
  intro ops
  induction ops with
  | nil => intro s; rfl
  | cons op ops ih =>
    intro s
    unfold session traceOps
    dsimp only
    rw [ih, step_trace]
    dsimp only
    rw [apply_append]

theorem traceOps_append (a b : List WOp) : ∀ w : WState,
    traceOps w (a ++ b) = ((traceOps (traceOps w a).1 b).1, (traceOps w a).2 ++ (traceOps (traceOps w a).1 b).2) := by
  induction a with
  | nil => intro w; rfl
  | cons op a ih =>
    intro w
    simp only [List.cons_append, traceOps]
    rw [ih]
    simp only [List.append_assoc]

/-- The file of a finished document is the result of all the writes. -/
theorem writeDoc_trace {dup : Bool} {d : Disk} {info : WriterInfo} {ops : List WOp} {r : Disk × List WOp} (h : writeDoc dup d info ops = some r) :
    r.1 = apply d (docTrace dup info ops) := by
  unfold writeDoc at h
  dsimp only at h
  split at h
  · cases h
  · split at h
    · cases h
    · injection h with h
      subst h
      dsimp only
      rw [step_trace, session_trace, step_trace]
      dsimp only
      unfold docTrace
      simp only [traceOps, traceOps_append, List.append_nil, apply_append]

theorem lowPhases : ∀ (ps : List Phase) (w : WState), (∀ p ∈ ps, LowPhase p) → LowState w →
    (∀ x ∈ (tracePhases ps w).2, 544 ≤ x.1) ∧ LowState (tracePhases ps w).1 := by
  intro ps
  induction ps with
  | nil => intro w _ hw; exact ⟨(by intro x hx; cases hx), hw⟩
  | cons p ps ih =>
    intro w hp hw
    obtain ⟨l1, l2⟩ := hp p (List.mem_cons_self ..) w hw
    cases h : (p w).result with
    | ok w' =>
      obtain ⟨k1, k2⟩ := ih w' (fun q hq => hp q (List.mem_cons_of_mem _ hq)) (l2 w' h)
      rw [tracePhases_ok h]
      refine ⟨?_, k2⟩
      intro x hx
      rcases List.mem_append.1 hx with hx | hx
      · exact l1 x hx
      · exact k1 x hx
    | error e =>
      rw [tracePhases_err h]
      exact ⟨l1, hw⟩

theorem lowOps : ∀ (ops : List WOp) (w : WState), (∀ op ∈ ops, OpOk op) → LowState w →
    (∀ x ∈ (traceOps w ops).2, 544 ≤ x.1) ∧ LowState (traceOps w ops).1 := by
  intro ops
  induction ops with
  | nil => intro w _ hw; exact ⟨(by intro x hx; cases hx), hw⟩
  | cons op ops ih =>
    intro w ho hw
    have hph : ∀ p ∈ op.phases, LowPhase p := by
      have h1 := ho op (List.mem_cons_self ..)
      cases op with
      | create i => exact h1.elim
      | close => exact h1.elim
      | addSubBlock a => exact addSubBlock_low a
      | addAttachment a => exact addAttachment_low a
      | writeMetadata m => exact writeMetadata_phase_low m
    obtain ⟨l1, l2⟩ := lowPhases _ w hph hw
    obtain ⟨k1, k2⟩ := ih _ (fun o h => ho o (List.mem_cons_of_mem _ h)) l2
    simp only [traceOps]
    refine ⟨?_, k2⟩
    intro x hx
    rcases List.mem_append.1 hx with hx | hx
    · exact l1 x hx
    · exact k1 x hx

theorem lowInit (dup : Bool) (info : WriterInfo) : LowState { WState.init dup with info := some info, next := 544 } where
  next := Nat.le_refl _
  metaSeg := by intro i h; cases h
  subDirSeg := by intro i h; cases h
  attDirSeg := by intro i h; cases h

theorem createTrace (dup : Bool) (info : WriterInfo) : ∃ w ws, tracePhases (createPhases info) (WState.init dup) = (w, (0, fileHeader info.guid 0 0 0) :: ws) ∧
    (∀ x ∈ ws, 544 ≤ x.1) ∧ LowState w := by
  obtain ⟨l1, l2⟩ := lowPhases ((createPhases info).drop 2) _ (reserve_low info) (lowInit dup info)
  refine ⟨_, _, ?_, l1, l2⟩
  have e : ∃ p0 p1, createPhases info = p0 :: p1 :: (createPhases info).drop 2 ∧
      p0 (WState.init dup) = ⟨[], .ok { WState.init dup with info := some info }⟩ ∧
      p1 { WState.init dup with info := some info } = ⟨[(0, fileHeader info.guid 0 0 0)], .ok { WState.init dup with info := some info, next := 544 }⟩ :=
    ⟨_, _, rfl, rfl, rfl⟩
  obtain ⟨p0, p1, e, h0, h1⟩ := e
  generalize (createPhases info).drop 2 = ps at e ⊢
  rw [e, tracePhases_ok (w' := { WState.init dup with info := some info }) (by rw [h0]),
    tracePhases_ok (w' := { WState.init dup with info := some info, next := 544 }) (by rw [h1]), h0, h1]
  rfl

theorem runPhases_none {p : Phase} {ps : List Phase} {s : Sys} (h : (runPhases (p :: ps) s []).2.1 = none) :
    ∃ w', (p s.w).result = .ok w' ∧ (runPhases ps ⟨w', apply s.disk (p s.w).writes⟩ []).2.1 = none := by
  unfold runPhases at h
  dsimp only at h
  rw [performWrites_nil] at h
  dsimp only at h
  rw [if_pos rfl] at h
  cases hr : (p s.w).result with
  | ok w' => rw [hr] at h; exact ⟨w', rfl, h⟩
  | error e => rw [hr] at h; cases h

theorem closeTrace {s : Sys} (h : (step s .close).2 = none) (hw : LowState s.w) :
    ∃ w ws g x y z, tracePhases closePhases s.w = (w, ws ++ [(0, fileHeader g x y z)]) ∧ (∀ x ∈ ws, 544 ≤ x.1) ∧ (∀ i, s.w.info = some i → g = i.guid) := by
  have h : (runPhases closePhases s []).2.1 = none := h
  unfold closePhases at h ⊢
  obtain ⟨w1, e1, h⟩ := runPhases_none h
  obtain ⟨w2, e2, h⟩ := runPhases_none h
  obtain ⟨w3, e3, h⟩ := runPhases_none h
  obtain ⟨w4, e4, h⟩ := runPhases_none h
  dsimp only at e1 e2 e3 e4
  have hw1 : w1 = s.w ∧ ((fun w : WState => if w.info.isNone then Plan.throw .logicError else return w : Phase) s.w).writes = [] := by
    clear e2 e3 e4 h
    dsimp only
    by_cases hh : s.w.info.isNone = true
    · rw [if_pos hh] at e1
      cases e1
    · rw [if_neg hh] at e1 ⊢
      cases e1
      exact ⟨rfl, rfl⟩
  obtain ⟨rfl, hw1⟩ := hw1
  obtain ⟨l2, k2⟩ := closeSubDir_low _ hw
  have hw2 := k2 _ e2
  obtain ⟨l3, k3⟩ := closeAttDir_low _ hw2
  have hw3 := k3 _ e3
  have hinfo2 : w2.info = s.w.info := by
    unfold closeSubDir at e2
    obtain ⟨a, _, e2⟩ := Plan.bind_result e2
    cases e2
    rfl
  have hinfo3 : w3.info = w2.info := by
    unfold closeAttDir at e3
    split at e3
    · obtain ⟨a, _, e3⟩ := Plan.bind_result e3
      cases e3
      rfl
    · cases e3
      rfl
  have hh : ∃ g x y z, (closeHeader w3).writes = [(0, fileHeader g x y z)] ∧ (∀ i, s.w.info = some i → g = i.guid) := by
    unfold closeHeader at e4 ⊢
    cases hi : w3.info with
    | none => rw [hi] at e4; cases e4
    | some i =>
      refine ⟨i.guid, livePos w3.subDirSeg, livePos w3.metaSeg, livePos w3.attDirSeg, rfl, ?_⟩
      intro j hj
      rw [← hinfo2, ← hinfo3, hi] at hj
      cases hj
      rfl
  obtain ⟨g, x, y, z, hh, hg⟩ := hh
  refine ⟨w4, (closeSubDir s.w).writes ++ (closeAttDir w2).writes, g, x, y, z, ?_, ?_, hg⟩
  · rw [tracePhases_ok e1, tracePhases_ok e2, tracePhases_ok e3, tracePhases_ok e4]
    simp only [tracePhases, hh, hw1, List.nil_append, List.append_nil, List.append_assoc]
  · intro q hq
    rcases List.mem_append.1 hq with hq | hq
    · exact l2 q hq
    · exact l3 q hq

/-- The writes of a whole document: the provisional file header, segments, the final file header. -/
theorem docTrace_shape {dup : Bool} {d : Disk} {info : WriterInfo} {ops : List WOp} {r : Disk × List WOp} (h : writeDoc dup d info ops = some r)
    (ho : ∀ op ∈ ops, OpOk op) (hkeep : ∀ s, (session (step ⟨WState.init dup, d⟩ (.create info)).1 ops).1 = s → s.w.info = some info) :
    ∃ mid x y z, docTrace dup info ops = (0, fileHeader info.guid 0 0 0) :: (mid ++ [(0, fileHeader info.guid x y z)]) ∧ ∀ w ∈ mid, 544 ≤ w.1 := by
  unfold writeDoc at h
  dsimp only at h
  split at h
  · cases h
  · split at h
    · cases h
    · rename_i hc
      obtain ⟨w1, ws1, e1, l1, hw1⟩ := createTrace dup info
      obtain ⟨l2, hw2⟩ := lowOps ops w1 ho hw1
      have hs := session_trace ops (step ⟨WState.init dup, d⟩ (.create info)).1
      have hs1 : (step ⟨WState.init dup, d⟩ (.create info)).1.w = w1 := by
        rw [step_trace]
        show (tracePhases (createPhases info) (WState.init dup)).1 = w1
        rw [e1]
      have hsw : (session (step ⟨WState.init dup, d⟩ (.create info)).1 ops).1.w = (traceOps w1 ops).1 := by rw [hs, hs1]
      obtain ⟨w3, ws3, g, x, y, z, e3, l3, hg⟩ := closeTrace (Option.not_isSome_iff_eq_none.1 hc) (by rw [hsw]; exact hw2)
      rw [hg info (hkeep _ rfl)] at e3
      refine ⟨ws1 ++ (traceOps w1 ops).2 ++ ws3, x, y, z, ?_, ?_⟩
      · unfold docTrace
        simp only [traceOps, WOp.phases, e1, traceOps_append]
        rw [hsw] at e3
        rw [e3]
        simp
      · intro w hw
        rcases List.mem_append.1 hw with hw | hw
        · rcases List.mem_append.1 hw with hw | hw
          · exact l1 w hw
          · exact l2 w hw
        · exact l3 w hw

/-! ## The file header -/

/-- Bytes of which the first `j` have been overwritten. -/
def mix (l l' : List UInt8) (j : Nat) : List UInt8 := l.take j ++ l'.drop j

theorem mix_append {a a' b b' : List UInt8} (h : a.length = a'.length) (j : Nat) : mix (a ++ b) (a' ++ b') j = mix a a' j ++ mix b b' (j - a.length) := by
  unfold mix
  rw [List.take_append, List.drop_append, ← h]
  by_cases hj : j ≤ a.length
  · rw [Nat.sub_eq_zero_of_le hj]
    simp
  · have : a'.drop j = [] := List.drop_eq_nil_of_le (by omega)
    rw [this]
    simp

theorem mix_self (a : List UInt8) (j : Nat) : mix a a j = a := List.take_append_drop j a

theorem mix_le {a a' : List UInt8} {j : Nat} (h : j = 0 ∨ a.length ≤ j) (hl : a.length = a'.length) : mix a a' j = if j = 0 then a' else a := by
  unfold mix
  rcases h with rfl | h
  · simp
  · rw [List.take_of_length_le h, List.drop_eq_nil_of_le (by omega), List.append_nil]
    split
    · have : a = [] := List.length_eq_zero_iff.1 (by omega)
      have : a' = [] := List.length_eq_zero_iff.1 (by omega)
      simp [*]
    · rfl

theorem mix_le_lt : ∀ (n t a : Nat), a < 256 ^ t → mix (le n a) (le n 0) t = le n a := by
  intro n
  induction n with
  | zero => intro t a _; simp [mix, le]
  | succ n ih =>
    intro t a h
    cases t with
    | zero =>
      rw [Nat.pow_zero] at h
      have : a = 0 := by omega
      subst this
      exact mix_self _ _
    | succ t =>
      have := ih t (a / 256) (by rw [Nat.pow_succ] at h; omega)
      unfold mix at this ⊢
      unfold le
      rw [List.take_succ_cons, List.drop_succ_cons, Nat.zero_div, List.cons_append, this]

theorem mix_position {a t : Nat} (h : t = 0 ∨ 8 ≤ t ∨ a < 256 ^ t) : mix (le 8 a) (le 8 0) t = le 8 (if t = 0 then 0 else a) := by
  by_cases h0 : t = 0
  · rw [if_pos h0, mix_le (.inl h0) (by simp), if_pos h0]
  · rw [if_neg h0]
    rcases h with h | h | h
    · exact absurd h h0
    · rw [mix_le (.inr (by simp [h])) (by simp), if_neg h0]
    · exact mix_le_lt 8 t a h

theorem fileHeader_mix (g : Guid) (a b c : Nat) {j size : Nat} (hj : ¬ TornPosition size j) (ha : a < size) (hb : b < size) (hc : c < size) :
    mix (fileHeader g a b c) (fileHeader g 0 0 0) j = fileHeader g (if j ≤ 84 then 0 else a) (if j ≤ 92 then 0 else b) (if j ≤ 104 then 0 else c) := by
  unfold TornPosition at hj
  have hA : ∀ x y z, fileHeader g x y z = (segHeader fileMagic 512 512 ++ leInt 4 1 ++ leInt 4 0 ++ zeros 8 ++ guidBytes g ++ guidBytes g ++ zeros 4) ++
      (le 8 x ++ (le 8 y ++ (zeros 4 ++ (le 8 z ++ zeros 432)))) := by
    intro x y z
    unfold fileHeader
    simp only [List.append_assoc]
  have hl : (segHeader fileMagic 512 512 ++ leInt 4 1 ++ leInt 4 0 ++ zeros 8 ++ guidBytes g ++ guidBytes g ++ zeros 4).length = 84 := by
    simp only [List.length_append, segHeader_length fileMagic_length, leInt_length, zeros_length, guidBytes_length]
  rw [hA, hA, hA, mix_append rfl, mix_self, hl, mix_append (by simp), mix_append (by simp), mix_append rfl, mix_append (by simp), mix_self, mix_self]
  simp only [le_length, zeros_length]
  rw [show j - 84 - 8 = j - 92 by omega, show j - 92 - 8 - 4 = j - 104 by omega]
  rw [mix_position (t := j - 84) (by omega), mix_position (t := j - 92) (by omega), mix_position (t := j - 104) (by omega)]
  congr 2
  · by_cases h : j ≤ 84
    · rw [if_pos (by omega), if_pos h]
    · rw [if_neg (by omega), if_neg h]
  · congr 1
    · by_cases h : j ≤ 92
      · rw [if_pos (by omega), if_pos h]
      · rw [if_neg (by omega), if_neg h]
    · congr 2
      by_cases h : j ≤ 104
      · rw [if_pos (by omega), if_pos h]
      · rw [if_neg (by omega), if_neg h]

/-- A file whose header has no sub-block directory does not open. -/
theorem open_fails {d : Disk} {g : Guid} {b c : Nat} (h : Holds d 0 (fileHeader g 0 b c)) (hb : b < 2 ^ 64) (hc : c < 2 ^ 64) (al : Alloc) (o : OpenOptions) (doc : Doc) :
    openDoc al d.stream o ≠ .ok doc := by
  unfold openDoc openDocWith
  rw [readHeader_ok h (by omega) hb hc]
  simp only [bind, Except.bind]
  have : readSubDir al d.stream (parseOptions o) 0 = .error .corrupted := by
    unfold readSubDir
    have r := h.readExact (o := 0) (n := 160) (by simp)
    rw [Nat.add_zero] at r
    rw [r]
    simp only [bind, Except.bind]
    rw [if_pos]
    have e1 : segMagic (field (fileHeader g 0 b c) 0 160) = fileMagic := by
      unfold fileHeader segMagic
      simp only [List.append_assoc]
      rw [show field (field (segHeader fileMagic 512 512 ++ (leInt 4 1 ++ (leInt 4 0 ++ (zeros 8 ++ (guidBytes g ++ (guidBytes g ++ (zeros 4 ++ (le 8 0 ++ (le 8 b ++
        (zeros 4 ++ (le 8 c ++ zeros 432))))))))))) 0 160) 0 16 = field (segHeader fileMagic 512 512 ++ (leInt 4 1 ++ (leInt 4 0 ++ (zeros 8 ++ (guidBytes g ++ (guidBytes g ++ (zeros 4 ++ (le 8 0 ++ (le 8 b ++
        (zeros 4 ++ (le 8 c ++ zeros 432))))))))))) 0 16 from by simp only [field, List.drop_zero, List.take_take]; rfl]
      exact segMagic_segHeader fileMagic_length _ _
    rw [e1]
    decide
  rw [this]
  intro h
  cases h

/-- A file that is too short does not open. -/
theorem open_short {d : Disk} (h : d.size < 544) (al : Alloc) (o : OpenOptions) (doc : Doc) : openDoc al d.stream o ≠ .ok doc := by
  unfold openDoc openDocWith readHeader readExact
  have : (d.stream 0 544).length ≠ 544 := by
    unfold Disk.stream Disk.read
    simp
    omega
  simp only [if_neg this, bind, Except.bind]
  intro h
  cases h

theorem Holds.samePast {d d' : Disk} {p : Nat} {c : List UInt8} (h : Holds d p c) (hs : d'.size = d.size) (hg : ∀ i, 544 ≤ i → d'.get i = d.get i)
    (hp : 544 ≤ p) : Holds d' p c := by
  refine ⟨by rw [hs]; exact h.1, ?_⟩
  intro i hi
  rw [hg _ (by omega)]
  exact h.2 i hi

theorem Holds.unique {d : Disk} {p : Nat} {a b : List UInt8} (h1 : Holds d p a) (h2 : Holds d p b) (hl : a.length = b.length) : a = b := by
  have e1 := h1.read0
  have e2 := h2.read0
  rw [hl, e2] at e1
  exact e1.symm

end Verif.Czi
