import Verif.Spec.ExternalOut
import Verif.Props.WriteFault

/-!
# C98: a stream of the caller

`historyExternal s ops rs`: the calls `ops` on a writer whose stream was made by `libCZI_CreateOutputStreamFromExternal`, the function of the caller answering with `rs`.
-/

namespace Verif
open Spec Czi

private theorem writes_padded (ws : List Write) (d : Disk) : (performExternal d ws []).2 = (true, []) ∧
    ∀ more, performWrites d ws (List.replicate ws.length none ++ more) = ((performExternal d ws []).1, true, more) := by
  induction ws generalizing d with
  | nil => exact ⟨rfl, fun _ => rfl⟩
  | cons w ws ih => exact ih _

/-- The replies amount to outcomes of the writes. -/
private theorem performExternal_eq (ws : List Write) (d : Disk) (rs : List WReply) (h : ∀ r ∈ rs, TellsTruth r) :
    (performExternal d ws rs).2.2 <:+ rs ∧ ∃ fs, ∀ more, performWrites d ws (fs ++ more) = ((performExternal d ws rs).1, (performExternal d ws rs).2.1, more) := by
  induction ws generalizing d rs with
  | nil => exact ⟨List.suffix_refl _, [], fun more => rfl⟩
  | cons w ws ih =>
    cases rs with
    | nil =>
      obtain ⟨h1, h2⟩ := writes_padded (w :: ws) d
      rw [h1]
      exact ⟨List.suffix_refl _, _, h2⟩
    | cons r rs =>
      unfold performExternal
      dsimp only
      by_cases ha : writeAccepted r w.2.length = true
      · rw [if_pos ha]
        unfold writeAccepted at ha
        rw [Bool.and_eq_true, decide_eq_true_eq, beq_iff_eq] at ha
        rw [h r (by simp) ha.1 _ ha.2, List.take_length]
        obtain ⟨h1, fs, h2⟩ := ih (d.write w.1 w.2) rs (fun r hr => h r (List.mem_cons_of_mem _ hr))
        exact ⟨h1.trans (List.suffix_cons ..), none :: fs, h2⟩
      · rw [if_neg ha]
        exact ⟨List.suffix_cons .., [some r.put], fun more => rfl⟩

private theorem performExternal_ok (ws : List Write) (d : Disk) (rs : List WReply) (h : ∀ r ∈ rs, TellsTruth r) (hok : (performExternal d ws rs).2.1 = true) :
    performWrites d ws [] = ((performExternal d ws rs).1, true, []) := by
  induction ws generalizing d rs with
  | nil => rfl
  | cons w ws ih =>
    cases rs with
    | nil => exact ih (d.write w.1 w.2) [] (fun _ h => by cases h) hok
    | cons r rs =>
      unfold performExternal at hok ⊢
      dsimp only at hok ⊢
      by_cases ha : writeAccepted r w.2.length = true
      · rw [if_pos ha] at hok ⊢
        unfold writeAccepted at ha
        rw [Bool.and_eq_true, decide_eq_true_eq, beq_iff_eq] at ha
        rw [h r (by simp) ha.1 _ ha.2, List.take_length] at hok ⊢
        exact ih (d.write w.1 w.2) rs (fun r hr => h r (List.mem_cons_of_mem _ hr)) hok
      · rw [if_neg ha] at hok
        cases hok

private theorem runExternal_eq (ps : List Phase) (s : Sys) (rs : List WReply) (h : ∀ r ∈ rs, TellsTruth r) :
    (runExternal ps s rs).2.2 <:+ rs ∧ ∃ fs, ∀ more, runPhases ps s (fs ++ more) = ((runExternal ps s rs).1, (runExternal ps s rs).2.1, more) := by
  induction ps generalizing s rs with
  | nil => exact ⟨List.suffix_refl _, [], fun more => rfl⟩
  | cons p ps ih =>
    obtain ⟨h1, fs, h2⟩ := performExternal_eq (p s.w).writes s.disk rs h
    unfold runExternal
    dsimp only
    by_cases hok : (performExternal s.disk (p s.w).writes rs).2.1 = true
    · rw [if_pos hok]
      cases hr : (p s.w).result with
      | ok w =>
        dsimp only
        obtain ⟨h3, gs, h4⟩ := ih ⟨w, (performExternal s.disk (p s.w).writes rs).1⟩ (performExternal s.disk (p s.w).writes rs).2.2
          (fun r hr => h r (h1.subset hr))
        refine ⟨h3.trans h1, fs ++ gs, fun more => ?_⟩
        unfold runPhases
        dsimp only
        rw [List.append_assoc, h2]
        dsimp only
        rw [if_pos hok, hr]
        exact h4 more
      | error e =>
        dsimp only
        refine ⟨h1, fs, fun more => ?_⟩
        unfold runPhases
        dsimp only
        rw [h2]
        dsimp only
        rw [if_pos hok, hr]
    · rw [if_neg hok]
      refine ⟨h1, fs, fun more => ?_⟩
      unfold runPhases
      dsimp only
      rw [h2]
      dsimp only
      rw [if_neg hok]

private theorem runExternal_ok (ps : List Phase) (s : Sys) (rs : List WReply) (h : ∀ r ∈ rs, TellsTruth r) (hok : (runExternal ps s rs).2.1 = none) :
    runPhases ps s [] = ((runExternal ps s rs).1, none, []) := by
  induction ps generalizing s rs with
  | nil => rfl
  | cons p ps ih =>
    unfold runExternal at hok ⊢
    dsimp only at hok ⊢
    by_cases hw : (performExternal s.disk (p s.w).writes rs).2.1 = true
    · rw [if_pos hw] at hok ⊢
      unfold runPhases
      dsimp only
      rw [performExternal_ok _ _ rs h hw]
      dsimp only
      rw [if_pos rfl]
      cases hr : (p s.w).result with
      | ok w =>
        rw [hr] at hok
        exact ih _ _ (fun r hr => h r ((performExternal_eq (p s.w).writes s.disk rs h).1.subset hr)) hok
      | error e =>
        rw [hr] at hok
        cases hok
    · rw [if_neg hw] at hok
      cases hok

/-- **C98 (a stream of the caller is a stream that fails, or not).** Whatever the function of the caller does with the requests - errors, too few bytes, no number reported - as
long as it tells the truth about what it has written: a history of calls ends in the same state of the writer and the same file, with the same calls throwing, as on a stream some of whose writes
fail. So everything said about such streams (C08, C98) holds for it. -/
theorem C98_external (s : Sys) (ops : List WOp) (rs : List WReply) (h : ∀ r ∈ rs, TellsTruth r) : ∃ fs, historyExternal s ops rs = historyOn s ops fs := by
  have key : ∀ (ops : List WOp) (s : Sys) (rs : List WReply), (∀ r ∈ rs, TellsTruth r) → ∃ fs, historyExternal s ops rs = historyOn s ops fs := by
    intro ops
    induction ops with
    | nil => intro s rs _; exact ⟨[], rfl⟩
    | cons op ops ih =>
      intro s rs h
      obtain ⟨h1, fs, h2⟩ := runExternal_eq op.phases s rs h
      obtain ⟨gs, h3⟩ := ih (stepExternal s op rs).1 (stepExternal s op rs).2.2 (fun r hr => h r (h1.subset hr))
      refine ⟨fs ++ gs, ?_⟩
      have h4 : stepOp s op (fs ++ gs) = ((stepExternal s op rs).1, (stepExternal s op rs).2.1, gs) := h2 gs
      unfold historyExternal historyOn
      dsimp only
      rw [h4, h3]
  exact key ops s rs h

/-- **C98 (a call on a stream of the caller that does not throw).** It has done exactly what the same call does on a stream that does not fail: every byte is in the file. -/
theorem C98_external_success (s : Sys) (op : WOp) (rs : List WReply) (h : ∀ r ∈ rs, TellsTruth r) (hok : (stepExternal s op rs).2.1 = none) :
    step s op = ((stepExternal s op rs).1, none) := by
  unfold step stepOp
  rw [runExternal_ok op.phases s rs h hok]
  rfl

/-- **C98 (a request that is not carried out is noticed).** If the function of the caller returns an error, or reports fewer bytes than it was given or nothing, for the first
write of a call, the call throws. -/
theorem C98_external_noticed (s : Sys) (p : Phase) (ps : List Phase) (w : Write) (ws : List Write) (hw : (p s.w).writes = w :: ws) (r : WReply) (rs : List WReply)
    (h : r.code ≠ 0 ∨ r.count ≠ some w.2.length) : (runExternal (p :: ps) s (r :: rs)).2.1 = some .ioError := by
  have ha : writeAccepted r w.2.length = false := by
    unfold writeAccepted
    rw [Bool.and_eq_false_iff]
    rcases h with h | h
    · left; simpa using h
    · right; simpa using h
  unfold runExternal
  dsimp only
  rw [hw]
  unfold performExternal
  dsimp only
  rw [ha]
  rfl

/-- **C98 (the truth is needed).** If the function of the caller reports the right number although it has written less, the call succeeds and bytes are missing. -/
theorem C98_external_needs_truth (d : Disk) (off : Nat) (b : UInt8) (hd : d.size ≤ off) : ¬ TellsTruth ⟨0, 0, some 1⟩ ∧
    (performExternal d [(off, [b])] [⟨0, 0, some 1⟩]).2.1 = true ∧ (performExternal d [(off, [b])] [⟨0, 0, some 1⟩]).1.read off 1 = [] := by
  refine ⟨fun h => absurd (h rfl 1 rfl) (by decide), rfl, ?_⟩
  show (d.write off []).read off 1 = []
  unfold Disk.read Disk.write
  dsimp only
  rw [if_pos rfl, show d.size - off = 0 by omega]
  rfl

/-- `Create` on streams of the caller that fail at the first write, with an error or with too few bytes, and one that does everything; a call that throws does not prevent others from succeeding
afterwards. -/
example : (∀ r ∈ [(⟨7, 3, none⟩ : WReply), ⟨0, 5, some 5⟩], TellsTruth r) ∧
    (stepExternal ⟨WState.init false, Disk.empty⟩ (.create exInfo) [⟨7, 3, none⟩]).2.1 = some .ioError ∧
    (stepExternal ⟨WState.init false, Disk.empty⟩ (.create exInfo) [⟨0, 5, some 5⟩]).2.1 = some .ioError ∧
    (stepExternal ⟨WState.init false, Disk.empty⟩ (.create exInfo) []).2.1 = none ∧
    (historyExternal (step ⟨WState.init false, Disk.empty⟩ (.create exInfo)).1 [.writeMetadata exMeta, .writeMetadata exMeta, .close] [⟨7, 3, none⟩]).2.length = 2 := by
  refine ⟨?_, by decide +kernel, by decide +kernel, by decide +kernel, by decide +kernel⟩
  intro r hr
  simp only [List.mem_cons, List.not_mem_nil, or_false] at hr
  rcases hr with rfl | rfl
  · intro h; cases h
  · intro _ n hn; cases hn; rfl

end Verif
