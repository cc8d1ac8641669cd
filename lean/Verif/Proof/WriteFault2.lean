import Verif.Proof.WriteFault
import Verif.Proof.DocMore
import Verif.Proof.ReadBack
import Verif.Proof.EditFaultHarm

/-! Calls of the writer that fail and are not made again. -/

namespace Verif.Czi

open Spec

attribute [local irreducible] zeros

theorem run_keep {α : Type} (f : WState → α) : ∀ (ps : List Phase), (∀ p ∈ ps, ∀ w w', (p w).result = .ok w' → f w' = f w) → ∀ (s : Sys) (fs : List Fault),
    f (runPhases ps s fs).1.w = f s.w := by
  intro ps
  induction ps with
  | nil => intro _ s fs; rfl
  | cons p ps ih =>
    intro h s fs
    unfold runPhases
    dsimp only
    split
    · split
      · rename_i w hw
        have h1 := h p (List.mem_cons_self ..) _ _ hw
        have h2 := ih (fun q hq => h q (List.mem_cons_of_mem _ hq)) ⟨w, (performWrites s.disk (p s.w).writes fs).1⟩ (performWrites s.disk (p s.w).writes fs).2.2
        exact h2.trans h1
      · rfl
    · rfl

theorem add_keeps (a : AddInfo) : ∀ p ∈ addSubBlockPhases a, ∀ w w', (p w).result = .ok w' → w'.metaSeg = w.metaSeg := by
  intro p hp w w' hw
  unfold addSubBlockPhases at hp
  rcases List.mem_cons.1 hp with rfl | hp
  · dsimp only at hw
    split at hw
    · cases hw
    · split at hw
      · cases hw
      · split at hw
        · cases hw
        · split at hw
          · cases hw
          · injection hw with hw; subst hw; rfl
  · rw [List.mem_singleton] at hp
    subst hp
    obtain ⟨n, _, hw⟩ := bind_ok hw
    injection hw with hw; subst hw; rfl

theorem addAtt_keeps (a : AddAtt) : ∀ p ∈ addAttachmentPhases a, ∀ w w', (p w).result = .ok w' → w'.metaSeg = w.metaSeg := by
  intro p hp w w' hw
  unfold addAttachmentPhases at hp
  rcases List.mem_cons.1 hp with rfl | hp
  · dsimp only at hw
    split at hw
    · cases hw
    · split at hw
      · cases hw
      · split at hw
        · cases hw
        · injection hw with hw; subst hw; rfl
  · rw [List.mem_singleton] at hp
    subst hp
    obtain ⟨n, _, hw⟩ := bind_ok hw
    injection hw with hw; subst hw; rfl

theorem Inv.garbage {s s' : Sys} {info : WriterInfo} {segs : List Seg} {subs : List AddInfo} {atts : List AddAtt} {mt : Option MetaInfo} (h : Inv s info segs subs atts mt)
    {ws : List Write} (hd : s'.disk = apply s.disk ws) (hw : ∀ x ∈ ws, s.w.next ≤ x.1) (hs : s'.w = s.w) : Inv s' info segs subs atts mt :=
  { h.toInvPhys.garbage hd hw (by rw [hs]) (by rw [hs]) (by rw [hs]) (by rw [hs]) (by rw [hs]) with
    dir := by rw [hs]; exact h.dir
    att := by rw [hs]; exact h.att
    subs_eq := h.subs_eq
    atts_eq := h.atts_eq
    subsOk := h.subsOk
    attsOk := h.attsOk
    metaOk := h.metaOk
    attReserved := by rw [hs]; exact h.attReserved }

theorem metaPhase_low {w : WState} (hm : w.metaSeg = none) (m : MetaInfo) : ∀ p ∈ writeMetadataPhases m, ∀ x ∈ (p w).writes, w.next ≤ x.1 := by
  intro p hp
  unfold writeMetadataPhases at hp
  rw [List.mem_singleton] at hp
  subst hp
  dsimp only
  split
  · intro x hx; cases hx
  · split
    · intro x hx; cases hx
    · rw [hm]
      exact Plan.low_bind (writeMetadata_low (lo := w.next) markIfLive (by intro i hi; cases hi) (Nat.le_refl _) m).1 (fun _ _ => Plan.low_pure _ _)

/-- Metadata that could not be written leave something behind the end. -/
theorem meta_fails {s u : Sys} {m : MetaInfo} {fs fs' : List Fault} {e : WErr} (hm : s.w.metaSeg = none) (h : stepOp s (.writeMetadata m) fs = (u, some e, fs')) :
    ∃ ws, u = ⟨s.w, apply s.disk ws⟩ ∧ ∀ x ∈ ws, s.w.next ≤ x.1 := by
  have h' : runPhases (writeMetadataPhases m) s fs = (u, some e, fs') := h
  have hlow := metaPhase_low hm m
  unfold writeMetadataPhases at h' hlow
  rcases run_throws h' with ⟨P, h1, rfl⟩ | ⟨w, fs1, _, h1⟩
  · refine ⟨P, rfl, ?_⟩
    intro x hx
    obtain ⟨v, hv, h2, _⟩ := h1 x hx
    rw [h2]
    exact hlow _ (List.mem_singleton.2 rfl) v hv
  · rw [runPhases] at h1; injection h1 with _ h1; injection h1 with h1 _; cases h1

theorem callsOn_cons (s : Sys) (c : WOp × List Fault) (cs : List (WOp × List Fault)) : callsOn s (c :: cs) =
    ((callsOn (stepOp s c.1 c.2).1 cs).1, if (stepOp s c.1 c.2).2.1.isNone then c.1 :: (callsOn (stepOp s c.1 c.2).1 cs).2 else (callsOn (stepOp s c.1 c.2).1 cs).2) := rfl

theorem subsOf_append (a b : List WOp) : subsOf (a ++ b) = subsOf a ++ subsOf b := List.filterMap_append ..
theorem attsOf_append (a b : List WOp) : attsOf (a ++ b) = attsOf a ++ attsOf b := List.filterMap_append ..
theorem lastMeta_append (a b : List WOp) : lastMeta (a ++ b) = (lastMeta b).or (lastMeta a) := by
  unfold lastMeta
  rw [List.filterMap_append, List.getLast?_append]

theorem calls_inv {info : WriterInfo} : ∀ (cs : List (WOp × List Fault)) {s : Sys} {segs : List Seg} {subs : List AddInfo} {atts : List AddAtt} {mt : Option MetaInfo}
    {there : Bool}, Inv s info segs subs atts mt → (∀ op ∈ cs.map Prod.fst, OpOk op) → s.w.next + opsSize (cs.map Prod.fst) < 1152921504606846976 →
    OnlyFirstMetadataFail s there cs → (there = false → s.w.metaSeg = none) →
    ∃ segs', Inv (callsOn s cs).1 info segs' (subs ++ subsOf (callsOn s cs).2) (atts ++ attsOf (callsOn s cs).2) ((lastMeta (callsOn s cs).2).or mt) ∧
      (callsOn s cs).1.w.next ≤ s.w.next + opsSize (cs.map Prod.fst) ∧ (callsOn s cs).2.length ≤ cs.length := by
  intro cs
  induction cs with
  | nil =>
    intro s segs subs atts mt there h _ _ _ _
    refine ⟨segs, ?_, by simp [callsOn], by simp [callsOn]⟩
    simpa [callsOn, subsOf, attsOf, lastMeta] using h
  | cons c cs ih =>
    intro s segs subs atts mt there h hops hn ho hthere
    obtain ⟨op, fs⟩ := c
    rw [List.map_cons, opsSize_cons] at hn
    rw [List.map_cons] at hops
    have hop := hops op (List.mem_cons_self ..)
    have hrest : ∀ o ∈ cs.map Prod.fst, OpOk o := fun o ho => hops o (List.mem_cons_of_mem _ ho)
    unfold OnlyFirstMetadataFail at ho
    dsimp only at ho hn
    obtain ⟨ho1, ho2⟩ := ho
    rw [callsOn_cons]
    dsimp only
    rw [List.map_cons, opsSize_cons]
    dsimp only
    rcases hr : stepOp s op fs with ⟨u, e, fs'⟩
    rw [hr] at ho2
    dsimp only at ho2 ⊢
    have hcase : step s op = (u, e) ∨ (e = some .ioError ∧ there = false ∧ ∃ m, op = .writeMetadata m) := by
      rcases ho1 with rfl | hx
      · left; unfold step; rw [hr]
      · by_cases hio : e = some .ioError
        · exact .inr ⟨hio, hx⟩
        · left
          have := run_same _ hio hr
          unfold step stepOp
          dsimp only
          rw [this]
    rcases hcase with hs | ⟨rfl, hthf, m, rfl⟩
    rotate_left
    · obtain ⟨ws, rfl, hws⟩ := meta_fails (hthere hthf) hr
      have hi := h.garbage (s' := ⟨s.w, apply s.disk ws⟩) rfl hws rfl
      rw [hthf] at ho2
      obtain ⟨segs', k1, k2, k3⟩ := ih hi hrest (by dsimp only; omega) ho2 (fun _ => hthere hthf)
      dsimp only at k2
      rw [if_neg (by decide)]
      refine ⟨segs', k1, by omega, by rw [List.length_cons]; omega⟩
    · obtain ⟨segs1, k1, k2, _⟩ := session_inv [op] h (by intro o ho; rw [List.mem_singleton] at ho; rw [ho]; exact hop) (by rw [opsSize_cons]; show _ + (_ + 0) < _; omega)
      have hse : session s [op] = (u, if e.isNone then [op] else []) := by
        unfold session
        rw [hs]
        rfl
      rw [hse] at k1 k2
      dsimp only at k1 k2
      rw [opsSize_cons] at k2
      change u.w.next ≤ s.w.next + (_ + 0) at k2
      obtain ⟨segs', j1, j2, j3⟩ := ih k1 hrest (by omega) ho2 (by
        intro hf
        rw [Bool.or_eq_false_iff] at hf
        have hsm := hthere hf.1
        have hu : u = (runPhases op.phases s fs).1 := by
          show _ = (stepOp s op fs).1
          rw [hr]
        cases op with
        | create i => exact hop.elim
        | close => exact hop.elim
        | addSubBlock a => rw [hu]; exact (run_keep WState.metaSeg _ (add_keeps a) s fs).trans hsm
        | addAttachment a => rw [hu]; exact (run_keep WState.metaSeg _ (addAtt_keeps a) s fs).trans hsm
        | writeMetadata m =>
          cases e with
          | none => exact absurd (show true = false from hf.2) (by decide)
          | some e =>
            obtain ⟨ws, rfl, _⟩ := meta_fails hsm hr
            exact hsm)
      cases e with
      | none =>
        simp only [Option.isNone_none, if_true] at j1 j2 j3 ⊢
        refine ⟨segs', ?_, by omega, by rw [List.length_cons, List.length_cons]; omega⟩
        rw [show op :: (callsOn u cs).2 = [op] ++ (callsOn u cs).2 from rfl, subsOf_append, attsOf_append, lastMeta_append, ← List.append_assoc, ← List.append_assoc,
          Option.or_assoc]
        exact j1
      | some e =>
        simp only [Option.isNone_some, Bool.false_eq_true, if_false] at j1 j2 j3 ⊢
        refine ⟨segs', ?_, by omega, by rw [List.length_cons]; omega⟩
        simpa [subsOf, attsOf, lastMeta] using j1

/-- `Create`, the calls, `Close`. -/
theorem calls_written (dup : Bool) (d0 : Disk) (info : WriterInfo) (cs : List (WOp × List Fault)) (hi : InfoOk info) (hres : info.reservedMetadata = none)
    (hops : OpsOk (cs.map Prod.fst)) :
    ∃ s, step ⟨WState.init dup, d0⟩ (.create info) = (s, none) ∧ (OnlyFirstMetadataFail s false cs →
      ∃ d segs q sp mp ap dir att, step (callsOn s cs).1 .close = (⟨WState.init (callsOn s cs).1.w.allowDuplicates, d⟩, none) ∧
        Written d info segs q sp mp ap dir att (subsOf (callsOn s cs).2) (attsOf (callsOn s cs).2) (lastMeta (callsOn s cs).2)) := by
  have hmeta : (step ⟨WState.init dup, d0⟩ (.create info)).1.w.metaSeg = none := by
    have hk := run_keep WState.metaSeg (createPhases info) (by
      intro p hp w w' hw
      unfold createPhases at hp
      rw [hres] at hp
      simp only [List.mem_cons, List.not_mem_nil, or_false] at hp
      rcases hp with rfl | rfl | rfl | rfl | rfl
      · dsimp only at hw
        split at hw
        · cases hw
        · injection hw with hw; subst hw; rfl
      · injection hw with hw; subst hw; rfl
      · injection hw with hw; subst hw; rfl
      · cases hr : info.reservedSubDir with
        | none => rw [hr] at hw; injection hw with hw; subst hw; rfl
        | some n => rw [hr] at hw; injection hw with hw; subst hw; rfl
      · cases hr : info.reservedAttDir with
        | none => rw [hr] at hw; injection hw with hw; subst hw; rfl
        | some n => rw [hr] at hw; injection hw with hw; subst hw; rfl) ⟨WState.init dup, d0⟩ []
    exact hk
  obtain ⟨s, segs0, e1, hinv, hn, _⟩ := step_create dup d0 info hi
  rw [e1] at hmeta
  refine ⟨s, e1, ?_⟩
  intro ho
  have hlen := hops.count
  have htot := hops.total
  have hos : opsSize (cs.map Prod.fst) = ((cs.map Prod.fst).map opBytes).sum + 4096 * (cs.map Prod.fst).length := rfl
  obtain ⟨segs, hinv2, hn2, hl2⟩ := calls_inv cs hinv hops.each (by omega) ho (fun _ => hmeta)
  rw [List.length_map] at hlen
  generalize callsOn s cs = r at *
  have hsl : (subsOf r.2).length ≤ r.2.length := List.length_filterMap_le _ _
  have hal : (attsOf r.2).length ≤ r.2.length := List.length_filterMap_le _ _
  rw [List.nil_append, List.nil_append, Option.or_none] at hinv2
  have hd1 := hinv2.dir_length
  have hd2 := hinv2.att_length
  rw [List.length_map] at hos
  obtain ⟨d, segs', q, sp, mp, ap, ws, e2, hcl, ⟨hq, hqn⟩, hf, hab, _, _⟩ := step_close hinv2.toInvPhys hinv2.attReserved (by omega) (by omega) (by omega)
  refine ⟨d, segs', q, sp, mp, ap, r.1.w.dir.subBlks, r.1.w.att, e2, ?_⟩
  exact {
      closed := hcl
      small := hq
      dirPerm := by rw [subPairs_entry, hf _ Seg.subEntry_special]; exact hinv2.dir
      subsEq := by rw [subPairs_fst, hf _ Seg.addInfo_special]; exact hinv2.subs_eq
      attEq := by rw [attPairs_entry, hf _ Seg.attEntry_special]; exact hinv2.att
      attsEq := by rw [attPairs_fst, hf _ Seg.addAtt_special]; exact hinv2.atts_eq
      subsOk := hinv2.subsOk
      attsOk := hinv2.attsOk
      metaOk := hinv2.metaOk
      subsLen := by omega
      attsLen := by omega
      attLen := by omega
      attBytes := fun hne => (hab hne).1 }

theorem callsOn_sublist : ∀ (cs : List (WOp × List Fault)) (s : Sys), (callsOn s cs).2.Sublist (cs.map Prod.fst) := by
  intro cs
  induction cs with
  | nil => intro s; exact List.Sublist.refl _
  | cons c cs ih =>
    intro s
    rw [callsOn_cons, List.map_cons]
    dsimp only
    split
    · exact (ih _).cons₂ _
    · exact (ih _).cons _

/-! ## Adding again what could not be added -/

theorem setInsert_twice {α : Type} {lt : α → α → Bool} {a : α} (hirr : lt a a = false) : ∀ (l l' : List α), setInsert lt a l = some l' → setInsert lt a l' = none := by
  intro l
  induction l with
  | nil => intro l' h; cases h; unfold setInsert; rw [hirr]; rfl
  | cons b r ih =>
    intro l' h
    unfold setInsert at h
    split at h
    · rename_i hlt
      cases hr : setInsert lt a r with
      | none => rw [hr] at h; cases h
      | some r' =>
        rw [hr] at h
        cases h
        show setInsert lt a (b :: r') = none
        unfold setInsert
        rw [if_pos hlt, ih r' hr]
        rfl
    · split at h
      · cases h
        unfold setInsert
        rw [hirr]
        rfl
      · cases h

theorem entryLt_irrefl (fp : Bool) (e : Entry) : entryLt fp e e = false := by
  unfold entryLt
  rw [if_neg (by rw [Rat.sub_self]; decide +kernel), Coord.compare_self]
  simp only [Int.lt_irrefl, gt_iff_lt, if_false, Int.sub_self, decide_false, Bool.and_false, Bool.false_eq_true, Nat.lt_irrefl]
  cases e.isMIndexValid <;> rfl

theorem run_silent {p : Phase} {ps : List Phase} {s : Sys} {fs : List Fault} {w : WState} (h : p s.w = ⟨[], .ok w⟩) :
    runPhases (p :: ps) s fs = runPhases ps ⟨w, s.disk⟩ fs := by
  rw [runPhases]
  simp only [h, performWrites_none, if_true]

theorem run_refused {p : Phase} {ps : List Phase} {s : Sys} {fs : List Fault} {e : WErr} (h : p s.w = ⟨[], .error e⟩) :
    runPhases (p :: ps) s fs = (s, some e, fs) := by
  rw [runPhases]
  simp only [h, performWrites_none, if_true]

theorem add_again {s : Sys} {a : AddInfo} {fs : List Fault} (he : (stepOp s (.addSubBlock a) fs).2.1 = some .ioError) :
    (step (stepOp s (.addSubBlock a) fs).1 (.addSubBlock a)).2 = some .subBlockExists := by
  obtain ⟨htry, ws, hst, _⟩ := add_fails (.inr rfl) he
  have hpass : ∃ info, s.w.info = some info ∧ a.check = true ∧ coordErr (checkCoordinate info.dimBounds info.mBounds a.coordinate a.mIndex) = none := by
    have he' : (runPhases (addSubBlockPhases a) s fs).2.1 = some .ioError := he
    unfold addSubBlockPhases at he'
    cases hi : s.w.info with
    | none =>
      rw [run_refused (e := .logicError) (by (try dsimp only); rw [hi]; rfl)] at he'
      cases he'
    | some info =>
      cases hc : a.check with
      | false =>
        rw [run_refused (e := .invalidArgument) (by (try dsimp only); rw [hi]; (try dsimp only); rw [if_pos hc]; rfl)] at he'
        cases he'
      | true =>
        refine ⟨info, rfl, rfl, ?_⟩
        cases hco : coordErr (checkCoordinate info.dimBounds info.mBounds a.coordinate a.mIndex) with
        | none => rfl
        | some e =>
          exfalso
          rw [run_refused (e := e) (by (try dsimp only); rw [hi]; dsimp only; rw [if_neg (by rw [hc]; decide), hco]; rfl)] at he'
          unfold coordErr at hco
          split at hco <;> cases hco <;> cases he'
  obtain ⟨info, hi, hc, hco⟩ := hpass
  rw [hst]
  have htry2 : ((s.w.dir.tryAdd (a.entry s.w.next)).1.tryAdd (a.entry s.w.next)).2 = false := by
    unfold WriterDir.tryAdd at htry ⊢
    cases hs : setInsert (entryLt s.w.dir.allowDuplicates) (a.entry s.w.next) s.w.dir.subBlks with
    | none => rw [hs] at htry; cases htry
    | some l =>
      dsimp only
      rw [setInsert_twice (entryLt_irrefl _ _) _ _ hs]
  unfold step stepOp WOp.phases addSubBlockPhases
  dsimp only
  rw [runPhases_err (ws := []) (e := .subBlockExists)]
  dsimp only
  rw [hi]
  dsimp only
  rw [if_neg (by rw [hc]; decide), hco]
  dsimp only
  rw [if_pos htry2]
  rfl

theorem addAtt_again {s : Sys} {a : AddAtt} {fs : List Fault} (he : (stepOp s (.addAttachment a) fs).2.1 = some .ioError) :
    (step (stepOp s (.addAttachment a) fs).1 (.addAttachment a)).2 = some .attachmentExists := by
  obtain ⟨ws, hst, _⟩ := addAtt_fails he
  have hpass : ∃ info, s.w.info = some info ∧ a.check = true := by
    have he' : (runPhases (addAttachmentPhases a) s fs).2.1 = some .ioError := he
    unfold addAttachmentPhases at he'
    cases hi : s.w.info with
    | none =>
      rw [run_refused (e := .logicError) (by (try dsimp only); rw [hi]; rfl)] at he'
      cases he'
    | some info =>
      cases hc : a.check with
      | false =>
        rw [run_refused (e := .invalidArgument) (by (try dsimp only); rw [hi]; (try dsimp only); rw [if_pos hc]; rfl)] at he'
        cases he'
      | true => exact ⟨info, rfl, rfl⟩
  obtain ⟨info, hi, hc⟩ := hpass
  rw [hst]
  have htry2 : tryAddAtt (s.w.att ++ [a.entry s.w.next]) (a.entry s.w.next) = none := by
    unfold tryAddAtt
    rw [if_pos]
    rw [List.any_append, Bool.or_eq_true]
    right
    rw [List.any_cons, equalId_self _ _ rfl rfl rfl]
    rfl
  unfold step stepOp WOp.phases addAttachmentPhases
  dsimp only
  rw [runPhases_err (ws := []) (e := .attachmentExists)]
  dsimp only
  rw [hi]
  dsimp only
  rw [if_neg (by rw [hc]; decide), htry2]
  rfl

/-- `Create` that failed cannot be made again. -/
theorem create_again {s u : Sys} {info info' : WriterInfo} {fs fs' : List Fault} (h : stepOp s (.create info) fs = (u, some .ioError, fs')) :
    step u (.create info') = (u, some .logicError) := by
  have h' : runPhases (createPhases info) s fs = (u, some .ioError, fs') := h
  have hk : u.w.info = some info := by
    unfold createPhases at h'
    cases hi : s.w.info with
    | some i =>
      rw [run_refused (e := .logicError) (by (try dsimp only); rw [hi]; rfl)] at h'
      injection h' with _ h'; injection h' with h' _; cases h'
    | none =>
        rw [run_silent (w := { s.w with info := some info }) (by (try dsimp only); rw [hi]; rfl)] at h'
        have := run_keep WState.info (createPhases info).tail (by
          intro p hp w w' hw
          unfold createPhases at hp
          rw [List.tail_cons] at hp
          simp only [List.mem_cons, List.not_mem_nil, or_false] at hp
          rcases hp with rfl | rfl | rfl | rfl
          · injection hw with hw; subst hw; rfl
          · cases hr : info.reservedMetadata with
            | none => rw [hr] at hw; injection hw with hw; subst hw; rfl
            | some n => rw [hr] at hw; injection hw with hw; subst hw; rfl
          · cases hr : info.reservedSubDir with
            | none => rw [hr] at hw; injection hw with hw; subst hw; rfl
            | some n => rw [hr] at hw; injection hw with hw; subst hw; rfl
          · cases hr : info.reservedAttDir with
            | none => rw [hr] at hw; injection hw with hw; subst hw; rfl
            | some n => rw [hr] at hw; injection hw with hw; subst hw; rfl) ⟨{ s.w with info := some info }, s.disk⟩ fs
        have h2 : runPhases (createPhases info).tail ⟨{ s.w with info := some info }, s.disk⟩ fs = (u, some .ioError, fs') := h'
        rw [h2] at this
        exact this
  unfold step stepOp WOp.phases createPhases
  dsimp only
  rw [runPhases_err (ws := []) (e := .logicError)]
  · rfl
  · rw [hk]
    rfl

end Verif.Czi
