import Verif.Proof.WriterInv2

/-! Closing a document. -/

namespace Verif.Czi

open Spec

attribute [local irreducible] zeros

/-- The position of the metadata segment. -/
def MetaAt (mt : Option MetaInfo) (mp : Nat) (segs : List Seg) : Prop :=
  match mt with
  | none => mp = 0
  | some m => ∃ al, (⟨mp, al, .metadata (some m)⟩ : Seg) ∈ segs

/-- A file after `Close`: the segments, and where the file header points to. -/
structure Closed (d : Disk) (guid : Guid) (segs : List Seg) (q : Nat) (sp mp ap : Nat) (dir : List Entry) (att : List AttEntry) (mt : Option MetaInfo) : Prop where
  header : Holds d 0 (fileHeader guid sp mp ap)
  chain : Chain 544 segs q
  onDisk : OnDisk d segs
  subDir : ∃ al, (⟨sp, al, .subDir (some dir)⟩ : Seg) ∈ segs
  metadata : MetaAt mt mp segs
  attDir : (att = [] ∧ ap = 0) ∨ (∃ al, (⟨ap, al, .attDir (some att)⟩ : Seg) ∈ segs ∧ ap + 288 + 128 * att.length ≤ d.size)
  attNone : att = [] → ap = 0

theorem entries_bytes_le (es : List Entry) : (es.map entryBytes).flatten.length ≤ 272 * es.length := by
  induction es with
  | nil => simp
  | cons e es ih =>
    have h1 := entryBytes_length e
    have h2 : (entryDims e).length ≤ 12 := dimList_length_le _ _ _ _ _ _ _ _
    simp only [List.map_cons, List.flatten_cons, List.length_append, List.length_cons]
    omega

theorem apply_size_le (d : Disk) (ws : List Write) : d.size ≤ (apply d ws).size := by
  induction ws generalizing d with
  | nil => exact Nat.le_refl _
  | cons w ws ih => exact Nat.le_trans (Disk.write_size_le ..) (ih _)

/-- The attachment entries on the disk: all of them, or, if a reserved directory is larger than needed, without the last 288 bytes. -/
def attOnDisk (reserved : Option Nat) (att : List AttEntry) : List UInt8 :=
  match reserved with
  | none => attEntriesBytes att
  | some r => if att.length < (if r = 0 then 10 else r) then
      (attEntriesBytes att).take (128 * att.length - 288) ++ zeros (min 288 (128 * att.length))
    else attEntriesBytes att

theorem attOnDisk_length (r : Option Nat) (att : List AttEntry) : (attOnDisk r att).length = 128 * att.length := by
  have := attEntriesBytes_length att
  unfold attOnDisk
  cases r with
  | none => exact this
  | some r =>
    dsimp only
    generalize (if r = 0 then 10 else r) = k
    split
    · rw [List.length_append, List.length_take, zeros_length]
      omega
    · exact this

theorem Holds.mono_bytes {d : Disk} {p : Nat} {c c' : List UInt8} (h : Holds d p c) (e : c = c') : Holds d p c' := e ▸ h

theorem Holds.prefix {d : Disk} {p : Nat} {c : List UInt8} (h : Holds d p c) (n : Nat) : Holds d p (c.take n) := by
  have := h
  rw [← List.take_append_drop n c] at this
  exact this.left

/-- The writing of the attachment directory. -/
theorem attDir_bytes {pos alloc : Nat} {att : List AttEntry} {ws wz : List Write} (hne : att.length > 0)
    (hc : Contig pos ws (attDirSegBytes alloc att.length ++ attEntriesBytes att))
    (hz : (256 + att.length * 128 = alloc ∧ wz = []) ∨ (256 + att.length * 128 < alloc ∧
        Contig (pos + 128 * att.length) wz (zeros (zeroAmount (alloc + 32 - 128 * att.length))))) (d : Disk) :
    Holds (apply d (ws ++ wz)) pos (segHeader attDirMagic alloc (256 + att.length * 128) ++ leInt 4 att.length) ∧
    WithinW pos (pos + 32 + alloc) (ws ++ wz) ∧
    (alloc = 256 + att.length * 128 → Holds (apply d (ws ++ wz)) (pos + 288) (attEntriesBytes att)) ∧
    (256 + att.length * 128 < alloc → Holds (apply d (ws ++ wz)) (pos + 288)
      ((attEntriesBytes att).take (128 * att.length - 288) ++ zeros (min 288 (128 * att.length)))) := by
  have hel := attEntriesBytes_length att
  have hsl := attDirSegBytes_length alloc att.length
  have hall : Holds (apply d ws) pos (attDirSegBytes alloc att.length ++ attEntriesBytes att) := by
    have := Holds.contig (d := d) (z := []) (by rw [List.append_nil]; exact hc) (by
      intro h
      have := congrArg List.length h
      rw [List.length_append, hsl, List.length_nil] at this
      omega)
    exact this
  have hhd : Holds (apply d ws) pos (segHeader attDirMagic alloc (256 + att.length * 128) ++ leInt 4 att.length) := by
    have := hall.left
    unfold attDirSegBytes at this
    exact this.left
  have hent := hall.right
  rw [hsl] at hent
  rw [apply_append]
  rcases hz with ⟨h1, rfl⟩ | ⟨h1, hz⟩
  · refine ⟨hhd, ?_, fun _ => hent, fun h => by omega⟩
    rw [List.append_nil]
    refine hc.within.mono (Nat.le_refl _) ?_
    rw [List.length_append]
    omega
  · have hzl := zeroAmount_le (alloc + 32 - 128 * att.length)
    have hzw : WithinW (pos + 128 * att.length) (pos + 32 + alloc) wz := by
      refine hz.within.mono (Nat.le_refl _) ?_
      rw [zeros_length]
      omega
    refine ⟨hhd.frame hzw (.inl ?_), ?_, fun h => by omega, fun _ => ?_⟩
    · rw [List.length_append, segHeader_length attDirMagic_length, leInt_length]
      omega
    · refine WithinW.append (hc.within.mono (Nat.le_refl _) ?_) (hzw.mono (by omega) (Nat.le_refl _))
      rw [List.length_append]
      omega
    · have hz288 : 288 ≤ zeroAmount (alloc + 32 - 128 * att.length) := by
        unfold zeroAmount
        split
        · omega
        · omega
      have hzh : Holds (apply (apply d ws) wz) (pos + 128 * att.length) (zeros 288) := by
        have := Holds.contig (d := apply d ws) (c := zeros 288) (z := zeros (zeroAmount (alloc + 32 - 128 * att.length) - 288))
          (by rw [zeros_append, show 288 + (zeroAmount (alloc + 32 - 128 * att.length) - 288) = zeroAmount (alloc + 32 - 128 * att.length) by omega]; exact hz)
          (by intro h; have := congrArg List.length h; rw [zeros_length] at this; simp at this)
        exact this
      by_cases h3 : 288 ≤ 128 * att.length
      · rw [Nat.min_eq_left h3]
        refine Holds.append ((hent.prefix _).frame hzw (.inl ?_)) ?_
        · rw [List.length_take]
          omega
        · rw [List.length_take, hel, Nat.min_eq_left (by omega)]
          rw [show pos + 288 + (128 * att.length - 288) = pos + 128 * att.length by omega]
          exact hzh
      · rw [Nat.min_eq_right (by omega), show 128 * att.length - 288 = 0 by omega, List.take_zero, List.nil_append]
        have h2 := hzh
        rw [show (288 : Nat) = (288 - 128 * att.length) + 128 * att.length by omega, ← zeros_append] at h2
        have h3 := h2.right
        rw [zeros_length, show pos + 128 * att.length + (288 - 128 * att.length) = pos + 288 by omega] at h3
        exact h3

/-- `Close` succeeds; all its writes but the last, which is the file header, are behind the file header. -/
theorem step_close {s : Sys} {info : WriterInfo} {segs : List Seg} {mt : Option MetaInfo}
    (h : InvPhys s info segs mt)
    (hres : s.w.attDirSeg.map SegInfo.alloc = info.reservedAttDir.map (fun n => 256 + 128 * (if n = 0 then 10 else n))) (hn : s.w.next < 2 ^ 60) (hsub : s.w.dir.subBlks.length < 2 ^ 31) (hatt : s.w.att.length < 2 ^ 31) :
    ∃ d segs' q sp mp ap ws, step s .close = (⟨WState.init s.w.allowDuplicates, d⟩, none) ∧
      Closed d info.guid segs' q sp mp ap s.w.dir.subBlks s.w.att mt ∧ (q < 2 ^ 61 ∧ q ≤ s.w.next + 2 ^ 43) ∧
      (∀ {β : Type} (f : Seg → Option β), (∀ g : Seg, g.owner.Special → f g = none) → segs'.filterMap f = segs.filterMap f) ∧
      (s.w.att ≠ [] → Holds d (ap + 288) (attOnDisk info.reservedAttDir s.w.att) ∧
        (info.reservedAttDir = none → (⟨ap, 256 + 128 * s.w.att.length, .attDir (some s.w.att)⟩ : Seg) ∈ segs')) ∧
      d = apply s.disk (ws ++ [(0, fileHeader info.guid sp mp ap)]) ∧ (∀ w ∈ ws, 544 ≤ w.1) := by
  have hbytes := entries_bytes_le s.w.dir.subBlks
  -- the sub-block directory
  have hlt : ∀ i, s.w.subDirSeg = some i → 544 ≤ i.pos ∧ i.alloc < 2 ^ 62 := by
    intro i hi
    have := h.chain.mem (h.subDirSeg i hi).1
    dsimp only at this
    omega
  obtain ⟨mw, sp, sal, hp, ws, e, hcg⟩ := writeSubDir_ok s.w.subDirSeg markIfLive s.w.next s.w.dir.subBlks (fun i hi => (hlt i hi).2) (by omega)
  have hen := hp.enough (Nat.le_refl _)
  have hle := le_align (128 + (s.w.dir.subBlks.map entryBytes).flatten.length)
  have hallt := align_lt (128 + (s.w.dir.subBlks.map entryBytes).flatten.length)
  have hbl := subDirBytes_length sal s.w.dir.subBlks
  have hwi : WithinW sp (sp + 32 + sal) ws := by
    refine hcg.within.mono (Nat.le_refl _) ?_
    rw [List.length_append, zeros_length]
    have := filled_le (b := (subDirBytes sal s.w.dir.subBlks).length) (a := sal) (by omega)
    omega
  have hbody : (⟨sp, sal, .subDir (some s.w.dir.subBlks)⟩ : Seg).body = subDirBytes sal s.w.dir.subBlks := rfl
  obtain ⟨segs2, hr⟩ := replaced (ow := .subDir (some s.w.dir.subBlks)) h.onDisk h.chain (existing := s.w.subDirSeg) (mark := markIfLive)
    (by
      intro i hi
      obtain ⟨h1, h2, h3⟩ := h.subDirSeg i hi
      exact ⟨.subDir none, trivial, h1, h3, fun _ => rfl⟩) hp (align_mod _) trivial hwi
    (by intro d; exact Holds.contig (by rw [hbody]; exact hcg) (Seg.body_ne_nil _)) (by rw [hbody]; omega) ⟨_, rfl, by omega⟩
  have hlow := hp.lower h.chain.le (fun i hi => (hlt i hi).1)
  have hlow1 : ∀ w ∈ mw ++ ws, 544 ≤ w.1 := by
    intro w hw
    rcases List.mem_append.1 hw with hw | hw
    · exact hlow.2 w hw
    · exact hwi.lower hlow.1 w hw
  generalize hn2 : (if sp = s.w.next then s.w.next + (sal + 32) else s.w.next) = next2 at hr
  have hnle : next2 ≤ s.w.next + 2 ^ 42 := by
    rw [← hn2]
    split
    · rename_i hpe
      rcases hp with ⟨i, hi, _, _, h1, h2⟩ | ⟨_, _, h2, _⟩
      · have := h.chain.mem (h.subDirSeg i hi).1
        dsimp only at this
        omega
      · omega
    · omega
  have hoth : ∀ (i : SegInfo) (o : Owner), (⟨i.pos, i.alloc, o⟩ : Seg) ∈ segs → (∀ x, o ≠ .subDir x) → (⟨i.pos, i.alloc, o⟩ : Seg) ∈ segs2 := by
    intro i o hi ho
    refine hr.others _ hi ?_
    intro j hj hpos
    have := h.chain.eq_of_pos hi (h.subDirSeg j hj).1 hpos
    injection this with _ _ h3
    exact ho _ h3
  have hmp : MetaAt mt (livePos s.w.metaSeg) segs2 := by
    cases hms : s.w.metaSeg with
    | none => rw [h.metaNone hms]; rfl
    | some i =>
      obtain ⟨h1, h2, h3⟩ := h.metaSeg i hms
      cases mt with
      | none => show livePos _ = 0; simp [livePos, h2]
      | some m =>
        refine ⟨i.alloc, ?_⟩
        have : livePos (some i) = i.pos := by simp [livePos, h2]
        rw [this]
        exact hoth i _ h1 (by simp)
  let w2 : WState := { s.w with subDirSeg := some ⟨sp, sal, false⟩, next := next2 }
  have e2 : closeSubDir s.w = ⟨mw ++ ws, .ok w2⟩ := by
    unfold closeSubDir
    rw [e, Plan.bind_ok]
    show (⟨(mw ++ ws) ++ [], .ok _⟩ : Plan WState) = _
    simp only [List.append_nil, hn2, w2]
  -- the attachment directory
  have H3 : ∃ w3 ws3 segs3, closeAttDir w2 = ⟨ws3, .ok w3⟩ ∧ (∀ w ∈ ws3, 544 ≤ w.1) ∧
      OnDisk (apply (apply s.disk (mw ++ ws)) ws3) segs3 ∧ Chain 544 segs3 w3.next ∧ w3.next ≤ s.w.next + 2 ^ 43 ∧
      (∀ x ∈ segs2, (∀ y, x.owner ≠ .attDir y) → x ∈ segs3) ∧
      (∀ {β : Type} (f : Seg → Option β), (∀ g : Seg, g.owner.Special → f g = none) → segs3.filterMap f = segs2.filterMap f) ∧
      w3.info = s.w.info ∧ w3.subDirSeg = w2.subDirSeg ∧ w3.metaSeg = s.w.metaSeg ∧ w3.allowDuplicates = s.w.allowDuplicates ∧
      ((s.w.att = [] ∧ livePos w3.attDirSeg = 0) ∨ (s.w.att ≠ [] ∧
        (∃ al, (⟨livePos w3.attDirSeg, al, .attDir (some s.w.att)⟩ : Seg) ∈ segs3 ∧ (info.reservedAttDir = none → al = 256 + 128 * s.w.att.length)) ∧
          Holds (apply (apply s.disk (mw ++ ws)) ws3) (livePos w3.attDirSeg + 288) (attOnDisk info.reservedAttDir s.w.att))) := by
    by_cases hz : s.w.att.length > 0
    case neg =>
      refine ⟨w2, [], segs2, by unfold closeAttDir; rw [if_neg hz]; rfl, by simp, hr.onDisk, hr.chain, by show next2 ≤ _; omega, fun x hx _ => hx, fun f hf => rfl, rfl, rfl, rfl, rfl, .inl ⟨?_, ?_⟩⟩
      · exact List.length_eq_zero_iff.1 (by omega)
      · show livePos s.w.attDirSeg = 0
        cases ha : s.w.attDirSeg with
        | none => rfl
        | some i => simp [livePos, (h.attDirSeg i ha).2.1]
    case pos =>
      have hlt3 : ∀ i, s.w.attDirSeg = some i → (⟨i.pos, i.alloc, .attDir none⟩ : Seg) ∈ segs2 ∧ 544 ≤ i.pos ∧ i.alloc < 2 ^ 62 := by
        intro i hi
        have h1 := (h.attDirSeg i hi).1
        have := h.chain.mem h1
        dsimp only at this
        exact ⟨hoth i _ h1 (by simp), by omega, by omega⟩
      obtain ⟨mw3, ap, aal, hp3, ws3, wz, e3, hc3, hz3⟩ := writeAttDir_ok s.w.attDirSeg markIfLive next2 s.w.att (fun i hi => (hlt3 i hi).2.2) (by omega)
      have hall3 := fun d => attDir_bytes hz hc3 hz3 d
      have hen3 := hp3.enough (Nat.le_refl _)
      have hbody3 : (⟨ap, aal, .attDir (some s.w.att)⟩ : Seg).body =
        segHeader attDirMagic aal (256 + s.w.att.length * 128) ++ leInt 4 s.w.att.length := rfl
      have hbl3 : (⟨ap, aal, .attDir (some s.w.att)⟩ : Seg).body.length = 36 := by
        rw [hbody3, List.length_append, segHeader_length attDirMagic_length, leInt_length]
      obtain ⟨segs3, hr3⟩ := replaced (ow := .attDir (some s.w.att)) hr.onDisk hr.chain (existing := s.w.attDirSeg) (mark := markIfLive)
        (by
          intro i hi
          obtain ⟨h1, h2, h3⟩ := h.attDirSeg i hi
          exact ⟨.attDir none, trivial, (hlt3 i hi).1, h3, fun _ => rfl⟩) hp3 (by omega) trivial (hall3 s.disk).2.1
        (by intro d; rw [hbody3]; exact (hall3 d).1) (by rw [hbl3]; omega) ⟨_, rfl, by omega⟩
      have hlow3 := hp3.lower hr.chain.le (fun i hi => (hlt3 i hi).2.1)
      refine ⟨{ w2 with attDirSeg := some ⟨ap, aal, false⟩, next := if ap = next2 then next2 + (aal + 32) else next2 },
        mw3 ++ (ws3 ++ wz), segs3, ?_, ?_, hr3.onDisk, hr3.chain, ?_, ?_, hr3.filter, rfl, rfl, rfl, rfl, .inr ⟨fun h0 => by rw [h0] at hz; exact absurd hz (by decide), ⟨aal, hr3.mem, ?_⟩, ?_⟩⟩
      · unfold closeAttDir
        rw [if_pos hz]
        show (writeAttDir s.w.attDirSeg markIfLive next2 s.w.att >>= _) = _
        rw [e3, Plan.bind_ok]
        show (⟨(mw3 ++ (ws3 ++ wz)) ++ [], .ok _⟩ : Plan WState) = _
        simp only [List.append_nil, w2]
      · intro w hw
        rcases List.mem_append.1 hw with hw | hw
        · exact hlow3.2 w hw
        · exact (hall3 s.disk).2.1.lower hlow3.1 w hw
      · dsimp only
        split
        · rename_i hpe
          rcases hp3 with ⟨i, hi, _, _, h1, h2⟩ | ⟨_, _, h2, _⟩
          · have := hr.chain.mem (hlt3 i hi).1
            dsimp only at this
            omega
          · omega
        · omega
      · intro x hx ho
        refine hr3.others _ hx ?_
        intro j hj hpos
        have := hr.chain.eq_of_pos hx (hlt3 j hj).1 hpos
        exact ho _ (congrArg Seg.owner this)
      · intro hnone
        rw [hnone] at hres
        rcases hp3 with ⟨i, hi, _, _, h1, h2⟩ | ⟨_, _, h2, _⟩
        · rw [hi] at hres
          cases hres
        · omega
      · show Holds _ (ap + 288) _
        rw [apply_append]
        have hh := hall3 (apply (apply s.disk (mw ++ ws)) mw3)
        unfold attOnDisk
        rcases hp3 with ⟨i, hi, hni, _, h1, h2⟩ | ⟨hni, _, h2, _⟩
        · rw [hi] at hres
          cases hir : info.reservedAttDir with
          | none => rw [hir] at hres; cases hres
          | some r =>
            rw [hir] at hres
            simp only [Option.map_some, Option.some.injEq] at hres
            dsimp only
            generalize hk : (if r = 0 then 10 else r) = k at hres
            by_cases hlt : s.w.att.length < k
            · rw [if_pos hlt]
              exact hh.2.2.2 (by omega)
            · rw [if_neg hlt]
              exact hh.2.2.1 (by omega)
        · have hh3 := hh.2.2.1 h2
          cases hir : info.reservedAttDir with
          | none => exact hh3
          | some r =>
            rw [hir] at hres
            dsimp only
            cases hi : s.w.attDirSeg with
            | none => rw [hi] at hres; cases hres
            | some i =>
              have := hni i hi
              rw [hi] at hres
              simp only [Option.map_some, Option.some.injEq] at hres
              generalize hk : (if r = 0 then 10 else r) = k at hres
              rw [if_neg (by omega)]
              exact hh3
  obtain ⟨w3, ws3, segs3, e3, hlow3, hd3, hc3, hn3, hoth3, hf3, hi3, hsd3, hms3, hdup3, hatt3⟩ := H3
  have hsp3 : livePos w3.subDirSeg = sp := by rw [hsd3]; rfl
  refine ⟨apply s.disk (((mw ++ ws) ++ ws3) ++ [(0, fileHeader info.guid sp (livePos w3.metaSeg) (livePos w3.attDirSeg))]), segs3, w3.next, sp, livePos w3.metaSeg,
    livePos w3.attDirSeg, (mw ++ ws) ++ ws3, ?_, ?_, ⟨by omega, hn3⟩, ?_, ?_, rfl, ?_⟩
  · unfold step stepOp WOp.phases closePhases
    dsimp only
    rw [runPhases_ok (ws := []) (w := s.w) (by rw [h.operational]; rfl), runPhases_ok (s := ⟨s.w, apply s.disk []⟩) (ws := mw ++ ws) (w := w2) e2,
      runPhases_ok (ws := ws3) (w := w3) e3,
      runPhases_ok (ws := [(0, fileHeader info.guid sp (livePos w3.metaSeg) (livePos w3.attDirSeg))]) (w := WState.init s.w.allowDuplicates)]
    · simp only [apply_append]
      rfl
    · unfold closeHeader
      rw [hi3, h.operational, hsp3, hdup3]
      rfl
  · have hwh : WithinW 0 544 [(0, fileHeader info.guid sp (livePos w3.metaSeg) (livePos w3.attDirSeg))] := by
      intro w hw
      rcases List.mem_singleton.1 hw with rfl
      simp
    have hde : apply s.disk (((mw ++ ws) ++ ws3) ++ [(0, fileHeader info.guid sp (livePos w3.metaSeg) (livePos w3.attDirSeg))]) =
        apply (apply (apply s.disk (mw ++ ws)) ws3) [(0, fileHeader info.guid sp (livePos w3.metaSeg) (livePos w3.attDirSeg))] := by
      simp only [apply_append]
    rw [hde]
    exact {
      header := Holds.write (fileHeader_ne_nil _ _ _ _)
      chain := hc3
      onDisk := hd3.outside hc3 hwh (.inr (Nat.le_refl _))
      subDir := ⟨sal, hoth3 _ hr.mem (by simp)⟩
      metadata := by
        rw [hms3]
        cases mt with
        | none => exact hmp
        | some m =>
          obtain ⟨al, hal⟩ := hmp
          exact ⟨al, hoth3 _ hal (by simp)⟩
      attDir := by
        rcases hatt3 with h1 | ⟨_, ⟨al, h1, _⟩, h2⟩
        · exact .inl h1
        · refine .inr ⟨al, h1, ?_⟩
          have := h2.1
          have hl := attOnDisk_length info.reservedAttDir s.w.att
          have := apply_size_le (apply (apply s.disk (mw ++ ws)) ws3) [(0, fileHeader info.guid sp (livePos w3.metaSeg) (livePos w3.attDirSeg))]
          omega
      attNone := by
        intro h0
        rcases hatt3 with h1 | ⟨h1, _⟩
        · exact h1.2
        · exact absurd h0 h1 }
  · intro β f hf
    rw [hf3 f hf, hr.filter f hf]
  · intro hne
    rcases hatt3 with ⟨h1, _⟩ | ⟨_, ⟨al, h1, hx⟩, h2⟩
    · exact absurd h1 hne
    · refine ⟨?_, fun hn => by rw [← hx hn]; exact h1⟩
      simp only [apply_append] at h2 ⊢
      refine Holds.other h2 (.inl ?_)
      have := hc3.mem h1
      dsimp only at this
      simp
      omega
  · intro w hw
    rcases List.mem_append.1 hw with hw | hw
    · exact hlow1 w hw
    · exact hlow3 w hw

end Verif.Czi
