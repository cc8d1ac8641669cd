import Verif.Proof.EditClean
import Verif.Proof.DocMore

/-! Documents written by a writer are sound documents. -/

namespace Verif.Czi

open Spec

attribute [local irreducible] zeros

theorem attEntryOf_pos {b : List UInt8} {x : AttEntry} (h : attEntryOf b = some x) : x.filePosition = fieldNat b 12 8 := by
  unfold attEntryOf at h
  split at h
  · exact (congrArg AttEntry.filePosition (Option.some.inj h)).symm
  · cases h

theorem read_pos (e : AttEntry) : e.read.filePosition = e.filePosition := by
  unfold AttEntry.read
  dsimp only

theorem read_positions (l : List AttEntry) : (l.map AttEntry.read).map AttEntry.filePosition = l.map AttEntry.filePosition := by
  induction l with
  | nil => rfl
  | cons e l ih => rw [List.map_cons, List.map_cons, List.map_cons, ih, read_pos]

theorem attEntryOf_cut (e : AttEntry) (hp : e.filePosition < 2 ^ 64) {x : AttEntry}
    (h : attEntryOf ((attEntryBytes e.filePosition e.guid e.contentFileType e.name).take 96 ++ zeros 32) = some x) : x.filePosition = e.filePosition := by
  have h0 := attEntryOf_attEntryBytes hp []
  rw [List.append_nil] at h0
  have hl : (attEntryBytes e.filePosition e.guid e.contentFileType e.name).length = 128 := by simp
  generalize attEntryBytes e.filePosition e.guid e.contentFileType e.name = B at *
  have h1 : field (B.take 96 ++ zeros 32) 12 8 = field B 12 8 := by
    rw [field_left (by simp; omega), show B.take 96 = field B 0 96 from rfl, field_field (by omega)]
  rw [attEntryOf_pos h]
  unfold fieldNat
  rw [h1]
  have h2 := attEntryOf_pos h0
  rw [read_pos] at h2
  unfold fieldNat at h2
  exact h2.symm

/-- The positions in the attachment directory as it is read. -/
theorem attOnDisk_positions (r : Option Nat) (att : List AttEntry) (hp : ∀ e ∈ att, e.filePosition < 2 ^ 64) :
    ((attEntriesOf (attOnDisk r att) att.length).map AttEntry.filePosition).Sublist (att.map AttEntry.filePosition) := by
  have full : ((attEntriesOf (attEntriesBytes att) att.length).map AttEntry.filePosition).Sublist (att.map AttEntry.filePosition) := by
    have h1 := attEntriesOf_bytes att hp []
    rw [List.append_nil] at h1
    rw [h1, read_positions]
  have cut : ((attEntriesOf ((attEntriesBytes att).take (128 * att.length - 288) ++ zeros (min 288 (128 * att.length))) att.length).map AttEntry.filePosition).Sublist
      (att.map AttEntry.filePosition) := by
    have hl := attEntriesBytes_length att
    by_cases h : att.length < 3
    · rw [show 128 * att.length - 288 = 0 by omega, List.take_zero, List.nil_append, Nat.min_eq_right (by omega), attEntriesOf_zeros]
      exact List.nil_sublist _
    · obtain ⟨k, hk⟩ := Nat.exists_eq_add_of_le (Nat.le_of_not_lt h)
      have hsplit : att = att.take k ++ att.drop k := (List.take_append_drop k att).symm
      have hdl : (att.drop k).length = 3 := by simp; omega
      have htl : (att.take k).length = k := by simp; omega
      obtain ⟨e, rest, hde⟩ : ∃ e rest, att.drop k = e :: rest := by
        cases hh : att.drop k with
        | nil => rw [hh] at hdl; simp at hdl
        | cons e rest => exact ⟨e, rest, rfl⟩
      have he : e ∈ att := by rw [hsplit, hde]; simp
      have hA := attEntriesBytes_length (att.take k)
      rw [htl] at hA
      have hbytes : attEntriesBytes att = attEntriesBytes (att.take k) ++ (attEntryBytes e.filePosition e.guid e.contentFileType e.name ++ attEntriesBytes rest) := by
        conv => lhs; rw [hsplit, attEntriesBytes_append, hde]
        simp [attEntriesBytes]
      have htake : (attEntriesBytes att).take (128 * att.length - 288) =
          attEntriesBytes (att.take k) ++ (attEntryBytes e.filePosition e.guid e.contentFileType e.name).take 96 := by
        rw [hbytes, hk, show 128 * (3 + k) - 288 = 128 * k + 96 by omega, List.take_append, hA,
          List.take_of_length_le (by omega), show 128 * k + 96 - 128 * k = 96 by omega,
          List.take_append_of_le_length (by simp)]
      rw [htake, Nat.min_eq_left (by omega), List.append_assoc]
      have hz : zeros 288 = zeros 32 ++ zeros (128 * 2) := by rw [zeros_append]
      rw [hz, ← List.append_assoc _ (zeros 32)]
      have hn : att.length = k + (1 + 2) := by omega
      rw [hn, attEntriesOf_append _ _ _ _ hA, attEntriesOf_append _ _ 1 2 (by simp), attEntriesOf_zeros]
      have h1 := attEntriesOf_bytes (att.take k) (fun x hx => hp x (List.mem_of_mem_take hx)) []
      rw [List.append_nil, htl] at h1
      rw [h1]
      have h2 : (attEntriesOf ((attEntryBytes e.filePosition e.guid e.contentFileType e.name).take 96 ++ zeros 32) 1 ++ []).map AttEntry.filePosition = [e.filePosition] ∨
          (attEntriesOf ((attEntryBytes e.filePosition e.guid e.contentFileType e.name).take 96 ++ zeros 32) 1 ++ []).map AttEntry.filePosition = [] := by
        rw [List.append_nil]
        unfold attEntriesOf attEntriesOf
        rw [List.append_nil]
        cases hx : attEntryOf ((attEntryBytes e.filePosition e.guid e.contentFileType e.name).take 96 ++ zeros 32) with
        | none => exact Or.inr rfl
        | some x =>
          refine Or.inl ?_
          show [x.filePosition] = _
          rw [attEntryOf_cut e (hp e he) hx]
      have h3 : att.map AttEntry.filePosition = (att.take k).map AttEntry.filePosition ++ (e.filePosition :: rest.map AttEntry.filePosition) := by
        conv => lhs; rw [hsplit, hde]
        simp
      rw [h3, List.map_append, read_positions]
      refine List.Sublist.append (List.Sublist.refl _) ?_
      rcases h2 with h2 | h2
      · rw [h2]
        exact List.Sublist.cons_cons _ (List.nil_sublist _)
      · rw [h2]
        exact List.nil_sublist _
  unfold attOnDisk
  cases r with
  | none => exact full
  | some r =>
    dsimp only
    generalize (if r = 0 then 10 else r) = k
    split
    · exact cut
    · exact full

section
variable {d : Disk} {info : WriterInfo} {segs : List Seg} {q sp mp ap : Nat} {dir : List Entry} {att : List AttEntry}
  {subs : List AddInfo} {atts : List AddAtt} {mt : Option MetaInfo}

theorem Seg.thirtytwo {d : Disk} {g : Seg} (hu : UsedOk d g) : g.pos + 32 ≤ d.size := by
  obtain ⟨u, _, h⟩ := hu
  have := h.1
  rw [le_length] at this
  omega

theorem Closed.endAt_eq (h : Closed d info.guid segs q sp mp ap dir att mt) (hq : q < 2 ^ 61) {g : Seg} (hg : g ∈ segs) : endAt d g.pos = g.pos + 32 + g.alloc := by
  obtain ⟨_, _, h1, h2⟩ := h.onDisk g hg
  have := h.pos_lt hq hg
  unfold endAt
  rw [allocAt_eq (Seg.alloc_holds h1) (Seg.thirtytwo h2) (by omega)]

/-- What is read from a segment, if it depends only on some bytes in it. -/
theorem Closed.looksOnly {α : Type} (h : Closed d info.guid segs q sp mp ap dir att mt) (hq : q < 2 ^ 61) {g : Seg} (hg : g ∈ segs) {f : Stream → α}
    (hf : ∀ d', Agree d d' g.pos (g.pos + 32 + g.alloc) → f d'.stream = f d.stream) : LooksOnlyAt d g.pos f := by
  intro d' hs hb
  rw [h.endAt_eq hq hg] at hb
  exact hf d' ⟨hs, hb⟩

theorem Chain.apart {gs : List Seg} {p q : Nat} (h : Chain p gs q) : gs.Pairwise (fun a b => a.pos + 32 + a.alloc ≤ b.pos) := by
  have := h.pairwise
  rw [List.pairwise_map] at this
  exact this

theorem Chain.apart_mem {gs : List Seg} {p q : Nat} (h : Chain p gs q) {x y : Seg} (hx : x ∈ gs) (hy : y ∈ gs) (hne : x.owner ≠ y.owner) :
    x.pos + 32 + x.alloc ≤ y.pos ∨ y.pos + 32 + y.alloc ≤ x.pos := by
  refine pairwise_of_mem (R := fun a b : Seg => a.pos + 32 + a.alloc ≤ b.pos ∨ b.pos + 32 + b.alloc ≤ a.pos) (fun a b hab => Or.symm hab)
    (h.apart.imp (fun hab => Or.inl hab)) x hx y hy (fun e => hne (by rw [e]))

/-- The size of the attachment directory segment. -/
theorem Closed.attDirAlloc (h : Closed d info.guid segs q sp mp ap dir att mt) {al : Nat} (hg : (⟨ap, al, .attDir (some att)⟩ : Seg) ∈ segs)
    (hn : att.length < 2 ^ 31) : 256 + 128 * att.length ≤ al := by
  obtain ⟨_, _, h1, u, hu, h2⟩ := h.onDisk _ hg
  dsimp only [Seg.body] at h1 h2 hu
  have h3 : Holds d (ap + 24) (le 8 (256 + att.length * 128)) := by
    have e : segHeader attDirMagic al (256 + att.length * 128) ++ leInt 4 att.length =
      (attDirMagic ++ le 8 al) ++ (le 8 (256 + att.length * 128) ++ leInt 4 att.length) := by
      simp only [segHeader, List.append_assoc]
    rw [e] at h1
    have := h1.right.left
    rw [List.length_append, attDirMagic_length, le_length] at this
    exact this
  have e1 := h2.read_eq (le_length 8 u)
  have e2 := h3.read_eq (le_length 8 _)
  rw [e1] at e2
  have e3 := congrArg unle e2
  have e4 : unle (le 8 (256 + att.length * 128)) = 256 + att.length * 128 := unle8 (by omega)
  have e5 : unle (le 8 u) ≤ u := by
    rw [unle_le]
    exact Nat.mod_le _ _
  omega

theorem Written.sound (h : Written d info segs q sp mp ap dir att subs atts mt) {al : Alloc} (hal : ∀ n, al n = true) (o : OpenOptions)
    (hsub : ∀ a ∈ subs, a.sizeData ≤ 2147483647) (hatt : ∀ a ∈ atts, a.bytes.length ≤ 2147483647)
    (hmeta : ∀ m, mt = some m → m.xmlBytes.length ≤ 2147483647 ∧ m.attBytes.length ≤ 2147483647) :
    ∃ doc, SoundDoc al d o doc ∧ EndsBy d doc q ∧ doc.header = ⟨1, 0, info.guid, sp, mp, ap⟩ ∧ doc.entries = dir ∧ doc.options = o ∧
      (att = [] → doc.attachments = []) ∧ (att ≠ [] → doc.attachments = attEntriesOf (attOnDisk info.reservedAttDir att) att.length) := by
  obtain ⟨as, hop, has1, has2⟩ := h.open hal o
  have hc := h.closed
  have hq := h.small
  have hposl := h.att_pos
  -- the positions of the attachments
  have hasub : (as.map AttEntry.filePosition).Sublist ((attPairs segs).map Prod.snd) := by
    have e : att.map AttEntry.filePosition = (attPairs segs).map Prod.snd := by
      rw [h.attEq, List.map_map]
      exact List.map_congr_left (fun p _ => rfl)
    rw [← e]
    by_cases h0 : att = []
    · rw [has1 h0]
      exact List.nil_sublist _
    · rw [has2 h0]
      exact attOnDisk_positions _ _ hposl
  have hdirp : (dir.map (·.filePosition)).Perm ((subPairs segs).map Prod.snd) := by
    have := h.dirPerm.map (fun e : Entry => e.filePosition)
    rw [List.map_map] at this
    exact this
  have hattg : ∀ e ∈ as, ∃ a ∈ atts, ∃ al2, (⟨e.filePosition, al2, .att a⟩ : Seg) ∈ segs := by
    intro e he
    have := hasub.subset (List.mem_map_of_mem he)
    obtain ⟨p, hp, e1⟩ := List.mem_map.1 this
    obtain ⟨al2, hg⟩ := attPairs_mem hp
    refine ⟨p.1, by rw [← h.attsEq]; exact List.mem_map_of_mem hp, al2, ?_⟩
    rw [← e1]
    exact hg
  have hsubg : ∀ e ∈ dir, ∃ a ∈ subs, ∃ al2, (⟨e.filePosition, al2, .sub a⟩ : Seg) ∈ segs ∧ e = a.entry e.filePosition := by
    intro e he
    have := (h.dirPerm.mem_iff).1 he
    obtain ⟨p, hp, e1⟩ := List.mem_map.1 this
    obtain ⟨al2, hg⟩ := subPairs_mem hp
    have e2 : e.filePosition = p.2 := by rw [← e1]; rfl
    refine ⟨p.1, by rw [← h.subsEq]; exact List.mem_map_of_mem hp, al2, ?_, ?_⟩
    · rw [e2]; exact hg
    · rw [e2, e1]
  obtain ⟨alS, hS⟩ := hc.subDir
  have hap : ap ≠ 0 → ∃ alA, (⟨ap, alA, .attDir (some att)⟩ : Seg) ∈ segs ∧ ap + 288 + 128 * att.length ≤ d.size := by
    intro hne
    rcases hc.attDir with ⟨_, h0⟩ | hx
    · exact absurd h0 hne
    · exact hx
  have hmp : mp ≠ 0 → ∃ m alM, mt = some m ∧ (⟨mp, alM, .metadata (some m)⟩ : Seg) ∈ segs := by
    intro hne
    have hm := hc.metadata
    cases mt with
    | none => exact absurd hm hne
    | some m =>
      obtain ⟨alM, hg⟩ := hm
      exact ⟨m, alM, rfl, hg⟩
  have key : ∀ x ∈ segs, ∀ y ∈ segs, x.owner ≠ y.owner → endAt d x.pos ≤ y.pos ∨ endAt d y.pos ≤ x.pos := by
    intro x hx y hy hne
    rw [hc.endAt_eq hq hx, hc.endAt_eq hq hy]
    exact hc.chain.apart_mem hx hy hne
  have hsegs : ∀ p ∈ segmentsOf ⟨⟨1, 0, info.guid, sp, mp, ap⟩, dir, as, o⟩, ∃ g ∈ segs, g.pos = p := by
    intro p hp
    unfold segmentsOf at hp
    dsimp only at hp
    rcases List.mem_append.1 hp with hp | hp
    · obtain ⟨e, he, rfl⟩ := List.mem_map.1 hp
      obtain ⟨a, _, al2, hg, _⟩ := hsubg e he
      exact ⟨_, hg, rfl⟩
    · rcases List.mem_append.1 hp with hp | hp
      · obtain ⟨e, he, rfl⟩ := List.mem_map.1 hp
        obtain ⟨a, _, al2, hg⟩ := hattg e he
        exact ⟨_, hg, rfl⟩
      · rcases List.mem_cons.1 hp with rfl | hp
        · exact ⟨_, hS, rfl⟩
        · rcases List.mem_append.1 hp with hp | hp
          · split at hp
            · cases hp
            · rename_i hne
              rw [List.mem_singleton] at hp
              obtain ⟨alA, hg, _⟩ := hap hne
              exact ⟨_, hg, hp.symm⟩
          · split at hp
            · cases hp
            · rename_i hne
              rw [List.mem_singleton] at hp
              obtain ⟨m, alM, _, hg⟩ := hmp hne
              exact ⟨_, hg, hp.symm⟩
  have hsym : ∀ {x y : Nat}, (endAt d x ≤ y ∨ endAt d y ≤ x) → (endAt d y ≤ x ∨ endAt d x ≤ y) := fun hxy => Or.symm hxy
  have pairs : ∀ {β : Type} (f : Seg → Option β), ((segs.filterMap (fun g => (f g).map (fun a => (a, g.pos)))).map Prod.snd).Pairwise
      (fun p q => endAt d p ≤ q ∨ endAt d q ≤ p) := by
    intro β f
    rw [List.pairwise_map, List.pairwise_filterMap]
    refine (hc.chain.apart).imp_of_mem ?_
    intro x y hx hy hxy b hb b' hb'
    obtain ⟨a, _, rfl⟩ := Option.map_eq_some_iff.1 hb
    obtain ⟨a', _, rfl⟩ := Option.map_eq_some_iff.1 hb'
    refine Or.inl ?_
    show endAt d x.pos ≤ y.pos
    rw [hc.endAt_eq hq hx]
    exact hxy
  have hapart : (segmentsOf ⟨⟨1, 0, info.guid, sp, mp, ap⟩, dir, as, o⟩).Pairwise (fun p q => endAt d p ≤ q ∨ endAt d q ≤ p) := by
    unfold segmentsOf
    dsimp only
    have mDA : ∀ y ∈ (if ap = 0 then [] else [ap]), ∃ alA, (⟨y, alA, .attDir (some att)⟩ : Seg) ∈ segs := by
      intro y hy
      split at hy
      · cases hy
      · rename_i hne
        rw [List.mem_singleton] at hy
        subst hy
        obtain ⟨alA, hg, _⟩ := hap hne
        exact ⟨alA, hg⟩
    have mDM : ∀ y ∈ (if mp = 0 then [] else [mp]), ∃ m alM, (⟨y, alM, .metadata (some m)⟩ : Seg) ∈ segs := by
      intro y hy
      split at hy
      · cases hy
      · rename_i hne
        rw [List.mem_singleton] at hy
        subst hy
        obtain ⟨m, alM, _, hg⟩ := hmp hne
        exact ⟨m, alM, hg⟩
    rw [List.pairwise_append, List.pairwise_append, List.pairwise_cons, List.pairwise_append]
    refine ⟨?_, ⟨?_, ⟨?_, ?_, ?_, ?_⟩, ?_⟩, ?_⟩
    · exact (List.Perm.pairwise_iff hsym hdirp).2 (pairs Seg.addInfo)
    · exact (pairs Seg.addAtt).sublist hasub
    · intro y hy
      rcases List.mem_append.1 hy with hy | hy
      · obtain ⟨alA, hg⟩ := mDA y hy
        exact key _ hS _ hg (by simp)
      · obtain ⟨m, alM, hg⟩ := mDM y hy
        exact key _ hS _ hg (by simp)
    · split <;> simp
    · split <;> simp
    · intro x hx y hy
      obtain ⟨alA, hg⟩ := mDA x hx
      obtain ⟨m, alM, hg'⟩ := mDM y hy
      exact key _ hg _ hg' (by simp)
    · intro x hx y hy
      obtain ⟨e, he, rfl⟩ := List.mem_map.1 hx
      obtain ⟨a, _, al2, hg⟩ := hattg e he
      rcases List.mem_cons.1 hy with rfl | hy
      · exact key _ hg _ hS (by simp)
      · rcases List.mem_append.1 hy with hy | hy
        · obtain ⟨alA, hg'⟩ := mDA y hy
          exact key _ hg _ hg' (by simp)
        · obtain ⟨m, alM, hg'⟩ := mDM y hy
          exact key _ hg _ hg' (by simp)
    · intro x hx y hy
      obtain ⟨e, he, rfl⟩ := List.mem_map.1 hx
      obtain ⟨a, _, al2, hg, _⟩ := hsubg e he
      rcases List.mem_append.1 hy with hy | hy
      · obtain ⟨e', he', rfl⟩ := List.mem_map.1 hy
        obtain ⟨a', _, al2', hg'⟩ := hattg e' he'
        exact key _ hg _ hg' (by simp)
      · rcases List.mem_cons.1 hy with rfl | hy
        · exact key _ hg _ hS (by simp)
        · rcases List.mem_append.1 hy with hy | hy
          · obtain ⟨alA, hg'⟩ := mDA y hy
            exact key _ hg _ hg' (by simp)
          · obtain ⟨m, alM, hg'⟩ := mDM y hy
            exact key _ hg _ hg' (by simp)
  -- bytes in a segment
  have hagree : ∀ g ∈ segs, ∀ d', Agree d d' g.pos (g.pos + 32 + g.alloc) → Holds d' g.pos g.body := by
    intro g hg d' ha
    obtain ⟨_, h1, h2, _⟩ := hc.onDisk g hg
    exact h2.agree (ha.mono (Nat.le_refl _) (by omega))
  have hsubread : ∀ e ∈ dir, ∃ al2 a, (⟨e.filePosition, al2, .sub a⟩ : Seg) ∈ segs ∧ ∃ sb sb', viewRead sb' = viewRead sb ∧
      ∀ d', Agree d d' e.filePosition (e.filePosition + 32 + al2) → readEntry al d'.stream o e = .ok sb ∧ rwReadEntry al d'.stream e = .ok sb' := by
    intro e he
    obtain ⟨a, ha, al2, hg, e1⟩ := hsubg e he
    have hpl := h.pos_lt hg
    dsimp only at hpl
    obtain ⟨ok, ck⟩ := h.subsOk a ha
    obtain ⟨_, hlen, _, _⟩ := hc.onDisk _ hg
    dsimp only [Seg.body] at hlen
    rw [ok.body_length ck] at hlen
    have hs := subSlot_new hal o ok ck (hsub a ha) (pos := e.filePosition) (alloc := al2) (by omega) (by omega)
    rw [← e1] at hs
    obtain ⟨g', v', hg', _, _, _, sb, sb', v1, v2, hread⟩ := hs.some
    injection hg' with hg'
    subst hg'
    refine ⟨al2, a, hg, sb, sb', by rw [v1, v2], ?_⟩
    intro d' hag
    exact hread d' (hagree _ hg d' hag)
  have hattread : ∀ e ∈ as, ∃ al2 a, (⟨e.filePosition, al2, .att a⟩ : Seg) ∈ segs ∧ ∃ v,
      ∀ d', Agree d d' e.filePosition (e.filePosition + 32 + al2) → rwReadAtt al d'.stream e = .ok v := by
    intro e he
    obtain ⟨a, ha, al2, hg⟩ := hattg e he
    have hpl := h.pos_lt hg
    dsimp only at hpl
    have hb := hatt a ha
    refine ⟨al2, a, hg, ⟨e.guid, cstr e.contentFileType.toList, cstr e.name.toList, ⟨a.bytes.length, if a.bytes.length = 0 then none else some a.bytes⟩⟩, ?_⟩
    intro d' hag
    unfold rwReadAtt
    rw [readAttachmentData_ok (hagree _ hg d' hag) (by omega) (by dsimp only; omega) hal]
    rfl
  refine ⟨⟨⟨1, 0, info.guid, sp, mp, ap⟩, dir, as, o⟩, ⟨hop, hapart, ?_, ?_, ?_, ?_, ?_, ?_, ?_⟩, ?_, rfl, rfl, rfl, has1, has2⟩
  · intro p hp
    obtain ⟨g, hg, rfl⟩ := hsegs p hp
    exact (h.pos_lt hg).1
  · intro p hp
    obtain ⟨g, hg, rfl⟩ := hsegs p hp
    rw [hc.endAt_eq hq hg]
    have := hc.chain.mem hg
    omega
  · intro e he
    obtain ⟨al2, a, hg, sb, sb', hv, hr⟩ := hsubread e he
    have r0 := hr d (Agree.refl _ _ _)
    refine ⟨?_, ?_, sb, sb', r0.1, r0.2, hv⟩
    · refine hc.looksOnly hq hg (f := fun s => readEntry al s o e) (fun d' hag => ?_)
      rw [(hr d' hag).1, r0.1]
    · refine hc.looksOnly hq hg (f := fun s => rwReadEntry al s e) (fun d' hag => ?_)
      rw [(hr d' hag).2, r0.2]
  · intro e he
    obtain ⟨al2, a, hg, v, hr⟩ := hattread e he
    have r0 := hr d (Agree.refl _ _ _)
    refine ⟨hc.looksOnly hq hg (f := fun s => rwReadAtt al s e) (fun d' hag => ?_), v, r0⟩
    rw [hr d' hag, r0]
  · intro po
    have hps := h.pos_lt hS
    dsimp only at hps
    have hbl := entries_bytes_le dir
    have hdl : dir.length = subs.length := by
      rw [h.dirPerm.length_eq, ← h.subsEq]
      simp
    have hsl := h.subsLen
    have hr : ∀ d', Agree d d' sp (sp + 32 + alS) → readSubDir al d'.stream po sp = .ok (dir, (alS : Int)) := fun d' hag =>
      readSubDir_ok (pos := sp) (alloc := alS) (hagree _ hS d' hag) h.fits (by omega) (by omega) (by omega) (by omega) hal po
    refine hc.looksOnly hq hS (f := fun s => readSubDir al s po sp) (fun d' hag => ?_)
    rw [hr d' hag, hr d (Agree.refl _ _ _)]
  · intro hne
    obtain ⟨alA, hg, hsz⟩ := hap hne
    have hpa := h.pos_lt hg
    dsimp only at hpa
    have halloc := hc.attDirAlloc hg h.attLen
    have hatl := h.attLen
    refine hc.looksOnly hq hg (f := fun s => readAttDir al s ap) (fun d' hag => ?_)
    have hag' : Agree d d' ap (ap + 32 + alA) := hag
    have e0 := hagree _ hg d' hag
    obtain ⟨x, y, r1, r2, r3⟩ := readAttDir_some (n := att.length) (hc.onDisk _ hg).2.2.1 (by omega) hsz (by dsimp only; omega) hal
    obtain ⟨x', y', r1', r2', r3'⟩ := readAttDir_some (n := att.length) e0 (by omega) (Nat.le_trans hsz hag.1) (by dsimp only; omega) hal
    dsimp only at r1 r1' r2 r2'
    have ey : y = y' := by
      rw [(readAttDir_alloc r1).1, (readAttDir_alloc r1').1, hag'.read (Nat.le_refl _) (by omega) (by omega)]
    have ex : x = x' := by
      by_cases h0 : att.length = 0
      · rw [r3 h0, r3' h0]
      · rw [r2 (by omega), r2' (by omega), hag'.read (by omega) (by omega) (by omega)]
    rw [r1, r1', ex, ey]
  · intro hne
    obtain ⟨m, alM, hmt, hg⟩ := hmp hne
    have hpm := h.pos_lt hg
    dsimp only at hpm
    obtain ⟨m1, m2⟩ := hmeta m hmt
    have hr : ∀ d', Agree d d' mp (mp + 32 + alM) → _ := fun d' hag =>
      readMetadataData_ok (hagree _ hg d' hag) (show m.xmlBytes.length < 2 ^ 31 by omega) (show m.attBytes.length < 2 ^ 31 by omega) (show mp < 2 ^ 62 by omega) hal
    refine ⟨hc.looksOnly hq hg (f := fun s => readMetadataData al s mp) (fun d' hag => ?_), _, hr d (Agree.refl _ _ _)⟩
    rw [hr d' hag, hr d (Agree.refl _ _ _)]
  · intro p hp
    obtain ⟨g, hg, rfl⟩ := hsegs p hp
    rw [hc.endAt_eq hq hg]
    exact (hc.chain.mem hg).2

end

end Verif.Czi
