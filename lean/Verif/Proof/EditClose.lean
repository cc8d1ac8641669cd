import Verif.Proof.EditOps

/-! `Close` of a reader-writer and what a reader sees afterwards. -/

namespace Verif.Czi

open Spec

attribute [local irreducible] zeros

theorem mapFind_mem {α : Type} {m : List (Int × α)} (hs : KeysSorted m) {p : Int × α} (hp : p ∈ m) : mapFind m p.1 = some p.2 := by
  induction m with
  | nil => cases hp
  | cons q r ih =>
    obtain ⟨k, v⟩ := q
    rw [mapFind_cons]
    rcases List.mem_cons.1 hp with rfl | hp
    · rw [if_pos rfl]
    · have h1 := (List.pairwise_cons.1 hs).1 p hp
      rw [if_neg (by intro x; dsimp only at h1; omega)]
      exact ih (List.pairwise_cons.1 hs).2 hp

theorem mapFind_key {α : Type} {m : List (Int × α)} {k : Int} {v : α} (h : mapFind m k = some v) : (k, v) ∈ m := by
  induction m with
  | nil => cases h
  | cons q r ih =>
    obtain ⟨k', v'⟩ := q
    rw [mapFind_cons] at h
    split at h
    · rename_i e
      cases h
      subst e
      exact List.mem_cons_self ..
    · exact List.mem_cons_of_mem _ (ih h)

theorem Log.entriesFit {al : Alloc} {o : OpenOptions} {w : RWState} {c : Content} {H : Slot → Option LSeg} {N : Nat} (h : Log al o w c H N) :
    ∀ e ∈ w.dir.subBlks.map Prod.snd, EntryFits e := by
  intro e he
  obtain ⟨p, hp, rfl⟩ := List.mem_map.1 he
  have hs := h.sub p.1
  rw [show w.dir.tryGet p.1 = some p.2 from mapFind_mem h.dirInv.sorted hp] at hs
  obtain ⟨_, _, _, _, _, hf, _⟩ := hs.some
  exact hf

theorem Log.attPos {al : Alloc} {o : OpenOptions} {w : RWState} {c : Content} {H : Slot → Option LSeg} {N : Nat} (h : Log al o w c H N) :
    ∀ e ∈ w.att.atts.map Prod.snd, e.filePosition < 2 ^ 64 ∧ cstr (nameRead e.name).toList = cstr e.name.toList := by
  intro e he
  obtain ⟨p, hp, rfl⟩ := List.mem_map.1 he
  have hs := h.att p.1
  rw [show w.att.tryGet p.1 = some p.2 from mapFind_mem h.attInv.sorted hp] at hs
  obtain ⟨_, _, _, _, _, hf, hn, _⟩ := hs.some
  exact ⟨hf, hn⟩

/-! ## The sub-block directory -/

/-- The segment of a sub-block directory that was written. -/
def subDirSegOf (es : List Entry) (pos alloc : Nat) (hl : 128 + (es.map entryBytes).flatten.length ≤ alloc) : LSeg :=
  LSeg.ofBytes pos alloc (subDirBytes alloc es) (subDir_split alloc es) (by rw [subDirBytes_length]; omega) (by rw [subDirBytes_length]; omega)

/-- The sub-block directory in a segment, for readers with options `o`. -/
def SubDirIn (al : Alloc) (o : OpenOptions) (es : List Entry) (g : LSeg) : Prop :=
  ∃ F : ParseOptions → Except RErr (List Entry × Int), (∀ d, g.good d → ∀ po, readSubDir al d.stream po g.pos = F po) ∧ ∃ x, F (parseOptions o) = .ok (es, x)

/-- Closing the sub-block directory. -/
theorem Ed.closeSubDir {al : Alloc} (hal : ∀ n, al n = true) {o : OpenOptions} {s : RW} {c : Content} {H : Slot → Option LSeg} {top N : Nat} {grown : Prop}
    (h : Ed al o s c grown H top N) (hN : N < 2 ^ 31) (htop : top < 2 ^ 60) (hne : s.w.subDirSeg ≠ none ∨ s.w.dir.isModified = true)
    (hg : grown → ¬ AppendsSubDir s) :
    ∃ i nx d g top', rwCloseSubDir s = (⟨{ s.w with subDirSeg := some i, next := nx }, d⟩, none) ∧
      (s.w.dir.isModified = false → s.w.subDirSeg = some i) ∧
      Phys d s.w.header nx s.w.last (grown ∨ AppendsSubDir s) (put H .subDir (some g)) top' ∧ g.pos = i.pos ∧
      SubDirIn al o (s.w.dir.subBlks.map Prod.snd) g ∧ top' ≤ top + 2 ^ 40 := by
  unfold rwCloseSubDir
  by_cases hm : s.w.dir.isModified = true
  · rw [if_pos hm]
    obtain ⟨n, en, hpn⟩ := ensureNext_ok h.phys (by omega)
    rw [en]
    dsimp only
    obtain ⟨n1, n2, n3, n4⟩ := hpn.next_some n rfl
    have hlen := entries_bytes_le (s.w.dir.subBlks.map Prod.snd)
    have hsl := h.log.subLen
    rw [List.length_map] at hlen
    have hsm : ∀ x, s.w.subDirSeg = some x → x.alloc < 2 ^ 62 := by
      intro x hx'
      have hs := h.log.subDir
      rw [hx'] at hs
      obtain ⟨g', h1, _, h2⟩ := hs.some
      have h3 := h.phys.heap.high _ g' h1
      unfold LSeg.fin at h3
      omega
    obtain ⟨mw, pos, alloc, hpl, ws, ew, hcon⟩ := writeSubDir_ok s.w.subDirSeg (fun _ => true) n (s.w.dir.subBlks.map Prod.snd) hsm (by omega)
    rw [ew]
    unfold RW.exec
    dsimp only
    have h3 := le_align (128 + ((s.w.dir.subBlks.map Prod.snd).map entryBytes).flatten.length)
    have h4 := align_lt (128 + ((s.w.dir.subBlks.map Prod.snd).map entryBytes).flatten.length)
    have hbl := subDirBytes_length alloc (s.w.dir.subBlks.map Prod.snd)
    have hne' : subDirBytes alloc (s.w.dir.subBlks.map Prod.snd) ≠ [] := by
      intro x
      rw [x, List.length_nil] at hbl
      omega
    have hlal : 128 + ((s.w.dir.subBlks.map Prod.snd).map entryBytes).flatten.length ≤ alloc := by
      rcases hpl with ⟨x, e1, e2, e3, e4, e5⟩ | ⟨e1, e2, e3, e4⟩ <;> omega
    have hin : pos < 2 ^ 62 → alloc < 2 ^ 63 → SubDirIn al o (s.w.dir.subBlks.map Prod.snd) (subDirSegOf (s.w.dir.subBlks.map Prod.snd) pos alloc hlal) := by
      intro q1 q2
      refine ⟨fun _ => .ok (s.w.dir.subBlks.map Prod.snd, (alloc : Int)), ?_, _, rfl⟩
      intro d hd po
      exact readSubDir_ok hd h.log.entriesFit (by rw [List.length_map]; omega) (by omega) q1 q2 hal po
    have hho : ∀ d, Holds (apply d ws) pos (subDirBytes alloc (s.w.dir.subBlks.map Prod.snd)) := fun d => Holds.contig hcon hne'
    have hw := fill_within hcon (by omega)
    rcases hpl with ⟨x, e1, e2, e3, e4, e5⟩ | ⟨e1, e2, e3, e4⟩
    · subst e3
      have hs := h.log.subDir
      rw [e1] at hs
      obtain ⟨g, hgm, hp1, hp2⟩ := hs.some
      have hgl := h.phys.heap.high _ g hgm
      have hgf' : g.fin = g.pos + 32 + g.alloc := rfl
      have epos : pos = g.pos := by omega
      have eall : alloc = g.alloc := by omega
      subst epos eall
      have hnn : Phys s.disk s.w.header (some n) s.w.last (grown ∨ AppendsSubDir s) H top := hpn.weaken Or.inl
      have hph := hnn.inPlace (t := .subDir) (v := some (subDirSegOf (s.w.dir.subBlks.map Prod.snd) g.pos g.alloc hlal)) hgm hw
        (((subDirSegOf (s.w.dir.subBlks.map Prod.snd) g.pos g.alloc hlal).hdr _ (hho s.disk)).1) (by
          intro g' hg'
          cases hg'
          exact ⟨rfl, rfl, hho _⟩)
      by_cases hgn : g.pos = n
      · -- only possible if `next` is stale, i.e. `grown`
        rw [if_pos hgn]
        refine ⟨_, _, _, subDirSegOf (s.w.dir.subBlks.map Prod.snd) g.pos g.alloc hlal, max top (g.pos + g.alloc), rfl, fun x => absurd (hm.symm.trans x) (by decide), ?_, rfl, hin (by omega) (by omega), by omega⟩
        have hgr : grown := Classical.byContradiction (fun x => by have := n3 x; omega)
        have htt : max top (g.pos + g.alloc) = top := by omega
        rw [htt]
        refine ⟨hph.heap, hph.header, hph.size, hph.low, ?_, by intro x; cases x⟩
        intro m hm'
        cases hm'
        refine ⟨by omega, by omega, fun x => absurd (Or.inl hgr) x, ?_⟩
        intro g' hg'
        have := (hph.next_some n rfl).2.2.2 g' hg'
        omega
      · rw [if_neg hgn]
        exact ⟨_, _, _, _, top, rfl, fun x => absurd (hm.symm.trans x) (by decide), hph, rfl, hin (by omega) (by omega), by omega⟩
    · subst e2 e3
      rw [if_pos rfl]
      have happ : AppendsSubDir s := ⟨hm, e1⟩
      have ntop := n3 (fun x => hg x happ)
      refine ⟨_, _, _, subDirSegOf (s.w.dir.subBlks.map Prod.snd) pos _ hlal,
        pos + 32 + align (128 + ((s.w.dir.subBlks.map Prod.snd).map entryBytes).flatten.length), rfl,
        fun x => absurd (hm.symm.trans x) (by decide), ?_, rfl, hin (by omega) (by omega), by omega⟩
      refine hpn.append ntop rfl (Nat.le_refl _) ?_ ?_ ⟨by omega, by omega, fun x => absurd (Or.inr happ) x⟩ (by intro x; cases x)
      · intro w hw'
        rcases List.mem_append.1 hw' with hw' | hw'
        · rw [e4] at hw'
          exact Or.inr (mark_within h.log.subDir w hw')
        · exact Or.inl (hw w hw').1
      · show Holds _ pos _
        rw [apply_append]
        exact hho _
  · have hm' : s.w.dir.isModified = false := by simpa using hm
    rw [if_neg hm]
    have hsome : s.w.subDirSeg ≠ none := by
      rcases hne with x | x
      · exact x
      · exact absurd x hm
    cases hi : s.w.subDirSeg with
    | none => exact absurd hi hsome
    | some i =>
      have hs := h.log.subDir
      rw [hi] at hs
      obtain ⟨g, hgm, hp1, hp2⟩ := hs.some
      refine ⟨i, s.w.next, s.disk, g, top, ?_, fun _ => rfl, ?_, hp1, h.log.subDirRead hm' g hgm, by omega⟩
      · rw [← hi]
      · have : put H .subDir (some g) = H := by
          funext t
          unfold put
          split
          · rename_i e; rw [e, hgm]
          · rfl
        rw [this]
        exact h.phys.weaken Or.inl

/-! ## The attachment directory -/

theorem attDirBytes_length (es : List AttEntry) (alloc : Nat) : (attDirSegBytes alloc es.length ++ attEntriesBytes es).length = 288 + 128 * es.length := by
  rw [List.length_append, attDirSegBytes_length, attEntriesBytes_length]

/-- The segment of an attachment directory that was written. -/
def attDirSegOf (es : List AttEntry) (pos alloc : Nat) (hl : 256 + 128 * es.length ≤ alloc) : LSeg :=
  LSeg.ofBytes pos alloc (attDirSegBytes alloc es.length ++ attEntriesBytes es) (attDir_split alloc es)
    (by rw [attDirBytes_length]; omega) (by rw [attDirBytes_length]; omega)

/-- What matters of an attachment entry. -/
def attKey (e : AttEntry) : Nat × Guid × List UInt8 × List UInt8 := (e.filePosition, e.guid, cstr e.contentFileType.toList, cstr e.name.toList)

/-- The attachment directory in a segment. -/
def AttDirIn (al : Alloc) (es : List AttEntry) (g : LSeg) : Prop :=
  ∃ r : List AttEntry × Int, r.1.map attKey = es.map attKey ∧ ∀ d, g.good d → readAttDir al d.stream g.pos = .ok r

theorem readAttDir_alloc {al : Alloc} {d : Disk} {pos : Nat} {es : List AttEntry} {x : Int} (h : readAttDir al d.stream pos = .ok (es, x)) :
    x = segAlloc (d.read pos 288) ∧ pos + 288 ≤ d.size ∧ d.read pos 16 = attDirMagic := by
  unfold readAttDir at h
  obtain ⟨b, h1, h2⟩ := Except.bind_eq_ok h
  obtain ⟨rfl, hs⟩ := readExact_size h1
  have hs := hs (by omega)
  split at h2
  · cases h2
  · rename_i hm
    have hm := Decidable.not_not.1 hm
    unfold segMagic at hm
    rw [Disk.field_read (by omega) hs, Nat.add_zero] at hm
    refine ⟨?_, hs, hm⟩
    dsimp only at h2
    split at h2
    · obtain ⟨_, _, h4⟩ := Except.bind_eq_ok h2
      cases h4
      rfl
    · cases h2
      rfl

theorem attKey_read {e : AttEntry} (h : cstr (nameRead e.name).toList = cstr e.name.toList) : attKey e.read = attKey e := by
  unfold attKey AttEntry.read
  dsimp only
  rw [h]

theorem attDirIn_new {al : Alloc} (hal : ∀ n, al n = true) {es : List AttEntry} {pos alloc : Nat} (hl : 256 + 128 * es.length ≤ alloc)
    (hn : es.length < 2 ^ 31) (hes : ∀ e ∈ es, e.filePosition < 2 ^ 64 ∧ cstr (nameRead e.name).toList = cstr e.name.toList) (hp : pos < 2 ^ 62)
    (ha : alloc < 2 ^ 63) : AttDirIn al es (attDirSegOf es pos alloc hl) := by
  refine ⟨(es.map AttEntry.read, (alloc : Int)), ?_, ?_⟩
  · rw [List.map_map]
    apply List.map_congr_left
    intro e he
    exact attKey_read (hes e he).2
  · intro d hd
    have hd' : Holds d pos (attDirSegBytes alloc es.length ++ attEntriesBytes es) := hd
    have h1 : Holds d pos (segHeader attDirMagic alloc (256 + es.length * 128) ++ leInt 4 es.length) := by
      have := hd'.left
      unfold attDirSegBytes at this
      exact this.left
    have h2 : Holds d (pos + 288) (attEntriesBytes es) := by
      have := hd'.right
      rwa [attDirSegBytes_length] at this
    obtain ⟨x, hx⟩ := readAttDir_ok h1 h2 hn (fun e he => (hes e he).1) hp hal
    obtain ⟨e1, e2, _⟩ := readAttDir_alloc hx
    have hh := ((attDirSegOf es pos alloc hl).hdr d hd).1
    have := segAlloc_eq (n := 288) hh (by omega) e2 ha
    show readAttDir al d.stream pos = _
    rw [hx, e1]
    exact congrArg (fun z => Except.ok (es.map AttEntry.read, z)) this

/-- The attachment directory after `Close`. -/
def AttDirNow (al : Alloc) (es : List AttEntry) : Option SegInfo → Option LSeg → Prop
  | none, none => es = []
  | some i, some g => g.pos = i.pos ∧ AttDirIn al es g
  | _, _ => False

theorem closeAttDir_ok {al : Alloc} (hal : ∀ n, al n = true) {s : RW} {hd : Header} {H : Slot → Option LSeg} {top : Nat} {grown : Prop}
    (hp : Phys s.disk hd s.w.next s.w.last grown H top) (htop : top < 2 ^ 61) (hslot : DirSlot s.w.attDirSeg (H .attDir))
    (hes : ∀ e ∈ s.w.att.atts.map Prod.snd, e.filePosition < 2 ^ 64 ∧ cstr (nameRead e.name).toList = cstr e.name.toList)
    (hn : s.w.att.atts.length < 2 ^ 31)
    (hun : s.w.att.isModified = false → (∀ g, H .attDir = some g → ∃ x, ∀ d, g.good d → readAttDir al d.stream g.pos = .ok (s.w.att.atts.map Prod.snd, x)) ∧
      (H .attDir = none → s.w.att.atts = []))
    (hg : grown → ¬ AppendsAttDir s)
    (hex : s.w.att.isModified = true → ∀ i, s.w.attDirSeg = some i → i.alloc ≤ 256 + 128 * s.w.att.atts.length) :
    ∃ j nx d go top', rwCloseAttDir s = (⟨{ s.w with attDirSeg := j, next := nx }, d⟩, none) ∧
      (s.w.att.isModified = false → s.w.attDirSeg = j) ∧ Heap d top' (put H .attDir go) ∧ readHeader d.stream = .ok hd ∧ 544 ≤ d.size ∧
      AttDirNow al (s.w.att.atts.map Prod.snd) j go ∧ top' ≤ top + 2 ^ 40 := by
  unfold rwCloseAttDir
  by_cases hm : s.w.att.isModified = true
  · rw [if_pos hm]
    obtain ⟨n, en, hpn⟩ := ensureNext_ok hp (by omega)
    rw [en]
    dsimp only
    obtain ⟨n1, n2, n3, n4⟩ := hpn.next_some n rfl
    have hlen : (s.w.att.atts.map Prod.snd).length = s.w.att.atts.length := List.length_map ..
    have hsm : ∀ x, s.w.attDirSeg = some x → x.alloc < 2 ^ 62 := by
      intro x hx'
      rw [hx'] at hslot
      obtain ⟨g', h1, _, h2⟩ := hslot.some
      have h3 := hp.heap.high _ g' h1
      unfold LSeg.fin at h3
      omega
    obtain ⟨mw, pos, alloc, hpl, ws, wz, ew, hcon, hz⟩ := writeAttDir_ok s.w.attDirSeg (fun _ => true) n (s.w.att.atts.map Prod.snd) hsm (by omega)
    rw [ew]
    unfold RW.exec
    dsimp only
    have hall : alloc = 256 + (s.w.att.atts.map Prod.snd).length * 128 := by
      rcases hpl with ⟨x, e1, e2, e3, e4, e5⟩ | ⟨e1, e2, e3, e4⟩
      · have := hex hm x e1
        omega
      · exact e3
    have hwz : wz = [] := by
      rcases hz with ⟨_, x⟩ | ⟨x, _⟩
      · exact x
      · omega
    subst hwz
    have hlal : 256 + 128 * (s.w.att.atts.map Prod.snd).length ≤ alloc := by omega
    have hbl := attDirBytes_length (s.w.att.atts.map Prod.snd) alloc
    have hne' : attDirSegBytes alloc (s.w.att.atts.map Prod.snd).length ++ attEntriesBytes (s.w.att.atts.map Prod.snd) ≠ [] := by
      intro x
      rw [x, List.length_nil] at hbl
      omega
    have hin : pos < 2 ^ 62 → alloc < 2 ^ 63 → AttDirIn al (s.w.att.atts.map Prod.snd) (attDirSegOf (s.w.att.atts.map Prod.snd) pos alloc hlal) :=
      fun q1 q2 => attDirIn_new hal hlal (by omega) hes q1 q2
    have hho : ∀ d, Holds (apply d ws) pos (attDirSegBytes alloc (s.w.att.atts.map Prod.snd).length ++ attEntriesBytes (s.w.att.atts.map Prod.snd)) :=
      fun d => Holds.contig (z := []) (by rw [List.append_nil]; exact hcon) hne'
    have hw : WithinW pos (pos + 32 + alloc) ws := hcon.within.mono (Nat.le_refl _) (by omega)
    rcases hpl with ⟨x, e1, e2, e3, e4, e5⟩ | ⟨e1, e2, e3, e4⟩
    · subst e3
      rw [e1] at hslot
      obtain ⟨g, hgm, hp1, hp2⟩ := hslot.some
      have hgl := hp.heap.high _ g hgm
      have hgf' : g.fin = g.pos + 32 + g.alloc := rfl
      have epos : pos = g.pos := by omega
      have eall : alloc = g.alloc := by omega
      subst epos eall
      have hph := hp.inPlace (t := .attDir) (v := some (attDirSegOf (s.w.att.atts.map Prod.snd) g.pos g.alloc hlal)) hgm hw
        (((attDirSegOf (s.w.att.atts.map Prod.snd) g.pos g.alloc hlal).hdr _ (hho s.disk)).1) (by
          intro g' hg'
          cases hg'
          exact ⟨rfl, rfl, hho _⟩)
      rw [List.nil_append, List.append_nil]
      exact ⟨_, _, _, _, top, rfl, fun x => absurd (hm.symm.trans x) (by decide), hph.heap, hph.header, hph.size,
        ⟨rfl, hin (by omega) (by omega)⟩, by omega⟩
    · subst e2
      have happ : AppendsAttDir s := ⟨hm, fun i hi => by have := e1 i hi; omega⟩
      have ntop := n3 (fun x => hg x happ)
      have hph := hpn.append (t := .attDir) (g := attDirSegOf (s.w.att.atts.map Prod.snd) pos alloc hlal) (ws := mw ++ (ws ++ [])) (n' := pos + 32 + alloc)
        (top' := pos + 32 + alloc) (grown' := True) ntop rfl (Nat.le_refl _) (by
          intro w hw'
          rw [List.append_nil] at hw'
          rcases List.mem_append.1 hw' with hw' | hw'
          · rw [e4] at hw'
            exact Or.inr (mark_within hslot w hw')
          · exact Or.inl (hw w hw').1) (by
          show Holds _ pos _
          rw [List.append_nil, apply_append]
          exact hho _) ⟨by omega, Nat.le_refl _, fun _ => rfl⟩ (by intro x; cases x)
      exact ⟨_, _, _, _, _, rfl, fun x => absurd (hm.symm.trans x) (by decide), hph.heap, hph.header, hph.size,
        ⟨rfl, hin (by omega) (by omega)⟩, by omega⟩
  · have hm' : s.w.att.isModified = false := by simpa using hm
    rw [if_neg hm]
    obtain ⟨u1, u2⟩ := hun hm'
    have hput : put H .attDir (H .attDir) = H := by
      funext t
      unfold put
      split
      · rename_i e; rw [e]
      · rfl
    refine ⟨s.w.attDirSeg, s.w.next, s.disk, H .attDir, top, rfl, fun _ => rfl, by rw [hput]; exact hp.heap, hp.header, hp.size, ?_, by omega⟩
    cases hi : s.w.attDirSeg with
    | none =>
      rw [hi] at hslot
      rw [hslot.none]
      show _ = []
      rw [u2 hslot.none]
      rfl
    | some i =>
      rw [hi] at hslot
      obtain ⟨g, hgm, hp1, hp2⟩ := hslot.some
      rw [hgm]
      obtain ⟨x, hx⟩ := u1 g hgm
      exact ⟨hp1, _, rfl, hx⟩

/-! ## The file header -/

theorem closeHeader_ok {s : RW} {H : Slot → Option LSeg} {top : Nat} (hh : Heap s.disk top H) (hd : readHeader s.disk.stream = .ok s.w.header)
    (hs : 544 ≤ s.disk.size) (h1 : s.w.dir.isModified = false → s.w.header.subDirPos = segPos s.w.subDirSeg)
    (h2 : s.w.att.isModified = false → s.w.header.attDirPos = segPos s.w.attDirSeg)
    (p1 : segPos s.w.subDirSeg < 2 ^ 64) (p2 : segPos s.w.metaSeg < 2 ^ 64) (p3 : segPos s.w.attDirSeg < 2 ^ 64) :
    ∃ d hd', rwCloseHeader s = (⟨s.w, d⟩, none) ∧ Heap d top H ∧ readHeader d.stream = .ok hd' ∧ hd'.guid = s.w.header.guid ∧
      hd'.subDirPos = segPos s.w.subDirSeg ∧ hd'.metadataPos = segPos s.w.metaSeg ∧ hd'.attDirPos = segPos s.w.attDirSeg := by
  unfold rwCloseHeader
  split
  · unfold RW.exec
    rw [Plan.write_eq]
    dsimp only
    have hlen := fileHeader_length s.w.header.guid (segPos s.w.subDirSeg) (segPos s.w.metaSeg) (segPos s.w.attDirSeg)
    refine ⟨_, _, rfl, ?_, readHeader_ok (g := s.w.header.guid) (a := segPos s.w.subDirSeg) (b := segPos s.w.metaSeg) (c := segPos s.w.attDirSeg) ?_ p1 p2 p3, rfl, rfl, rfl, rfl⟩
    · have hag : ∀ t g, H t = some g → Agree s.disk (apply s.disk [(0, fileHeader s.w.header.guid (segPos s.w.subDirSeg) (segPos s.w.metaSeg) (segPos s.w.attDirSeg))]) g.pos g.fin := by
        intro t g hg
        apply apply_agree
        intro w hw
        rcases List.mem_singleton.1 hw with rfl
        have := hh.low t g hg
        left
        dsimp only
        omega
      exact ⟨fun t g hg => g.loc _ _ (hag t g hg) (hh.good t g hg), hh.low, hh.high, hh.apart⟩
    · refine Holds.write ?_
      intro x
      dsimp only at x
      rw [x, List.length_nil] at hlen
      omega
  · rename_i hc
    rw [not_or, not_or] at hc
    obtain ⟨c1, c2, c3⟩ := hc
    refine ⟨s.disk, s.w.header, rfl, hh, hd, rfl, ?_, Decidable.not_not.1 c3, ?_⟩
    · cases hm : s.w.dir.isModified with
      | false => exact h1 hm
      | true => exact Decidable.not_not.1 (fun x => c2 ⟨hm, x⟩)
    · cases hm : s.w.att.isModified with
      | false => exact h2 hm
      | true => exact Decidable.not_not.1 (fun x => c1 ⟨hm, x⟩)

/-- What is on the file after `Close`. -/
structure Done (al : Alloc) (o : OpenOptions) (d : Disk) (hd : Header) (w : RWState) (c : Content) (H : Slot → Option LSeg) (top : Nat) : Prop where
  heap : Heap d top H
  small : top < 2 ^ 62
  header : readHeader d.stream = .ok hd
  dirInv : RWInv w.dir
  attInv : AttInv w.att
  sub : ∀ k, SubSlot al o (w.dir.tryGet k) (H (.sub k)) (c.subs k)
  att : ∀ k, AttSlot al (w.att.tryGet k) (H (.att k)) (c.atts k)
  metadata : MetaSlot al w.metaSeg (H .metadata) c.metadata
  subDir : ∃ g, H .subDir = some g ∧ g.pos = hd.subDirPos ∧ SubDirIn al o (w.dir.subBlks.map Prod.snd) g
  attDir : AttDirNow al (w.att.atts.map Prod.snd) w.attDirSeg (H .attDir)
  attDirPos : hd.attDirPos = segPos w.attDirSeg
  metadataPos : hd.metadataPos = segPos w.metaSeg

theorem segPos_lt {i : Option SegInfo} {g : Option LSeg} {d : Disk} {top : Nat} {H : Slot → Option LSeg} {t : Slot} (h : Heap d top H) (ht : H t = g)
    (hs : DirSlot i g) (htop : top < 2 ^ 62) : segPos i < 2 ^ 62 := by
  cases i with
  | none => show 0 < _; omega
  | some i =>
    obtain ⟨g', e, e1, _⟩ := hs.some
    have := h.high t g' (by rw [ht, e])
    unfold LSeg.fin at this
    show i.pos < _
    omega

theorem Ed.close {al : Alloc} (hal : ∀ n, al n = true) {o : OpenOptions} {s : RW} {c : Content} {H : Slot → Option LSeg} {top N : Nat} {grown : Prop}
    (h : Ed al o s c grown H top N) (hN : N < 2 ^ 31) (htop : top < 2 ^ 60) (hne : s.w.subDirSeg ≠ none ∨ s.w.dir.isModified = true)
    (ht : TameClose grown s) :
    ∃ w d hd H' top', rwClose s = (⟨w, d⟩, none) ∧ Done al o d hd w c H' top' ∧ hd.guid = s.w.header.guid ∧
      w.dir = s.w.dir ∧ w.att = s.w.att ∧ w.metaSeg = s.w.metaSeg ∧ w.operational = true ∧ top' ≤ top + 2 ^ 41 := by
  obtain ⟨i, nx, d1, g, top1, e1, k1, p1, gp, si, t1⟩ := h.closeSubDir hal hN htop hne (fun x => (ht.notGrown x).1)
  have a1 : DirSlot s.w.attDirSeg ((put H .subDir (some g)) .attDir) := by
    rw [put_other _ _ (by intro x; cases x)]
    exact h.log.attDir
  obtain ⟨j, nx2, d2, go, top2, e2, k2, p2, hd2, sz2, an, t2⟩ := closeAttDir_ok hal (s := ⟨{ s.w with subDirSeg := some i, next := nx }, d1⟩) p1 (by omega)
    a1 h.log.attPos (by have := h.log.attLen; exact Nat.lt_of_le_of_lt this hN) (by
      rw [put_other _ _ (by intro x; cases x)]
      exact h.log.attDirRead) (by
      intro x y
      rcases x with x | x
      · exact (ht.notGrown x).2 y
      · exact ht.notBoth ⟨x, y⟩) ht.exact
  have q1 : segPos (some i) < 2 ^ 62 := by
    have := p2.high .subDir g (by rw [put_other _ _ (by intro x; cases x), put_self])
    unfold LSeg.fin at this
    show i.pos < _
    omega
  have q2 : segPos s.w.metaSeg < 2 ^ 62 := segPos_lt h.phys.heap rfl h.log.metadata.dir (by omega)
  have q3 : segPos j < 2 ^ 62 := by
    cases j with
    | none => show 0 < _; omega
    | some j =>
      cases go with
      | none => exact absurd an id
      | some g2 =>
        have := p2.high .attDir g2 (by rw [put_self])
        unfold LSeg.fin at this
        have := an.1
        show j.pos < _
        omega
  obtain ⟨d3, hd3, e3, p3, r3, g3, s3, m3, a3⟩ := closeHeader_ok (s := ⟨{ s.w with subDirSeg := some i, attDirSeg := j, next := nx2 }, d2⟩) p2 hd2 sz2
    (by intro x; show s.w.header.subDirPos = segPos (some i); rw [← k1 x]; exact h.log.hdrSub)
    (by intro x; show s.w.header.attDirPos = segPos j; rw [← k2 x]; exact h.log.hdrAtt)
    (Nat.lt_trans q1 (by omega)) (Nat.lt_trans q2 (by omega)) (Nat.lt_trans q3 (by omega))
  refine ⟨{ s.w with subDirSeg := some i, attDirSeg := j, next := nx2 }, d3, hd3, _, top2, ?_, ⟨p3, by omega, r3, h.log.dirInv, h.log.attInv, ?_, ?_, ?_, ?_, ?_, a3, m3⟩, g3, rfl, rfl, rfl, h.log.operational, by omega⟩
  · unfold rwClose andThen
    rw [e1]
    dsimp only
    rw [e2]
    dsimp only
    exact e3
  · intro k
    rw [put_other _ _ (by intro x; cases x), put_other _ _ (by intro x; cases x)]
    exact h.log.sub k
  · intro k
    rw [put_other _ _ (by intro x; cases x), put_other _ _ (by intro x; cases x)]
    exact h.log.att k
  · rw [put_other _ _ (by intro x; cases x), put_other _ _ (by intro x; cases x)]
    exact h.log.metadata
  · refine ⟨g, ?_, ?_, si⟩
    · rw [put_other _ _ (by intro x; cases x), put_self]
    · rw [s3]; exact gp
  · rw [put_self]
    exact an

end Verif.Czi
