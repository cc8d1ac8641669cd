import Verif.Proof.Parsing
import Verif.Proof.Disk
import Verif.Props.Strict

/-! # C15: memory safety of the parser -/

namespace Verif.Spec

open Verif.Czi

/-- A signed 32-bit number in a file. -/
def int32At (d : Disk) (p : Nat) : Int := unleInt (d.read p 4)
/-- An unsigned 64-bit number in a file. -/
def nat64At (d : Disk) (p : Nat) : Nat := unle (d.read p 8)

/-- The bytes of the entries of the sub-block directory segment at `off`: its used size - if that is 0, its allocated size - without
the 128 bytes of the fixed part, after 160 bytes. -/
def directoryBytes (d : Disk) (off : Nat) : List UInt8 :=
  d.read (u64 (off + 160)) ((if nat64At d (off + 24) = 0 then nat64At d (off + 16) else nat64At d (off + 24)) - 128)

/-- Every DV entry of the directory at `off` gives between 0 and 40 dimensions. -/
def DirectoryCountsOk (d : Disk) (off : Nat) : Prop := CountsOk (directoryBytes d off) (int32At d (off + 32)).toNat 0

/-- The sub-block segment at `off` has the schema DV, between 0 and 40 dimensions, X and Y among them. -/
structure SubBlockHeaderOk (d : Disk) (off : Nat) : Prop where
  schema : d.get (off + 48) = 68 ∧ d.get (off + 49) = 86
  count : 0 ≤ int32At d (off + 76) ∧ int32At d (off + 76) ≤ 40
  x : ∃ i : Nat, (i : Int) < int32At d (off + 76) ∧ IsX (d.get (off + 80 + 20 * i))
  y : ∃ i : Nat, (i : Int) < int32At d (off + 76) ∧ IsY (d.get (off + 80 + 20 * i))
  pos : off + 288 < 2 ^ 64

end Verif.Spec

namespace Verif

open Czi Spec

theorem readExact_defined (s : Stream) (off n : Nat) : readExact s off n ≠ .error .undefined := by
  unfold readExact
  simp only []
  split <;> simp

theorem readPayload_defined (alloc : Alloc) (s : Stream) (off : Nat) (n : Int) : readPayload alloc s off n ≠ .error .undefined := by
  unfold readPayload
  split
  · simp only []
    split <;> simp
  · simp

theorem bind_defined {α β : Type} {a : Except RErr α} {f : α → Except RErr β} (h : a ≠ .error .undefined)
    (hf : ∀ x, a = .ok x → f x ≠ .error .undefined) : a.bind f ≠ .error .undefined := by
  cases a with
  | error e => intro hh; apply h; simpa [Except.bind] using hh
  | ok x => exact hf x rfl

theorem map_defined {α β : Type} {a : Except RErr α} {f : α → β} (h : a ≠ .error .undefined) : a.map f ≠ .error .undefined := by
  cases a with
  | error e => intro hh; apply h; simpa [Except.map] using hh
  | ok x => simp [Except.map]

theorem readMalloc_defined (alloc : Alloc) (s : Stream) (off n : Nat) (h : alloc n = true) : readMalloc alloc s off n ≠ .error .undefined := by
  unfold readMalloc
  rw [if_neg (by simp [h])]
  exact readExact_defined s off n

theorem readHeader_defined (s : Stream) : readHeader s ≠ .error .undefined := by
  unfold readHeader
  show Except.bind _ _ ≠ _
  refine bind_defined (readExact_defined _ _ _) (fun b _ => ?_)
  split <;> simp

/-- **C15 (attachments, metadata, file header).** Reading the file header, an attachment or the metadata never has undefined behaviour, for every
byte content of the stream, every document state and even if memory allocations fail. -/
theorem C15_attachments_metadata_safe (alloc : Alloc) (s : Stream) (doc : Doc) :
    readHeader s ≠ .error .undefined ∧ (∀ i, doc.readAttachment alloc s i ≠ .error .undefined) ∧ doc.readMetadata alloc s ≠ .error .undefined := by
  refine ⟨?_, ?_, ?_⟩
  · exact readHeader_defined s
  · intro i
    unfold Doc.readAttachment
    split
    · simp
    · rename_i e _
      have : readAttachmentData alloc s e.filePosition ≠ .error .undefined := by
        unfold readAttachmentData
        show Except.bind _ _ ≠ _
        refine bind_defined (readExact_defined _ _ _) (fun b _ => ?_)
        split
        · simp
        · exact readPayload_defined _ _ _ _
      split
      · rename_i err he
        rw [he] at this
        simpa using this
      · simp
  · unfold Doc.readMetadata
    split
    · simp
    · unfold readMetadataData
      show Except.bind _ _ ≠ _
      refine bind_defined (readExact_defined _ _ _) (fun b _ => ?_)
      split
      · simp
      · refine bind_defined (readPayload_defined _ _ _ _) (fun _ _ => ?_)
        refine bind_defined (readPayload_defined _ _ _ _) (fun _ _ => ?_)
        simp

theorem readAttDir_defined (alloc : Alloc) (ha : ∀ n, alloc n = true) (s : Stream) (off : Nat) : readAttDir alloc s off ≠ .error .undefined := by
  refine bind_defined (readExact_defined _ _ _) (fun b _ => ?_)
  dsimp only
  split
  · simp
  · split
    · refine bind_defined (readMalloc_defined _ _ _ _ (ha _)) (fun _ _ => ?_)
      simp
    · simp

theorem dvLoop_defined (o : ParseOptions) (ds : List DimEntry) (st : DvState) : dvLoop o ds st ≠ .error .undefined := by
  induction ds generalizing st with
  | nil => simp [dvLoop]
  | cons d ds ih =>
    unfold dvLoop
    refine bind_defined ?_ (fun x _ => ih x)
    unfold dvStep
    repeat' split
    all_goals simp

theorem addEntryDV_defined (o : ParseOptions) (st : Entry) (ds : List DimEntry) : addEntryDV o st ds ≠ .error .undefined := by
  unfold addEntryDV
  refine bind_defined (dvLoop_defined _ _ _) (fun x _ => ?_)
  repeat' split
  all_goals simp

theorem parseEntries_defined (o : ParseOptions) (buf : List UInt8) (n cur : Nat) (hc : CountsOk buf n cur) :
    parseEntries o buf n cur ≠ .error .undefined := by
  induction n generalizing cur with
  | zero => simp [parseEntries]
  | succ n ih =>
    rw [parseEntries_head]
    have hcur : field buf cur 2 = [68, 86] → 0 ≤ countAt buf cur ∧ countAt buf cur ≤ 40 := by
      intro h
      exact hc cur (by rw [dvPositions_dv buf n cur h]; simp)
    refine bind_defined (headOf_undefined buf cur hcur) (fun r hr => ?_)
    rcases headOf_ok buf cur r hr hcur with ⟨hd, st, rfl⟩ | ⟨hd, rfl⟩
    · have hc' : CountsOk buf n (cur + 32 + 20 * (countAt buf cur).toNat) := by
        intro p hp
        exact hc p (by rw [dvPositions_dv buf n cur hd]; simp [hp])
      simp only [afterHead]
      exact bind_defined (addEntryDV_defined _ _ _) (fun e _ => map_defined (ih _ hc'))
    · exact ih _ (by intro p hp; exact hc p (by rw [dvPositions_skip buf n cur hd]; exact hp))

/-- What a completely delivered structure says about the bytes of the file. -/
theorem readExact_disk {d : Disk} {off n : Nat} {b : List UInt8} (h : readExact d.stream off n = .ok b) :
    b.length = n ∧ b = d.read off n ∧ (n = 0 ∨ off + n ≤ d.size) := by
  unfold readExact Disk.stream at h
  simp only [] at h
  split at h
  · rename_i hl
    cases h
    refine ⟨hl, rfl, ?_⟩
    unfold Disk.read at hl
    simp only [List.length_map, List.length_range] at hl
    omega
  · cases h

theorem read_getD {d : Disk} {off n i : Nat} (hi : i < n) (hs : off + n ≤ d.size) : (d.read off n).getD i 0 = d.get (off + i) := by
  unfold Disk.read
  rw [show min n (d.size - off) = n by omega]
  simp [List.getD_eq_getElem?_getD, List.getElem?_range hi]

theorem field_read {d : Disk} {off n o k : Nat} (hs : off + n ≤ d.size) (hk : o + k ≤ n) : field (d.read off n) o k = d.read (off + o) k := by
  unfold field Disk.read
  rw [show min n (d.size - off) = n by omega, show min k (d.size - (off + o)) = k by omega]
  apply List.ext_getElem
  · simp; omega
  · intro i h1 h2
    simp [Nat.add_assoc]

theorem readHeader_subDirPos {d : Disk} {hd : Header} (hh : readHeader d.stream = .ok hd) : hd.subDirPos = nat64At d 84 := by
  unfold readHeader at hh
  change Except.bind _ _ = _ at hh
  rw [exBind_ok] at hh
  obtain ⟨b, hb, hh⟩ := hh
  obtain ⟨hl, rfl, hs⟩ := readExact_disk hb
  split at hh
  · cases hh
    show fieldNat (d.read 0 544) 84 8 = unle (d.read 84 8)
    unfold fieldNat
    rw [field_read (by omega) (by omega), Nat.zero_add]
  · cases hh

theorem readSubDir_defined (d : Disk) (alloc : Alloc) (ha : ∀ n, alloc n = true) (o : ParseOptions) (off : Nat) (hc : DirectoryCountsOk d off) :
    readSubDir alloc d.stream o off ≠ .error .undefined := by
  unfold readSubDir
  show Except.bind _ _ ≠ _
  refine bind_defined (readExact_defined _ _ _) (fun b hb => ?_)
  obtain ⟨hl, rfl, hs⟩ := readExact_disk hb
  have f : ∀ o k, o + k ≤ 160 → field (d.read off 160) o k = d.read (off + o) k := fun o k h => field_read (by omega) h
  have e1 : fieldNat (d.read off 160) 24 8 = nat64At d (off + 24) := by unfold fieldNat nat64At; rw [f _ _ (by omega)]
  have e2 : fieldNat (d.read off 160) 16 8 = nat64At d (off + 16) := by unfold fieldNat nat64At; rw [f _ _ (by omega)]
  have e3 : fieldInt (d.read off 160) 32 4 = int32At d (off + 32) := by unfold fieldInt int32At; rw [f _ _ (by omega)]
  rw [e1, e2, e3]
  unfold DirectoryCountsOk directoryBytes at hc
  by_cases hm : segMagic (d.read off 160) ≠ subDirMagic
  · rw [if_pos hm]; simp
  · rw [if_neg hm]
    dsimp only
    by_cases hsz : (if nat64At d (off + 24) = 0 then nat64At d (off + 16) else nat64At d (off + 24)) < 128
    · rw [if_pos hsz]; simp
    · rw [if_neg hsz]
      show Except.bind _ _ ≠ _
      refine bind_defined (readMalloc_defined _ _ _ _ (ha _)) (fun buf hbuf => ?_)
      unfold readMalloc at hbuf
      rw [if_neg (by simp [ha])] at hbuf
      have hbe := (readExact_disk hbuf).2.1
      rw [← hbe] at hc
      show Except.bind _ _ ≠ _
      refine bind_defined (parseEntries_defined _ _ _ _ hc) (fun _ _ => ?_)
      simp

/-- **C15 (opening a document).** If memory allocations succeed and every DV entry of the sub-block directory that the file header points to
gives between 0 and 40 dimensions, then opening has no undefined behaviour, whatever else is in the file. -/
theorem C15_open_safe_partial (d : Disk) (alloc : Alloc) (ha : ∀ n, alloc n = true) (o : OpenOptions)
    (hc : DirectoryCountsOk d (nat64At d 84)) : openDoc alloc d.stream o ≠ .error .undefined := by
  unfold openDoc openDocWith
  show Except.bind _ _ ≠ _
  refine bind_defined (readHeader_defined d.stream) (fun hd hh => ?_)
  rw [readHeader_subDirPos hh]
  show Except.bind _ _ ≠ _
  refine bind_defined (readSubDir_defined d alloc ha _ _ hc) (fun r _ => ?_)
  obtain ⟨es, sz⟩ := r
  dsimp only
  split
  · show Except.bind _ _ ≠ _
    refine bind_defined (readAttDir_defined alloc ha _ _) (fun r _ => ?_)
    obtain ⟨as, _⟩ := r
    simp
  · simp

/-! ## Sub-blocks -/

theorem geoLoop_keeps (ds : List DimEntry) (g g' : Geo) (h : geoLoop ds g = .ok g') :
    (g.mIndex.isSome = true → g'.mIndex.isSome = true) ∧
    (((g.x.isSome = true ∧ g.w.isSome = true ∧ g.pw.isSome = true) ∨ (∃ d ∈ ds, IsX d.char)) →
      g'.x.isSome = true ∧ g'.w.isSome = true ∧ g'.pw.isSome = true) ∧
    (((g.y.isSome = true ∧ g.h.isSome = true ∧ g.ph.isSome = true) ∨ (∃ d ∈ ds, IsY d.char)) →
      g'.y.isSome = true ∧ g'.h.isSome = true ∧ g'.ph.isSome = true) := by
  induction ds generalizing g with
  | nil => simp only [geoLoop] at h; cases h; simp
  | cons d ds ih =>
    unfold geoLoop at h
    change Except.bind _ _ = _ at h
    rw [exBind_ok] at h
    obtain ⟨x, h1, h2⟩ := h
    obtain ⟨i1, i2, i3⟩ := ih x h2
    unfold geoStep at h1
    rcases letter_cases d.char with ⟨hk, k1, k2, k3, k4⟩ | ⟨hk, k1, k2, k3, k4⟩ | ⟨hk, k1, k2, k3, k4⟩ | ⟨k, hk, k1, k2, k3, k4⟩ | ⟨hk, k1, k2, k3, k4⟩
    all_goals simp only [hk] at h1
    all_goals cases h1
    all_goals simp_all

theorem geoLoop_defined (ds : List DimEntry) (g : Geo) : geoLoop ds g ≠ .error .undefined := by
  induction ds generalizing g with
  | nil => simp [geoLoop]
  | cons d ds ih =>
    unfold geoLoop
    refine bind_defined ?_ (fun x _ => ih x)
    unfold geoStep
    split <;> simp

theorem dimEntries_mem (b : List UInt8) (n i : Nat) (h : i < n) : dimEntryOf (b.drop (20 * i)) ∈ dimEntries b n := by
  induction n generalizing b i with
  | zero => omega
  | succ n ih =>
    unfold dimEntries
    cases i with
    | zero => simp
    | succ i =>
      have := ih (b.drop 20) i (by omega)
      rw [List.drop_drop] at this
      rw [show 20 * (i + 1) = 20 + 20 * i by omega]
      exact List.mem_cons_of_mem _ this

theorem len_eq (c : Int) (k : Nat) (h : c = (k : Int)) (hk : k ≤ 40) : ((16 + 32 + c * 20) % (2 ^ 32 : Nat)).toNat = 48 + 20 * k := by
  have e : (16 + 32 + c * 20 : Int) = ((48 + 20 * k : Nat) : Int) := by omega
  rw [e, ← Int.natCast_emod, Int.toNat_natCast, Nat.mod_eq_of_lt]
  calc 48 + 20 * k ≤ 1000 := by omega
    _ < 2 ^ 32 := by decide

/-- The outcome of reading the header of a sub-block with a valid header. -/
theorem readSbHeader_good (d : Disk) (off : Nat) (h : SubBlockHeaderOk d off) :
    readSbHeader d.stream off ≠ .error .undefined ∧
    ∀ r, readSbHeader d.stream off = .ok r → r.2.2.2.1.isSome = true ∧ r.2.2.2.2.1.mIndex.isSome = true ∧
      (r.2.2.2.2.1.x.isSome = true ∧ r.2.2.2.2.1.w.isSome = true ∧ r.2.2.2.2.1.pw.isSome = true) ∧
      (r.2.2.2.2.1.y.isSome = true ∧ r.2.2.2.2.1.h.isSome = true ∧ r.2.2.2.2.1.ph.isSome = true) := by
  unfold readSbHeader
  cases hb : readExact d.stream off 288 with
  | error e =>
    have := readExact_defined d.stream off 288
    rw [hb] at this
    constructor
    · intro hh; apply this; simpa [bind, Except.bind] using hh
    · intro r hh; simp [bind, Except.bind] at hh
  | ok b =>
    obtain ⟨hl, rfl, hs⟩ := readExact_disk hb
    have hs : off + 288 ≤ d.size := by omega
    obtain ⟨⟨s1, s2⟩, ⟨c0, c40⟩, ⟨ix, hix, hx⟩, ⟨iy, hiy, hy⟩, hpos⟩ := h
    have hcount : fieldInt (d.read off 288) 76 4 = int32At d (off + 76) := by
      unfold fieldInt int32At; rw [field_read hs (by omega)]
    have hsch : field (d.read off 288) 48 2 = ascii "DV" := by
      rw [field_read hs (by omega), ascii_DV]
      unfold Disk.read
      rw [show min 2 (d.size - (off + 48)) = 2 by omega]
      simp [List.range_succ, s1, s2, Nat.add_assoc]
    show (Except.bind (Except.ok (d.read off 288)) _ ≠ _) ∧ ∀ r, Except.bind (Except.ok (d.read off 288)) _ = _ → _
    simp only [Except.bind]
    obtain ⟨k, hk⟩ := Int.eq_ofNat_of_zero_le c0
    have hk40 : k ≤ 40 := by omega
    by_cases hm : segMagic (d.read off 288) ≠ subBlockMagic
    · rw [if_pos hm]; simp
    · rw [if_neg hm, if_pos hsch, hcount, if_neg (by omega)]
      rw [len_eq _ k hk hk40]
      have rest : ∀ rest, readRest d.stream off (48 + 20 * k) = .ok rest →
          ∀ i, i < k → ((d.read off 288 ++ rest).drop 80 |>.drop (20 * i)).getD 0 0 = d.get (off + 80 + 20 * i) := by
        intro rest hr i hi
        rw [List.drop_drop, List.getD_eq_getElem?_getD, List.getElem?_drop, ← List.getD_eq_getElem?_getD, Nat.add_zero]
        unfold readRest at hr
        by_cases hlt : 48 + 20 * k + 32 > 288
        · rw [if_pos hlt] at hr
          dsimp only at hr
          split at hr
          · cases hr
          · have hu : u64 ((off : Int) + 288) = off + 288 := by unfold u64; omega
            rw [hu] at hr
            obtain ⟨rl, re, rs⟩ := readExact_disk hr
            rw [re]
            by_cases hlo : 80 + 20 * i < 288
            · rw [getD_append_left (by omega), read_getD hlo hs, Nat.add_assoc]
            · rw [getD_append_right (by omega), hl, read_getD (by omega) (by omega)]
              rw [show off + 288 + (80 + 20 * i - 288) = off + 80 + 20 * i by omega]
        · rw [if_neg hlt] at hr
          cases hr
          rw [List.append_nil, read_getD (by omega) hs, Nat.add_assoc]
      have hrd : readRest d.stream off (48 + 20 * k) ≠ .error .undefined := by
        unfold readRest
        split
        · dsimp only
          have := d.read_length_le (u64 ((off : Int) + 288)) (48 + 20 * k + 32 - 288)
          have h2 : ¬ (d.stream (u64 ((off : Int) + 288)) (48 + 20 * k + 32 - 288)).length > 592 := by
            unfold Disk.stream; omega
          rw [if_neg h2]
          exact readExact_defined _ _ _
        · simp
      constructor
      · refine bind_defined hrd (fun rest _ => ?_)
        refine bind_defined (geoLoop_defined _ _) (fun g _ => ?_)
        simp
      · intro r hr
        change Except.bind _ _ = _ at hr
        rw [exBind_ok] at hr
        obtain ⟨rs, h1, h2⟩ := hr
        change Except.bind _ _ = _ at h2
        rw [exBind_ok] at h2
        obtain ⟨g, h3, h4⟩ := h2
        cases h4
        dsimp only
        have hc' : (int32At d (off + 76)).toNat = k := by rw [hk]; rfl
        rw [hc'] at h3
        obtain ⟨g1, g2, g3⟩ := geoLoop_keeps _ _ _ h3
        refine ⟨rfl, g1 rfl, g2 (Or.inr ?_), g3 (Or.inr ?_)⟩
        · refine ⟨_, dimEntries_mem _ k ix (by omega), ?_⟩
          show IsX (((d.read off 288 ++ rs).drop 80 |>.drop (20 * ix)).getD 0 0)
          rw [rest rs h1 ix (by omega)]; exact hx
        · refine ⟨_, dimEntries_mem _ k iy (by omega), ?_⟩
          show IsY (((d.read off 288 ++ rs).drop 80 |>.drop (20 * iy)).getD 0 0)
          rw [rest rs h1 iy (by omega)]; exact hy

/-- The check for discrepancies is defined if all numbers are. -/
theorem discrepancy_some (e : Entry) (d : SbData) (hm : d.mIndex.isSome = true)
    (hx : d.x.isSome = true ∧ d.w.isSome = true ∧ d.pw.isSome = true) (hy : d.y.isSome = true ∧ d.h.isSome = true ∧ d.ph.isSome = true) :
    (discrepancy e d).isSome = true := by
  obtain ⟨a, b, c⟩ := hx
  obtain ⟨a', b', c'⟩ := hy
  have dif : ∀ (v : Int) (o : Option Int), o.isSome = true → (differs v o).isSome = true := by
    intro v o h; simpa [differs] using h
  have or2 : ∀ (p q : Option Bool), p.isSome = true → q.isSome = true → (orUB p q).isSome = true := by
    intro p q hp hq
    cases p with
    | none => simp at hp
    | some v => cases v <;> simp [orUB, hq]
  unfold discrepancy
  refine or2 _ _ rfl (or2 _ _ rfl (or2 _ _ rfl (or2 _ _ (by simpa using hm) ?_)))
  exact or2 _ _ (dif _ _ a) (or2 _ _ (dif _ _ a') (or2 _ _ (dif _ _ b) (or2 _ _ (dif _ _ b') (or2 _ _ (dif _ _ c) (dif _ _ c')))))

/-- **C15 (reading a sub-block).** Reading a sub-block whose segment has the schema DV, between 0 and 40 dimensions and X and Y among them has no undefined
behaviour, whatever else is in the file, whatever the options and whether memory allocations succeed or not. -/
theorem C15_subblock_safe_partial (d : Disk) (alloc : Alloc) (o : OpenOptions) (e : Entry) (h : SubBlockHeaderOk d e.filePosition) :
    readEntry alloc d.stream o e ≠ .error .undefined := by
  obtain ⟨hdef, hgood⟩ := readSbHeader_good d e.filePosition h
  unfold readEntry
  refine bind_defined ?_ (fun x hx => ?_)
  · refine bind_defined hdef (fun r _ => ?_)
    obtain ⟨b, c, p, sp, g, len⟩ := r
    refine bind_defined (readPayload_defined _ _ _ _) (fun _ _ => ?_)
    refine bind_defined (readPayload_defined _ _ _ _) (fun _ _ => ?_)
    refine bind_defined (readPayload_defined _ _ _ _) (fun _ _ => ?_)
    simp
  · unfold readSubBlockData at hx
    change Except.bind _ _ = _ at hx
    rw [exBind_ok] at hx
    obtain ⟨r, h1, h2⟩ := hx
    have hg := hgood r h1
    obtain ⟨b, c, p, sp, g, len⟩ := r
    dsimp only at hg h2
    change Except.bind _ _ = _ at h2
    rw [exBind_ok] at h2
    obtain ⟨m, _, h2⟩ := h2
    change Except.bind _ _ = _ at h2
    rw [exBind_ok] at h2
    obtain ⟨dd, _, h2⟩ := h2
    change Except.bind _ _ = _ at h2
    rw [exBind_ok] at h2
    obtain ⟨a, _, h2⟩ := h2
    cases h2
    obtain ⟨hsp, hm, ⟨hx1, hx2, hx3⟩, ⟨hy1, hy2, hy3⟩⟩ := hg
    have hdis := discrepancy_some e ⟨c, p, g.coordinate, g.x, g.y, g.w, g.h, g.pw, g.ph, g.mIndex, sp, m, dd, a⟩ hm ⟨hx1, hx2, hx3⟩ ⟨hy1, hy2, hy3⟩
    have hfin : readEntry.finish o e ⟨c, p, g.coordinate, g.x, g.y, g.w, g.h, g.pw, g.ph, g.mIndex, sp, m, dd, a⟩ ≠ .error .undefined := by
      unfold readEntry.finish
      split
      · have : (infoFromHeader ⟨c, p, g.coordinate, g.x, g.y, g.w, g.h, g.pw, g.ph, g.mIndex, sp, m, dd, a⟩).isSome = true := by
          simp only [Option.isSome_iff_exists] at hsp hm hx1 hx2 hx3 hy1 hy2 hy3
          obtain ⟨v1, e1⟩ := hsp; obtain ⟨v2, e2⟩ := hm; obtain ⟨v3, e3⟩ := hx1; obtain ⟨v4, e4⟩ := hx2
          obtain ⟨v5, e5⟩ := hx3; obtain ⟨v6, e6⟩ := hy1; obtain ⟨v7, e7⟩ := hy2; obtain ⟨v8, e8⟩ := hy3
          simp [infoFromHeader, e1, e2, e3, e4, e5, e6, e7, e8]
        split
        · rename_i hn
          rw [hn] at this; cases this
        · simp
      · simp
    split
    · split
      · rename_i hn
        rw [hn] at hdis; cases hdis
      · simp
      · exact hfin
    · exact hfin

/-! ## Violations -/

theorem headOf_dv (buf : List UInt8) (cur : Nat) (h1 : field buf cur 2 = [68, 86]) (h4 : cur + 32 ≤ buf.length) (hu : bufReadDims buf (cur + 32) (countAt buf cur) = .error .undefined) :
    headOf buf cur = .error .undefined := by
  unfold headOf bufRead
  rw [if_pos (by omega)]
  show (if field buf cur 2 = ascii "DV" then _ else _) = _
  rw [ascii_DV, if_pos h1, if_pos (by omega)]
  show (bufReadDims buf (cur + 32) (fieldInt (field buf (cur + 2) 30) 26 4) >>= _) = _
  have hcount : fieldInt (field buf (cur + 2) 30) 26 4 = countAt buf cur := by
    unfold countAt fieldInt; rw [field_field (by omega)]
  rw [hcount, hu]
  rfl

/-- **C15, violated (too many dimensions).** Wherever the parser gets to an entry of the directory that has the schema DV, gives more than 40 (and less than
10^8) dimensions and contains that many, they are copied beyond the end of an array of 40 dimension entries. -/
theorem C15_too_many_dimensions_overrun (o : ParseOptions) (buf : List UInt8) (n cur : Nat) (h1 : field buf cur 2 = [68, 86])
    (h2 : 40 < countAt buf cur) (h3 : countAt buf cur < 100000000) (h4 : cur + 32 + 20 * countAt buf cur ≤ buf.length) :
    parseEntries o buf (n + 1) cur = .error .undefined := by
  rw [parseEntries_head, headOf_dv buf cur h1 (by omega)]
  · rfl
  · obtain ⟨k, hk⟩ := Int.eq_ofNat_of_zero_le (show 0 ≤ countAt buf cur by omega)
    have hi : i32 (countAt buf cur * 20) = ((20 * k : Nat) : Int) := by
      rw [hk, show (k : Int) * 20 = ((20 * k : Nat) : Int) by omega, i32_eq (by omega)]
    unfold bufReadDims
    rw [hi]
    dsimp only
    have h5 : u64 (((cur + 32 : Nat) : Int) + ((20 * k : Nat) : Int)) ≤ buf.length := by unfold u64; omega
    rw [if_pos h5, if_pos (by omega)]

/-- **C15, violated (negative number of dimensions).** Wherever the parser gets to an entry of the directory with the schema DV that gives -1 dimensions,
it copies a negative number of bytes. -/
theorem C15_negative_dimensions_overrun (o : ParseOptions) (buf : List UInt8) (n cur : Nat) (h1 : field buf cur 2 = [68, 86])
    (h2 : countAt buf cur = -1) (h4 : cur + 32 ≤ buf.length) : parseEntries o buf (n + 1) cur = .error .undefined := by
  rw [parseEntries_head, headOf_dv buf cur h1 (by omega)]
  · rfl
  · unfold bufReadDims
    rw [h2, show i32 (-1 * 20) = -20 by decide]
    dsimp only
    have h5 : u64 (((cur + 32 : Nat) : Int) + -20) ≤ buf.length := by unfold u64; omega
    rw [if_pos h5, if_pos (by omega)]

/-- **C15, violated (opening a document).** Opening any document whose sub-block directory is completely in the file and starts with such an entry has undefined
behaviour, with all options. -/
theorem C15_open_overrun (d : Disk) (alloc : Alloc) (o : OpenOptions) (hd : Header) (hh : readHeader d.stream = .ok hd)
    (hm : d.read (nat64At d 84) 16 = subDirMagic) (hn : 0 < int32At d (nat64At d 84 + 32)) (hused : 128 ≤ nat64At d (nat64At d 84 + 24))
    (hsz : nat64At d 84 + 32 + nat64At d (nat64At d 84 + 24) ≤ d.size) (h64 : d.size < 2 ^ 64)
    (h1 : field (directoryBytes d (nat64At d 84)) 0 2 = [68, 86]) (h2 : 40 < countAt (directoryBytes d (nat64At d 84)) 0)
    (h3 : countAt (directoryBytes d (nat64At d 84)) 0 < 100000000)
    (h4 : 32 + 20 * countAt (directoryBytes d (nat64At d 84)) 0 ≤ (directoryBytes d (nat64At d 84)).length) :
    openDoc alloc d.stream o = .error .undefined := by
  have hpos := readHeader_subDirPos hh
  generalize nat64At d 84 = off at *
  have hs' : off + 160 ≤ d.size := by omega
  have hu : u64 ((off : Int) + 160) = off + 160 := by unfold u64; omega
  have f : ∀ o k, o + k ≤ 160 → field (d.read off 160) o k = d.read (off + o) k := fun o k h => field_read (by omega) h
  have e1 : fieldNat (d.read off 160) 24 8 = nat64At d (off + 24) := by unfold fieldNat nat64At; rw [f _ _ (by omega)]
  have e3 : fieldInt (d.read off 160) 32 4 = int32At d (off + 32) := by unfold fieldInt int32At; rw [f _ _ (by omega)]
  have rd : ∀ p n, p + n ≤ d.size → readExact d.stream p n = .ok (d.read p n) := by
    intro p n h
    unfold readExact Disk.stream
    simp only []
    rw [if_pos]
    simp [Disk.read]; omega
  obtain ⟨n, hn'⟩ := Int.eq_ofNat_of_zero_le (show 0 ≤ int32At d (off + 32) by omega)
  obtain ⟨m, rfl⟩ : ∃ m, n = m + 1 := ⟨n - 1, by omega⟩
  have hpar := C15_too_many_dimensions_overrun (parseOptions o) (directoryBytes d off) m 0 h1 h2 h3 (by omega)
  have hsub : readSubDir alloc d.stream (parseOptions o) off = .error .undefined := by
    unfold readSubDir
    rw [rd _ _ hs']
    show Except.bind (Except.ok (d.read off 160)) _ = _
    simp only [Except.bind]
    rw [if_neg (by unfold segMagic; rw [f _ _ (by omega), Nat.add_zero, hm]; simp), e1, e3, hn', Int.toNat_natCast, if_neg (show ¬ nat64At d (off + 24) = 0 by omega),
      if_neg (by omega), hu]
    unfold directoryBytes at hpar
    rw [if_neg (show ¬ nat64At d (off + 24) = 0 by omega), hu] at hpar
    unfold readMalloc
    by_cases ha : alloc (nat64At d (off + 24) - 128) = false ∧ 0 < (d.stream (off + 160) (nat64At d (off + 24) - 128)).length
    · rw [if_pos ha]; rfl
    · rw [if_neg ha, rd _ _ (by omega)]
      generalize d.read (off + 160) (nat64At d (off + 24) - 128) = B at hpar ⊢
      show Except.bind (parseEntries (parseOptions o) B (m + 1) 0) _ = _
      rw [hpar]
      rfl
  unfold openDoc openDocWith
  rw [hh]
  show Except.bind (readSubDir alloc d.stream (parseOptions o) hd.subDirPos) _ = _
  rw [hpos, hsub]
  rfl

/-- **C15, violated (no memory).** If the memory for the directory cannot be allocated, and the file contains at least one byte of it, the bytes are
written through a null pointer. -/
theorem C15_allocation_failure_undefined (alloc : Alloc) (s : Stream) (off n : Nat) (h : alloc n = false) (hs : 0 < (s off n).length) :
    readMalloc alloc s off n = .error .undefined := by
  unfold readMalloc
  rw [if_pos ⟨h, hs⟩]

/-- **C15, violated (negative number of dimensions in a sub-block).** Reading the header of a sub-block segment that gives -3 dimensions overruns the structure
if the file goes on for more than 592 bytes after the first 288 bytes of the segment. -/
theorem C15_subblock_negative_dimensions_overrun (d : Disk) (off : Nat) (hs : off + 881 ≤ d.size) (hsz : d.size < 2 ^ 64)
    (hm : d.read off 16 = subBlockMagic) (hsc : d.read (off + 48) 2 = [68, 86]) (hc : int32At d (off + 76) = -3) :
    readSbHeader d.stream off = .error .undefined := by
  unfold readSbHeader
  have hb : readExact d.stream off 288 = .ok (d.read off 288) := by
    unfold readExact Disk.stream
    simp only []
    rw [if_pos]
    simp [Disk.read]; omega
  rw [hb]
  show Except.bind (Except.ok (d.read off 288)) _ = _
  simp only [Except.bind]
  have hs' : off + 288 ≤ d.size := by omega
  rw [if_neg (by unfold segMagic; rw [field_read hs' (by omega), Nat.add_zero, hm]; simp),
    if_pos (by rw [field_read hs' (by omega), ascii_DV, hsc])]
  have hcount : fieldInt (d.read off 288) 76 4 = -3 := by
    unfold fieldInt; rw [field_read hs' (by omega)]; exact hc
  rw [hcount, if_neg (by omega)]
  have hr : readRest d.stream off ((16 + 32 + (-3) * 20 : Int) % ((2 : Nat) ^ 32 : Nat)).toNat = .error .undefined := by
    rw [show ((16 + 32 + (-3) * 20 : Int) % ((2 : Nat) ^ 32 : Nat)).toNat = 4294967284 by omega]
    unfold readRest
    rw [if_pos (by omega)]
    dsimp only
    have hu : u64 ((off : Int) + 288) = off + 288 := by unfold u64; omega
    rw [hu, if_pos]
    unfold Disk.stream Disk.read
    simp only [List.length_map, List.length_range]
    omega
  rw [hr]
  rfl

/-- **C15, violated (missing dimension).** With the default options, reading a sub-block whose header agrees with the directory in pixel type, compression,
coordinate and m-index, but does not give X, compares and uses an indeterminate value. -/
theorem C15_missing_x_undefined (e : Entry) (d : SbData) (h1 : e.pixelType = d.pixelType) (h2 : e.compression = d.compression)
    (h3 : e.coordinate.compare d.coordinate = 0) (h4 : d.mIndex = some e.mIndex) (hx : d.x = none) : discrepancy e d = none := by
  unfold discrepancy
  simp [h1, h2, h3, h4, hx, orUB, differs]

/-! ## Non-vacuity -/

/-- The bytes of an entry with 41 dimensions. -/
def bytes41 : List UInt8 := [68, 86] ++ zeros 26 ++ [41, 0, 0, 0] ++ zeros 820

example : parseEntries ParseOptions.lax bytes41 1 0 = .error .undefined :=
  C15_too_many_dimensions_overrun _ _ 0 0 (by decide +kernel) (by decide +kernel) (by decide +kernel) (by decide +kernel)

example : parseEntries ParseOptions.lax ([68, 86] ++ zeros 26 ++ [255, 255, 255, 255]) 1 0 = .error .undefined :=
  C15_negative_dimensions_overrun _ _ 0 0 (by decide +kernel) (by decide +kernel) (by decide +kernel)

/-- A file whose sub-block segment header at 0 satisfies the hypotheses of `C15_subblock_safe_partial`. -/
example : SubBlockHeaderOk ⟨1000, fun i => if i = 48 then 68 else if i = 49 then 86 else if i = 76 then 2 else if i = 80 then 88 else if i = 100 then 89 else 0⟩ 0 :=
  ⟨by decide, by decide +kernel, ⟨0, by decide +kernel, by decide⟩, ⟨1, by decide +kernel, by decide⟩, by decide⟩

/-- An empty directory satisfies the hypothesis of `C15_open_safe_partial`. -/
example : DirectoryCountsOk ⟨0, fun _ => 0⟩ 0 := by intro p hp; simp [dvPositions, int32At, Disk.read, unleInt, unle, toSigned] at hp

end Verif
