import Verif.Proof.EditCrashMore
import Verif.Proof.Parsing

/-! A crash while `Close` rewrites the sub-block directory in its place. -/

namespace Verif.Czi

open Spec

attribute [local irreducible] zeros

/-- The same bytes as far as both go. -/
def Common (a b : List UInt8) : Prop := ∀ c n, c + n ≤ a.length → c + n ≤ b.length → field a c n = field b c n

theorem bufRead_common {a b : List UInt8} (h : Common a b) {c n : Nat} {x y : List UInt8} (h1 : bufRead a c n = .ok x) (h2 : bufRead b c n = .ok y) : x = y := by
  unfold bufRead at h1 h2
  split at h1
  · split at h2
    · injection h1 with h1
      injection h2 with h2
      rw [← h1, ← h2]
      exact h _ _ ‹_› ‹_›
    · cases h2
  · cases h1

theorem bufReadDims_common {a b : List UInt8} (h : Common a b) {c : Nat} {k : Int} (hc : c < 2 ^ 63) {x y : List UInt8 × Nat} (h1 : bufReadDims a c k = .ok x)
    (h2 : bufReadDims b c k = .ok y) : x = y := by
  unfold bufReadDims at h1 h2
  dsimp only at h1 h2
  split at h1
  · split at h2
    · split at h1
      · cases h1
      · rename_i g1 g2 g3
        rw [if_neg g3] at h2
        injection h1 with h1
        injection h2 with h2
        rw [← h1, ← h2]
        have e : u64 ((c : Int) + i32 (k * 20)) = c + (i32 (k * 20)).toNat := by
          unfold u64
          omega
        rw [e] at g1 g2
        rw [h _ _ g1 g2]
    · cases h2
  · cases h1

theorem headOf_common {a b : List UInt8} (h : Common a b) (ha : a.length < 2 ^ 63) {c : Nat} {x y : Option (Entry × List DimEntry) × Nat}
    (h1 : headOf a c = .ok x) (h2 : headOf b c = .ok y) : x = y := by
  unfold headOf at h1 h2
  obtain ⟨s1, f1, h1⟩ := Except.bind_eq_ok h1
  obtain ⟨s2, f2, h2⟩ := Except.bind_eq_ok h2
  have := bufRead_common h f1 f2
  subst this
  by_cases hv : s1 = ascii "DV"
  · rw [if_pos hv] at h1 h2
    obtain ⟨t1, g1, h1⟩ := Except.bind_eq_ok h1
    obtain ⟨t2, g2, h2⟩ := Except.bind_eq_ok h2
    have := bufRead_common h g1 g2
    subst this
    have hc : c + 32 ≤ a.length := by
      unfold bufRead at g1
      split at g1
      · omega
      · cases g1
    obtain ⟨⟨u1, n1⟩, k1, h1⟩ := Except.bind_eq_ok h1
    obtain ⟨⟨u2, n2⟩, k2, h2⟩ := Except.bind_eq_ok h2
    have := bufReadDims_common h (by omega) k1 k2
    injection this with e1 e2
    subst e1 e2
    dsimp only at h1 h2
    split at h1
    · cases h1
    · rename_i g
      rw [if_neg g] at h2
      injection h1 with h1
      injection h2 with h2
      rw [← h1, ← h2]
  · rw [if_neg hv] at h1 h2
    split at h1
    · obtain ⟨_, _, h1⟩ := Except.bind_eq_ok h1
      cases h1
    · rename_i g
      rw [if_neg g] at h2
      injection h1 with h1
      injection h2 with h2
      rw [← h1, ← h2]

theorem parse_length {o : ParseOptions} {a : List UInt8} : ∀ {n c : Nat} {es : List Entry}, parseEntries o a n c = .ok es → es.length ≤ n
  | 0, c, es, h => by cases h; exact Nat.le_refl _
  | n + 1, c, es, h => by
    rw [parseEntries_head] at h
    obtain ⟨⟨r, m⟩, _, h⟩ := Except.bind_eq_ok h
    cases r with
    | none => exact Nat.le_succ_of_le (parse_length h)
    | some p =>
      obtain ⟨st, ds⟩ := p
      obtain ⟨e, _, h⟩ := Except.bind_eq_ok h
      unfold Except.map at h
      split at h
      · cases h
      · rename_i l hl
        injection h with h
        rw [← h, List.length_cons]
        exact Nat.succ_le_succ (parse_length hl)

/-- Fewer entries from the same bytes are the first ones. -/
theorem parse_prefix {o : ParseOptions} {a b : List UInt8} (h : Common a b) (ha : a.length < 2 ^ 63) : ∀ {n m c : Nat} {es fs : List Entry}, m ≤ n →
    parseEntries o a n c = .ok es → parseEntries o b m c = .ok fs → fs <+: es
  | n, 0, c, es, fs, _, _, h2 => by cases h2; exact List.nil_prefix
  | 0, m + 1, c, es, fs, hm, _, _ => absurd hm (by omega)
  | n + 1, m + 1, c, es, fs, hm, h1, h2 => by
    rw [parseEntries_head] at h1 h2
    obtain ⟨⟨r, q⟩, f1, h1⟩ := Except.bind_eq_ok h1
    obtain ⟨⟨r', q'⟩, f2, h2⟩ := Except.bind_eq_ok h2
    have := headOf_common h ha f1 f2
    injection this with e1 e2
    subst e1 e2
    cases r with
    | none => exact parse_prefix h ha (by omega) h1 h2
    | some p =>
      obtain ⟨st, ds⟩ := p
      obtain ⟨e, k1, h1⟩ := Except.bind_eq_ok h1
      obtain ⟨e', k2, h2⟩ := Except.bind_eq_ok h2
      rw [k1] at k2
      cases k2
      unfold Except.map at h1 h2
      split at h1
      · cases h1
      · rename_i l hl
        split at h2
        · cases h2
        · rename_i l' hl'
          injection h1 with h1
          injection h2 with h2
          rw [← h1, ← h2]
          exact (List.cons_prefix_cons).2 ⟨rfl, parse_prefix h ha (by omega) hl hl'⟩

theorem readMalloc_size {al : Alloc} {d : Disk} {p n : Nat} {b : List UInt8} (h : readMalloc al d.stream p n = .ok b) :
    b = d.read p n ∧ (0 < n → p + n ≤ d.size) := by
  unfold readMalloc at h
  split at h
  · cases h
  · exact readExact_size h

theorem read_common {d d' : Disk} {p n m : Nat} (hd : ∀ i, p ≤ i → d'.get i = d.get i) (h1 : 0 < n → p + n ≤ d.size) (h2 : 0 < m → p + m ≤ d'.size) :
    Common (d.read p n) (d'.read p m) := by
  intro c k h3 h4
  have e1 : (d.read p n).length = min n (d.size - p) := by simp [Disk.read]
  have e2 : (d'.read p m).length = min m (d'.size - p) := by simp [Disk.read]
  apply List.ext_getElem
  · rw [field_length, field_length]
    omega
  · intro i g1 g2
    simp only [field, Disk.read, List.getElem_take, List.getElem_drop, List.getElem_map, List.getElem_range]
    exact (hd _ (by omega)).symm

/-- The parts of reading a sub-block directory. -/
theorem readSubDir_parts {al : Alloc} {d : Disk} {o : ParseOptions} {pos : Nat} {r : List Entry × Int} (h : readSubDir al d.stream o pos = .ok r)
    (hp : pos + 160 < 2 ^ 64) :
    pos + 160 ≤ d.size ∧ ∃ n, (0 < n → pos + 160 + n ≤ d.size) ∧
      parseEntries o (d.read (pos + 160) n) (unleInt (d.read (pos + 32) 4)).toNat 0 = .ok r.1 := by
  unfold readSubDir at h
  obtain ⟨b, h1, h2⟩ := Except.bind_eq_ok h
  obtain ⟨rfl, hs⟩ := readExact_size h1
  have hs := hs (by omega)
  split at h2
  · cases h2
  · dsimp only at h2
    generalize (if fieldNat (d.read pos 160) 24 8 = 0 then fieldNat (d.read pos 160) 16 8 else fieldNat (d.read pos 160) 24 8) = size at h2
    by_cases hz : size < 128
    · rw [if_pos hz] at h2
      cases h2
    · rw [if_neg hz] at h2
      obtain ⟨b, h3, h2⟩ := Except.bind_eq_ok h2
      obtain ⟨l, h4, h2⟩ := Except.bind_eq_ok h2
      rw [show u64 (((pos : Int)) + 160) = pos + 160 from by unfold u64; omega] at h3
      obtain ⟨h6, h5⟩ := readMalloc_size h3
      rw [h6] at h4
      injection h2 with h2
      subst h2
      refine ⟨hs, size - 128, h5, ?_⟩
      unfold fieldInt at h4
      rw [Disk.field_read (by omega) hs] at h4
      exact h4

/-- The directory that is left if only its first bytes, with the new number of entries, were replaced. -/
theorem torn_subDir {al : Alloc} {d : Disk} {o : ParseOptions} {pos alloc j : Nat} {es : List Entry} {x : Int} {new : List Entry}
    (h : readSubDir al d.stream o pos = .ok (es, x)) (hp : pos + 160 < 2 ^ 63) (hs : d.size < 2 ^ 63) (hj : 36 ≤ j) (hj' : j ≤ 160) (hn : new.length ≤ es.length)
    {r : List Entry × Int} (h' : readSubDir al (d.write pos ((subDirBytes alloc new).take j)).stream o pos = .ok r) :
    r.1 <+: es ∧ r.1.length ≤ new.length := by
  obtain ⟨g1, n, g2, g3⟩ := readSubDir_parts h (by omega)
  obtain ⟨k1, m, k2, k3⟩ := readSubDir_parts h' (by omega)
  dsimp only at g3
  have hes : es.length ≤ 2147483647 := by
    have h1 := parse_length g3
    have hl : (d.read (pos + 32) 4).length = 4 := Disk.read_length (by omega)
    have h2 := unle_lt (d.read (pos + 32) 4)
    unfold unleInt toSigned at h1
    rw [hl] at h1 h2
    split at h1 <;> omega
  have hlen : ((subDirBytes alloc new).take j).length = j := by
    rw [List.length_take]
    unfold subDirBytes segHeader
    simp only [List.length_append, zeros_length, leInt_length, le_length]
    have := subDirMagic_length
    omega
  have hcount : (d.write pos ((subDirBytes alloc new).take j)).read (pos + 32) 4 = leInt 4 (new.length : Int) := by
    have h1 : Holds (d.write pos ((subDirBytes alloc new).take j)) pos ((subDirBytes alloc new).take j) := Holds.write (by
      intro c
      rw [c] at hlen
      simp at hlen
      omega)
    rw [h1.read (by rw [hlen]; omega)]
    unfold field
    rw [List.drop_take, List.take_take, Nat.min_eq_left (by omega)]
    show field _ _ _ = _
    unfold subDirBytes
    rw [List.append_assoc, List.append_assoc]
    refine field_mid ?_ (leInt_length ..)
    unfold segHeader
    simp only [List.length_append, le_length]
    have := subDirMagic_length
    omega
  rw [hcount, unleInt_leInt (by omega) (by omega) (by omega), Int.toNat_natCast] at k3
  have hc := read_common (d := d) (d' := d.write pos ((subDirBytes alloc new).take j)) (p := pos + 160) (n := n) (m := m)
    (fun i hi => Disk.write_get_out (by rw [hlen]; omega)) g2 k2
  refine ⟨parse_prefix hc ?_ (Nat.le_trans hn (parse_length g3)) g3 k3, parse_length k3⟩
  simp [Disk.read]
  omega

theorem subDir_inPlace {i : SegInfo} {n : Nat} {es : List Entry} (h : align (128 + (es.map entryBytes).flatten.length) ≤ i.alloc) :
    ∃ ws, (writeSubDir (some i) (fun _ => true) n es).writes = (i.pos, subDirBytes i.alloc es) :: ws := by
  have hp : place (some i) (fun _ => true) n (align (128 + (es.map entryBytes).flatten.length)) (align (128 + (es.map entryBytes).flatten.length)) =
      ⟨[], .ok (i.pos, i.alloc)⟩ := by
    unfold place
    dsimp only
    rw [if_pos h]
    rfl
  unfold writeSubDir
  dsimp only
  rw [hp, Plan.bind_ok]
  exact ⟨_, rfl⟩

theorem close_torn {al : Alloc} {d : Disk} {o : OpenOptions} {doc : Doc} {info : RWInfo} {s : RW} (h : SoundDoc al d o doc)
    (hc : rwCreate al ⟨RWState.init, d⟩ info = (s, none)) {ops : List EditOp} (ho : ∀ p ∈ ops, EditOk p) (hm : (rwCalls s ops).w.dir.isModified = true)
    (hin : ¬ AppendsSubDir (rwCalls s ops)) (hsz : (rwCalls s ops).disk.size < 2 ^ 63) (hn : (rwCalls s ops).w.dir.subBlks.length ≤ doc.entries.length) {j : Nat}
    (hj : 36 ≤ j) (hj' : j ≤ 160) {doc' : Doc} (hd : openDoc al (leftBy (rwCalls s ops) .close 0 j).stream o = .ok doc') :
    doc'.entries <+: doc.entries ∧ doc'.entries.length ≤ (rwCalls s ops).w.dir.subBlks.length := by
  obtain ⟨top, last, a, hop⟩ := opened_crash h hc
  obtain ⟨h1, h2, h3⟩ := hop.calls ho
  have hseg : (rwCalls s ops).w.subDirSeg = some ⟨doc.header.subDirPos, allocAt d doc.header.subDirPos, false⟩ := congrArg Prod.fst h1.dirSegs
  have h544 : 544 ≤ doc.header.subDirPos := h.behind _ (by unfold segmentsOf; simp)
  have hend : endAt d doc.header.subDirPos < 2 ^ 62 := h.size _ (by unfold segmentsOf; simp)
  unfold endAt at hend
  obtain ⟨n, en, _, _⟩ := h1.ensureNext hop.base h2
  have hfit : align (128 + (((rwCalls s ops).w.dir.subBlks.map Prod.snd).map entryBytes).flatten.length) ≤ allocAt d doc.header.subDirPos := by
    apply Nat.le_of_not_lt
    intro c
    apply hin
    refine ⟨hm, ?_⟩
    intro i hi
    rw [hseg] at hi
    injection hi with hi
    rw [← hi]
    exact c
  obtain ⟨ws, hw⟩ := subDir_inPlace (i := ⟨doc.header.subDirPos, allocAt d doc.header.subDirPos, false⟩) (n := n) hfit
  have hwr : ∃ vs, editWrites (rwCalls s ops) .close =
      (doc.header.subDirPos, subDirBytes (allocAt d doc.header.subDirPos) ((rwCalls s ops).w.dir.subBlks.map Prod.snd)) :: vs := by
    unfold editWrites
    rw [if_neg (by rw [h1.operational]; intro x; cases x)]
    dsimp only
    unfold closeWrites closeSubDirWrites
    rw [if_pos hm, en]
    dsimp only
    rw [hseg, hw]
    exact ⟨_, rfl⟩
  obtain ⟨vs, hvs⟩ := hwr
  have hleft : leftBy (rwCalls s ops) .close 0 j = (rwCalls s ops).disk.write doc.header.subDirPos
      ((subDirBytes (allocAt d doc.header.subDirPos) ((rwCalls s ops).w.dir.subBlks.map Prod.snd)).take j) := by
    unfold leftBy
    rw [hvs]
    rfl
  rw [hleft] at hd
  have hpos : doc.header.subDirPos = (reopened info doc).header.subDirPos := hop.places.1.symm
  obtain ⟨hd0, es, x, as, q1, q2, q3, _⟩ := openDoc_inv (sound_reads h h3 hop.places (touched_dirs ops).1 (touched_dirs ops).2).1
  obtain ⟨hd1, es', x', as', r1, r2, r3, _⟩ := openDoc_inv hd
  rw [header_write h3.header h3.size h544 _] at r1
  cases r1
  rw [h3.header] at q1
  cases q1
  have e : es = doc.entries := by injection q3 with _ g _ _; exact g.symm
  subst e
  rw [← hpos] at q2 r2
  have := torn_subDir q2 (by omega) hsz hj hj' (by rw [List.length_map]; exact hn) r2
  rw [r3]
  rw [List.length_map] at this
  exact this

/-- The positions of two sub-blocks of a sound document differ. -/
theorem sound_positions {al : Alloc} {d : Disk} {o : OpenOptions} {doc : Doc} (h : SoundDoc al d o doc) : doc.entries.Nodup := by
  have h1 := h.apart
  unfold segmentsOf at h1
  have h2 := (List.pairwise_append.1 h1).1
  rw [List.pairwise_map] at h2
  refine h2.imp ?_
  intro a b hab c
  subst c
  unfold endAt at hab
  omega

theorem not_in_prefix {α : Type} {l m : List α} (h : m <+: l) (hn : l.Nodup) {i : Nat} (hi : i < l.length) (hm : m.length ≤ i) : l[i] ∉ m := by
  intro c
  obtain ⟨t, rfl⟩ := h
  rw [List.getElem_append_right hm] at c
  exact (List.nodup_append.1 hn).2.2 _ c _ (List.getElem_mem _) rfl

end Verif.Czi
