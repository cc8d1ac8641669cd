import Verif.Proof.EditDone
import Verif.Props.Strict

/-! Opening a document with a reader-writer. -/

namespace Verif.Czi

open Spec

attribute [local irreducible] zeros

/-! ## Values read are values of their types -/

theorem fieldInt4 (l : List UInt8) (o : Nat) : IsInt32 (fieldInt l o 4) := by
  unfold fieldInt unleInt
  have h := unle_lt (field l o 4)
  have h2 : (field l o 4).length ≤ 4 := by unfold field; simp
  have h3 : (256 : Nat) ^ (field l o 4).length ≤ 256 ^ 4 := Nat.pow_le_pow_right (by omega) h2
  generalize unle (field l o 4) = v at *
  generalize (field l o 4).length = n at *
  unfold toSigned IsInt32
  generalize (256 : Nat) ^ n = m at *
  have : (256 : Nat) ^ 4 = 4294967296 := rfl
  split <;> omega

theorem fieldNat8 (l : List UInt8) (o : Nat) : fieldNat l o 8 < 2 ^ 64 := by
  unfold fieldNat
  have h := unle_lt (field l o 8)
  have h2 : (field l o 8).length ≤ 8 := by unfold field; simp
  have h3 : (256 : Nat) ^ (field l o 8).length ≤ 256 ^ 8 := Nat.pow_le_pow_right (by omega) h2
  have : (256 : Nat) ^ 8 = 2 ^ 64 := rfl
  omega

theorem dvStep_fits {o : ParseOptions} {st st' : DvState} {b : List UInt8} (h : EntryFits st.entry) (he : dvStep o st (dimEntryOf b) = .ok st') :
    EntryFits st'.entry := by
  have h1 : IsInt32 (dimEntryOf b).start := fieldInt4 b 4
  have h2 : IsInt32 (dimEntryOf b).size := fieldInt4 b 8
  have h3 : IsInt32 (dimEntryOf b).stored := fieldInt4 b 16
  unfold dvStep at he
  split at he
  · cases he
    exact { h with x := h1, width := h2, storedWidth := h3 }
  · cases he
    exact { h with y := h1, height := h2, storedHeight := h3 }
  · split at he
    · split at he
      · cases he
      · cases he
        exact { h with mIndex := h1 }
    · cases he
      exact { h with mIndex := h1 }
  · split at he
    · cases he
    · split at he
      · cases he
      · cases he
        refine { h with coordinate := ?_ }
        intro d v hv
        dsimp only [Coord.set] at hv
        split at hv
        · cases hv; exact h1
        · exact h.coordinate d v hv
  · cases he

theorem dvLoop_fits {o : ParseOptions} (n : Nat) : ∀ {b : List UInt8} {st st' : DvState}, EntryFits st.entry → dvLoop o (dimEntries b n) st = .ok st' →
    EntryFits st'.entry := by
  induction n with
  | zero => intro b st st' h he; cases he; exact h
  | succ n ih =>
    intro b st st' h he
    unfold dimEntries dvLoop at he
    obtain ⟨st1, h1, h2⟩ := Except.bind_eq_ok he
    exact ih (dvStep_fits h h1) h2

theorem start_fits {p c : Int} {pos : Nat} (b : UInt8) (hp : IsInt32 p) (hc : IsInt32 c) (h : pos < 2 ^ 64) : EntryFits (Entry.start p pos c b) := by
  have hm : IsInt32 intMin := by unfold IsInt32 intMin; omega
  exact ⟨(fun d v hv => by cases hv), hm, hm, hm, hm, hm, hm, hm, hp, h, hc⟩

theorem parseEntries_fits {o : ParseOptions} {buf : List UInt8} (n : Nat) : ∀ {cur : Nat} {es : List Entry}, parseEntries o buf n cur = .ok es → ∀ e ∈ es, EntryFits e := by
  induction n with
  | zero => intro cur es h e he; cases h; cases he
  | succ n ih =>
    intro cur es h
    unfold parseEntries at h
    obtain ⟨schema, _, h⟩ := Except.bind_eq_ok h
    split at h
    · obtain ⟨fixed, _, h⟩ := Except.bind_eq_ok h
      obtain ⟨⟨dims, next⟩, _, h⟩ := Except.bind_eq_ok h
      dsimp only at h
      split at h
      · cases h
      · obtain ⟨e0, h1, h⟩ := Except.bind_eq_ok h
        obtain ⟨es0, h2, h⟩ := Except.bind_eq_ok h
        cases h
        intro e he
        rcases List.mem_cons.1 he with rfl | he
        · obtain ⟨st, h3, _, _, rfl⟩ := (addEntryDV_bind _ _ _ _).1 h1
          exact dvLoop_fits _ (start_fits _ (fieldInt4 _ _) (fieldInt4 _ _) (fieldNat8 _ _)) h3
        · exact ih h2 e he
    · split at h
      · obtain ⟨_, _, h⟩ := Except.bind_eq_ok h
        cases h
      · exact ih h

theorem readSubDir_fits {al : Alloc} {d : Disk} {o : ParseOptions} {pos : Nat} {es : List Entry} {x : Int} (h : readSubDir al d.stream o pos = .ok (es, x)) :
    (∀ e ∈ es, EntryFits e) ∧ x = segAlloc (d.read pos 160) ∧ pos + 160 ≤ d.size := by
  unfold readSubDir at h
  obtain ⟨b, h1, h2⟩ := Except.bind_eq_ok h
  obtain ⟨rfl, hs⟩ := readExact_size h1
  have hs := hs (by omega)
  split at h2
  · cases h2
  · dsimp only at h2
    generalize (if fieldNat (d.read pos 160) 24 8 = 0 then fieldNat (d.read pos 160) 16 8 else fieldNat (d.read pos 160) 24 8) = sz at h2
    split at h2
    · cases h2
    · obtain ⟨buf, _, h3⟩ := Except.bind_eq_ok h2
      obtain ⟨es', h4, h5⟩ := Except.bind_eq_ok h3
      cases h5
      exact ⟨parseEntries_fits _ h4, rfl, hs⟩

theorem vecOf_zero {l : List UInt8} (h : l.length ≤ 79) : 0 ∈ (vecOf 80 l).toList := by
  have h1 : (vecOf 80 l)[79] = 0 := by
    unfold vecOf
    rw [Vector.getElem_ofFn]
    rw [List.getD_eq_getElem?_getD, List.getElem?_eq_none (by simpa using h)]
    rfl
  rw [← h1, Vector.mem_toList_iff]
  exact Vector.getElem_mem _

theorem attEntriesOf_fits (n : Nat) : ∀ {b : List UInt8}, ∀ e ∈ attEntriesOf b n, e.filePosition < 2 ^ 64 ∧ cstr (nameRead e.name).toList = cstr e.name.toList := by
  induction n with
  | zero => intro b e he; cases he
  | succ n ih =>
    intro b e he
    unfold attEntriesOf at he
    rcases List.mem_append.1 he with he | he
    · unfold attEntryOf at he
      split at he
      · simp at he
        subst he
        refine ⟨fieldNat8 _ _, cstr_nameRead_eq (vecOf_zero ?_)⟩
        unfold field
        simp
      · cases he
    · exact ih e he

theorem readAttDir_fits {al : Alloc} {d : Disk} {pos : Nat} {es : List AttEntry} {x : Int} (h : readAttDir al d.stream pos = .ok (es, x)) :
    ∀ e ∈ es, e.filePosition < 2 ^ 64 ∧ cstr (nameRead e.name).toList = cstr e.name.toList := by
  unfold readAttDir at h
  obtain ⟨b, h1, h2⟩ := Except.bind_eq_ok h
  split at h2
  · cases h2
  · dsimp only at h2
    split at h2
    · obtain ⟨_, _, h4⟩ := Except.bind_eq_ok h2
      cases h4
      exact attEntriesOf_fits _
    · cases h2
      intro e he
      cases he

theorem le_unle (l : List UInt8) : le l.length (unle l) = l := by
  induction l with
  | nil => rfl
  | cons b r ih =>
    have hb := b.toNat_lt
    show UInt8.ofNat (b.toNat + 256 * unle r) :: le r.length ((b.toNat + 256 * unle r) / 256) = b :: r
    congr 1
    · apply UInt8.toNat_inj.1
      simp
    · rw [show (b.toNat + 256 * unle r) / 256 = unle r by omega, ih]

theorem holds_read {d : Disk} {p n : Nat} (h : p + n ≤ d.size) : Holds d p (d.read p n) := by
  have hl := Disk.read_length h
  refine ⟨by rw [hl]; exact h, ?_⟩
  intro i hi
  rw [hl] at hi
  unfold Disk.read
  rw [List.getD_eq_getElem?_getD, List.getElem?_map, List.getElem?_range (by omega)]
  rfl

theorem allocAt_holds {d : Disk} {p : Nat} (h : p + 32 ≤ d.size) : Holds d (p + 16) (le 8 (allocAt d p)) := by
  have e : le 8 (allocAt d p) = d.read (p + 16) 8 := by
    unfold allocAt fieldNat
    rw [Disk.field_read (by omega) h]
    have := le_unle (d.read (p + 16) 8)
    rwa [Disk.read_length (by omega)] at this
  rw [e]
  exact holds_read (by omega)

/-! ## The segments of an existing document -/

/-- A segment that is as it was. -/
def origSeg (d : Disk) (p : Nat) : LSeg where
  pos := p
  alloc := allocAt d p
  good := fun d' => Agree d d' p (endAt d p) ∧ p + 32 ≤ d.size
  loc := fun _ _ ha h => ⟨h.1.trans ha, h.2⟩
  hdr := fun _ h => ⟨(allocAt_holds h.2).agree (h.1.mono (by omega) (by rw [le_length]; unfold endAt; omega)), Nat.le_trans h.2 h.1.1⟩

theorem origSeg_fin (d : Disk) (p : Nat) : (origSeg d p).fin = endAt d p := rfl

theorem LooksOnlyAt.good {α : Type} {d : Disk} {p : Nat} {f : Stream → α} (h : LooksOnlyAt d p f) (d' : Disk) (hg : (origSeg d p).good d') :
    f d'.stream = f d.stream := h d' hg.1.1 hg.1.2

/-! ## Adding the entries -/

theorem addAll_sub (es : List Entry) : ∀ d : RWDir, RWInv d → ∃ d', es.foldl (fun d e => (d.add e).1) d = d' ∧ RWInv d' ∧
    d'.subBlks.map Prod.snd = d.subBlks.map Prod.snd ++ es ∧ d'.next = d.next + es.length ∧
    ∀ k, d'.tryGet k = if d.next ≤ k ∧ k < d.next + es.length then es[(k - d.next).toNat]? else d.tryGet k := by
  induction es with
  | nil =>
    intro d hd
    refine ⟨d, rfl, hd, by simp, by simp, ?_⟩
    intro k
    rw [if_neg (by simp)]
  | cons e es ih =>
    intro d hd
    obtain ⟨d', h1, h2, h3, h4, h5⟩ := ih (d.add e).1 (rwInv_add hd e)
    have hnext : (d.add e).1.next = d.next + 1 := rfl
    have hmap : (d.add e).1.subBlks.map Prod.snd = d.subBlks.map Prod.snd ++ [e] := by
      show (mapInsert d.subBlks d.next e).map Prod.snd = _
      rw [mapInsert_append _ _ _ hd.below]
      simp
    refine ⟨d', h1, h2, ?_, ?_, ?_⟩
    · rw [h3, hmap]; simp
    · rw [h4, hnext]; simp; omega
    · intro k
      rw [h5, hnext, add_lookup hd]
      have hk2 : (d.add e).2 = d.next := rfl
      rw [hk2]
      simp only [List.length_cons]
      push_cast
      by_cases c1 : d.next + 1 ≤ k ∧ k < d.next + 1 + (es.length : Int)
      · rw [if_pos c1, if_pos (by omega), show (k - d.next).toNat = (k - (d.next + 1)).toNat + 1 by omega]
        rfl
      · rw [if_neg c1]
        by_cases c2 : k = d.next
        · rw [if_pos c2, if_pos (by omega), show (k - d.next).toNat = 0 by omega]
          rfl
        · rw [if_neg c2, if_neg (by omega)]

theorem addAll_att (es : List AttEntry) : ∀ d : RWAtts, AttInv d → ∃ d', es.foldl RWAtts.add d = d' ∧ AttInv d' ∧
    d'.atts.map Prod.snd = d.atts.map Prod.snd ++ es ∧ d'.next = d.next + es.length ∧
    ∀ k, d'.tryGet k = if d.next ≤ k ∧ k < d.next + es.length then es[(k - d.next).toNat]? else d.tryGet k := by
  induction es with
  | nil =>
    intro d hd
    refine ⟨d, rfl, hd, by simp, by simp, ?_⟩
    intro k
    rw [if_neg (by simp)]
  | cons e es ih =>
    intro d hd
    obtain ⟨hi, hl⟩ := attInv_add hd e
    obtain ⟨d', h1, h2, h3, h4, h5⟩ := ih (d.add e) hi
    have hnext : (d.add e).next = d.next + 1 := rfl
    have hmap : (d.add e).atts.map Prod.snd = d.atts.map Prod.snd ++ [e] := by
      show (mapInsert d.atts d.next e).map Prod.snd = _
      rw [mapInsert_append _ _ _ hd.below]
      simp
    refine ⟨d', h1, h2, ?_, ?_, ?_⟩
    · rw [h3, hmap]; simp
    · rw [h4, hnext]; simp; omega
    · intro k
      rw [h5, hnext, hl]
      simp only [List.length_cons]
      push_cast
      by_cases c1 : d.next + 1 ≤ k ∧ k < d.next + 1 + (es.length : Int)
      · rw [if_pos c1, if_pos (by omega), show (k - d.next).toNat = (k - (d.next + 1)).toNat + 1 by omega]
        rfl
      · rw [if_neg c1]
        by_cases c2 : k = d.next
        · rw [if_pos c2, if_pos (by omega), show (k - d.next).toNat = 0 by omega]
          rfl
        · rw [if_neg c2, if_neg (by omega)]

/-- The directory of a document that is opened. -/
theorem openedDir (es : List Entry) : RWInv (RWDir.init.addAll es) ∧ (RWDir.init.addAll es).subBlks.map Prod.snd = es ∧
    (RWDir.init.addAll es).next = es.length ∧ (RWDir.init.addAll es).isModified = false ∧
    ∀ k, (RWDir.init.addAll es).tryGet k = if 0 ≤ k then es[k.toNat]? else none := by
  obtain ⟨d', h1, h2, h3, h4, h5⟩ := addAll_sub es RWDir.init ⟨List.Pairwise.nil, fun p hp => by cases hp⟩
  unfold RWDir.addAll
  rw [h1]
  refine ⟨⟨h2.sorted, h2.below⟩, ?_, ?_, rfl, ?_⟩
  · rw [h3]; rfl
  · rw [h4]; show (0 : Int) + _ = _; omega
  · intro k
    have := h5 k
    have e0 : RWDir.init.next = 0 := rfl
    have e1 : RWDir.init.tryGet k = none := rfl
    rw [e0, e1] at this
    show d'.tryGet k = _
    rw [this]
    by_cases hk : 0 ≤ k
    · rw [if_pos hk]
      by_cases hl : k < 0 + (es.length : Int)
      · rw [if_pos ⟨hk, hl⟩, show (k - 0).toNat = k.toNat by omega]
      · rw [if_neg (by omega), List.getElem?_eq_none (by omega)]
    · rw [if_neg hk, if_neg (by omega)]

theorem openedAtts (es : List AttEntry) : AttInv (RWAtts.init.addAll es) ∧ (RWAtts.init.addAll es).atts.map Prod.snd = es ∧
    (RWAtts.init.addAll es).next = es.length ∧ (RWAtts.init.addAll es).isModified = false ∧
    ∀ k, (RWAtts.init.addAll es).tryGet k = if 0 ≤ k then es[k.toNat]? else none := by
  obtain ⟨d', h1, h2, h3, h4, h5⟩ := addAll_att es RWAtts.init ⟨List.Pairwise.nil, fun p hp => by cases hp⟩
  unfold RWAtts.addAll
  rw [h1]
  refine ⟨⟨h2.sorted, h2.below⟩, ?_, ?_, rfl, ?_⟩
  · rw [h3]; rfl
  · rw [h4]; show (0 : Int) + _ = _; omega
  · intro k
    have := h5 k
    have e0 : RWAtts.init.next = 0 := rfl
    have e1 : RWAtts.init.tryGet k = none := rfl
    rw [e0, e1] at this
    show d'.tryGet k = _
    rw [this]
    by_cases hk : 0 ≤ k
    · rw [if_pos hk]
      by_cases hl : k < 0 + (es.length : Int)
      · rw [if_pos ⟨hk, hl⟩, show (k - 0).toNat = k.toNat by omega]
      · rw [if_neg (by omega), List.getElem?_eq_none (by omega)]
    · rw [if_neg hk, if_neg (by omega)]

theorem openedAtts_nil : RWAtts.init.addAll [] = RWAtts.init := rfl

/-! ## The last segment -/

theorem foldl_max {α : Type} (f : α → Nat) (l : List α) (a : Nat) :
    a ≤ l.foldl (fun m p => max m (f p)) a ∧ (∀ p ∈ l, f p ≤ l.foldl (fun m p => max m (f p)) a) ∧
    (l.foldl (fun m p => max m (f p)) a = a ∨ ∃ p ∈ l, l.foldl (fun m p => max m (f p)) a = f p) := by
  induction l generalizing a with
  | nil => exact ⟨Nat.le_refl _, (fun p hp => by cases hp), Or.inl rfl⟩
  | cons x r ih =>
    obtain ⟨h1, h2, h3⟩ := ih (max a (f x))
    rw [List.foldl_cons]
    refine ⟨by omega, ?_, ?_⟩
    · intro p hp
      rcases List.mem_cons.1 hp with rfl | hp
      · omega
      · exact h2 p hp
    · rcases h3 with h3 | ⟨p, hp, h3⟩
      · by_cases c : f x ≤ a
        · exact Or.inl (by omega)
        · exact Or.inr ⟨x, List.mem_cons_self .., by omega⟩
      · exact Or.inr ⟨p, List.mem_cons_of_mem _ hp, h3⟩

theorem lastPos_max {hd : Header} {es : List Entry} {as : List AttEntry} {o : OpenOptions} {dir : RWDir} {att : RWAtts}
    (h1 : dir.subBlks.map Prod.snd = es) (h2 : att.atts.map Prod.snd = as) (hs : hd.subDirPos < 2 ^ 62) (ha : hd.attDirPos < 2 ^ 62)
    (hm : hd.metadataPos < 2 ^ 62) :
    lastPos hd dir att ∈ segmentsOf ⟨hd, es, as, o⟩ ∧ ∀ p ∈ segmentsOf ⟨hd, es, as, o⟩, p ≤ lastPos hd dir att := by
  have v : ∀ p, p < 2 ^ 62 → validPos p = p := by intro p hp; unfold validPos; rw [if_neg (by omega)]
  obtain ⟨a1, a2, a3⟩ := foldl_max (fun p : Int × Entry => p.2.filePosition) dir.subBlks 0
  obtain ⟨b1, b2, b3⟩ := foldl_max (fun p : Int × AttEntry => p.2.filePosition) att.atts (dir.subBlks.foldl (fun m p => max m p.2.filePosition) 0)
  unfold lastPos
  dsimp only at *
  rw [v _ hs, v _ ha, v _ hm]
  generalize hA : dir.subBlks.foldl (fun m p => max m p.2.filePosition) 0 = A at *
  generalize hB : att.atts.foldl (fun m p => max m p.2.filePosition) A = B at *
  unfold segmentsOf
  dsimp only
  simp only [List.mem_append, List.mem_cons]
  constructor
  · by_cases c1 : max (max (max B hd.subDirPos) hd.attDirPos) hd.metadataPos = hd.subDirPos
    · exact Or.inr (Or.inr (Or.inl c1))
    · by_cases c2 : max (max (max B hd.subDirPos) hd.attDirPos) hd.metadataPos = hd.attDirPos
      · refine Or.inr (Or.inr (Or.inr (Or.inl ?_)))
        rw [if_neg (by omega), c2]
        exact List.mem_singleton.2 rfl
      · by_cases c3 : max (max (max B hd.subDirPos) hd.attDirPos) hd.metadataPos = hd.metadataPos
        · refine Or.inr (Or.inr (Or.inr (Or.inr ?_)))
          rw [if_neg (by omega), c3]
          exact List.mem_singleton.2 rfl
        · have hB' : max (max (max B hd.subDirPos) hd.attDirPos) hd.metadataPos = B := by omega
          rw [hB']
          rcases b3 with b3 | ⟨p, hp, b3⟩
          · rcases a3 with a3 | ⟨p, hp, a3⟩
            · omega
            · left
              rw [b3, a3, ← h1, List.map_map]
              exact List.mem_map.2 ⟨p, hp, rfl⟩
          · right; left
            rw [b3, ← h2, List.map_map]
            exact List.mem_map.2 ⟨p, hp, rfl⟩
  · intro p hp
    rcases hp with hp | hp | hp | hp | hp
    · rw [← h1, List.map_map] at hp
      obtain ⟨q, hq, rfl⟩ := List.mem_map.1 hp
      have := a2 q hq
      show q.2.filePosition ≤ _
      omega
    · rw [← h2, List.map_map] at hp
      obtain ⟨q, hq, rfl⟩ := List.mem_map.1 hp
      have := b2 q hq
      show q.2.filePosition ≤ _
      omega
    · omega
    · split at hp
      · cases hp
      · rw [List.mem_singleton] at hp; omega
    · split at hp
      · cases hp
      · rw [List.mem_singleton] at hp; omega

theorem pairwise_of_mem {α : Type} {R : α → α → Prop} (hR : ∀ a b, R a b → R b a) {l : List α} (h : l.Pairwise R) :
    ∀ a ∈ l, ∀ b ∈ l, a ≠ b → R a b := by
  induction h with
  | nil => intro a ha; cases ha
  | cons hx _ ih =>
    intro a ha b hb hne
    rcases List.mem_cons.1 ha with rfl | ha' <;> rcases List.mem_cons.1 hb with rfl | hb'
    · exact absurd rfl hne
    · exact hx b hb'
    · exact hR _ _ (hx a ha')
    · exact ih a ha' b hb' hne

/-! ## The file header -/

theorem readHeader_fields {d : Disk} {hd : Header} : readHeader d.stream = .ok hd ↔ 544 ≤ d.size ∧ d.read 0 16 = fileMagic ∧
    hd = ⟨unleInt (d.read 32 4), unleInt (d.read 36 4), guidOf (d.read 64 16), unle (d.read 84 8), unle (d.read 92 8), unle (d.read 104 8)⟩ := by
  unfold readHeader
  constructor
  · intro h
    obtain ⟨b, h1, h2⟩ := Except.bind_eq_ok h
    obtain ⟨rfl, hs⟩ := readExact_size h1
    have hs := hs (by omega)
    unfold segMagic headerOf fieldInt fieldNat at h2
    rw [Disk.field_read (by omega) hs, Disk.field_read (by omega) hs, Disk.field_read (by omega) hs, Disk.field_read (by omega) hs,
      Disk.field_read (by omega) hs, Disk.field_read (by omega) hs, Disk.field_read (by omega) hs] at h2
    simp only [Nat.zero_add] at h2
    split at h2
    · rename_i hm
      injection h2 with h2
      exact ⟨by omega, hm, h2.symm⟩
    · cases h2
  · rintro ⟨hs, hm, rfl⟩
    rw [readExact_disk (by omega)]
    show (if segMagic (d.read 0 544) = fileMagic then _ else _) = _
    unfold segMagic headerOf fieldInt fieldNat
    have hs : 0 + 544 ≤ d.size := by omega
    rw [Disk.field_read (by omega) hs, Disk.field_read (by omega) hs, Disk.field_read (by omega) hs, Disk.field_read (by omega) hs,
      Disk.field_read (by omega) hs, Disk.field_read (by omega) hs, Disk.field_read (by omega) hs]
    simp only [Nat.zero_add]
    rw [if_pos hm]

theorem Agree.read {d d' : Disk} {lo hi p n : Nat} (h : Agree d d' lo hi) (h1 : lo ≤ p) (h2 : p + n ≤ hi) (hs : p + n ≤ d.size) : d'.read p n = d.read p n := by
  have := h.1
  unfold Disk.read
  rw [show min n (d'.size - p) = n by omega, show min n (d.size - p) = n by omega]
  apply List.map_congr_left
  intro i hi'
  rw [List.mem_range] at hi'
  exact h.2 (p + i) (by omega) (by omega) (by omega)

theorem readHeader_guid {d : Disk} {hd : Header} (h : readHeader d.stream = .ok hd) (g : Guid) :
    readHeader (apply d (guidWrites g)).stream = .ok { hd with guid := g } := by
  obtain ⟨hs, hm, rfl⟩ := readHeader_fields.1 h
  have a1 : Agree d (apply d (guidWrites g)) 0 48 := apply_agree (fun w hw => by
    unfold guidWrites at hw
    simp at hw
    rcases hw with rfl | rfl <;> dsimp only <;> omega)
  have a2 : Agree d (apply d (guidWrites g)) 80 544 := apply_agree (fun w hw => by
    unfold guidWrites at hw
    simp at hw
    have := guidBytes_length g
    rcases hw with rfl | rfl <;> dsimp only <;> omega)
  have a3 : Holds (apply d (guidWrites g)) 64 (guidBytes g) := by
    show Holds (((d.write 48 (guidBytes g)).write 64 (guidBytes g))) 64 (guidBytes g)
    exact Holds.write (by intro h; have := guidBytes_length g; rw [h] at this; cases this)
  refine readHeader_fields.2 ⟨Nat.le_trans hs a1.1, ?_, ?_⟩
  · rw [a1.read (by omega) (by omega) (by omega), hm]
  · rw [a1.read (p := 32) (by omega) (by omega) (by omega), a1.read (p := 36) (by omega) (by omega) (by omega), a2.read (p := 84) (by omega) (by omega) (by omega),
      a2.read (p := 92) (by omega) (by omega) (by omega), a2.read (p := 104) (by omega) (by omega) (by omega), a3.read_eq (guidBytes_length g), guidOf_guidBytes]

theorem guidWrites_agree (d : Disk) (g : Guid) (lo hi : Nat) (h : 80 ≤ lo) : Agree d (apply d (guidWrites g)) lo hi := apply_agree (fun w hw => by
    unfold guidWrites at hw
    simp at hw
    have := guidBytes_length g
    rcases hw with rfl | rfl <;> dsimp only <;> omega)

end Verif.Czi
