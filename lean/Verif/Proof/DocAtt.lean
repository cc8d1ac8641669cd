import Verif.Proof.Document

/-! Attachments of a document. -/

namespace Verif.Czi

open Spec

attribute [local irreducible] zeros

theorem takeWhile_take' {α : Type} (p : α → Bool) (l : List α) (n : Nat) : (l.take n).takeWhile p = (l.takeWhile p).take n := by
  induction l generalizing n with
  | nil => simp
  | cons a l ih =>
    cases n with
    | zero => simp
    | succ n =>
      simp only [List.take_succ_cons, List.takeWhile_cons]
      split
      · rw [List.take_succ_cons, ih]
      · simp

theorem takeWhile_snoc_stop {α : Type} (p : α → Bool) (l : List α) (a : α) (h : p a = false) : (l ++ [a]).takeWhile p = l.takeWhile p := by
  induction l with
  | nil => simp [h]
  | cons x l ih =>
    simp only [List.cons_append, List.takeWhile_cons]
    split
    · rw [ih]
    · rfl

theorem nameRead_toList (n : Vector UInt8 80) : (nameRead n).toList = n.toList.take 79 ++ [0] := by
  refine List.ext_getElem (by simp) ?_
  intro i h1 h2
  have hi : i < 80 := by simpa using h1
  simp only [nameRead, vecOf]
  rw [Vector.getElem_toList, Vector.getElem_ofFn]
  by_cases h : i < 79
  · rw [List.getElem_append_left (by simpa using h), List.getD_eq_getElem?_getD, List.getElem?_eq_getElem (by simpa using h)]
    rfl
  · have : i = 79 := by omega
    subst this
    rw [List.getElem_append_right (by simp)]
    simp [List.getD_eq_getElem?_getD]

theorem cstr_nameRead (n : Vector UInt8 80) : cstr (nameRead n).toList = (cstr n.toList).take 79 := by
  unfold cstr
  rw [nameRead_toList, takeWhile_snoc_stop _ _ _ (by simp), takeWhile_take']

/-! ## What is left of a directory with unused reservation -/

theorem attEntriesOf_append (a r : List UInt8) (k m : Nat) (h : a.length = 128 * k) : attEntriesOf (a ++ r) (k + m) = attEntriesOf a k ++ attEntriesOf r m := by
  induction k generalizing a with
  | zero =>
    have : a = [] := List.length_eq_zero_iff.1 (by omega)
    subst this
    simp [attEntriesOf]
  | succ k ih =>
    rw [Nat.add_right_comm, attEntriesOf, attEntriesOf, List.drop_append_of_le_length (by omega), ih _ (by simp; omega)]
    have : attEntryOf (a ++ r) = attEntryOf a := by
      unfold attEntryOf fieldNat
      rw [field_left (by omega), field_left (by omega), field_left (by omega), field_left (by omega), field_left (by omega)]
    rw [this, List.append_assoc]

theorem attEntryOf_zeros {n : Nat} (h : 2 ≤ n) (r : List UInt8) : attEntryOf (zeros n ++ r) = none := by
  unfold attEntryOf
  rw [if_neg]
  rw [field_left (by rw [zeros_length]; omega)]
  have : field (zeros n) 0 2 = [0, 0] := by
    obtain ⟨k, rfl⟩ := Nat.exists_eq_add_of_le h
    rw [← zeros_append, field_left (by simp)]
    unfold zeros
    rfl
  rw [this]
  decide

theorem attEntriesOf_zeros (n : Nat) : attEntriesOf (zeros (128 * n)) n = [] := by
  induction n with
  | zero => rfl
  | succ n ih =>
    have e : zeros (128 * (n + 1)) = zeros 128 ++ zeros (128 * n) := by
      rw [zeros_append]
      congr 1
      omega
    rw [e, attEntriesOf, attEntryOf_zeros (by omega), List.drop_append_of_le_length (by simp), List.drop_eq_nil_of_le (by simp), List.nil_append, ih]
    rfl

theorem attEntryOf_isSome {b : List UInt8} (e : AttEntry) (k : Nat) (hk : 2 ≤ k)
    (h : b.take k = (attEntryBytes e.filePosition e.guid e.contentFileType e.name).take k) : (attEntryOf b).isSome := by
  unfold attEntryOf
  have : field b 0 2 = ascii "A1" := by
    have h1 : field b 0 2 = (b.take k).take 2 := by
      unfold field
      rw [List.drop_zero, List.take_take, Nat.min_eq_left hk]
    rw [h1, h, List.take_take, Nat.min_eq_left hk]
    unfold attEntryBytes
    simp only [List.append_assoc]
    rw [List.take_append_of_le_length (by decide)]
    rfl
  rw [if_pos this]
  rfl

theorem attEntriesBytes_append (a b : List AttEntry) : attEntriesBytes (a ++ b) = attEntriesBytes a ++ attEntriesBytes b := by
  simp [attEntriesBytes]

/-- With an unused part of the reservation, the last two entries are lost. -/
theorem attEntries_lost (att : List AttEntry) (hp : ∀ e ∈ att, e.filePosition < 2 ^ 64) :
    (attEntriesOf ((attEntriesBytes att).take (128 * att.length - 288) ++ zeros (min 288 (128 * att.length))) att.length).length = att.length - 2 := by
  have hl := attEntriesBytes_length att
  by_cases h : att.length < 3
  · rw [show 128 * att.length - 288 = 0 by omega, List.take_zero, List.nil_append, Nat.min_eq_right (by omega), attEntriesOf_zeros]
    simp
    omega
  · obtain ⟨k, hk⟩ := Nat.exists_eq_add_of_le (Nat.le_of_not_lt h)
    -- split the list
    have hsplit : att = att.take k ++ att.drop k := (List.take_append_drop k att).symm
    have hdl : (att.drop k).length = 3 := by simp; omega
    have htl : (att.take k).length = k := by simp; omega
    obtain ⟨e, rest, hde⟩ : ∃ e rest, att.drop k = e :: rest := by
      cases hh : att.drop k with
      | nil => rw [hh] at hdl; simp at hdl
      | cons e rest => exact ⟨e, rest, rfl⟩
    have hA := attEntriesBytes_length (att.take k)
    rw [htl] at hA
    have hbytes : attEntriesBytes att = attEntriesBytes (att.take k) ++ (attEntryBytes e.filePosition e.guid e.contentFileType e.name ++ attEntriesBytes rest) := by
      conv => lhs; rw [hsplit, attEntriesBytes_append, hde]
      simp [attEntriesBytes]
    have htake : (attEntriesBytes att).take (128 * att.length - 288) =
        attEntriesBytes (att.take k) ++ (attEntryBytes e.filePosition e.guid e.contentFileType e.name).take 96 := by
      rw [hbytes, hk, show 128 * (3 + k) - 288 = 128 * k + 96 by omega, List.take_append, hA,
        List.take_of_length_le (by omega), show 128 * k + 96 - 128 * k = 96 by omega,
        List.take_append_of_le_length (by simp)]
    rw [htake, Nat.min_eq_left (by omega), List.append_assoc]
    have hz : zeros 288 = zeros 32 ++ zeros (128 * 2) := by rw [zeros_append]
    rw [hz, ← List.append_assoc _ (zeros 32)]
    rw [show att.length = k + (1 + 2) by omega, attEntriesOf_append _ _ _ _ hA, attEntriesOf_append _ _ 1 2 (by simp), attEntriesOf_zeros]
    have h1 := attEntriesOf_bytes (att.take k) (fun x hx => hp x (List.mem_of_mem_take hx)) []
    rw [List.append_nil, htl] at h1
    rw [h1]
    have h2 := attEntryOf_isSome (b := (attEntryBytes e.filePosition e.guid e.contentFileType e.name).take 96 ++ zeros 32) e 96 (by omega)
      (by rw [List.take_append_of_le_length (by simp), List.take_take, Nat.min_self])
    obtain ⟨x, hx⟩ := Option.isSome_iff_exists.1 h2
    simp only [attEntriesOf, hx, List.length_append, List.length_map, htl, Option.toList_some, List.length_nil, List.length_cons]
    omega

/-- The attachment as delivered: only 79 characters of the name. -/
def attachmentRead (a : AddAtt) : Attachment := { attachmentOf a with name := (cstr a.name.toList).take 79 }

theorem readAttachment_entry {al : Alloc} {s : Stream} {doc : Doc} {i : Nat} {a : AddAtt} {pos : Nat}
    (h : doc.attachments[i]? = some (a.entry pos).read)
    (hr : readAttachmentData al s pos = .ok ⟨a.bytes.length, if a.bytes.length = 0 then none else some a.bytes⟩) :
    doc.readAttachment al s i = .ok (some (attachmentRead a)) := by
  have e1 : (a.entry pos).read.filePosition = pos := rfl
  have e2 : (a.entry pos).read.guid = a.guid := rfl
  have e3 : (a.entry pos).read.contentFileType = a.contentFileType := rfl
  have e4 : (a.entry pos).read.name = nameRead a.name := rfl
  unfold Doc.readAttachment
  rw [h]
  dsimp only
  rw [e1, e2, e3, e4, hr, cstr_nameRead]
  rfl

section
variable {d : Disk} {info : WriterInfo} {segs : List Seg} {q sp mp ap : Nat} {dir : List Entry} {att : List AttEntry}
  {subs : List AddInfo} {atts : List AddAtt} {mt : Option MetaInfo}

theorem Written.att_length (h : Written d info segs q sp mp ap dir att subs atts mt) : att.length = atts.length := by
  rw [h.attEq, ← h.attsEq]
  simp

theorem Written.att_pos (h : Written d info segs q sp mp ap dir att subs atts mt) : ∀ e ∈ att, e.filePosition < 2 ^ 64 := by
  intro e he
  rw [h.attEq, List.mem_map] at he
  obtain ⟨p, hp, rfl⟩ := he
  obtain ⟨al, hg⟩ := attPairs_mem hp
  have := h.pos_lt hg
  dsimp only at this
  show p.2 < 2 ^ 64
  omega

/-- Every listed attachment is delivered. -/
theorem Written.readAttachment (h : Written d info segs q sp mp ap dir att subs atts mt) {al : Alloc} (hal : ∀ n, al n = true) (hd : Header) (es : List Entry)
    (o : OpenOptions) (i : Nat) (hi : i < atts.length) (hok : atts[i].bytes.length < 2 ^ 31) :
    Doc.readAttachment al d.stream ⟨hd, es, att.map AttEntry.read, o⟩ i = .ok (some (attachmentRead atts[i])) := by
  have hpl : (attPairs segs).length = atts.length := by rw [← h.attsEq]; simp
  have hatts : atts[i] = ((attPairs segs)[i]'(by omega)).1 := by
    simp only [← h.attsEq, List.getElem_map]
  generalize hp : ((attPairs segs)[i]'(by omega)) = p at hatts
  have hmem : p ∈ attPairs segs := by rw [← hp]; exact List.getElem_mem _
  obtain ⟨al2, hg⟩ := attPairs_mem hmem
  have hlt := h.pos_lt hg
  have hatt : att[i]? = some (p.1.entry p.2) := by
    rw [h.attEq, List.getElem?_map, List.getElem?_eq_getElem (by omega), hp]
    rfl
  rw [hatts] at hok
  have hr := readAttachmentData_ok (h.closed.onDisk _ hg).2.2.1 hok (by dsimp only at hlt ⊢; omega) hal
  rw [hatts]
  refine readAttachment_entry ?_ hr
  show (att.map AttEntry.read)[i]? = _
  rw [List.getElem?_map, hatt, Option.map_some]

end

end Verif.Czi
