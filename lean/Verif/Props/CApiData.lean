import Verif.Proof.CApiData

/-!
# C90: attachments, metadata and pixels cross the C interface unchanged
-/

namespace Verif
open Verif.Spec Verif.CApi Verif.Czi Verif.Blit

/-- **C90 (what is passed on).** If the memory is as announced, the attachment that is passed to the writer passes its check of arguments, and has the GUID, type, name
and data given. A null pointer for data of more than 0 bytes is refused. -/
theorem C90_passed (a : AttInterop) :
    (Valid a.data → ∃ i l, a.info = .ok i ∧ i.check = true ∧ i.data = some l ∧ GivenBytes a.data l ∧ guidBytes i.guid = a.guid.toList ∧
      i.contentFileType = a.contentFileType ∧ i.name = a.name) ∧
    (a.data.ptr = none → 0 < a.data.size → ∃ i, a.info = .ok i ∧ i.check = false) := by
  constructor
  · intro h
    obtain ⟨l, h1, h2⟩ := taken_valid h
    exact ⟨⟨guidOf a.guid.toList, a.contentFileType, a.name, some l⟩, l, (by unfold AttInterop.info; rw [h1]), rfl, rfl, h2, vector16 a.guid, rfl, rfl⟩
  · intro h h0
    refine ⟨⟨guidOf a.guid.toList, a.contentFileType, a.name, none⟩, ?_, rfl⟩
    unfold AttInterop.info taken
    rw [h]
    dsimp only
    rw [if_neg (by omega)]

/-- **C90 (attachments, partial: less than 2 GB, names that end within their 80 bytes, the reservation for the attachment directory not larger than needed, as in C02).**
An attachment that was added through the C interface, in any sequence of calls, is reported by the C interface with its GUID, type and complete name, and its data are
copied to the caller's memory up to the size announced, where nothing else changes; the size reported is the whole size. -/
theorem C90_attachments_partial (dup : Bool) (d0 : Disk) (info : WriterInfo) (ops : List WOp) (hi : InfoOk info) (hops : OpsOk ops)
    (hat : ∀ a ∈ attsOf ops, a.bytes.length < 2 ^ 31 ∧ 0 ∈ a.name.toList) (o : OpenOptions) (al : Alloc) (hal : ∀ n, al n = true) :
    ∃ disk done, writeDoc dup d0 info ops = some (disk, done) ∧ (ReservationFilled info (attsOf done).length →
      ∃ doc, openDoc al disk.stream o = .ok doc ∧ doc.attachments.length = (attsOf done).length ∧
        ∀ i (h : i < (attsOf done).length) (a : AttInterop), Valid a.data → a.info = .ok (attsOf done)[i] →
          ∃ r l, doc.readAttachment al disk.stream i = .ok (some r) ∧ GivenBytes a.data l ∧
            (∀ old : Buf, old.size = 255 → ∃ x, attInfoInterop r old = some x ∧ AttReported a x) ∧
            ∀ (size : Nat) (buf : Buf), size ≤ buf.size → ∃ buf', getRawData (blockBytes r.data) size (some buf) = some (a.data.size, some buf') ∧
              StartsWith buf' (l.take size) ∧ SameFrom (min size a.data.size) buf buf') := by
  obtain ⟨disk, done, hw, hr⟩ := C02_attachments_read_back_partial dup d0 info ops hi hops hat o al hal
  refine ⟨disk, done, hw, fun hf => ?_⟩
  obtain ⟨doc, ho, hn, hread⟩ := hr hf
  refine ⟨doc, ho, hn, fun i h a hv ha => ?_⟩
  obtain ⟨l, h1, h2⟩ := taken_valid hv
  have ei : (attsOf done)[i] = ⟨guidOf a.guid.toList, a.contentFileType, a.name, some l⟩ := by
    unfold AttInterop.info at ha
    rw [h1] at ha
    injection ha with ha
    exact ha.symm
  have hr := hread i h
  rw [ei] at hr
  have hb : blockBytes (payload l) = l := by
    unfold blockBytes payload
    by_cases hl : l.length = 0
    · rw [if_pos hl, List.eq_nil_of_length_eq_zero hl]; rfl
    · rw [if_neg hl]; rfl
  refine ⟨_, l, hr, h2, fun old hold => ?_, fun size buf hs => ?_⟩
  · have hlen : (cstr a.name.toList).length < 254 := by
      have : (cstr a.name.toList).length ≤ a.name.toList.length := (List.takeWhile_sublist _).length_le
      simp only [Vector.length_toList] at this
      omega
    obtain ⟨b, hb1, hb2⟩ := copyTruncate_fits (dst := old) hlen hold
    refine ⟨⟨guidBytes (guidOf a.guid.toList), cstr a.contentFileType.toList, b, false, none⟩, ?_, vector16 _, rfl, hb2, rfl, rfl⟩
    unfold attInfoInterop attachmentOf
    dsimp only
    rw [hb1]
    rfl
  · show ∃ buf', getRawData (blockBytes (payload l)) size (some buf) = _ ∧ _
    rw [hb, ← h2.1]
    exact (C69_raw_data l size buf hs).2

/-- **C90 (names).** For every attachment whose name is a UTF-8 text: the field contains the longest part that fits, whole characters and a zero; if characters are
missing, this is reported and the complete name is passed on besides. -/
theorem C90_name (a : Attachment) (chars : List (List UInt8)) (hc : ∀ c ∈ chars, Utf8Char c) (hn : a.name = chars.flatten) (old : Buf) (ho : old.size = 255) :
    ∃ x k, attInfoInterop a old = some x ∧ x.guid = guidBytes a.guid ∧ x.contentFileType = a.contentFileType ∧ k ≤ chars.length ∧
      StartsWith x.name (firstChars chars k ++ [0]) ∧ (k < chars.length → 255 ≤ (firstChars chars (k + 1)).length) ∧
      x.nameOverflow = decide (k < chars.length) ∧ x.longName = if k < chars.length then some a.name else none := by
  obtain ⟨k, dst', h1, h2, _, h4, _, h6⟩ := C69_truncated chars hc old 255 (by decide) (by omega)
  refine ⟨⟨guidBytes a.guid, a.contentFileType, dst', decide (k < chars.length), if k < chars.length then some a.name else none⟩, k, ?_, rfl, rfl, h1, h4, h6, rfl, rfl⟩
  unfold attInfoInterop
  rw [hn, h2, Option.map_some]
  simp only [decide_eq_true_eq]

/-- **C90 (metadata).** The XML written last through the C interface is returned by the C interface with its size, followed by a zero byte if it does not end with one. -/
theorem C90_metadata_partial (dup : Bool) (d0 : Disk) (info : WriterInfo) (ops : List WOp) (hi : InfoOk info) (hops : OpsOk ops)
    (hsz : ∀ m, .writeMetadata m ∈ ops → m.xmlBytes.length < 2 ^ 31 ∧ m.attBytes.length < 2 ^ 31) (o : OpenOptions) (al : Alloc) (hal : ∀ n, al n = true) :
    ∃ disk done doc, writeDoc dup d0 info ops = some (disk, done) ∧ openDoc al disk.stream o = .ok doc ∧
      ∀ (m : MetaInfo) (xml : Given), lastMeta done = some m → Valid xml → metadataInfo xml = .ok m →
        ∃ md l, doc.readMetadata al disk.stream = .ok md ∧ GivenBytes xml l ∧
          (l = [] → xmlResult md = .error ()) ∧
          (l ≠ [] → l.getLast? = some 0 → xmlResult md = .ok (some (l, xml.size))) ∧
          (l ≠ [] → l.getLast? ≠ some 0 → xmlResult md = .ok (some (l ++ [0], xml.size))) := by
  obtain ⟨disk, done, hw, doc, ho, hm, _⟩ := C03_metadata_reads_back_partial dup d0 info ops hi hops hsz o al hal
  refine ⟨disk, done, doc, hw, ho, fun m xml hlast hv hmi => ?_⟩
  obtain ⟨l, h1, h2⟩ := taken_valid hv
  have em : m = ⟨some l, some []⟩ := by
    unfold metadataInfo at hmi
    rw [h1] at hmi
    injection hmi with hmi
    exact hmi.symm
  refine ⟨_, l, hm m hlast, h2, ?_, ?_, ?_⟩
  · intro hl
    rw [em, hl]
    rfl
  · intro hl hz
    have : (metaOf m).xml.bytes = some l := by
      rw [em]
      show (payload l).bytes = _
      unfold payload
      rw [if_neg (by simpa using hl)]
    unfold xmlResult
    rw [this, ← h2.1]
    dsimp only
    unfold metadataAsXml
    rw [hz]
    dsimp only
    rw [if_neg (by simp), Nat.sub_self, List.replicate_zero, List.append_nil]
    congr 3
    have hlen : 0 < l.length := List.length_pos_iff.2 hl
    rw [List.getLast?_eq_getElem?, List.getElem?_eq_some_iff] at hz
    obtain ⟨hlt, hz⟩ := hz
    refine List.ext_getElem (by simp) fun i hi hi' => ?_
    rw [List.getElem_set]
    split
    · next e => subst e; rw [hz]
    · rfl
  · intro hl hz
    have : (metaOf m).xml.bytes = some l := by
      rw [em]
      show (payload l).bytes = _
      unfold payload
      rw [if_neg (by simpa using hl)]
    unfold xmlResult
    rw [this, ← h2.1]
    dsimp only
    unfold metadataAsXml
    obtain ⟨b, hb⟩ : ∃ b, l.getLast? = some b := ⟨_, List.getLast?_eq_some_getLast hl⟩
    rw [hb]
    dsimp only
    have hb0 : b ≠ 0 := fun h => hz (by rw [hb, h])
    rw [if_pos hb0, Nat.add_sub_cancel_left, Nat.add_sub_cancel]
    congr 3
    rw [show List.replicate 1 (0 : UInt8) = [0] from rfl, List.set_append_right _ _ (Nat.le_refl _), Nat.sub_self]
    rfl

/-- **C90 (pixels).** A bitmap is copied to the caller's memory if and only if width, height and pixel type are its own and the stride is at least the length of a line.
Then the memory holds exactly the pixels, line by line, and no other byte of it changes; no byte outside of the lines is needed. -/
theorem C90_pixels (b : Bitmap) (p : PixelType) (bpp width height : Nat) (pixelType : Int) (stride : Nat) (dst : Buf)
    (hb : ∀ y < b.h, y * b.stride + bpp * b.w ≤ b.buf.size) (hd : ∀ y < b.h, y * stride + bpp * b.w ≤ dst.size) :
    ((∃ r, bitmapCopyTo b p bpp width height pixelType stride dst = .ok r) ↔
      width = b.w ∧ height = b.h ∧ pixelType = pixelTypeValue p ∧ bpp * b.w ≤ stride) ∧
    ∀ r, bitmapCopyTo b p bpp width height pixelType stride dst = .ok r → ∃ d, r = some d ∧ HoldsLines b (bpp * b.w) stride dst d := by
  unfold bitmapCopyTo
  by_cases h1 : width ≠ b.w ∨ height ≠ b.h
  · rw [if_pos h1]
    refine ⟨⟨(fun ⟨_, h⟩ => by cases h), fun ⟨h2, h3, _⟩ => ?_⟩, (fun _ h => by cases h)⟩
    rcases h1 with h1 | h1
    · exact absurd h2 h1
    · exact absurd h3 h1
  · rw [if_neg h1]
    have hw : width = b.w := by
      by_cases h : width = b.w
      · exact h
      · exact absurd (Or.inl h) h1
    have hh : height = b.h := by
      by_cases h : height = b.h
      · exact h
      · exact absurd (Or.inr h) h1
    by_cases h2 : pixelTypeValue p ≠ pixelType
    · rw [if_pos h2]
      exact ⟨⟨(fun ⟨_, h⟩ => by cases h), fun ⟨_, _, h, _⟩ => absurd h.symm h2⟩, (fun _ h => by cases h)⟩
    · rw [if_neg h2, hw]
      by_cases h3 : stride < bpp * b.w
      · rw [if_pos h3]
        exact ⟨⟨(fun ⟨_, h⟩ => by cases h), fun ⟨_, _, _, h⟩ => by omega⟩, (fun _ h => by cases h)⟩
      · rw [if_neg h3]
        refine ⟨⟨fun _ => ⟨rfl, hh, ?_, by omega⟩, fun _ => ⟨_, rfl⟩⟩, fun r h => ?_⟩
        · by_cases h : pixelTypeValue p = pixelType
          · exact h.symm
          · exact absurd h h2
        · injection h with h
          obtain ⟨d, e, hl⟩ := copyLines_holds b (bpp * b.w) stride dst (by omega) hb hd
          exact ⟨d, by rw [← h, e], hl⟩

/-- **C90 (memory needed).** Copying stays inside the caller's memory if and only if the memory holds all lines; the padding of the last line is not needed. -/
theorem C90_exact_memory (b : Bitmap) (p : PixelType) (bpp stride : Nat) (dst : Buf) (hb : ∀ y < b.h, y * b.stride + bpp * b.w ≤ b.buf.size) (hs : bpp * b.w ≤ stride)
    (hw : 0 < bpp * b.w) (hh : 0 < b.h) :
    (∃ d, bitmapCopyTo b p bpp b.w b.h (pixelTypeValue p) stride dst = .ok (some d)) ↔ (b.h - 1) * stride + bpp * b.w ≤ dst.size := by
  unfold bitmapCopyTo
  rw [if_neg (by simp), if_neg (by simp), if_neg (by omega)]
  constructor
  · intro ⟨d, h⟩
    injection h with h
    unfold copyLines at h
    obtain ⟨n, hn⟩ : ∃ n, b.h = n + 1 := ⟨b.h - 1, by omega⟩
    rw [hn] at h
    change (loop n _ dst).bind _ = _ at h
    cases hl : loop n (fun y d => d.memcpy (y * stride) b.buf (y * b.stride) (bpp * b.w)) dst with
    | none => rw [hl] at h; cases h
    | some d' =>
      rw [hl] at h
      change Buf.memcpy d' _ _ _ _ = _ at h
      unfold Buf.memcpy at h
      have hsz : d'.size = dst.size := by
        clear h
        revert d'
        clear hn
        induction n with
        | zero => intro d' hl; injection hl with hl; rw [hl]
        | succ n ih =>
          intro d' hl
          change (loop n _ dst).bind _ = _ at hl
          cases hl' : loop n (fun y d => d.memcpy (y * stride) b.buf (y * b.stride) (bpp * b.w)) dst with
          | none => rw [hl'] at hl; cases hl
          | some d'' =>
            rw [hl'] at hl
            change Buf.memcpy d'' _ _ _ _ = _ at hl
            unfold Buf.memcpy at hl
            split at hl
            · injection hl with hl
              rw [← hl]
              exact ih d'' hl'
            · cases hl
      split at h
      · next hc =>
        rw [hsz] at hc
        rw [hn, Nat.add_sub_cancel]
        exact hc.1
      · cases h
  · intro h
    obtain ⟨d, e, _⟩ := copyLines_holds b (bpp * b.w) stride dst hs hb (fun y hy => by
      have : y * stride ≤ (b.h - 1) * stride := Nat.mul_le_mul_right _ (by omega)
      omega)
    exact ⟨d, by rw [e]⟩

/-! ## Cases that meet the hypotheses -/

private def attCall : AttInterop where
  guid := Vector.ofFn fun i => UInt8.ofNat (i.val + 1)
  contentFileType := #v[67, 90, 73, 0, 0, 0, 0, 0]
  name := Vector.replicate 80 0 |>.set 0 97 |>.set 1 98
  data := ⟨some ⟨3, fun i => UInt8.ofNat (i + 5)⟩, 2⟩

/-- A call with an attachment of two bytes of a block of three, and what is passed to the writer. -/
example : Valid attCall.data ∧
    attCall.info = .ok ⟨⟨67305985, 1541, 2055, #v[9, 10, 11, 12, 13, 14, 15, 16]⟩, #v[67, 90, 73, 0, 0, 0, 0, 0], Vector.replicate 80 0 |>.set 0 97 |>.set 1 98, some [5, 6]⟩ := by
  refine ⟨Or.inr ⟨_, rfl, by decide⟩, ?_⟩
  have h1 : taken attCall.data = .ok (some [5, 6]) := rfl
  have h2 : guidOf attCall.guid.toList = ⟨67305985, 1541, 2055, #v[9, 10, 11, 12, 13, 14, 15, 16]⟩ := by decide +kernel
  unfold AttInterop.info
  rw [h1, h2]
  rfl

private def attPassed : AddAtt :=
  ⟨⟨67305985, 1541, 2055, #v[9, 10, 11, 12, 13, 14, 15, 16]⟩, #v[67, 90, 73, 0, 0, 0, 0, 0], Vector.replicate 80 0 |>.set 0 97 |>.set 1 98, some [5, 6]⟩

/-- A name of 300 letters does not fit. -/
example : (∀ c ∈ List.replicate 300 [(65 : UInt8)], Utf8Char c) ∧ (attInfoInterop ⟨⟨1, 2, 3, Vector.replicate 8 0⟩, [], (List.replicate 300 [(65 : UInt8)]).flatten, ⟨0, none⟩⟩
    ⟨255, fun _ => 7⟩).map (fun x => (x.nameOverflow, x.longName.map List.length)) = some (true, some 300) := by
  refine ⟨fun c hc => ?_, by decide +kernel⟩
  rw [List.eq_of_mem_replicate hc]
  exact ⟨65, [], rfl, by decide, by decide⟩

/-- The other hypotheses of `C90_attachments_partial` hold for a document to which it is added. -/
example : InfoOk exInfo ∧ OpsOk [.addAttachment attPassed] ∧ (∀ a ∈ attsOf [.addAttachment attPassed], a.bytes.length < 2 ^ 31 ∧ 0 ∈ a.name.toList) ∧
    ReservationFilled exInfo (attsOf [.addAttachment attPassed]).length := by
  refine ⟨exInfo_ok, ⟨?_, by decide, by decide⟩, ?_, .inr (by intro r h; cases h; decide)⟩
  · intro op hop
    rcases List.mem_singleton.1 hop with rfl
    show AttOk attPassed
    unfold AttOk
    decide
  · intro a ha
    simp only [attsOf, List.filterMap_cons, List.filterMap_nil, List.mem_cons, List.not_mem_nil, or_false] at ha
    subst ha
    exact ⟨by decide, by decide +kernel⟩

/-- Metadata of four bytes. -/
example : Valid ⟨some ⟨4, fun _ => 60⟩, 4⟩ ∧ metadataInfo ⟨some ⟨4, fun _ => 60⟩, 4⟩ = .ok ⟨some [60, 60, 60, 60], some []⟩ :=
  ⟨Or.inr ⟨_, rfl, by decide⟩, rfl⟩

/-- A bitmap of 3 times 2 pixels of two bytes with 8 bytes per line, and memory with 7 bytes per line. -/
example : (∀ y < 2, y * 8 + 2 * 3 ≤ 16) ∧ (∀ y < 2, y * 7 + 2 * 3 ≤ 13) ∧
    (bitmapCopyTo ⟨3, 2, 8, ⟨16, fun i => UInt8.ofNat i⟩⟩ .Gray16 2 3 2 1 7 ⟨14, fun _ => 99⟩).toOption.map (fun r => r.map Buf.toList) =
      some (some [0, 1, 2, 3, 4, 5, 99, 8, 9, 10, 11, 12, 13, 99]) := by
  refine ⟨by omega, by omega, ?_⟩
  decide +kernel

end Verif
