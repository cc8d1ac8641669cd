import Verif.Spec.Extract
import Verif.Props.Document
import Verif.Props.Viewer
import Verif.Proof.JsonText

/-!
# C106: extracting attachments and sub-blocks with the command line tool
-/

namespace Verif
open Verif.Spec Verif.Czi Verif.Extract Verif.Viewer Verif.Jxr Verif.Zstd Verif.Accessor Verif.Blit

/-! ## Helpers -/

private theorem enumAtts_run {β ε : Type} {f : List β × ε → Int → RawAttInfo → Bool × (List β × ε)} {g : Int → Option β} (items : List (Int × AttEntry))
    (h : ∀ p ∈ items, ∃ a, p.2.rawInfo 0 = .ok a ∧ ∀ st, f st p.1 a = (true, (st.1 ++ (g p.1).toList, st.2))) (st : List β × ε) :
    enumAtts f (fun _ => 0) items st = .ok (st.1 ++ items.filterMap (fun p => g p.1), st.2) := by
  induction items generalizing st with
  | nil => simp [enumAtts]
  | cons p r ih =>
    obtain ⟨a, h1, h2⟩ := h p List.mem_cons_self
    obtain ⟨i, e⟩ := p
    unfold enumAtts
    dsimp only at h1 h2
    rw [h1]
    show (if (f st i a).1 = true then enumAtts f (fun _ => 0) r (f st i a).2 else .ok (f st i a).2) = _
    rw [h2 st, if_pos rfl, ih (fun q hq => h q (List.mem_cons_of_mem _ hq))]
    cases hg : g i <;> simp [hg]

private theorem enumerate_run {β ε : Type} {f : List β × ε → Int → Entry → Bool × (List β × ε)} {g : Int → Option β} (items : List (Int × Entry))
    (h : ∀ p ∈ items, ∀ st, f st p.1 p.2 = (true, (st.1 ++ (g p.1).toList, st.2))) (st : List β × ε) :
    enumerate f items st = (st.1 ++ items.filterMap (fun p => g p.1), st.2) := by
  induction items generalizing st with
  | nil => simp [enumerate]
  | cons p r ih =>
    have h2 := h p List.mem_cons_self
    obtain ⟨i, e⟩ := p
    unfold enumerate
    dsimp only at h2
    simp only [h2 st, if_true]
    rw [ih (fun q hq => h q (List.mem_cons_of_mem _ hq))]
    cases hg : g i <;> simp [hg]

private theorem mem_indexed_ex {α : Type} {l : List α} {p : Int × α} : p ∈ indexed l ↔ ∃ i, ∃ h : i < l.length, p = ((i : Int), l[i]) := by
  unfold indexed
  simp only [List.mem_map, List.mem_zipIdx_iff_getElem?]
  constructor
  · rintro ⟨⟨a, i⟩, h1, rfl⟩
    dsimp only at h1
    obtain ⟨h2, h3⟩ := List.getElem?_eq_some_iff.1 h1
    exact ⟨i, h2, by rw [h3]⟩
  · rintro ⟨i, h, rfl⟩
    exact ⟨(l[i], i), List.getElem?_eq_getElem h, rfl⟩

private theorem writeFiles_none {β : Type} (files : List (List Char × β)) (fs : List Char → Option β) (n : List Char) (h : ∀ p ∈ files, p.1 ≠ n) :
    writeFiles fs files n = fs n := by
  induction files generalizing fs with
  | nil => rfl
  | cons p r ih =>
    unfold writeFiles
    rw [ih _ (fun q hq => h q (List.mem_cons_of_mem _ hq))]
    exact if_neg (fun e => h p List.mem_cons_self e.symm)

private theorem writeFiles_some {β : Type} (files : List (List Char × β)) (fs : List Char → Option β) (n : List Char) (v : β) (h : ∀ p ∈ files, p.1 = n → p.2 = v)
    (hm : (n, v) ∈ files) : writeFiles fs files n = some v := by
  induction files generalizing fs with
  | nil => cases hm
  | cons p r ih =>
    unfold writeFiles
    by_cases hr : (n, v) ∈ r
    · exact ih _ (fun q hq => h q (List.mem_cons_of_mem _ hq)) hr
    · rw [writeFiles_none]
      · rcases List.mem_cons.1 hm with rfl | hm
        · exact if_pos rfl
        · exact absurd hm hr
      · intro q hq e
        have := h q (List.mem_cons_of_mem _ hq) e
        exact hr (by rw [← e, ← this]; exact hq)

private theorem cstr_self {l : List UInt8} (h : 0 ∉ l) : cstr l = l := by
  unfold cstr
  induction l with
  | nil => rfl
  | cons x r ih =>
    have hx : x ≠ 0 := fun e => h (by rw [e]; exact List.mem_cons_self)
    simp only [List.takeWhile_cons, ne_eq, hx, not_false_iff, decide_true, if_true]
    rw [ih (fun m => h (List.mem_cons_of_mem _ m))]

private theorem cstr_idem (l : List UInt8) : cstr (cstr l) = cstr l := by
  refine cstr_self fun h => ?_
  unfold cstr at h
  induction l with
  | nil => cases h
  | cons x r ih =>
    by_cases hx : x = 0
    · simp [hx] at h
    · simp only [List.takeWhile_cons, ne_eq, hx, not_false_iff, decide_true, if_true] at h
      rcases List.mem_cons.1 h with e | e
      · exact hx e.symm
      · exact ih e

private theorem zero_mem_of_cstr {a b : Vector UInt8 80} (h : cstr a.toList = cstr b.toList) (hb : 0 ∈ b.toList) : 0 ∈ a.toList := by
  by_contra hn
  have h1 := cstr_self hn
  have h2 := takeWhile_length_lt (fun x : UInt8 => decide (x ≠ 0)) hb (by simp)
  have h3 : (cstr b.toList).length = 80 := by rw [← h, h1, Vector.length_toList]
  unfold cstr at h3
  rw [Vector.length_toList] at h2
  omega

private theorem cstr_append_zero (l : List UInt8) : cstr (l ++ [0]) = cstr l := by
  unfold cstr
  induction l with
  | nil => rfl
  | cons x r ih =>
    by_cases h : x = 0
    · simp [h]
    · simp only [List.cons_append, List.takeWhile_cons, ne_eq, h, not_false_iff, decide_true, if_true]
      rw [← ih]

private theorem printInt_digits {n : Nat} {c : Char} (h : c ∈ Text.printInt (n : Int)) : IsDigit c := by
  have hd := (Text.decimal_spec (n : Int).natAbs).1.2
  unfold Text.printInt at h
  rw [if_neg (by omega)] at h
  exact hd _ h

/-- Two names with the same end are equal only if the indexes are: the extension has no dot, and the index is the number before it. -/
private theorem names_inj {p q e e' : List Char} {i j : Nat} (he : '.' ∉ e) (he' : '.' ∉ e')
    (h : p ++ "_".toList ++ Text.printInt (i : Int) ++ ".".toList ++ e = q ++ "_".toList ++ Text.printInt (j : Int) ++ ".".toList ++ e') : i = j := by
  have split : ∀ (c : Char) (a b r s : List Char), c ∉ a → c ∉ b → a ++ c :: r = b ++ c :: s → a = b ∧ r = s := by
    intro c a
    induction a with
    | nil =>
      intro b r s ha hb h
      cases b with
      | nil => simpa using h
      | cons d b => simp only [List.nil_append, List.cons_append, List.cons.injEq] at h; exact absurd (h.1 ▸ List.mem_cons_self) hb
    | cons d a ih =>
      intro b r s ha hb h
      cases b with
      | nil => simp only [List.nil_append, List.cons_append, List.cons.injEq] at h; exact absurd (h.1 ▸ List.mem_cons_self) ha
      | cons d' b =>
        simp only [List.cons_append, List.cons.injEq] at h
        obtain ⟨e1, e2⟩ := ih b r s (fun m => ha (List.mem_cons_of_mem _ m)) (fun m => hb (List.mem_cons_of_mem _ m)) h.2
        exact ⟨by rw [h.1, e1], e2⟩
  have h := congrArg List.reverse h
  simp only [List.reverse_append, show "_".toList = ['_'] from rfl, show ".".toList = ['.'] from rfl, List.reverse_singleton, List.singleton_append] at h
  obtain ⟨-, h⟩ := split '.' _ _ _ _ (by simpa using he) (by simpa using he') h
  have nu : ∀ n : Nat, '_' ∉ (Text.printInt (n : Int)).reverse := by
    intro n hm
    have := printInt_digits (List.mem_reverse.1 hm)
    exact absurd this (by unfold IsDigit; decide)
  obtain ⟨h, -⟩ := split '_' _ _ _ _ (nu i) (nu j) h
  have := JsonText.printInt_inj (List.reverse_injective h)
  omega

/-! ## Attachments -/

/-- **C106 (attachments; partial: restrictions as for `C02_attachments_read_back_partial`; the types have no dot, see `C106_same_file_violated`).** Write any document, with whatever
calls, and extract attachments with any selection: if the files can be created, the command succeeds; there is a file for every attachment that the selection asks for, named after
it, and it contains the data given to the writer; no other file is changed. -/
theorem C106_attachments_partial (dup : Bool) (d0 : Disk) (info : WriterInfo) (ops : List WOp) (hi : InfoOk info) (hops : OpsOk ops)
    (hat : ∀ a ∈ attsOf ops, a.bytes.length < 2 ^ 31 ∧ 0 ∈ a.name.toList)
    (o : OpenOptions) (al : Alloc) (hal : ∀ n, al n = true) :
    ∃ disk done, writeDoc dup d0 info ops = some (disk, done) ∧ (ReservationFilled info (attsOf done).length →
      ∃ doc, openDoc al disk.stream o = .ok doc ∧
        ∀ (wide : List UInt8 → Option (List Char)) (canCreate : List Char → Bool) (base : List Char) (sel : Selection), (∀ n, sel.name = some n → 0 ∉ n) →
          (∀ i (h : i < (attsOf done).length), AsksFor sel i (cstr (attsOf done)[i].name.toList) →
            ∃ file, NamedAfter wide base i (attsOf done)[i] file ∧ canCreate file = true) →
          ∃ files, extractAttachments wide canCreate ⟨true, doc⟩ al disk.stream base sel = (files, .done) ∧ ∀ before,
            (∀ n, (∀ i (h : i < (attsOf done).length), AsksFor sel i (cstr (attsOf done)[i].name.toList) → ¬ NamedAfter wide base i (attsOf done)[i] n) →
              writeFiles before files n = before n) ∧
            ((∀ a ∈ attsOf done, ∀ ext, wide (cstr a.contentFileType.toList) = some ext → '.' ∉ ext) →
              ∀ i (h : i < (attsOf done).length) file, AsksFor sel i (cstr (attsOf done)[i].name.toList) → NamedAfter wide base i (attsOf done)[i] file →
                writeFiles before files file = some (attsOf done)[i].bytes)) := by
  obtain ⟨disk, done, h1, h2⟩ := C02_attachments_read_back_partial dup d0 info ops hi hops hat o al hal
  refine ⟨disk, done, h1, fun hres => ?_⟩
  obtain ⟨doc, h3, h4, h5⟩ := h2 hres
  refine ⟨doc, h3, fun wide canCreate base sel hz hfile => ?_⟩
  have hsub : ∀ a ∈ attsOf done, a.bytes.length < 2 ^ 31 ∧ 0 ∈ a.name.toList := fun a ha => hat a (((writeDoc_sublist h1).filterMap _).subset ha)
  generalize hA : attsOf done = atts at *
  -- what the directory says
  have hent : ∀ i (h : i < doc.attachments.length) (h' : i < atts.length), (doc.attachments[i]).rawInfo 0 =
      .ok ⟨(doc.attachments[i]).guid, (doc.attachments[i]).contentFileType.toList ++ [0], cstr (atts[i]).name.toList⟩ ∧
      cstr ((doc.attachments[i]).contentFileType.toList ++ [0]) = cstr (atts[i]).contentFileType.toList ∧
      Reader.readAttachment ⟨true, doc⟩ al disk.stream i =
        .ok (some (⟨(doc.attachments[i]).guid, (doc.attachments[i]).contentFileType.toList ++ [0], cstr (atts[i]).name.toList⟩, payload (atts[i]).bytes)) := by
    intro i h h'
    have hr := h5 i h'
    unfold Doc.readAttachment at hr
    rw [List.getElem?_eq_getElem h] at hr
    dsimp only at hr
    cases hd : readAttachmentData al disk.stream (doc.attachments[i]).filePosition with
    | error e => rw [hd] at hr; cases hr
    | ok d =>
      rw [hd] at hr
      simp only [attachmentOf, Except.ok.injEq, Option.some.injEq, Attachment.mk.injEq] at hr
      obtain ⟨r1, r2, r3, r4⟩ := hr
      have hraw : (doc.attachments[i]).rawInfo 0 =
          .ok ⟨(doc.attachments[i]).guid, (doc.attachments[i]).contentFileType.toList ++ [0], cstr (atts[i]).name.toList⟩ := by
        unfold AttEntry.rawInfo stdString
        rw [if_pos (zero_mem_of_cstr r3 (hsub _ (List.getElem_mem h')).2), r3]
        rfl
      refine ⟨hraw, (cstr_append_zero _).trans r2, ?_⟩
      unfold Reader.readAttachment Reader.guard vectorTryGet
      rw [if_neg (by simp), if_pos (by exact_mod_cast h), if_neg (by omega)]
      simp only [Int.toNat_natCast]
      rw [List.getElem?_eq_getElem h]
      show (match readAttachmentData al disk.stream (doc.attachments[i]).filePosition with
        | .error .undefined => Outcome.undefined
        | .error _ => .throws
        | .ok d => ((doc.attachments[i]).rawInfo 0).bind fun a => .ok (some (a, d))) = _
      rw [hd]
      dsimp only
      rw [hraw, r4]
      rfl
  -- the selection and the name of the file
  have hsel : ∀ (i : Nat) (name : List UInt8), isSelection sel i (cstr name) = true ↔ AsksFor sel i (cstr name) := by
    intro i name
    unfold isSelection AsksFor
    rw [Bool.and_eq_true, cstr_idem]
    refine and_congr ?_ ?_
    · cases hn : sel.name with
      | none => simp
      | some n => simp [cstr_self (hz n hn)]
    · cases sel.index <;> simp
  have hname : ∀ i (h : i < doc.attachments.length) (h' : i < atts.length) file, NamedAfter wide base i atts[i] file →
      attFilename wide base i ⟨(doc.attachments[i]).guid, (doc.attachments[i]).contentFileType.toList ++ [0], cstr (atts[i]).name.toList⟩ = some file := by
    rintro i h h' file ⟨name, ext, w1, w2, rfl⟩
    unfold attFilename makeOutputFilename
    dsimp only
    rw [(hent i h h').2.1, w1, w2]
    have c3 : (if (cstr (atts[i]).name.toList).length > 0 then some name |>.map (fun n => n ++ ['_']) else some []) =
        some (if cstr (atts[i]).name.toList = [] then [] else name ++ "_".toList) := by
      by_cases c2 : cstr (atts[i]).name.toList = []
      · rw [if_pos c2, if_neg (by rw [c2]; decide)]
      · rw [if_neg c2, if_pos (List.length_pos_iff.2 c2)]; rfl
    rw [c3]
    by_cases c1 : cstr (atts[i]).contentFileType.toList = []
    · simp [c1, List.append_assoc]
    · simp [c1, List.append_assoc]
  classical
  let g : Int → Option (List Char × List UInt8) := fun k =>
    if h : k.toNat < atts.length then
      if hs : AsksFor sel k.toNat (cstr (atts[k.toNat]).name.toList) then some ((hfile k.toNat h hs).choose, (atts[k.toNat]).bytes) else none
    else none
  have hrun := enumAtts_run (f := attStep wide canCreate (Reader.readAttachment ⟨true, doc⟩ al disk.stream) base sel) (g := g) (indexed doc.attachments) (by
    intro p hp
    obtain ⟨i, h, rfl⟩ := mem_indexed_ex.1 hp
    have h' : i < atts.length := by omega
    obtain ⟨e1, e2, e3⟩ := hent i h h'
    refine ⟨_, e1, fun st => ?_⟩
    have hg : g (i : Int) = if hs : AsksFor sel i (cstr (atts[i]).name.toList) then some ((hfile i h' hs).choose, (atts[i]).bytes) else none := by
      show (if h : (i : Int).toNat < atts.length then _ else none) = _
      simp only [Int.toNat_natCast]
      rw [dif_pos h']
    unfold attStep
    dsimp only
    by_cases hs : AsksFor sel i (cstr (atts[i]).name.toList)
    · rw [if_pos ((hsel i _).2 hs), hg, dif_pos hs]
      obtain ⟨c1, c2⟩ := (hfile i h' hs).choose_spec
      rw [hname i h h' _ c1, e3]
      dsimp only
      rw [if_pos c2]
      have : (payload (atts[i]).bytes).bytes.getD [] = (atts[i]).bytes := by
        unfold payload
        dsimp only
        split
        · rename_i h0; rw [List.length_eq_zero_iff.1 h0]; rfl
        · rfl
      rw [this]
      rfl
    · rw [if_neg (fun h0 => hs ((hsel i _).1 h0)), hg, dif_neg hs]
      simp) ([], Extract.Ended.done)
  have hfiles : ∀ p, p ∈ (indexed doc.attachments).filterMap (fun q => g q.1) ↔
      ∃ i, ∃ h : i < atts.length, AsksFor sel i (cstr (atts[i]).name.toList) ∧ NamedAfter wide base i atts[i] p.1 ∧ p.2 = (atts[i]).bytes := by
    intro p
    have uniq : ∀ i (h : i < atts.length) (hs : AsksFor sel i (cstr (atts[i]).name.toList)) file, NamedAfter wide base i atts[i] file → (hfile i h hs).choose = file := by
      intro i h hs file hn
      have := hname i (by omega) h _ (hfile i h hs).choose_spec.1
      rw [hname i (by omega) h _ hn] at this
      exact (Option.some.inj this).symm
    rw [List.mem_filterMap]
    constructor
    · rintro ⟨q, hq, hgq⟩
      obtain ⟨i, h, rfl⟩ := mem_indexed_ex.1 hq
      have h' : i < atts.length := by omega
      simp only [g, Int.toNat_natCast] at hgq
      rw [dif_pos h'] at hgq
      split at hgq
      · rename_i hs
        cases hgq
        exact ⟨i, h', hs, (hfile i h' hs).choose_spec.1, rfl⟩
      · cases hgq
    · rintro ⟨i, h, hs, hn, hb⟩
      refine ⟨((i : Int), doc.attachments[i]'(by omega)), mem_indexed_ex.2 ⟨i, by omega, rfl⟩, ?_⟩
      simp only [g, Int.toNat_natCast]
      rw [dif_pos h, dif_pos hs, uniq i h hs _ hn, ← hb]
  refine ⟨(indexed doc.attachments).filterMap (fun q => g q.1), ?_, fun before => ⟨fun n hn => ?_, fun hdot i h file hs hn => ?_⟩⟩
  · unfold extractAttachments Reader.enumerateAttachments Reader.guard
    rw [if_neg (by simp), hrun]
    rfl
  · refine writeFiles_none _ _ _ ?_
    rintro p hp rfl
    obtain ⟨i, h, hs, c, -⟩ := (hfiles p).1 hp
    exact hn i h hs c
  · refine writeFiles_some _ _ _ _ ?_ ((hfiles _).2 ⟨i, h, hs, hn, rfl⟩)
    intro p hp e
    obtain ⟨j, hj, hsj, hnj, hb⟩ := (hfiles p).1 hp
    rw [e] at hnj
    have : i = j := by
      obtain ⟨name, ext, w1, w2, rfl⟩ := hn
      obtain ⟨name', ext', w1', w2', h0⟩ := hnj
      have d1 : '.' ∉ (if cstr (atts[i]).contentFileType.toList = [] then "XXX".toList else ext) := by
        split
        · decide
        · exact hdot _ (List.getElem_mem h) _ w2
      have d2 : '.' ∉ (if cstr (atts[j]).contentFileType.toList = [] then "XXX".toList else ext') := by
        split
        · decide
        · exact hdot _ (List.getElem_mem hj) _ w2'
      by_cases c1 : cstr (atts[i]).name.toList = [] <;> by_cases c2 : cstr (atts[j]).name.toList = []
      all_goals simp only [c1, c2, if_true, if_false, List.append_nil] at h0
      · exact names_inj d1 d2 h0
      · exact names_inj (q := base ++ "_".toList ++ name') d1 d2 (by simpa only [List.append_assoc] using h0)
      · exact names_inj (p := base ++ "_".toList ++ name) d1 d2 (by simpa only [List.append_assoc] using h0)
      · exact names_inj (p := base ++ "_".toList ++ name) (q := base ++ "_".toList ++ name') d1 d2 (by simpa only [List.append_assoc] using h0)
    subst this
    exact hb

/-- **C106 is violated: two attachments, one file.** The first attachment has no name and the type `b_1.c`, the second the name `0.b` and the type `c`: both are named after the
same file, so that whichever is written last replaces the other. (`wide` is exact for these texts.) -/
theorem C106_same_file_violated (wide : List UInt8 → Option (List Char)) (hw : ∀ t : String, wide (ascii t) = some t.toList) (base : List Char) (a b : AddAtt)
    (ha : cstr a.name.toList = ascii "" ∧ cstr a.contentFileType.toList = ascii "b_1.c") (hb : cstr b.name.toList = ascii "0.b" ∧ cstr b.contentFileType.toList = ascii "c") :
    ∃ file, NamedAfter wide base 0 a file ∧ NamedAfter wide base 1 b file ∧ ∀ before : List Char → Option (List UInt8),
      writeFiles before [(file, a.bytes), (file, b.bytes)] file = some b.bytes := by
  refine ⟨base ++ "_0.b_1.c".toList, ⟨_, _, by rw [ha.1, hw], by rw [ha.2, hw], ?_⟩, ⟨_, _, by rw [hb.1, hw], by rw [hb.2, hw], ?_⟩, fun before => ?_⟩
  · rw [ha.1, ha.2, if_pos (by rfl), if_neg (by decide), List.append_nil]
    simp only [List.append_assoc]
    exact congrArg (base ++ ·) (by decide +kernel)
  · rw [hb.1, hb.2, if_neg (by decide), if_neg (by decide)]
    simp only [List.append_assoc]
    exact congrArg (base ++ ·) (by decide +kernel)
  · simp [writeFiles]

/-- **C106 is violated: files in other directories.** If the name of the attachment contains a slash, its file is not beside the one named by the user. -/
theorem C106_other_directory_violated (wide : List UInt8 → Option (List Char)) (base : List Char) (i : Nat) (a : AddAtt) {name : List Char}
    (hn : wide (cstr a.name.toList) = some name) (hne : cstr a.name.toList ≠ []) (hs : '/' ∈ name) {file : List Char} (h : NamedAfter wide base i a file) : ¬ Beside base file := by
  rintro ⟨t, h1, h2⟩
  obtain ⟨name', ext, w1, w2, h3⟩ := h
  rw [hn] at w1
  cases w1
  rw [h1, if_neg hne] at h3
  simp only [List.append_assoc] at h3
  rw [List.append_cancel_left h3] at h2
  exact h2 (by simp [hs])

/-! ## Sub-blocks -/

/-- **C106 (names of pictures).** Different sub-blocks are written into different files. -/
theorem C106_image_names (base : List Char) (i j : Nat) (h : imageName base i = imageName base j) : i = j := by
  unfold imageName makeOutputFilename at h
  have h := List.append_cancel_left h
  have h := List.append_cancel_right h
  have := JsonText.printInt_inj (List.cons.inj h).2
  omega

private theorem perm_map_exists {α β : Type} (f : α → β) {x z : List β} (h : x.Perm z) : ∀ y : List α, z = y.map f → ∃ l : List α, l.Perm y ∧ x = l.map f := by
  induction h with
  | nil => intro y hy; exact ⟨y, .refl _, hy⟩
  | cons b _ ih =>
    intro y hy
    cases y with
    | nil => cases hy
    | cons c y =>
      simp only [List.map_cons, List.cons.injEq] at hy
      obtain ⟨l, l1, l2⟩ := ih y hy.2
      exact ⟨c :: l, l1.cons c, by rw [l2, List.map_cons, hy.1]⟩
  | swap b c l =>
    intro y hy
    match y, hy with
    | c' :: b' :: y, hy =>
      simp only [List.map_cons, List.cons.injEq] at hy
      exact ⟨b' :: c' :: y, .swap _ _ _, by rw [List.map_cons, List.map_cons, hy.1, hy.2.1, hy.2.2]⟩
  | trans _ _ ih1 ih2 =>
    intro y hy
    obtain ⟨l, l1, l2⟩ := ih2 y hy
    obtain ⟨k, k1, k2⟩ := ih1 l l2
    exact ⟨k, k1.trans l1, k2⟩

/-- **C106 (sub-blocks; partial: pixel types and data as for `C104_picture_partial`).** Write any document, with whatever calls, and extract sub-blocks: there is an order of the
sub-blocks whose add did not throw such that the command, with any selection, succeeds and writes exactly one picture for each sub-block that is asked for, named after its
place in this order, and showing the pixels given to the writer. -/
theorem C106_sub_blocks_partial (dup : Bool) (d0 : Disk) (info : WriterInfo) (ops : List WOp) (hi : InfoOk info) (hops : OpsOk ops)
    (hsz : ∀ a ∈ subsOf ops, a.sizeData ≤ 2147483647) (o : OpenOptions) (al : Alloc) (hal : ∀ n, al n = true) :
    ∃ disk done doc, writeDoc dup d0 info ops = some (disk, done) ∧ openDoc al disk.stream o = .ok doc ∧ ∃ order : List AddInfo, order.Perm (subsOf done) ∧
      ∀ (c : Codecs) (mem : Memory) (base : List Char) (sel : Selection) (pic : AddInfo → Nat → Nat → Nat → UInt8), Lossless c.zstd →
        (∀ i (h : i < order.length), (∀ k, sel.index = some k → k = i) → 0 ≤ order[i].physicalWidth ∧ 0 ≤ order[i].physicalHeight ∧ ViewableType order[i].pixelType ∧
          DataShows c order[i] order[i].physicalWidth.toNat order[i].physicalHeight.toNat (pic order[i])) →
        ∃ files, extractSubBlocks c mem ⟨true, doc⟩ al disk.stream base sel = (files, .done) ∧
          files.map Prod.fst = ((List.range order.length).filter fun i : Nat => decide (∀ k, sel.index = some k → k = (i : Int))).map (fun i : Nat => imageName base i) ∧
          ∀ i (h : i < order.length) t, (imageName base i, t) ∈ files →
            ShowsImage t order[i].pixelType order[i].physicalWidth.toNat order[i].physicalHeight.toNat (pic order[i]) := by
  obtain ⟨disk, done, h1, doc, h2, sbs, h3, h4, h5, h6⟩ := C01_sub_blocks_read_back_partial dup d0 info ops hi hops hsz o al hal
  obtain ⟨order, p1, p2⟩ := perm_map_exists viewAdded h5 _ rfl
  have hlen : sbs.length = order.length := by simpa using congrArg List.length p2
  refine ⟨disk, done, doc, h1, h2, order, p1, fun c mem base sel pic hz hd => ?_⟩
  have hview : ∀ i (h : i < sbs.length) (h' : i < order.length), viewRead sbs[i] = viewAdded order[i] := by
    intro i h h'
    have := congrArg (fun l => l[i]?) p2
    simpa [List.getElem?_eq_getElem h, List.getElem?_eq_getElem h'] using this
  have hfits : ∀ a ∈ order, AddFits a := by
    intro a ha
    have ha' : a ∈ subsOf ops := ((writeDoc_sublist h1).filterMap _).subset (p1.mem_iff.1 ha)
    obtain ⟨op, ho1, ho2⟩ := List.mem_filterMap.1 ha'
    have := hops.each op ho1
    cases op with
    | addSubBlock b => cases ho2; exact this.fits
    | _ => cases ho2
  have hfetch : ∀ i (h : i < order.length), (∀ k, sel.index = some k → k = i) → ∃ v t, fetch c mem al disk.stream doc i = .ok (v, t) ∧
      ShowsImage t order[i].pixelType order[i].physicalWidth.toNat order[i].physicalHeight.toNat (pic order[i]) := by
    intro i h hs
    obtain ⟨w0, w1, w2, w3⟩ := hd i h hs
    obtain ⟨t, t1, t2⟩ := dataShows_bitmap hz w2 w3 (mem.first i) (mem.second i)
    have r := readAs_of_views (hview i (by omega) h) (h6 i (by omega) (by omega))
    have u : ∀ v : Int, IsInt32 v → 0 ≤ v → toUInt32 v = v.toNat := by
      intro v ⟨_, h2⟩ h0
      unfold toUInt32
      rw [Int.emod_eq_of_lt h0 (by omega)]
    refine ⟨(sbs[i]'(by omega)).info, t, ?_, t2⟩
    unfold fetch
    rw [h4 i (by omega)]
    dsimp only
    rw [r.compression, r.data, r.spixelType, r.pw, r.ph, u _ (hfits _ (List.getElem_mem h)).physicalWidth w0, u _ (hfits _ (List.getElem_mem h)).physicalHeight w1, t1]
  classical
  let g : Int → Option (List Char × Typed) := fun k =>
    if h : k.toNat < order.length then
      if hs : ∀ j, sel.index = some j → j = (k.toNat : Int) then some (imageName base k.toNat, (hfetch k.toNat h hs).choose_spec.choose) else none
    else none
  have hg : ∀ i (h : i < order.length), g (i : Int) =
      if hs : ∀ j, sel.index = some j → j = (i : Int) then some (imageName base i, (hfetch i h hs).choose_spec.choose) else none := by
    intro i h
    show (if h : (i : Int).toNat < order.length then _ else none) = _
    simp only [Int.toNat_natCast]
    rw [dif_pos h]
  have hrun := enumerate_run (f := fun st i e => subStep (fun i => fetch c mem al disk.stream doc i.toNat) base sel st i (infoFromEntry e)) (g := g) (indexed doc.entries) (by
    intro p hp st
    obtain ⟨i, h, rfl⟩ := mem_indexed_ex.1 hp
    have h' : i < order.length := by omega
    dsimp only
    rw [hg i h']
    unfold subStep
    have hsel : subSelected sel i = true ↔ ∀ j, sel.index = some j → j = (i : Int) := by
      unfold subSelected
      cases sel.index <;> simp
    by_cases hs : ∀ j, sel.index = some j → j = (i : Int)
    · rw [if_pos (hsel.2 hs), dif_pos hs]
      have := (hfetch i h' hs).choose_spec.choose_spec.1
      simp only [Int.toNat_natCast]
      generalize (hfetch i h' hs).choose_spec.choose = T at this ⊢
      rw [this]
      rfl
    · rw [if_neg (fun h0 => hs (hsel.1 h0)), dif_neg hs]
      simp) ([], Extract.Ended.done)
  refine ⟨(indexed doc.entries).filterMap (fun q => g q.1), ?_, ?_, ?_⟩
  · unfold extractSubBlocks Reader.enumerateSubBlocks Reader.guard
    rw [if_neg (by simp)]
    dsimp only
    rw [hrun]
    rfl
  · have e1 : (indexed doc.entries).filterMap (fun q => g q.1) = (List.range order.length).filterMap (fun i : Nat => g (i : Int)) := by
      have : (indexed doc.entries).map (fun q => q.1) = (List.range order.length).map (fun i : Nat => (i : Int)) := by
        unfold indexed
        rw [List.map_map, ← hlen, h3]
        apply List.ext_getElem
        · simp
        · intro n _ _
          simp
      have e := congrArg (List.filterMap g) this
      simpa only [List.filterMap_map, Function.comp_def] using e
    rw [e1, List.map_filterMap]
    have e2 : ∀ l : List Nat, (∀ i ∈ l, i < order.length) → l.filterMap (fun i : Nat => (g (i : Int)).map Prod.fst) =
        (l.filter fun i : Nat => decide (∀ k, sel.index = some k → k = (i : Int))).map (fun i : Nat => imageName base i) := by
      intro l
      induction l with
      | nil => intro; rfl
      | cons i l ih =>
        intro hl
        rw [List.filterMap_cons, hg i (hl i List.mem_cons_self), ih (fun j hj => hl j (List.mem_cons_of_mem _ hj))]
        by_cases hs : ∀ j, sel.index = some j → j = (i : Int)
        · rw [dif_pos hs, List.filter_cons_of_pos (by simpa using hs)]
          rfl
        · rw [dif_neg hs, List.filter_cons_of_neg (by simpa using hs)]
          rfl
    convert e2 (List.range order.length) (fun i hi => List.mem_range.1 hi) using 1
  · intro i h t ht
    obtain ⟨q, hq, hgq⟩ := List.mem_filterMap.1 ht
    obtain ⟨j, hj, rfl⟩ := mem_indexed_ex.1 hq
    have h' : j < order.length := by omega
    dsimp only at hgq
    rw [hg j h'] at hgq
    split at hgq
    · rename_i hs
      simp only [Option.some.injEq, Prod.mk.injEq] at hgq
      have := C106_image_names base j i hgq.1
      subst this
      rw [← hgq.2]
      exact (hfetch j h' hs).choose_spec.choose_spec.2
    · cases hgq

/-! ## The selection -/

private theorem toInt_eq {q : ℚ} {t : Int} (h : (if 0 ≤ q then ⌊q⌋ else ⌈q⌉) = t) (r : -(2 ^ 31) ≤ t ∧ t < 2 ^ 31) : toInt q = some t := by
  unfold toInt
  simp only [h]
  rw [if_pos r]

private theorem sel_one {q : ℚ} : (tryParseSelection (some [(ascii "index", .real q)])).bind attSelection = (toInt q).map fun t => ⟨none, some t⟩ := by
  have h0 : selectionItem [(ascii "index", ItemValue.num q)] "index" = some (.num q) := by simp [selectionItem]
  have h1 : selectedName [(ascii "index", ItemValue.num q)] = none := rfl
  show attSelection [(cstr (ascii "index"), ItemValue.num q)] = _
  unfold attSelection selectedIndex
  rw [show cstr (ascii "index") = ascii "index" from rfl, h0, h1]
  dsimp only
  cases toInt q <;> rfl

private theorem selLoop_ok (m : List (List UInt8 × SelJson)) (acc : List (List UInt8 × ItemValue)) (hv : ∀ e ∈ m, itemValue e.2 ≠ none) :
    selectionLoop m acc = some ((m.filterMap fun e => (itemValue e.2).map fun v => (cstr e.1, v)).reverse ++ acc) := by
  induction m generalizing acc with
  | nil => rfl
  | cons e r ih =>
    obtain ⟨k, v⟩ := e
    obtain ⟨iv, hiv⟩ := Option.ne_none_iff_exists'.1 (hv (k, v) List.mem_cons_self)
    dsimp only at hiv
    unfold selectionLoop
    rw [hiv, Option.bind_some, ih _ (fun q hq => hv q (List.mem_cons_of_mem _ hq))]
    simp [hiv]

private theorem selLoop_none (m : List (List UInt8 × SelJson)) (acc : List (List UInt8 × ItemValue)) (h : ∃ e ∈ m, itemValue e.2 = none) : selectionLoop m acc = none := by
  induction m generalizing acc with
  | nil => obtain ⟨e, h, -⟩ := h; cases h
  | cons e r ih =>
    obtain ⟨k, v⟩ := e
    unfold selectionLoop
    obtain ⟨q, hq, hn⟩ := h
    rcases List.mem_cons.1 hq with rfl | hq
    · dsimp only at hn
      rw [hn]
      rfl
    · cases hiv : itemValue v with
      | none => rfl
      | some iv => exact ih _ ⟨q, hq, hn⟩

/-- **C106 (what a selection means).** If the text of the selection is an object whose member `index` is a whole number between `0` and `2^31 - 1`, written with a fraction or an
exponent, and whose member `name` is a text - each may be missing -, the selection asks for exactly the attachments with this index and this name. Other members may be texts,
numbers with fraction or exponent, or truth values. -/
theorem C106_selection (m : List (List UInt8 × SelJson)) (hk : ∀ e ∈ m, 0 ∉ e.1) (hd : (m.map Prod.fst).Nodup)
    (hv : ∀ e ∈ m, (∃ s, e.2 = .str s) ∨ (∃ q, e.2 = .real q) ∨ ∃ b, e.2 = .bool b) (index : Option Nat) (name : Option (List UInt8))
    (hi : ∀ v, (ascii "index", v) ∈ m ↔ ∃ k, index = some k ∧ v = .real k) (hr : ∀ k, index = some k → k < 2 ^ 31)
    (hn : ∀ v, (ascii "name", v) ∈ m ↔ ∃ s, name = some s ∧ v = .str s) (hz : ∀ s, name = some s → 0 ∉ s) :
    ∃ parsed sel, tryParseSelection (some m) = some parsed ∧ attSelection parsed = some sel ∧
      ∀ i a, AsksFor sel i a ↔ (∀ k, index = some k → i = k) ∧ (∀ s, name = some s → a = s) := by
  have hval : ∀ e ∈ m, itemValue e.2 ≠ none := by
    intro e he
    rcases hv e he with ⟨s, h⟩ | ⟨q, h⟩ | ⟨b, h⟩ <;> rw [h] <;> simp [itemValue]
  have hparsed : tryParseSelection (some m) = some (m.filterMap fun e => (itemValue e.2).map fun v => (cstr e.1, v)).reverse := by
    show selectionLoop m [] = _
    rw [selLoop_ok m [] hval, List.append_nil]
  -- looking up a key
  have look : ∀ key : String, (∀ v, (ascii key, v) ∈ m → selectionItem (m.filterMap fun e => (itemValue e.2).map fun v => (cstr e.1, v)).reverse key = itemValue v) ∧
      ((∀ v, (ascii key, v) ∉ m) → selectionItem (m.filterMap fun e => (itemValue e.2).map fun v => (cstr e.1, v)).reverse key = none) := by
    intro key
    have mem : ∀ k iv, (k, iv) ∈ (m.filterMap fun e => (itemValue e.2).map fun v => (cstr e.1, v)).reverse ↔ ∃ v, (k, v) ∈ m ∧ itemValue v = some iv := by
      intro k iv
      rw [List.mem_reverse, List.mem_filterMap]
      constructor
      · rintro ⟨e, he, h⟩
        obtain ⟨v, hv', h⟩ := Option.map_eq_some_iff.1 h
        rw [cstr_self (hk e he)] at h
        cases h
        exact ⟨e.2, he, hv'⟩
      · rintro ⟨v, he, h⟩
        refine ⟨(k, v), he, ?_⟩
        dsimp only
        rw [h, cstr_self (hk _ he)]
        rfl
    constructor
    · intro v hvm
      unfold selectionItem
      obtain ⟨iv, hiv⟩ := Option.ne_none_iff_exists'.1 (hval _ hvm)
      dsimp only at hiv
      cases hf : List.find? (fun e => decide (e.1 = ascii key)) (m.filterMap fun e => (itemValue e.2).map fun v => (cstr e.1, v)).reverse with
      | none =>
        have := List.find?_eq_none.1 hf _ ((mem (ascii key) iv).2 ⟨v, hvm, hiv⟩)
        simp at this
      | some p =>
        obtain ⟨k, iv'⟩ := p
        have h1 := List.find?_some hf
        simp only [decide_eq_true_eq] at h1
        subst h1
        obtain ⟨v', h2, h3⟩ := (mem _ _).1 (List.mem_of_find?_eq_some hf)
        have : v' = v := by
          have := List.inj_on_of_nodup_map hd h2 hvm rfl
          exact (Prod.mk.inj this).2
        subst this
        rw [h3]
        rfl
    · intro hnone
      unfold selectionItem
      cases hf : List.find? (fun e => decide (e.1 = ascii key)) (m.filterMap fun e => (itemValue e.2).map fun v => (cstr e.1, v)).reverse with
      | none => rfl
      | some p =>
        obtain ⟨k, iv'⟩ := p
        have h1 := List.find?_some hf
        simp only [decide_eq_true_eq] at h1
        subst h1
        obtain ⟨v', h2, -⟩ := (mem _ _).1 (List.mem_of_find?_eq_some hf)
        exact absurd h2 (hnone v')
  have hidx : selectedIndex (m.filterMap fun e => (itemValue e.2).map fun v => (cstr e.1, v)).reverse = some (index.map Int.ofNat) := by
    unfold selectedIndex
    cases index with
    | none =>
      rw [(look "index").2 (fun v hvm => by obtain ⟨k, h, -⟩ := (hi v).1 hvm; cases h)]
      rfl
    | some k =>
      rw [(look "index").1 (.real k) ((hi _).2 ⟨k, rfl, rfl⟩)]
      show (toInt (k : ℚ)).map some = _
      have := hr k rfl
      rw [toInt_eq (t := (k : Int)) (by rw [if_pos (Nat.cast_nonneg k), Int.floor_natCast]) ⟨by omega, by omega⟩]
      rfl
  have hnm : selectedName (m.filterMap fun e => (itemValue e.2).map fun v => (cstr e.1, v)).reverse = name := by
    unfold selectedName
    cases name with
    | none =>
      rw [(look "name").2 (fun v hvm => by obtain ⟨k, h, -⟩ := (hn v).1 hvm; cases h)]
    | some s =>
      rw [(look "name").1 (.str s) ((hn _).2 ⟨s, rfl, rfl⟩)]
      show some (cstr s) = some s
      rw [cstr_self (hz s rfl)]
  refine ⟨_, ⟨name, index.map Int.ofNat⟩, hparsed, ?_, fun i a => ?_⟩
  · unfold attSelection
    rw [hidx, Option.map_some, hnm]
  · unfold AsksFor
    dsimp only
    cases index <;> cases name <;> simp [and_comm, eq_comm]

/-- **C106 is violated: whole numbers.** A selection with a number written without fraction and exponent, as in `{"index":3}`, is rejected. -/
theorem C106_whole_number_violated (m : List (List UInt8 × SelJson)) (h : ∃ k n, (k, SelJson.int n) ∈ m) : tryParseSelection (some m) = none := by
  obtain ⟨k, n, h⟩ := h
  exact selLoop_none m [] ⟨_, h, rfl⟩

/-- **C106 is violated: fractions.** An index that is no whole number is not rejected: `{"index":3.7}` selects the attachment with the index 3, and
`{"index":-0.5}` that with the index 0. -/
theorem C106_fraction_violated : ∃ s t, (tryParseSelection (some [(ascii "index", .real (37 / 10))])).bind attSelection = some s ∧ AsksFor s 3 [1] ∧
    (tryParseSelection (some [(ascii "index", .real (-1 / 2))])).bind attSelection = some t ∧ AsksFor t 0 [1] := by
  refine ⟨⟨none, some 3⟩, ⟨none, some 0⟩, ?_, ⟨fun _ h => (by cases h), fun k h => (by cases h; rfl)⟩, ?_, ⟨fun _ h => (by cases h), fun k h => (by cases h; rfl)⟩⟩
  · rw [sel_one, toInt_eq (t := 3) (by norm_num) ⟨by norm_num, by norm_num⟩]; rfl
  · rw [sel_one, toInt_eq (t := 0) (by norm_num) ⟨by norm_num, by norm_num⟩]; rfl

/-- **C106 is violated: large numbers.** An index beyond the range of `int` makes the behaviour undefined. -/
theorem C106_large_index_violated (q : ℚ) (hq : 2 ^ 31 ≤ q) : (tryParseSelection (some [(ascii "index", .real q)])).bind attSelection = none := by
  have h1 : toInt q = none := by
    unfold toInt
    dsimp only
    rw [if_pos (le_trans (by norm_num) hq), if_neg]
    rintro ⟨-, h⟩
    have : (2 ^ 31 : ℤ) ≤ ⌊q⌋ := Int.le_floor.2 (by exact_mod_cast hq)
    omega
  rw [sel_one, h1]
  rfl

/-! ## A case -/

/-- The hypotheses are met: the attachment of the sample document is extracted into the file `out_ab_0.CZI`, without selection and with the name as selection. -/
example (wide : List UInt8 → Option (List Char)) (hw : ∀ t : String, wide (ascii t) = some t.toList) (sel : Selection) (hs : sel = ⟨none, none⟩ ∨ sel = ⟨some (ascii "ab"), some 0⟩)
    (before : List Char → Option (List UInt8)) :
    ∃ disk done doc files, writeDoc false Disk.empty exInfo exOps = some (disk, done) ∧ openDoc (fun _ => true) disk.stream ⟨false, false, false, false⟩ = .ok doc ∧
      extractAttachments wide (fun _ => true) ⟨true, doc⟩ (fun _ => true) disk.stream "out".toList sel = (files, .done) ∧
      writeFiles before files "out_ab_0.CZI".toList = some [5, 6] ∧ writeFiles before files "out".toList = before "out".toList := by
  obtain ⟨disk, done, h1, h2⟩ := C106_attachments_partial false Disk.empty exInfo exOps exInfo_ok exOps_ok (by
    intro a ha
    simp only [attsOf, exOps, List.filterMap_cons, List.filterMap_nil, List.mem_cons, List.not_mem_nil, or_false] at ha
    subst ha
    exact ⟨by decide, by decide⟩) ⟨false, false, false, false⟩ (fun _ => true) (fun _ => rfl)
  have hA : attsOf done = [exAtt] := by
    have g1 : (attsOf done).Sublist (attsOf exOps) := (writeDoc_sublist h1).filterMap _
    have g2 : (writeDoc false Disk.empty exInfo exOps).map (fun r => (attsOf r.2).length) = some 1 := by decide +kernel
    rw [h1] at g2
    simp only [Option.map_some, Option.some.injEq] at g2
    exact g1.eq_of_length (g2.trans rfl)
  rw [hA] at h2
  obtain ⟨doc, h3, h4⟩ := h2 (.inr (by intro r h; cases h; decide))
  have c1 : cstr exAtt.name.toList = ascii "ab" := by decide
  have c2 : cstr exAtt.contentFileType.toList = ascii "CZI" := by decide
  have hasks : AsksFor sel 0 (cstr exAtt.name.toList) := by
    rw [c1]
    rcases hs with rfl | rfl
    · exact ⟨fun _ h => (by cases h), fun _ h => (by cases h)⟩
    · exact ⟨fun _ h => (by cases h; rfl), fun _ h => (by cases h; rfl)⟩
  have hnamed : NamedAfter wide "out".toList 0 exAtt "out_ab_0.CZI".toList :=
    ⟨"ab".toList, "CZI".toList, by rw [c1, hw], by rw [c2, hw], by rw [c1, c2, if_neg (by decide), if_neg (by decide)]; decide +kernel⟩
  obtain ⟨files, f1, f2⟩ := h4 wide (fun _ => true) "out".toList sel (by
      intro n hn
      rcases hs with rfl | rfl
      · cases hn
      · cases hn; decide) (by
      intro i h _
      obtain rfl : i = 0 := by simpa using h
      exact ⟨_, hnamed, rfl⟩)
  refine ⟨disk, done, doc, files, h1, h3, f1, (f2 before).2 ?_ 0 (by simp) _ hasks hnamed, (f2 before).1 _ ?_⟩
  · intro a ha ext he
    obtain rfl : a = exAtt := by simpa using ha
    rw [c2, hw] at he
    cases he
    decide
  · rintro i h - ⟨name, ext, -, -, e⟩
    have := congrArg List.length e
    simp only [List.length_append] at this
    have e1 : "out".toList.length = 3 := rfl
    have e2 : "_".toList.length = 1 := rfl
    omega

/-- The hypotheses are met: both sub-blocks are extracted, into different files. -/
example (c : Codecs) (hz : Lossless c.zstd) (mem : Memory) :
    ∃ disk done doc files, writeDoc false Disk.empty exInfo viewOps = some (disk, done) ∧ openDoc (fun _ => true) disk.stream ⟨false, false, false, false⟩ = .ok doc ∧
      extractSubBlocks c mem ⟨true, doc⟩ (fun _ => true) disk.stream "out".toList ⟨none, none⟩ = (files, .done) ∧
      files.map Prod.fst = ["out#0.PNG".toList, "out#1.PNG".toList] := by
  obtain ⟨disk, done, doc, h1, h2, order, h3, h4⟩ := C106_sub_blocks_partial false Disk.empty exInfo viewOps exInfo_ok viewOps_ok (by
    intro a ha
    simp only [subsOf, viewOps, List.filterMap_cons, List.filterMap_nil, List.mem_cons, List.not_mem_nil, or_false] at ha
    rcases ha with rfl | rfl <;> (show 4 ≤ 2147483647; omega)) ⟨false, false, false, false⟩ (fun _ => true) (fun _ => rfl)
  rw [view_written h1] at h3
  obtain ⟨files, f1, f2, -⟩ := h4 c mem "out".toList ⟨none, none⟩ (fun a _ _ _ => if a.mIndex = some 7 then 5 else 6) hz (by
    intro i h _
    have hm := h3.mem_iff.1 (List.getElem_mem h)
    generalize order[i] = a at hm
    simp only [List.mem_cons, List.not_mem_nil, or_false] at hm
    rcases hm with rfl | rfl
    · exact ⟨by decide, by decide, .inl rfl, viewSub_depicts c 7 0 0 5⟩
    · exact ⟨by decide, by decide, .inl rfl, viewSub_depicts c 3 1 1 6⟩)
  refine ⟨disk, done, doc, files, h1, h2, f1, f2.trans ?_⟩
  rw [h3.length_eq]
  simp
  decide +kernel

end Verif
