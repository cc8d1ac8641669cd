import Verif.Spec.ReaderSession

/-! # Lemmas for C103 -/

namespace Verif.ReaderSession
open Czi Spec

theorem openWith_cases (al : Alloc) (t : Stream) (o : OpenOptions) (old : List AttEntry) :
    (∃ e, openDocWith al t o old = .error e ∧ openDoc al t o = .error e) ∨
    ∃ doc, openDoc al t o = .ok doc ∧ readHeader t = .ok doc.header ∧ doc.options = o ∧
      openDocWith al t o old = .ok { doc with attachments := if doc.header.attDirPos ≠ 0 then doc.attachments else old } := by
  unfold openDoc openDocWith
  cases hh : readHeader t with
  | error e => exact .inl ⟨e, rfl, rfl⟩
  | ok h =>
    show (∃ e, Except.bind _ _ = _ ∧ Except.bind _ _ = _) ∨ ∃ doc, Except.bind _ _ = _ ∧ _ ∧ _ ∧ Except.bind _ _ = _
    simp only [Except.bind]
    cases hd : readSubDir al t (parseOptions o) h.subDirPos with
    | error e => exact .inl ⟨e, rfl, rfl⟩
    | ok r =>
      obtain ⟨es, k⟩ := r
      by_cases h0 : h.attDirPos ≠ 0
      · simp only [if_pos h0]
        cases ha : readAttDir al t h.attDirPos with
        | error e => exact .inl ⟨e, rfl, rfl⟩
        | ok r =>
          obtain ⟨as, k'⟩ := r
          refine .inr ⟨⟨h, es, as, o⟩, rfl, rfl, rfl, ?_⟩
          show Except.ok _ = Except.ok _
          rw [if_pos h0]
      · simp only [if_neg h0]
        refine .inr ⟨⟨h, es, [], o⟩, rfl, rfl, rfl, ?_⟩
        show Except.ok _ = Except.ok _
        rw [if_neg h0]

theorem openCall_spec (al : Alloc) (w : World) (id : Nat) (o : OpenOptions) (s : Obj) (hop : s.operational = false) :
    (∃ e, openDocWith al (w id) o s.attachments = .error e ∧ (openCall al w id o s).1 = ofRead (.error e) ∧ (openCall al w id o s).2.operational = false) ∨
    ∃ doc, openDocWith al (w id) o s.attachments = .ok doc ∧
      openCall al w id o s = (.ok .done, ⟨true, doc.header, doc.entries, doc.attachments, doc.options, some id⟩) := by
  unfold openCall openDocWith
  rw [if_neg (by rw [hop]; simp)]
  cases hh : readHeader (w id) with
  | error e => exact .inl ⟨e, rfl, rfl, hop⟩
  | ok h =>
    show (∃ e, Except.bind _ _ = _ ∧ _) ∨ ∃ doc, Except.bind _ _ = _ ∧ _
    simp only [Except.bind]
    cases hd : readSubDir al (w id) (parseOptions o) h.subDirPos with
    | error e => exact .inl ⟨e, rfl, rfl, hop⟩
    | ok r =>
      obtain ⟨es, k⟩ := r
      simp only []
      by_cases h0 : h.attDirPos ≠ 0
      · simp only [if_pos h0]
        cases ha : readAttDir al (w id) h.attDirPos with
        | error e => exact .inl ⟨e, rfl, rfl, hop⟩
        | ok r =>
          obtain ⟨as, k'⟩ := r
          exact .inr ⟨⟨h, es, as, o⟩, rfl, rfl⟩
      · simp only [if_neg h0]
        exact .inr ⟨⟨h, es, s.attachments, o⟩, rfl, rfl⟩

theorem ofRead_less {α β : Type} {a b : Except RErr α} (h : SameOrThrows a b) (f : α → Outcome β) :
    (ofRead a).bind f = .throws ∨ (ofRead a).bind f = (ofRead b).bind f := by
  rcases h with rfl | ⟨e, he, rfl⟩
  · exact .inr rfl
  · left
    cases e <;> first | exact absurd rfl he | rfl

theorem readAttachmentData_less {t s : Stream} (h : DeliversLess t s) (al : Alloc) (off : Nat) :
    SameOrThrows (readAttachmentData al t off) (readAttachmentData al s off) := by
  refine SameOrThrows.bind (readExact_less h _ _) (fun b => ?_)
  split
  · exact SameOrThrows.refl _
  · exact readPayload_less h _ _ _

theorem guard_true {α : Type} (doc : Doc) (k : Outcome α) : Reader.guard ⟨true, doc⟩ k = k := if_neg (by simp)

theorem readSubBlock_reader_less {t s : Stream} (h : DeliversLess t s) (al : Alloc) (r : Reader) (i : Int) :
    r.readSubBlock al t i = .throws ∨ r.readSubBlock al t i = r.readSubBlock al s i := by
  unfold Reader.readSubBlock Reader.guard
  split
  · exact .inl rfl
  · cases vectorTryGet r.doc.entries i with
    | throws => left; simp only [Outcome.bind]
    | undefined => right; simp only [Outcome.bind]
    | ok e =>
      cases e with
      | none => right; simp only [Outcome.bind]
      | some e =>
        simp only [Outcome.bind]
        rcases readEntry_less h al r.doc.options e with h | ⟨er, he, h⟩
        · rw [h]; exact .inr rfl
        · rw [h]
          left
          cases er <;> first | exact absurd rfl he | rfl

theorem readAttachment_reader_less {t s : Stream} (h : DeliversLess t s) (al : Alloc) (r : Reader) (i : Int) :
    r.readAttachment al t i = .throws ∨ r.readAttachment al t i = r.readAttachment al s i := by
  unfold Reader.readAttachment Reader.guard
  split
  · exact .inl rfl
  · cases vectorTryGet r.doc.attachments i with
    | throws => left; simp only [Outcome.bind]
    | undefined => right; simp only [Outcome.bind]
    | ok e =>
      cases e with
      | none => right; simp only [Outcome.bind]
      | some e =>
        simp only [Outcome.bind]
        rcases readAttachmentData_less h al e.filePosition with h | ⟨er, he, h⟩
        · rw [h]; exact .inr rfl
        · rw [h]
          left
          cases er <;> first | exact absurd rfl he | rfl

theorem guard_less {α : Type} (r : Reader) {a b : Outcome α} (h : a = .throws ∨ a = b) : r.guard a = .throws ∨ r.guard a = r.guard b := by
  rcases h with h | h
  · left
    unfold Reader.guard
    rw [h]
    split <;> rfl
  · right
    rw [h]

theorem bind_less {α β : Type} {a b : Outcome α} (h : a = .throws ∨ a = b) (f : α → Outcome β) : a.bind f = .throws ∨ a.bind f = b.bind f := by
  rcases h with rfl | rfl
  · exact .inl rfl
  · exact .inr rfl

/-- Asking a reader whose stream fails. -/
theorem ask_less {t s : Stream} (h : DeliversLess t s) (al : Alloc) (r : Reader) (c : Call) :
    ask al r (some t) c = .throws ∨ ask al r (some t) c = ask al r (some s) c := by
  unfold ask
  cases c with
  | readSubBlock i => exact guard_less r (bind_less (readSubBlock_reader_less h al r i) _)
  | readAttachment i => exact guard_less r (bind_less (readAttachment_reader_less h al r i) _)
  | readMetadata => exact guard_less r (ofRead_less (readMetadata_less h al r.doc) _)
  | _ => exact .inr rfl

theorem ask_congr (al : Alloc) (d1 d2 : Doc) (h1 : d1.header = d2.header) (h2 : d1.entries = d2.entries) (h3 : d1.options = d2.options) (str : Option Stream) (c : Call)
    (h4 : ForAttachments c → d1.attachments = d2.attachments) : ask al ⟨true, d1⟩ str c = ask al ⟨true, d2⟩ str c := by
  obtain ⟨a1, a2, a3, a4⟩ := d1
  obtain ⟨b1, b2, b3, b4⟩ := d2
  simp only at h1 h2 h3 h4
  subst h1 h2 h3
  cases c with
  | readAttachment i => have := h4 trivial; subst this; rfl
  | attachments => have := h4 trivial; subst this; rfl
  | attachmentInfo i => have := h4 trivial; subst this; rfl
  | _ => rfl

/-- What is known of the object when `cur` is open. -/
structure Good (al : Alloc) (files : Nat → Disk) (s : Obj) (cur : Option (Nat × OpenOptions)) : Prop where
  closed : cur = none → s.operational = false
  opened : ∀ id o, cur = some (id, o) → s.operational = true ∧ s.stream = some id ∧ ∃ doc, openDoc al (files id).stream o = .ok doc ∧ s.header = doc.header ∧ s.entries = doc.entries ∧
    s.options = doc.options ∧ ((∀ hd, readHeader (files id).stream = .ok hd → hd.attDirPos ≠ 0) → s.attachments = doc.attachments)

theorem call_good {al : Alloc} {files : Nat → Disk} {s : Obj} {cur : Option (Nat × OpenOptions)} (hg : Good al files s cur) {w : World} (hw : Faulty files w) (c : Call) :
    Good al files (call al w s c).2 (current [(c, (call al w s c).1)] cur) := by
  cases c with
  | «open» id o =>
    cases hop : s.operational with
    | true =>
      have e : call al w s (.open id o) = (.throws, s) := by
        show openCall al w id o s = _
        unfold openCall
        rw [if_pos hop]
      rw [e]
      exact hg
    | false =>
      have hcur : cur = none := by
        cases hc : cur with
        | none => rfl
        | some p =>
          obtain ⟨h, _⟩ := hg.opened p.1 p.2 hc
          rw [hop] at h
          cases h
      subst hcur
      show Good al files (openCall al w id o s).2 (current [(.open id o, (openCall al w id o s).1)] none)
      rcases openCall_spec al w id o s hop with ⟨e, he, h1, h2⟩ | ⟨doc, hd, h1⟩
      · have : current [(.open id o, (openCall al w id o s).1)] none = none := by
          rw [h1]
          cases e <;> rfl
        rw [this]
        exact ⟨fun _ => h2, fun _ _ h => (by cases h)⟩
      · rw [h1]
        refine ⟨fun h => (by cases h), ?_⟩
        intro id' o' h
        injection h with h
        injection h with e1 e2
        subst e1 e2
        refine ⟨rfl, rfl, ?_⟩
        rcases openWith_cases al (w id) o s.attachments with ⟨e, he, _⟩ | ⟨doc1, k1, k2, k3, k4⟩
        · rw [he] at hd; cases hd
        · rw [k4] at hd
          injection hd with hd
          subst hd
          refine ⟨doc1, ?_, rfl, rfl, rfl, ?_⟩
          · rcases openDoc_less (hw id) al o with h | ⟨e, _, h⟩
            · rw [← h]; exact k1
            · rw [h] at k1; cases k1
          · intro ha
            refine if_pos (ha _ ?_)
            rcases readHeader_less (hw id) with h | ⟨e, _, h⟩
            · rw [← h]; exact k2
            · rw [h] at k2; cases k2
  | close =>
    cases hop : s.operational with
    | true =>
      have e : call al w s .close = (.ok .done, { s with operational := false, stream := none }) := by
        unfold call
        rw [if_pos hop]
      rw [e]
      exact ⟨fun _ => rfl, fun _ _ h => (by cases h)⟩
    | false =>
      have e : call al w s .close = (.throws, s) := by
        unfold call
        rw [if_neg (by rw [hop]; simp)]
      rw [e]
      exact hg
  | _ => exact hg

theorem run_good {al : Alloc} {files : Nat → Disk} : ∀ (pre : List (Call × World)) (s : Obj) (cur : Option (Nat × OpenOptions)), Good al files s cur →
    (∀ p ∈ pre, Faulty files p.2) → Good al files (run al s pre).2 (current (run al s pre).1 cur)
  | [], _, _, hg, _ => hg
  | (c, w) :: cs, s, cur, hg, h => by
    have h1 := call_good hg (h (c, w) (List.mem_cons_self ..)) c
    have h2 := run_good cs (call al w s c).2 _ h1 fun p hp => h p (List.mem_cons_of_mem _ hp)
    have e : current (run al s ((c, w) :: cs)).1 cur = current (run al (call al w s c).2 cs).1 (current [(c, (call al w s c).1)] cur) := by
      show current ((c, (call al w s c).1) :: (run al (call al w s c).2 cs).1) cur = _
      generalize (call al w s c).1 = a
      generalize (run al (call al w s c).2 cs).1 = l
      cases c <;> cases a <;> rfl
    rw [e]
    exact h2

theorem new_good (al : Alloc) (files : Nat → Disk) : Good al files Obj.new none := ⟨fun _ => rfl, fun _ _ h => (by cases h)⟩

end Verif.ReaderSession
