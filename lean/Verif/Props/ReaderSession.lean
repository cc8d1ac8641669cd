import Verif.Proof.ReaderSession

/-!
# C103: a reader whose streams fail now and then
-/

namespace Verif
open Czi Spec ReaderSession

private theorem openOutcome {al : Alloc} {w : World} {id : Nat} {o : OpenOptions} {s : Obj} (hop : s.operational = false) :
    (call al w s (.open id o)).1 = (ofRead (openDoc al (w id) o)).bind fun _ => .ok .done := by
  show (openCall al w id o s).1 = _
  rcases openWith_cases al (w id) o s.attachments with ⟨e, h1, h2⟩ | ⟨doc, h1, _, _, h2⟩
  · rcases openCall_spec al w id o s hop with ⟨e', h3, h4, _⟩ | ⟨doc, h3, _⟩
    · rw [h1] at h3
      injection h3 with h3
      subst h3
      rw [h4, h2]
      cases e <;> rfl
    · rw [h1] at h3; cases h3
  · rcases openCall_spec al w id o s hop with ⟨e', h3, h4, _⟩ | ⟨doc', h3, h4⟩
    · rw [h2] at h3; cases h3
    · rw [h4, h1]
      rfl

/-- **C103 (`Open`).** After any calls on a reader, whichever streams failed during them: `Open` throws an exception if a document is open; if none is, it throws an exception or has the same outcome as on a
new reader with streams that do not fail, and if the stream does not fail during this call, exactly that outcome. -/
theorem C103_open (al : Alloc) (files : Nat → Disk) (pre : List (Call × World)) (hpre : ∀ p ∈ pre, Faulty files p.2) (w : World) (hw : Faulty files w) (id : Nat) (o : OpenOptions) :
    let out := (call al w (run al Obj.new pre).2 (.open id o)).1
    let new := (call al (working files) Obj.new (.open id o)).1
    ((current (run al Obj.new pre).1 none).isSome → out = .throws) ∧
    (current (run al Obj.new pre).1 none = none → (out = .throws ∨ out = new) ∧ (w id = (files id).stream → out = new)) := by
  intro out new
  have hg := run_good pre Obj.new none (new_good al files) hpre
  have enew : new = (ofRead (openDoc al (files id).stream o)).bind fun _ => .ok .done := openOutcome (al := al) (w := working files) rfl
  constructor
  · intro h
    obtain ⟨p, hp⟩ := Option.isSome_iff_exists.1 h
    obtain ⟨hop, _⟩ := hg.opened p.1 p.2 hp
    show (openCall al w id o _).1 = _
    unfold openCall
    rw [if_pos hop]
  · intro h
    have eout : out = (ofRead (openDoc al (w id) o)).bind fun _ => .ok .done := openOutcome (hg.closed h)
    constructor
    · rw [eout, enew]
      exact ofRead_less (openDoc_less (hw id) al o) _
    · intro e
      rw [eout, enew, e]

/-- **C103 (`Close`).** After any calls, `Close` succeeds if and only if a document is open, and does not use the stream. -/
theorem C103_close (al : Alloc) (files : Nat → Disk) (pre : List (Call × World)) (hpre : ∀ p ∈ pre, Faulty files p.2) (w : World) :
    (call al w (run al Obj.new pre).2 .close).1 = if (current (run al Obj.new pre).1 none).isSome then .ok .done else .throws := by
  have hg := run_good pre Obj.new none (new_good al files) hpre
  cases h : current (run al Obj.new pre).1 none with
  | none =>
    unfold call
    rw [if_neg (by rw [hg.closed h]; simp)]
    rfl
  | some p =>
    obtain ⟨hop, _⟩ := hg.opened p.1 p.2 h
    unfold call
    rw [if_pos hop]
    rfl

/-- **C103 (partial: documents with an attachment directory, for the calls about attachments; on a closed reader not `TryGetSubBlockInfo`).** After any calls on a reader, whichever streams failed during them, a
call that reads or asks for something throws an exception if no document is open. If one is open, it throws an exception or gives exactly what a new reader with streams that never fail answers; and if
the stream does not fail during this call, exactly that answer: failures leave nothing behind, so a call that failed can be made again. For what is excluded: `C103_info_violated`, `C103_attachments_violated`. -/
theorem C103_calls_partial (al : Alloc) (files : Nat → Disk) (pre : List (Call × World)) (hpre : ∀ p ∈ pre, Faulty files p.2) (w : World) (hw : Faulty files w) (c : Call)
    (hc : ∀ id o, c ≠ .open id o) (hc' : c ≠ .close) :
    let out := (call al w (run al Obj.new pre).2 c).1
    ((∀ i, c ≠ .subBlockInfo i) → current (run al Obj.new pre).1 none = none → out = .throws) ∧
    ∀ id o, current (run al Obj.new pre).1 none = some (id, o) → (ForAttachments c → ∀ hd, readHeader (files id).stream = .ok hd → hd.attDirPos ≠ 0) →
      (out = .throws ∨ out = asNew al files id o c) ∧ (w id = (files id).stream → out = asNew al files id o c) := by
  intro out
  have hg := run_good pre Obj.new none (new_good al files) hpre
  have ecall : ∀ (w : World) (s : Obj), (call al w s c).1 = ask al s.reader (s.stream.map w) c := by
    intro w s
    cases c with
    | «open» id o => exact absurd rfl (hc id o)
    | close => exact absurd rfl hc'
    | _ => rfl
  constructor
  · intro hi h
    have hop := hg.closed h
    show (call al w _ c).1 = _
    rw [ecall]
    generalize (run al Obj.new pre).2 = s at hop
    obtain ⟨op, a1, a2, a3, a4, a5⟩ := s
    simp only at hop
    subst hop
    have hgd : ∀ {α : Type} (d : Doc) (k : Outcome α), Reader.guard ⟨false, d⟩ k = .throws := fun d k => if_pos rfl
    unfold Obj.reader
    cases c with
    | «open» id o => exact absurd rfl (hc id o)
    | close => exact absurd rfl hc'
    | subBlockInfo i => exact absurd rfl (hi i)
    | readSubBlock i => exact hgd _ _
    | readAttachment i => exact hgd _ _
    | readMetadata => exact hgd _ _
    | fileHeader => exact hgd _ _
    | subBlocks => rfl
    | attachments => rfl
    | attachmentInfo i => rfl
  · intro id o h hatt
    obtain ⟨hop, hst, doc, hd, e1, e2, e3, e4⟩ := hg.opened id o h
    have eout : out = ask al ⟨true, doc⟩ (some (w id)) c := by
      show (call al w _ c).1 = _
      rw [ecall, hst]
      unfold Obj.reader
      rw [hop]
      exact ask_congr al _ doc e1 e2 e3 _ c fun hf => e4 (hatt hf)
    have enew : asNew al files id o c = ask al ⟨true, doc⟩ (some (files id).stream) c := by
      unfold asNew
      rw [ecall]
      have : (call al (working files) Obj.new (.open id o)).2 = ⟨true, doc.header, doc.entries, doc.attachments, doc.options, some id⟩ := by
        show (openCall al (working files) id o Obj.new).2 = _
        rcases openCall_spec al (working files) id o Obj.new rfl with ⟨e, he, _⟩ | ⟨doc', hd', he⟩
        · have : openDoc al (files id).stream o = .error e := he
          rw [this] at hd; cases hd
        · have : openDoc al (files id).stream o = .ok doc' := hd'
          rw [this] at hd
          injection hd with hd
          subst hd
          rw [he]
      rw [this]
      rfl
    constructor
    · rw [eout, enew]
      exact ask_less (hw id) al _ c
    · intro e
      rw [eout, enew, e]

/-- **C103 (streams given to the C interface).** A stream made with `libCZI_CreateInputStreamFromExternal` from a function that keeps its contract - whenever it returns an error, delivers less or does not report a
number - is a stream that delivers what is in the file or less: the theorems above apply to it. A value other than 0 and a number that is not reported (for files below 2^64-1 bytes) count as nothing delivered, otherwise the bytes
stored are delivered. -/
theorem C103_external (f : Nat → Nat → Reply) (d : Disk) (h : KeepsContract f d) : DeliversLess (externalStream f) d.stream ∧
    ∀ off n, ((f off n).code ≠ 0 ∨ ((f off n).count = none ∧ d.size < 18446744073709551615) → externalStream f off n = []) ∧
      ((f off n).code = 0 → (f off n).count ≠ none → externalStream f off n = (f off n).stored) := by
  refine ⟨?_, ?_⟩
  · intro off n
    refine ⟨?_, d.read_length_le off n⟩
    unfold externalStream wrapperRead
    by_cases hc : (f off n).code ≠ 0
    · simp only [if_pos hc]
      exact List.nil_prefix
    · simp only [if_neg hc]
      split
      · exact (h off n (Classical.not_not.1 hc)).1
      · exact List.nil_prefix
  · intro off n
    unfold externalStream wrapperRead
    by_cases hc : (f off n).code ≠ 0
    · simp only [if_pos hc]
      exact ⟨fun _ => trivial, fun h0 => absurd h0 hc⟩
    · simp only [if_neg hc]
      obtain ⟨hp, hcount⟩ := h off n (Classical.not_not.1 hc)
      constructor
      · rintro (h1 | ⟨h1, h2⟩)
        · exact absurd h1 hc
        · rw [h1, if_neg]
          have h3 := hp.length_le
          have h4 : (d.stream off n).length ≤ d.size := by
            show (List.map _ (List.range (min n (d.size - off)))).length ≤ _
            rw [List.length_map, List.length_range]
            omega
          show ¬ (18446744073709551615 = (f off n).stored.length)
          omega
      · intro _ hn
        rcases hcount with h1 | h1
        · rw [h1]; exact if_pos rfl
        · exact absurd h1 hn

/-! ## What is excluded -/

/-- **C103 violated by `TryGetSubBlockInfo`.** If a document cannot be opened because its attachment directory cannot be read (its sub-block directory can), then the reader, which says of itself that it is not open, answers
`TryGetSubBlockInfo` with the sub-blocks of this document; whatever the reader was used for before. -/
theorem C103_info_violated (al : Alloc) (w : World) (s : Obj) (hop : s.operational = false) (id : Nat) (o : OpenOptions) (h : Header) (es : List Entry) (k : Int) (e : RErr)
    (hh : readHeader (w id) = .ok h) (hd : readSubDir al (w id) (parseOptions o) h.subDirPos = .ok (es, k)) (h0 : h.attDirPos ≠ 0)
    (ha : readAttDir al (w id) h.attDirPos = .error e) (he : e ≠ .undefined) (w' : World) (i : Nat) (hi : i < es.length) :
    (call al w s (.open id o)).1 = .throws ∧
    (call al w' (call al w s (.open id o)).2 .subBlocks).1 = .throws ∧
    (call al w' (call al w s (.open id o)).2 (.subBlockInfo i)).1 = .ok (.subBlockInfo (some (infoFromEntry es[i]))) := by
  have hcall : call al w s (.open id o) = (.throws, { s with header := h, entries := es }) := by
    show openCall al w id o s = _
    unfold openCall
    rw [if_neg (by rw [hop]; simp)]
    simp only [hh, hd, ha, if_pos h0]
    cases e <;> first | exact absurd rfl he | rfl
  rw [hcall]
  refine ⟨rfl, ?_, ?_⟩
  · obtain ⟨op, _⟩ := s
    simp only at hop
    subst hop
    rfl
  · show Outcome.bind (Outcome.bind (vectorTryGet es (i : Int)) _) _ = _
    unfold vectorTryGet
    rw [if_pos (by omega), if_neg (by omega)]
    rw [show ((i : Int)).toNat = i from rfl, List.getElem?_eq_getElem hi]
    rfl

/-- **C103 violated for attachments.** If a reader has opened a document with attachments, was closed and opens one that has no attachment directory, it presents the attachments of the first document; a new
reader presents none. -/
theorem C103_attachments_violated (al : Alloc) (files : Nat → Disk) (a b : Nat) (o o' : OpenOptions) (da db : Doc) (ha : openDoc al (files a).stream o = .ok da)
    (hb : openDoc al (files b).stream o' = .ok db) (h0 : db.header.attDirPos = 0) (i : Int) :
    let w := working files
    (call al w (run al Obj.new [(.open a o, w), (.close, w), (.open b o', w)]).2 (.attachmentInfo i)).1 = asNew al files a o (.attachmentInfo i) ∧
    asNew al files b o' .attachments = .ok (.attachments []) := by
  intro w
  have hop : ∀ (s : Obj), s.operational = false → ∀ id o d, openDoc al (files id).stream o = .ok d →
      call al w s (.open id o) = (.ok .done, ⟨true, d.header, d.entries, if d.header.attDirPos ≠ 0 then d.attachments else s.attachments, d.options, some id⟩) := by
    intro s hs id o d hd
    show openCall al w id o s = _
    rcases openWith_cases al (w id) o s.attachments with ⟨e, _, h2⟩ | ⟨doc, h1, _, _, h2⟩
    · have : openDoc al (files id).stream o = .error e := h2
      rw [this] at hd; cases hd
    · have : openDoc al (files id).stream o = .ok doc := h1
      rw [this] at hd
      injection hd with hd
      subst hd
      rcases openCall_spec al w id o s hs with ⟨e, h3, _⟩ | ⟨doc', h3, h4⟩
      · rw [h2] at h3; cases h3
      · rw [h2] at h3
        injection h3 with h3
        rw [h4, ← h3]
  have hnil : ∀ d id o, openDoc al (files id).stream o = .ok d → (if d.header.attDirPos ≠ 0 then d.attachments else []) = d.attachments := by
    intro d id o hd
    split
    · rfl
    · rename_i hz
      rcases openWith_cases al (files id).stream o [] with ⟨e, _, h2⟩ | ⟨doc, h1, _, _, h2⟩
      · rw [h2] at hd; cases hd
      · have e2 : openDoc al (files id).stream o = .ok _ := h2
        rw [e2] at hd
        injection hd with hd
        rw [← hd] at hz ⊢
        dsimp only at hz ⊢
        rw [if_neg hz]
  have e1 := hop Obj.new rfl a o da ha
  have e3 := hop Obj.new rfl b o' db hb
  constructor
  · show (call al w (call al w (call al w (call al w Obj.new (.open a o)).2 .close).2 (.open b o')).2 (.attachmentInfo i)).1 = (call al w (call al w Obj.new (.open a o)).2 (.attachmentInfo i)).1
    rw [e1]
    have e2 : call al w (⟨true, da.header, da.entries, if da.header.attDirPos ≠ 0 then da.attachments else Obj.new.attachments, da.options, some a⟩ : Obj) .close =
        (.ok .done, ⟨false, da.header, da.entries, if da.header.attDirPos ≠ 0 then da.attachments else Obj.new.attachments, da.options, none⟩) := by
      unfold call
      rw [if_pos rfl]
    rw [e2, hop _ rfl b o' db hb, if_neg (by simp [h0])]
    rfl
  · show (call al w (call al w Obj.new (.open b o')).2 .attachments).1 = _
    rw [e3, if_neg (by simp [h0])]
    rfl

/-! ## Hypotheses -/

/-- A file with a header, an empty sub-block directory and an empty attachment directory. -/
private def exFile : Disk := ⟨992, fun i =>
  if i < 16 then fileMagic[i]?.getD 0 else if i = 84 then 0x20 else if i = 85 then 2 else if i = 104 then 0xC0 else if i = 105 then 2
  else if 544 ≤ i ∧ i < 560 then subDirMagic[i - 544]?.getD 0 else if i = 568 then 128
  else if 704 ≤ i ∧ i < 720 then attDirMagic[i - 704]?.getD 0 else 0⟩

private def failing : World := fun _ _ _ => []

private theorem failing_faulty (files : Nat → Disk) : Faulty files failing := fun id off n => ⟨List.nil_prefix, (files id).read_length_le off n⟩

private theorem working_faulty (files : Nat → Disk) : Faulty files (working files) := fun id off n => ⟨List.prefix_rfl, (files id).read_length_le off n⟩

-- The file can be opened; `Open` on a failing stream throws, again it succeeds, a call fails and succeeds when it is made again.
private def al1 : Alloc := fun _ => true
private def outs : List Nat := (run al1 Obj.new [(.open 0 .default, failing), (.fileHeader, failing), (.open 0 .default, working fun _ => exFile), (.readSubBlock 0, failing),
  (.open 0 .default, working fun _ => exFile), (.attachments, failing), (.readMetadata, failing), (.close, failing), (.subBlocks, failing)]).1.map fun p =>
    match p.2 with | .ok _ => 1 | .throws => 0 | .undefined => 2
example : outs = [0, 0, 1, 1, 0, 1, 0, 1, 0] := by decide +kernel
example : (current (run al1 Obj.new [(.open 0 .default, failing), (.open 7 .default, working fun _ => exFile)]).1 none |>.map Prod.fst) = some 7 := by decide +kernel
example : (match readHeader exFile.stream with | .ok h => h.attDirPos | _ => 0) = 704 := by decide +kernel
-- The attachment directory cannot be read, the sub-block directory can.
example : let w : World := fun _ => fun off n => if off = 704 then [] else exFile.stream off n
    (match readHeader (w 0) with
      | .ok h => (readSubDir al1 (w 0) (parseOptions .default) h.subDirPos).toOption.isSome && !(readAttDir al1 (w 0) h.attDirPos).toOption.isSome
      | _ => false) = true := by decide +kernel
-- A function that keeps its contract: every other position gives an error.
example (d : Disk) : KeepsContract (fun off n => if off % 2 = 0 then ⟨5, [], none⟩ else ⟨0, (d.stream off n).take 3, some ((d.stream off n).take 3).length⟩) d := by
  intro off n h
  by_cases h2 : off % 2 = 0
  · simp [h2] at h
  · simp only [if_neg h2]
    exact ⟨List.take_prefix _ _, .inl trivial⟩

end Verif
