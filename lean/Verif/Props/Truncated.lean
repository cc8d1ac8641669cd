import Verif.Model.Parse
import Verif.Proof.Disk

/-! # C47: truncated files -/

namespace Verif.Spec

open Verif.Czi

/-- The file cut off after `n` bytes. -/
def truncated (d : Disk) (n : Nat) : Disk := ⟨min d.size n, d.get⟩

/-- The outcome `a` is the outcome `b`, or an exception. (`RErr.undefined` stands for undefined behaviour and is no exception.) -/
def SameOrThrows {α : Type} (a b : Except RErr α) : Prop := a = b ∨ ∃ e, e ≠ .undefined ∧ a = .error e

/-- The stream `t` delivers for every request the bytes of `s` or only a first part of them; neither delivers more than requested. -/
def DeliversLess (t s : Stream) : Prop := ∀ off n, t off n <+: s off n ∧ (s off n).length ≤ n

end Verif.Spec

namespace Verif

open Czi Spec

theorem truncated_less (d : Disk) (n : Nat) : DeliversLess (truncated d n).stream d.stream := by
  intro off k
  refine ⟨?_, d.read_length_le off k⟩
  have hle : min k (min d.size n - off) ≤ min k (d.size - off) := by omega
  show List.map _ (List.range (min k (min d.size n - off))) <+: List.map _ (List.range (min k (d.size - off)))
  obtain ⟨m, hm⟩ := Nat.exists_eq_add_of_le hle
  rw [hm, List.range_add, List.map_append]
  exact List.prefix_append _ _

namespace SameOrThrows

theorem refl {α : Type} (a : Except RErr α) : SameOrThrows a a := Or.inl rfl

theorem bind {α β : Type} {a b : Except RErr α} {f g : α → Except RErr β} (h : SameOrThrows a b) (hf : ∀ x, SameOrThrows (f x) (g x)) :
    SameOrThrows (a >>= f) (b >>= g) := by
  rcases h with rfl | ⟨e, he, rfl⟩
  · cases a with
    | error e => exact Or.inl rfl
    | ok x => exact hf x
  · exact Or.inr ⟨e, he, rfl⟩

theorem map {α β : Type} {a b : Except RErr α} (f : α → β) (h : SameOrThrows a b) : SameOrThrows (a.map f) (b.map f) := by
  rcases h with rfl | ⟨e, he, rfl⟩
  · exact Or.inl rfl
  · exact Or.inr ⟨e, he, rfl⟩

end SameOrThrows

variable {t s : Stream}

/-- What a shorter stream delivers, if complete, is the same. -/
theorem less_full (h : DeliversLess t s) {off n : Nat} (hn : (t off n).length = n) : t off n = s off n := by
  obtain ⟨⟨r, hr⟩, hl⟩ := h off n
  rw [← hr] at hl ⊢
  have : r = [] := by
    simp only [List.length_append] at hl
    exact List.eq_nil_of_length_eq_zero (by omega)
  simp [this]

theorem less_length (h : DeliversLess t s) (off n : Nat) : (t off n).length ≤ (s off n).length := (h off n).1.length_le

theorem readExact_less (h : DeliversLess t s) (off n : Nat) : SameOrThrows (readExact t off n) (readExact s off n) := by
  unfold readExact
  by_cases hn : (t off n).length = n
  · rw [less_full h hn]; exact Or.inl rfl
  · exact Or.inr ⟨.notEnough, by simp, by simp [hn]⟩

theorem readMalloc_less (h : DeliversLess t s) (alloc : Alloc) (off n : Nat) : SameOrThrows (readMalloc alloc t off n) (readMalloc alloc s off n) := by
  unfold readMalloc
  have := less_length h off n
  by_cases h1 : alloc n = false ∧ 0 < (t off n).length
  · rw [if_pos h1, if_pos ⟨h1.1, by omega⟩]; exact Or.inl rfl
  · rw [if_neg h1]
    by_cases h2 : alloc n = false ∧ 0 < (s off n).length
    · have h0 : (t off n).length = 0 := by
        rcases Nat.eq_zero_or_pos (t off n).length with h0 | h0
        · exact h0
        · exact absurd ⟨h2.1, h0⟩ h1
      have hsn := (h off n).2
      exact Or.inr ⟨.notEnough, by simp, by unfold readExact; simp only []; rw [if_neg (by omega)]⟩
    · rw [if_neg h2]; exact readExact_less h off n

theorem i32_small {k : Nat} (h : k < 2 ^ 31) : i32 k = k := by
  unfold i32 toSigned
  have : ((k : Int) % (2 ^ 32 : Nat)).toNat = k := by omega
  rw [this, if_pos (by omega)]

theorem i32_lt (n : Int) : i32 n < 2 ^ 31 := by
  unfold i32 toSigned
  split <;> omega

theorem readPayload_less (h : DeliversLess t s) (alloc : Alloc) (off : Nat) (n : Int) :
    SameOrThrows (readPayload alloc t off n) (readPayload alloc s off n) := by
  unfold readPayload
  by_cases h1 : n > 0 ∧ alloc n.toNat = true
  · rw [if_pos h1, if_pos h1]
    simp only []
    by_cases h2 : i32 (t off n.toNat).length ≠ n
    · exact Or.inr ⟨.notEnough, by simp, by rw [if_pos h2]⟩
    · have hlt := i32_lt (t off n.toNat).length
      have hle := less_length h off n.toNat
      have hle2 := (h off n.toNat).2
      have hn : (t off n.toNat).length = n.toNat := by
        have h2' : i32 (t off n.toNat).length = n := Classical.not_not.1 h2
        rw [i32_small (by omega)] at h2'
        omega
      rw [less_full h hn]; exact Or.inl rfl
  · rw [if_neg h1, if_neg h1]; exact Or.inl rfl

theorem readHeader_less (h : DeliversLess t s) : SameOrThrows (readHeader t) (readHeader s) :=
  SameOrThrows.bind (readExact_less h _ _) (fun _ => SameOrThrows.refl _)

theorem readSubDir_less (h : DeliversLess t s) (alloc : Alloc) (o : ParseOptions) (off : Nat) :
    SameOrThrows (readSubDir alloc t o off) (readSubDir alloc s o off) := by
  refine SameOrThrows.bind (readExact_less h _ _) (fun b => ?_)
  split
  · exact SameOrThrows.refl _
  · dsimp only
    split
    · split
      · exact SameOrThrows.refl _
      · exact SameOrThrows.bind (readMalloc_less h _ _ _) (fun _ => SameOrThrows.refl _)
    · split
      · exact SameOrThrows.refl _
      · exact SameOrThrows.bind (readMalloc_less h _ _ _) (fun _ => SameOrThrows.refl _)

theorem readAttDir_less (h : DeliversLess t s) (alloc : Alloc) (off : Nat) :
    SameOrThrows (readAttDir alloc t off) (readAttDir alloc s off) := by
  refine SameOrThrows.bind (readExact_less h _ _) (fun b => ?_)
  split
  · exact SameOrThrows.refl _
  · dsimp only
    split
    · exact SameOrThrows.bind (readMalloc_less h _ _ _) (fun _ => SameOrThrows.refl _)
    · exact SameOrThrows.refl _

theorem readRest_less (h : DeliversLess t s) (off len : Nat) : SameOrThrows (readRest t off len) (readRest s off len) := by
  unfold readRest
  split
  · dsimp only
    have hle := less_length h (u64 (off + 288)) (len + 32 - 288)
    by_cases h1 : (t (u64 (off + 288)) (len + 32 - 288)).length > 592
    · rw [if_pos h1, if_pos (by omega)]; exact Or.inl rfl
    · rw [if_neg h1]
      by_cases h2 : (s (u64 (off + 288)) (len + 32 - 288)).length > 592
      · have hsn := (h (u64 (off + 288)) (len + 32 - 288)).2
        refine Or.inr ⟨.notEnough, by simp, ?_⟩
        unfold readExact; simp only []; rw [if_neg (by omega)]
      · rw [if_neg h2]; exact readExact_less h _ _
  · exact SameOrThrows.refl _

theorem readSbHeader_less (h : DeliversLess t s) (off : Nat) : SameOrThrows (readSbHeader t off) (readSbHeader s off) := by
  refine SameOrThrows.bind (readExact_less h _ _) (fun b => ?_)
  split
  · exact SameOrThrows.refl _
  · split
    · dsimp only
      split
      · exact SameOrThrows.refl _
      · exact SameOrThrows.bind (readRest_less h _ _) (fun _ => SameOrThrows.refl _)
    · exact SameOrThrows.refl _

theorem readSubBlockData_less (h : DeliversLess t s) (alloc : Alloc) (off : Nat) :
    SameOrThrows (readSubBlockData alloc t off) (readSubBlockData alloc s off) := by
  refine SameOrThrows.bind (readSbHeader_less h _) (fun r => ?_)
  obtain ⟨b, c, p, sp, g, len⟩ := r
  dsimp only
  exact SameOrThrows.bind (readPayload_less h _ _ _) fun _ => SameOrThrows.bind (readPayload_less h _ _ _) fun _ =>
    SameOrThrows.bind (readPayload_less h _ _ _) fun _ => SameOrThrows.refl _

theorem readEntry_less (h : DeliversLess t s) (alloc : Alloc) (o : OpenOptions) (e : Entry) :
    SameOrThrows (readEntry alloc t o e) (readEntry alloc s o e) :=
  SameOrThrows.bind (readSubBlockData_less h _ _) (fun _ => SameOrThrows.refl _)

theorem openDoc_less (h : DeliversLess t s) (alloc : Alloc) (o : OpenOptions) :
    SameOrThrows (openDoc alloc t o) (openDoc alloc s o) := by
  refine SameOrThrows.bind (readHeader_less h) (fun hd => ?_)
  refine SameOrThrows.bind (readSubDir_less h _ _ _) (fun r => ?_)
  obtain ⟨es, _⟩ := r
  dsimp only
  split
  · exact SameOrThrows.bind (readAttDir_less h _ _) (fun _ => SameOrThrows.refl _)
  · exact SameOrThrows.refl _

theorem readSubBlock_less (h : DeliversLess t s) (alloc : Alloc) (doc : Doc) (i : Nat) :
    SameOrThrows (doc.readSubBlock alloc t i) (doc.readSubBlock alloc s i) := by
  unfold Doc.readSubBlock
  split
  · exact SameOrThrows.refl _
  · exact SameOrThrows.map _ (readEntry_less h _ _ _)

theorem readAttachment_less (h : DeliversLess t s) (alloc : Alloc) (doc : Doc) (i : Nat) :
    SameOrThrows (doc.readAttachment alloc t i) (doc.readAttachment alloc s i) := by
  unfold Doc.readAttachment
  split
  · exact SameOrThrows.refl _
  · rename_i e _
    have : SameOrThrows (readAttachmentData alloc t e.filePosition) (readAttachmentData alloc s e.filePosition) := by
      refine SameOrThrows.bind (readExact_less h _ _) (fun b => ?_)
      split
      · exact SameOrThrows.refl _
      · exact readPayload_less h _ _ _
    rcases this with h | ⟨err, he, h⟩
    · rw [h]; exact SameOrThrows.refl _
    · rw [h]; exact Or.inr ⟨err, he, rfl⟩

theorem readMetadata_less (h : DeliversLess t s) (alloc : Alloc) (doc : Doc) :
    SameOrThrows (doc.readMetadata alloc t) (doc.readMetadata alloc s) := by
  unfold Doc.readMetadata
  split
  · exact SameOrThrows.refl _
  · refine SameOrThrows.bind (readExact_less h _ _) (fun b => ?_)
    split
    · exact SameOrThrows.refl _
    · exact SameOrThrows.bind (readPayload_less h _ _ _) fun _ => SameOrThrows.bind (readPayload_less h _ _ _) fun _ => SameOrThrows.refl _

/-- **C47 (truncated files).** For every file, every length at which it is cut, all options and every behaviour of the memory allocator:
opening the cut file throws or gives the same outcome - in particular the same directories - as opening the complete file; and with an
opened document every read of a sub-block, attachment or the metadata from the cut file throws or gives the same outcome
as from the complete file. -/
theorem C47_truncated (d : Disk) (n : Nat) (alloc : Alloc) (o : OpenOptions) :
    SameOrThrows (openDoc alloc (truncated d n).stream o) (openDoc alloc d.stream o) ∧
    ∀ doc : Doc,
      (∀ i, SameOrThrows (doc.readSubBlock alloc (truncated d n).stream i) (doc.readSubBlock alloc d.stream i)) ∧
      (∀ i, SameOrThrows (doc.readAttachment alloc (truncated d n).stream i) (doc.readAttachment alloc d.stream i)) ∧
      SameOrThrows (doc.readMetadata alloc (truncated d n).stream) (doc.readMetadata alloc d.stream) :=
  have h := truncated_less d n
  ⟨openDoc_less h alloc o, fun doc => ⟨fun i => readSubBlock_less h alloc doc i, fun i => readAttachment_less h alloc doc i,
    readMetadata_less h alloc doc⟩⟩

/-- **C47 (short reads).** The same for every stream that sometimes delivers fewer bytes than it should, whichever and however often. -/
theorem C47_short_reads (t s : Stream) (h : DeliversLess t s) (alloc : Alloc) (o : OpenOptions) :
    SameOrThrows (openDoc alloc t o) (openDoc alloc s o) ∧
    ∀ doc : Doc,
      (∀ i, SameOrThrows (doc.readSubBlock alloc t i) (doc.readSubBlock alloc s i)) ∧
      (∀ i, SameOrThrows (doc.readAttachment alloc t i) (doc.readAttachment alloc s i)) ∧
      SameOrThrows (doc.readMetadata alloc t) (doc.readMetadata alloc s) :=
  ⟨openDoc_less h alloc o, fun doc => ⟨fun i => readSubBlock_less h alloc doc i, fun i => readAttachment_less h alloc doc i,
    readMetadata_less h alloc doc⟩⟩

/-- **C47 (the whole file is needed to be opened).** A file cut inside of the file header cannot be opened. -/
theorem C47_header_cut (d : Disk) (n : Nat) (hn : n < 544) (alloc : Alloc) (o : OpenOptions) :
    openDoc alloc (truncated d n).stream o = .error .notEnough := by
  have : readExact (truncated d n).stream 0 544 = .error .notEnough := by
    unfold readExact Disk.stream Disk.read truncated
    simp only [List.length_map, List.length_range]
    rw [if_neg (by omega)]
  unfold openDoc openDocWith readHeader
  rw [this]
  rfl

/-! ## Non-vacuity: a stream that delivers less -/

example : DeliversLess (fun off n => (Disk.empty.stream off n).take 3) Disk.empty.stream := by
  intro off n
  exact ⟨List.take_prefix _ _, by simp [Disk.stream, Disk.read, Disk.empty]⟩
example : (truncated ⟨4, fun i => UInt8.ofNat i⟩ 2).stream 1 3 = [1] := by decide

end Verif
