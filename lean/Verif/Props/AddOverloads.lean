import Verif.Proof.AddOverloads
import Verif.Props.Document
import Verif.Props.ReaderWriter

/-!
# C67: the convenience forms of adding a sub-block
-/

namespace Verif

open Verif.Spec Verif.Czi

/-! ## The writer -/

/-- **C67 (strided bitmap).** A bitmap of `w` times `h` pixels whose line `y` starts at byte `y * stride` of the memory given (which need not
extend behind the last pixel; the stride may have any value, also less than a line) is passed on so that byte `i` of line `y` of the sub-block's bitmap is
byte `y * stride + i` of the memory; size, position, pixel type, metadata and attachment are as given. -/
theorem C67_strided (s : AddStrided) (mem : Buf) (w h bpp : Nat) (ha : BitmapArgs s.base s.metadata s.attachment w h bpp) (hp : s.ptr = some mem)
    (hm : ∀ y < h, y * s.stride + w * bpp ≤ mem.size) :
    ∃ a, s.info = .ok a ∧ Delivers s.base s.metadata s.attachment w h bpp (fun y i => mem.get (y * s.stride + i)) a := by
  have hs := ha.size
  have hw : w * bpp ≤ h * (w * bpp) := Nat.le_mul_of_pos_left _ ha.pos.2
  unfold AddStrided.info
  rw [ha.pixel]
  dsimp only
  rw [ha.width, ha.height, show (w : Int) * (bpp : Int) = ((w * bpp : Nat) : Int) by norm_num, toSizeT_nat (by omega),
    show (h : Int) * ((w * bpp : Nat) : Int) = ((h * (w * bpp) : Nat) : Int) by norm_num, toSizeT_nat (by omega), Int.toNat_natCast,
    strided_lines hp (fun y => y * s.stride) (w * bpp) h hm]
  have hl : ∀ y, ((fun y => (List.range (w * bpp)).map fun i => mem.get (y * s.stride + i)) y).length = w * bpp := by intro y; simp
  exact delivers_of ha (flatten_rows_length hl h) hs (Nat.le_refl _) (fun y hy i hi => by
    rw [flatten_rows_get hl h y i hy hi]
    simp [hi])

/-- **C67 (lines).** The same for a bitmap given line by line. -/
theorem C67_lines (s : AddLinewise) (mem : Nat → Buf) (w h bpp : Nat) (ha : BitmapArgs s.base s.metadata s.attachment w h bpp)
    (hm : ∀ y < h, s.line y = some (mem y) ∧ w * bpp ≤ (mem y).size) :
    ∃ a, s.info = .ok a ∧ Delivers s.base s.metadata s.attachment w h bpp (fun y i => (mem y).get i) a := by
  have hs := ha.size
  have hw : w * bpp ≤ h * (w * bpp) := Nat.le_mul_of_pos_left _ ha.pos.2
  unfold AddLinewise.info
  rw [ha.pixel]
  dsimp only
  rw [ha.width, ha.height, show (w : Int) * (bpp : Int) = ((w * bpp : Nat) : Int) by norm_num, toSizeT_nat (by omega),
    show (h : Int) * ((w * bpp : Nat) : Int) = ((h * (w * bpp) : Nat) : Int) by norm_num, toSizeT_nat (by omega), Int.toNat_natCast,
    linewise_lines (w * bpp) h hm]
  have hl : ∀ y, ((fun y => (List.range (w * bpp)).map fun i => (mem y).get i) y).length = w * bpp := by intro y; simp
  exact delivers_of ha (flatten_rows_length hl h) hs (Nat.le_refl _) (fun y hy i hi => by
    rw [flatten_rows_get hl h y i hy hi]
    simp [hi])

/-- **C67 (contiguous memory).** The same for a bitmap in contiguous memory without space between the lines. (The reader-writer uses the same code.) -/
theorem C67_memory (s : AddMemPtr) (mem : Buf) (w h bpp : Nat) (ha : BitmapArgs s.base s.metadata s.attachment w h bpp) (hp : s.data.ptr = some mem)
    (hz : s.data.size = h * (w * bpp)) (hm : s.data.size ≤ mem.size) :
    ∃ a, s.info = .ok a ∧ Delivers s.base s.metadata s.attachment w h bpp (fun y i => mem.get (y * (w * bpp) + i)) a := by
  have hs := ha.size
  unfold AddMemPtr.info Given.source
  rw [hp]
  dsimp only
  rw [memBytes_some (by omega)]
  refine delivers_of ha (by simp) (by omega) (by omega) (fun y hy i hi => ?_)
  have h1 : (y + 1) * (w * bpp) ≤ h * (w * bpp) := Nat.mul_le_mul_right _ (by omega)
  rw [Nat.succ_mul] at h1
  simp only [List.flatten_cons, List.flatten_nil, List.append_nil, List.getElem?_map]
  rw [List.getElem?_range (by omega)]
  simp

/-- An invalid pixel type is rejected. -/
theorem C67_invalid_pixel_type (s : AddStrided) (l : AddLinewise) (hs : s.base.pixelType = .Invalid) (hl : l.base.pixelType = .Invalid) :
    s.info = .throws ∧ l.info = .throws ∧ l.infoRW = .throws := by
  unfold AddStrided.info AddLinewise.info AddLinewise.infoRW
  rw [hs, hl]
  exact ⟨rfl, rfl, rfl⟩

/-- **C67 (null pointers).** If the function for the lines delivers a null pointer for a line (the lines before it being there), the call throws, whatever the state of the writer or of the
stream; the same for a strided bitmap with a null pointer. The same code is used by the reader-writer. -/
theorem C67_null (w h bpp : Nat) (hb : 0 < bpp) :
    (∀ (s : AddLinewise) (mem : Nat → Buf) (j : Nat), BitmapArgs s.base s.metadata s.attachment w h bpp → j < h → (∀ y < j, s.line y = some (mem y) ∧ w * bpp ≤ (mem y).size) →
      s.line j = none → ∃ a, s.info = .ok a ∧ (∀ st fs, (stepOp st (.addSubBlock a) fs).2.1 ≠ none) ∧ ∀ pos specified n, (writeSubBlock pos specified a).result ≠ .ok n) ∧
    (∀ s : AddStrided, BitmapArgs s.base s.metadata s.attachment w h bpp → s.ptr = none →
      ∃ a, s.info = .ok a ∧ (∀ st fs, (stepOp st (.addSubBlock a) fs).2.1 ≠ none) ∧ ∀ pos specified n, (writeSubBlock pos specified a).result ≠ .ok n) := by
  have key : ∀ (b : AddBase) (metadata attachment : Given) (src : Source), BitmapArgs b metadata attachment w h bpp → src.null = true → src.bytes.length < h * (w * bpp) →
      ∃ a, b.with (h * (w * bpp)) (some src) metadata attachment = .ok a ∧ (∀ st fs, (stepOp st (.addSubBlock a) fs).2.1 ≠ none) ∧
        ∀ pos specified n, (writeSubBlock pos specified a).result ≠ .ok n := by
    intro b metadata attachment src ha h1 h2
    obtain ⟨m, hm, _⟩ := source_valid ha.metadata.1
    obtain ⟨t, ht, _⟩ := source_valid ha.attachment.1
    unfold AddBase.with
    rw [hm, ht]
    have hs := ha.size
    refine ⟨_, rfl, fun st fs => addSubBlock_null st fs ?_ ?_, fun pos sp => writeSubBlock_null ?_ ?_⟩
    · dsimp only; omega
    · exact ⟨src, rfl, h1, h2⟩
    · dsimp only; omega
    · exact ⟨src, rfl, h1, h2⟩
  have hlen : ∀ (g : Nat → List UInt8) (j : Nat), (∀ y, (g y).length = w * bpp) → ((List.range j).map g).flatten.length = j * (w * bpp) := fun g j hg => flatten_rows_length hg j
  constructor
  · intro s mem j ha hj hm hn
    have hs := ha.size
    have hw : w * bpp ≤ h * (w * bpp) := Nat.le_mul_of_pos_left _ ha.pos.2
    have hwp : 0 < w * bpp := Nat.mul_pos ha.pos.1 hb
    unfold AddLinewise.info
    rw [ha.pixel]
    dsimp only
    rw [ha.width, ha.height, show (w : Int) * (bpp : Int) = ((w * bpp : Nat) : Int) by norm_num, toSizeT_nat (by omega),
      show (h : Int) * ((w * bpp : Nat) : Int) = ((h * (w * bpp) : Nat) : Int) by norm_num, toSizeT_nat (by omega), Int.toNat_natCast]
    rw [linesFrom_null (g := fun y => (List.range (w * bpp)).map fun i => (mem y).get i) j 0 h hj ?_ ?_]
    · refine key _ _ _ _ ha rfl ?_
      show ((List.range j).map _).flatten.length < _
      rw [hlen _ j (by intro y; simp)]
      exact Nat.mul_lt_mul_of_pos_right hj hwp
    · intro k hk
      rw [Nat.zero_add]
      unfold AddLinewise.bytes
      rw [(hm k hk).1]
      dsimp only
      rw [memBytes_some (by have := (hm k hk).2; omega)]
      simp
    · rw [Nat.zero_add]
      unfold AddLinewise.bytes
      rw [hn]
  · intro s ha hp
    have hs := ha.size
    have hw : w * bpp ≤ h * (w * bpp) := Nat.le_mul_of_pos_left _ ha.pos.2
    have hwp : 0 < w * bpp := Nat.mul_pos ha.pos.1 hb
    unfold AddStrided.info
    rw [ha.pixel]
    dsimp only
    rw [ha.width, ha.height, show (w : Int) * (bpp : Int) = ((w * bpp : Nat) : Int) by norm_num, toSizeT_nat (by omega),
      show (h : Int) * ((w * bpp : Nat) : Int) = ((h * (w * bpp) : Nat) : Int) by norm_num, toSizeT_nat (by omega), Int.toNat_natCast]
    rw [linesFrom_null (g := fun _ => []) 0 0 h ha.pos.2 (by omega) ?_]
    · refine key _ _ _ _ ha rfl ?_
      show 0 < _
      omega
    · unfold AddStrided.bytes
      rw [hp]

/-- **C67 (read back).** Whatever is written before and after it: a sub-block passed on this way whose add did not throw is in the document,
and the reader shows the picture and everything else as given. -/
theorem C67_read_back (dup : Bool) (d0 : Disk) (info : WriterInfo) (ops : List WOp) (hi : InfoOk info) (hops : OpsOk ops)
    (hsz : ∀ a ∈ subsOf ops, a.sizeData ≤ 2147483647) (o : OpenOptions) (al : Alloc) (hal : ∀ n, al n = true) :
    ∃ disk done doc, writeDoc dup d0 info ops = some (disk, done) ∧ openDoc al disk.stream o = .ok doc ∧
      ∀ b metadata attachment w h bpp f, ∀ a ∈ subsOf done, Delivers b metadata attachment w h bpp f a →
        ∃ i sb, doc.readSubBlock al disk.stream i = .ok (some sb) ∧ Shows b metadata attachment w h bpp f (viewRead sb) := by
  obtain ⟨disk, done, h1, doc, h2, sbs, h3, h4, h5, _⟩ := C01_sub_blocks_read_back_partial dup d0 info ops hi hops hsz o al hal
  refine ⟨disk, done, doc, h1, h2, ?_⟩
  intro b metadata attachment w h bpp f a ha hd
  have := h5.mem_iff.2 (List.mem_map_of_mem ha)
  obtain ⟨sb, hs1, hs2⟩ := List.mem_map.1 this
  obtain ⟨i, hi', he⟩ := List.getElem_of_mem hs1
  refine ⟨i, sb, ?_, ?_⟩
  · rw [h4 i hi', he]
  · rw [hs2]; exact hd.shows

/-! ## The reader-writer -/

/-- **C67 (reader-writer, lines).** Lines passed to the reader-writer (to add or to replace a sub-block) are passed on as given. -/
theorem C67_rw_lines (s : AddLinewise) (mem : Nat → Buf) (w h bpp : Nat) (ha : BitmapArgs s.base s.metadata s.attachment w h bpp)
    (hm : ∀ y < h, s.line y = some (mem y) ∧ w * bpp ≤ (mem y).size) :
    ∃ a, s.infoRW = .ok a ∧ Delivers s.base s.metadata s.attachment w h bpp (fun y i => (mem y).get i) a := by
  have hs := ha.size
  have hw : w * bpp ≤ h * (w * bpp) := Nat.le_mul_of_pos_left _ ha.pos.2
  have := C67_lines s mem w h bpp ha hm
  unfold AddLinewise.info at this
  unfold AddLinewise.infoRW
  rw [ha.pixel] at this ⊢
  dsimp only at this ⊢
  rw [if_neg ?_]
  · exact this
  · rw [ha.width]
    have : (w : Int) * (bpp : Int) = ((w * bpp : Nat) : Int) := by norm_num
    omega

/-- **C67 violated (reader-writer, strided bitmap).** The reader-writer keeps the space between the lines but the reader does not know of it: for a
stride larger than a line, byte `i` of line `y` of the bitmap that is read back is byte `y * w * bpp + i` of the memory given, not
`y * stride + i`. -/
theorem C67_rw_strided_wrong_lines (s : AddStrided) (mem : Buf) (w h bpp : Nat) (ha : BitmapArgs s.base s.metadata s.attachment w h bpp) (hp : s.ptr = some mem)
    (hst : w * bpp ≤ s.stride) (hz : h * s.stride ≤ 2147483647) (hm : h * s.stride ≤ mem.size) :
    ∃ a, s.infoRW = .ok a ∧ Delivers s.base s.metadata s.attachment w h bpp (fun y i => mem.get (y * (w * bpp) + i)) a := by
  unfold AddStrided.infoRW
  have hmul : ∀ y < h, y * s.stride + s.stride ≤ h * s.stride := by
    intro y hy
    have h1 : (y + 1) * s.stride ≤ h * s.stride := Nat.mul_le_mul_right _ (by omega)
    rwa [Nat.succ_mul] at h1
  have hoff : ∀ y < h, y * s.stride % 4294967296 = y * s.stride := by
    intro y hy
    have := hmul y hy
    exact Nat.mod_eq_of_lt (by omega)
  rw [ha.height, show (h : Int) * (s.stride : Int) = ((h * s.stride : Nat) : Int) by norm_num, toSizeT_nat (by omega), Int.toNat_natCast,
    strided_lines hp (fun y => y * s.stride % 4294967296) s.stride h (fun y hy => by
      have := hmul y hy
      rw [hoff y hy]; omega)]
  have hl : ∀ y, ((fun y => (List.range s.stride).map fun i => mem.get (y * s.stride % 4294967296 + i)) y).length = s.stride := by intro y; simp
  have hle : h * (w * bpp) ≤ h * s.stride := Nat.mul_le_mul_left _ hst
  refine delivers_of ha (flatten_rows_length hl h) hz hle (fun y hy i hi => ?_)
  have h1 : (y + 1) * (w * bpp) ≤ h * (w * bpp) := Nat.mul_le_mul_right _ (by omega)
  rw [Nat.succ_mul] at h1
  have hpos : 0 < s.stride := by omega
  have hq : (y * (w * bpp) + i) / s.stride < h := (Nat.div_lt_iff_lt_mul hpos).2 (by omega)
  have hr : (y * (w * bpp) + i) % s.stride < s.stride := Nat.mod_lt _ hpos
  have hg := flatten_rows_get hl h _ _ hq hr
  rw [Nat.div_add_mod'] at hg
  rw [hg]
  simp only [List.getElem?_map, List.getElem?_range hr, Option.map_some]
  rw [hoff _ hq, Nat.div_add_mod']

/-- **C67 (reader-writer, strided bitmap; partial: only if there is no space between the lines).** -/
theorem C67_rw_strided_partial (s : AddStrided) (mem : Buf) (w h bpp : Nat) (ha : BitmapArgs s.base s.metadata s.attachment w h bpp) (hp : s.ptr = some mem)
    (hst : s.stride = w * bpp) (hm : h * s.stride ≤ mem.size) :
    ∃ a, s.infoRW = .ok a ∧ Delivers s.base s.metadata s.attachment w h bpp (fun y i => mem.get (y * s.stride + i)) a := by
  rw [hst]
  exact C67_rw_strided_wrong_lines s mem w h bpp ha hp (by omega) (by rw [hst]; exact ha.size) hm

/-- **C67 violated (reader-writer, strided bitmap).** It reads behind the end of a bitmap whose memory ends with the last pixel. (The writer does not:
`C67_strided`.) -/
theorem C67_rw_strided_overrun (s : AddStrided) (mem : Buf) (w h bpp : Nat) (ha : BitmapArgs s.base s.metadata s.attachment w h bpp) (hp : s.ptr = some mem)
    (hst : w * bpp < s.stride) (hz : h * s.stride < 4294967296) (hm : mem.size = (h - 1) * s.stride + w * bpp) :
    (∃ a, s.info = .ok a ∧ Delivers s.base s.metadata s.attachment w h bpp (fun y i => mem.get (y * s.stride + i)) a) ∧ s.infoRW = .undefined := by
  have hmul : ∀ y < h, y * s.stride ≤ (h - 1) * s.stride := fun y hy => Nat.mul_le_mul_right _ (by omega)
  have hlt : ∀ y < h, y * s.stride % 4294967296 = y * s.stride := by
    intro y hy
    have : y * s.stride ≤ h * s.stride := Nat.mul_le_mul_right _ (by omega)
    exact Nat.mod_eq_of_lt (by omega)
  have hpos := ha.pos.2
  refine ⟨C67_strided s mem w h bpp ha hp (fun y hy => by have := hmul y hy; omega), ?_⟩
  unfold AddStrided.infoRW AddBase.with
  rw [ha.height, Int.toNat_natCast, linesFrom_none (g := fun y => (List.range s.stride).map fun i => mem.get (y * s.stride + i)) h 0 (h - 1) (by omega) (by omega) ?_ ?_]
  · unfold AddStrided.bytes memBytes
    rw [hp]
    dsimp only
    rw [hlt _ (by omega), if_neg (by omega)]
    rfl
  · intro z _ hz'
    unfold AddStrided.bytes
    rw [hp]
    dsimp only
    have h1 : (z + 1) * s.stride ≤ (h - 1) * s.stride := Nat.mul_le_mul_right _ (by omega)
    rw [Nat.succ_mul] at h1
    rw [hlt z (by omega), memBytes_some (by omega)]
    rfl

/-- **C67 (reader-writer, shown).** While editing: a sub-block passed on this way is shown under its key as given, if the reader-writer shows the
contents with it (`C11_edit_partial` and the other theorems of C11 say when). -/
theorem C67_rw_shown {al : Alloc} {s : RW} {c : Content} (hs : EditorShows al s c) {k : Int} {a : AddInfo} (hk : c.subs k = some (viewAdded a))
    {b : AddBase} {metadata attachment : Given} {w h bpp : Nat} {f : Nat → Nat → UInt8} (hd : Delivers b metadata attachment w h bpp f a) :
    ∃ sb, s.readSubBlock al k = .ok (some sb) ∧ Shows b metadata attachment w h bpp f (viewRead sb) := by
  have := hs.subBlock k
  rw [hk] at this
  cases hr : s.readSubBlock al k with
  | error e => rw [hr] at this; cases this
  | ok r =>
    rw [hr] at this
    cases r with
    | none => simp [Except.map] at this
    | some sb =>
      simp only [Except.map, Option.map_some, Except.ok.injEq, Option.some.injEq] at this
      exact ⟨sb, rfl, by rw [this]; exact hd.shows⟩

/-! ## A case -/

/-- 2 times 2 pixels with 1 byte each, of memory with 3 bytes per line (without the space after the last line), with metadata. -/
def exStrided : AddStrided where
  base := { coordinate := Coord.empty.set .C 0, mIndex := some 0, x := 5, y := -5, logicalWidth := 2, logicalHeight := 2, physicalWidth := 2,
            physicalHeight := 2, pixelType := .Gray8, pyramidType := .None, compression := 0 }
  ptr := some (Buf.ofList [1, 2, 99, 3, 4])
  stride := 3
  metadata := ⟨some (Buf.ofList [60, 62]), 2⟩
  attachment := ⟨none, 0⟩

theorem exStrided_args : BitmapArgs exStrided.base exStrided.metadata exStrided.attachment 2 2 1 where
  fits := {
    coordinate := by
      intro d v h
      unfold exStrided Coord.set Coord.empty at h
      simp only at h
      split at h
      · injection h with h; subst h; exact ⟨by decide, by decide⟩
      · cases h
    mIndex := by intro m h; cases h; exact ⟨by decide, by decide⟩
    x := (⟨by decide, by decide⟩ : IsInt32 exStrided.base.x)
    y := (⟨by decide, by decide⟩ : IsInt32 exStrided.base.y)
    logicalWidth := (⟨by decide, by decide⟩ : IsInt32 exStrided.base.logicalWidth)
    logicalHeight := (⟨by decide, by decide⟩ : IsInt32 exStrided.base.logicalHeight)
    physicalWidth := (⟨by decide, by decide⟩ : IsInt32 exStrided.base.physicalWidth)
    physicalHeight := (⟨by decide, by decide⟩ : IsInt32 exStrided.base.physicalHeight)
    compression := (⟨by decide, by decide⟩ : IsInt32 exStrided.base.compression) }
  pixel := rfl
  width := rfl
  height := rfl
  pos := by decide
  size := by decide
  uncompressed := rfl
  metadata := ⟨Or.inr ⟨_, rfl, by decide⟩, by decide⟩
  attachment := ⟨Or.inl rfl, by decide⟩

/-- The writer shows the picture 1 2 / 3 4, the reader-writer reads behind the end of the memory. -/
example : (∃ a, exStrided.info = .ok a ∧ Delivers exStrided.base exStrided.metadata exStrided.attachment 2 2 1
      (fun y i => (Buf.ofList [1, 2, 99, 3, 4]).get (y * 3 + i)) a) ∧ exStrided.infoRW = .undefined :=
  C67_rw_strided_overrun exStrided _ 2 2 1 exStrided_args rfl (by decide) (by decide) (by decide)

/-- With one more byte of memory the reader-writer shows the picture 1 2 / 99 3. -/
example : ∃ a, ({ exStrided with ptr := some (Buf.ofList [1, 2, 99, 3, 4, 98]) } : AddStrided).infoRW = .ok a ∧
    Delivers exStrided.base exStrided.metadata exStrided.attachment 2 2 1 (fun y i => (Buf.ofList [1, 2, 99, 3, 4, 98]).get (y * 2 + i)) a :=
  C67_rw_strided_wrong_lines { exStrided with ptr := some (Buf.ofList [1, 2, 99, 3, 4, 98]) } _ 2 2 1 exStrided_args rfl (by decide) (by decide) (by decide)

/-- Line by line, and without space between the lines: the reader-writer shows the picture given. -/
example : (∃ a, (⟨exStrided.base, fun y => some (Buf.ofList [y.toUInt8, 7]), exStrided.metadata, exStrided.attachment⟩ : AddLinewise).infoRW = .ok a) ∧
    (∃ a, (⟨exStrided.base, some (Buf.ofList [1, 2, 3, 4]), 2, exStrided.metadata, exStrided.attachment⟩ : AddStrided).infoRW = .ok a) ∧
    (∃ a, (⟨exStrided.base, ⟨some (Buf.ofList [1, 2, 3, 4]), 4⟩, exStrided.metadata, exStrided.attachment⟩ : AddMemPtr).info = .ok a) := by
  refine ⟨?_, ?_, ?_⟩
  · obtain ⟨a, h, _⟩ := C67_rw_lines ⟨exStrided.base, fun y => some (Buf.ofList [y.toUInt8, 7]), exStrided.metadata, exStrided.attachment⟩
      (fun y => Buf.ofList [y.toUInt8, 7]) 2 2 1 exStrided_args (fun y _ => ⟨rfl, Nat.le_refl 2⟩)
    exact ⟨a, h⟩
  · obtain ⟨a, h, _⟩ := C67_rw_strided_partial ⟨exStrided.base, some (Buf.ofList [1, 2, 3, 4]), 2, exStrided.metadata, exStrided.attachment⟩ _ 2 2 1
      exStrided_args rfl (by decide) (by decide)
    exact ⟨a, h⟩
  · obtain ⟨a, h, _⟩ := C67_memory ⟨exStrided.base, ⟨some (Buf.ofList [1, 2, 3, 4]), 4⟩, exStrided.metadata, exStrided.attachment⟩ _ 2 2 1
      exStrided_args rfl (by decide) (by decide)
    exact ⟨a, h⟩

/-- The sample bitmap with a null pointer. -/
example : ∃ a, { exStrided with ptr := none }.info = .ok a ∧ ∀ st fs, (stepOp st (.addSubBlock a) fs).2.1 ≠ none := by
  obtain ⟨a, h1, h2, _⟩ := (C67_null 2 2 1 (by decide)).2 { exStrided with ptr := none } exStrided_args rfl
  exact ⟨a, h1, h2⟩

end Verif
