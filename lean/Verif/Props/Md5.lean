import Verif.Proof.Md5

namespace Verif

open Czi Md5

theorem complete_rep (c : Ctx) (m : List UInt8) (h : Rep c m) : complete c = some (Spec.Md5.md5 m) := by
  obtain ⟨hlow, hhigh, hl, hregs, hrest⟩ := h
  have hused : c.count0 % 64 = m.length % 64 := by rw [hlow]; omega
  have hsplit : m = m.take (m.length / 64 * 64) ++ m.drop (m.length / 64 * 64) := (List.take_append_drop _ _).symm
  have hq : (m.drop (m.length / 64 * 64)).length = m.length % 64 := by simp; omega
  have hpl : (m.take (m.length / 64 * 64)).length = 64 * (m.length / 64) := by simp; omega
  have hlb := lengthBytes m.length
  have hwb : ∀ w, (wordBytes w).length = 4 := by intro w; rfl
  -- the padded message
  have hpad : ∀ z, (119 - m.length % 64) % 64 = z →
      Spec.Md5.process Spec.Md5.init (Spec.Md5.pad m) =
      Spec.Md5.process c.regs.state (m.drop (m.length / 64 * 64) ++ [0x80] ++ zeros z ++ le 8 (8 * m.length)) := by
    intro z hz
    unfold Spec.Md5.pad
    rw [hz, hregs, ← process_append (m.length / 64) _ _ _ hpl]
    congr 1
    rw [← List.append_assoc, ← List.append_assoc, ← List.append_assoc, ← hsplit]
    rfl
  have hd : ∀ s : Regs, wordBytes s.a ++ wordBytes s.b ++ wordBytes s.c ++ wordBytes s.d =
      le 4 s.state.1.toNat ++ le 4 s.state.2.1.toNat ++ le 4 s.state.2.2.1.toNat ++ le 4 s.state.2.2.2.toNat := by
    intro s
    simp only [wordBytes_eq]
    rfl
  unfold complete Spec.Md5.md5
  dsimp only
  rw [hused, overlay_ok (by simp; omega), hrest]
  simp only [Option.bind_eq_bind, Option.bind_some, List.length_singleton]
  -- the length of the buffer after putting the 0x80
  have hdl : (c.input.drop (m.length % 64 + 1)).length = 63 - m.length % 64 := by rw [List.length_drop, hl]; omega
  by_cases hf : 64 - (m.length % 64 + 1) < 8
  · rw [if_pos hf]
    have e1 : (m.drop (m.length / 64 * 64) ++ [0x80] ++ c.input.drop (m.length % 64 + 1)).take (m.length % 64 + 1) =
        m.drop (m.length / 64 * 64) ++ [0x80] := by
      rw [List.take_append_of_le_length (by simp; omega), List.take_of_length_le (by simp; omega)]
    rw [overlay_ok (by simp; omega), e1]
    have e2 : (m.drop (m.length / 64 * 64) ++ [0x80] ++ c.input.drop (m.length % 64 + 1)).drop
        (m.length % 64 + 1 + (zeros (64 - (m.length % 64 + 1))).length) = [] :=
      List.drop_of_length_le (by rw [List.length_append, hdl]; simp; omega)
    rw [e2, List.append_nil]
    simp only [Option.bind_some]
    obtain ⟨r1, ht1, hs1⟩ := transform_eq 1 c.regs (m.drop (m.length / 64 * 64) ++ [0x80] ++ zeros (64 - (m.length % 64 + 1)))
      (by omega) (by simp; omega) (by omega)
    rw [show 64 * 1 = 64 from rfl] at ht1 hs1
    have hb1 : (m.drop (m.length / 64 * 64) ++ [0x80] ++ zeros (64 - (m.length % 64 + 1))).length = 64 := by simp; omega
    rw [List.take_of_length_le (by omega)] at hs1
    rw [ht1]
    simp only [Option.bind_some]
    rw [overlay_ok (by simp)]
    simp only [Option.bind_some, List.take_zero, List.nil_append, Nat.zero_add, zeros_length]
    have e3 : ∀ l : List UInt8, (zeros (64 - 8) ++ l).take 56 = zeros 56 := by
      intro l
      rw [List.take_append_of_le_length (by simp), List.take_of_length_le (by simp)]
    rw [overlay_ok (by rw [hwb]; omega), e3]
    simp only [Option.bind_some, hwb]
    rw [overlay_ok (by rw [hwb]; omega)]
    simp only [Option.bind_some, hwb]
    have e4 : ∀ (w : UInt32) (l : List UInt8), (zeros 56 ++ wordBytes w ++ l).take 60 = zeros 56 ++ wordBytes w := by
      intro w l
      rw [List.take_append_of_le_length (by simp [hwb]), List.take_of_length_le (by simp [hwb])]
    rw [e4]
    have e5 : ∀ (w : UInt32) (l l' : List UInt8), l.length = 64 → (zeros 56 ++ wordBytes w ++ l.drop (56 + 4)).drop (60 + 4) = [] := by
      intro w l l' hl
      exact List.drop_of_length_le (by simp [hwb, hl])
    rw [e5 _ _ [] (by simp [hl]; omega), List.append_nil]
    obtain ⟨r2, ht2, hs2⟩ := transform_eq 1 r1 (zeros 56 ++ wordBytes (UInt32.ofNat (c.count0 * 8)) ++ wordBytes (UInt32.ofNat c.count1))
      (by omega) (by simp [hwb]) (by omega)
    rw [show 64 * 1 = 64 from rfl] at ht2 hs2
    rw [List.take_of_length_le (by simp [hwb])] at hs2
    rw [ht2]
    simp only [Option.bind_some]
    have hfin : Spec.Md5.process Spec.Md5.init (Spec.Md5.pad m) = r2.state := by
      rw [hpad (119 - m.length % 64) (by omega), hs2, hs1, ← process_append 1 _ _ _ (by omega), hlb, hlow, hhigh]
      congr 1
      simp only [List.append_assoc, List.append_cancel_left_eq]
      rw [← List.append_assoc (zeros _) (zeros 56), zeros_append]
      congr 2
      omega
    rw [hfin]
    show some (wordBytes r2.a ++ wordBytes r2.b ++ wordBytes r2.c ++ wordBytes r2.d) = _
    rw [hd]
  · rw [if_neg hf]
    simp only [Option.bind_some]
    have e1 : (m.drop (m.length / 64 * 64) ++ [0x80] ++ c.input.drop (m.length % 64 + 1)).take (m.length % 64 + 1) =
        m.drop (m.length / 64 * 64) ++ [0x80] := by
      rw [List.take_append_of_le_length (by simp; omega), List.take_of_length_le (by simp; omega)]
    rw [overlay_ok (by simp; omega), e1]
    simp only [Option.bind_some]
    generalize hg : (m.drop (m.length / 64 * 64) ++ [0x80] ++ c.input.drop (m.length % 64 + 1)).drop
        (m.length % 64 + 1 + (zeros (64 - (m.length % 64 + 1) - 8)).length) = g
    have hgl : g.length = 8 := by
      rw [← hg, List.length_drop, List.length_append, hdl]; simp; omega
    generalize hP : m.drop (m.length / 64 * 64) ++ [0x80] ++ zeros (64 - (m.length % 64 + 1) - 8) = P
    have hPl : P.length = 56 := by rw [← hP]; simp; omega
    rw [overlay_ok (by rw [hwb]; omega)]
    simp only [Option.bind_some, hwb]
    rw [List.take_append_of_le_length (by omega), List.take_of_length_le (l := P) (by omega)]
    rw [overlay_ok (by rw [hwb]; omega)]
    simp only [Option.bind_some, hwb]
    have e4 : ∀ (w : UInt32) (l : List UInt8), (P ++ wordBytes w ++ l).take 60 = P ++ wordBytes w := by
      intro w l
      rw [List.take_append_of_le_length (by simp [hwb, hPl]), List.take_of_length_le (by simp [hwb, hPl])]
    rw [e4, List.drop_of_length_le (l := P ++ wordBytes _ ++ _) (by simp [hwb, hPl, hgl]), List.append_nil]
    obtain ⟨r2, ht2, hs2⟩ := transform_eq 1 c.regs (P ++ wordBytes (UInt32.ofNat (c.count0 * 8)) ++ wordBytes (UInt32.ofNat c.count1))
      (by omega) (by simp [hwb, hPl]) (by omega)
    rw [show 64 * 1 = 64 from rfl] at ht2 hs2
    rw [List.take_of_length_le (by simp [hwb, hPl])] at hs2
    rw [ht2]
    simp only [Option.bind_some]
    have hfin : Spec.Md5.process Spec.Md5.init (Spec.Md5.pad m) = r2.state := by
      rw [hpad (64 - (m.length % 64 + 1) - 8) (by omega), hs2, hlb, hlow, hhigh, hP, List.append_assoc P]
    rw [hfin]
    show some (wordBytes r2.a ++ wordBytes r2.b ++ wordBytes r2.c ++ wordBytes r2.d) = _
    rw [hd]

theorem init_rep (g : List UInt8) (hg : g.length = 64) : Rep (Ctx.init g) [] := by
  refine ⟨rfl, rfl, hg, ?_, ?_⟩
  · rw [process_short (by simp)]; rfl
  · simp

theorem pieces_rep (pieces : List (List UInt8)) (hp : ∀ p ∈ pieces, p.length < 2 ^ 32) (c : Ctx) (m : List UInt8) (h : Rep c m) :
    ∃ c', pieces.foldlM update c = some c' ∧ Rep c' (m ++ pieces.flatten) := by
  induction pieces generalizing c m with
  | nil => exact ⟨c, rfl, by simpa using h⟩
  | cons p ps ih =>
    obtain ⟨c1, h1, h2⟩ := update_rep c m p (hp p (by simp)) h
    obtain ⟨c2, h3, h4⟩ := ih (fun q hq => hp q (by simp [hq])) c1 _ h2
    refine ⟨c2, ?_, by simpa [List.append_assoc] using h4⟩
    rw [List.foldlM_cons, h1]
    exact h3

/-- **C51 (the hash).** However a message is cut into pieces of less than 4 GiB, the incremental computation gives the MD5 hash
(RFC 1321) of the whole message, and never accesses memory outside of its buffers. The initial contents of the internal buffer do not
matter. -/
theorem C51_md5_partial (garbage : List UInt8) (pieces : List (List UInt8)) (hg : garbage.length = 64)
    (hp : ∀ p ∈ pieces, p.length < 2 ^ 32) :
    hashPieces garbage pieces = some (Spec.Md5.md5 pieces.flatten) := by
  obtain ⟨c, h1, h2⟩ := pieces_rep pieces hp _ [] (init_rep garbage hg)
  unfold hashPieces
  rw [h1]
  exact complete_rep c _ h2

/-- **C51 (chunking).** Two ways of cutting the same message give the same hash. -/
theorem C51_chunking_partial (g g' : List UInt8) (ps qs : List (List UInt8)) (hg : g.length = 64) (hg' : g'.length = 64)
    (hp : ∀ p ∈ ps, p.length < 2 ^ 32) (hq : ∀ q ∈ qs, q.length < 2 ^ 32) (h : ps.flatten = qs.flatten) :
    hashPieces g ps = hashPieces g' qs := by
  rw [C51_md5_partial g ps hg hp, C51_md5_partial g' qs hg' hq, h]

theorem mapM_rows (buf : Buf) (off stride n : Nat) (l : List Nat) (h : ∀ y ∈ l, off + y * stride + n ≤ buf.size) :
    l.mapM (fun y => if off + y * stride + n ≤ buf.size then
      some ((List.range n).map (fun i => buf.get (off + y * stride + i))) else none) =
    some (l.map (fun y => (List.range n).map (fun i => buf.get (off + y * stride + i)))) := by
  induction l with
  | nil => rfl
  | cons y l ih =>
    rw [List.mapM_cons, if_pos (h y (by simp)), ih (fun z hz => h z (by simp [hz]))]
    rfl

/-- **C51 (bitmaps).** The hash of a bitmap is the MD5 hash of its pixel bytes, row by row: it depends neither on the stride, nor on the
padding, nor on where the bitmap is in memory. Hypotheses: all rows are inside the buffer, a row has less than 4 GiB. -/
theorem C51_bitmap (garbage : List UInt8) (buf : Buf) (off stride width bpp height : Nat) (pixel : Nat → Nat → UInt8)
    (hg : garbage.length = 64) (hrow : width * bpp < 2 ^ 32)
    (hin : ∀ y, y < height → off + y * stride + width * bpp ≤ buf.size)
    (hpix : ∀ y i, y < height → i < width * bpp → buf.get (off + y * stride + i) = pixel y i) :
    hashBitmap garbage buf off stride width bpp height =
      some (Spec.Md5.md5 ((List.range height).map (fun y => (List.range (width * bpp)).map (pixel y))).flatten) := by
  unfold hashBitmap
  rw [mapM_rows buf off stride (width * bpp) _ (fun y hy => hin y (by simpa using hy))]
  have e : (List.range height).map (fun y => (List.range (width * bpp)).map (fun i => buf.get (off + y * stride + i))) =
      (List.range height).map (fun y => (List.range (width * bpp)).map (pixel y)) := by
    apply List.map_congr_left
    intro y hy
    apply List.map_congr_left
    intro i hi
    exact hpix y i (by simpa using hy) (by simpa using hi)
  rw [e]
  simp only [Option.bind_eq_bind, Option.bind_some]
  apply C51_md5_partial garbage _ hg
  intro p hp
  simp only [List.mem_map] at hp
  obtain ⟨y, _, rfl⟩ := hp
  simpa using hrow

theorem transform_none (r : Regs) (data : List UInt8) (size : Nat) (h : data.length < size) (hs : size < 2 ^ 64) (hm : size % 64 = 0) :
    transform r data size = none := by
  induction hn : data.length using Nat.strongRecOn generalizing r data size with
  | _ n ih =>
    rw [transform]
    split
    · rename_i h64
      dsimp only
      have e : (size + (2 ^ 64 - 64)) % 2 ^ 64 = size - 64 := by omega
      rw [e, if_neg (by omega)]
      exact ih (data.drop 64).length (by simp; omega) _ _ _ (by simp; omega) (by omega) (by omega) rfl
    · rfl

/-- **C51, violated for large pieces.** A piece of exactly 4 GiB (given to a fresh object) makes the code run out of the buffer, since its
size is truncated to 32 bits, which gives 0, and the loop counter wraps around. The same message in two pieces is fine
(`C51_md5_partial`). -/
theorem C51_four_gigabytes_undefined (garbage data : List UInt8) (h : data.length = 2 ^ 32) :
    hashPieces garbage [data] = none := by
  have ht : ∀ r, transform r data 0 = none := by
    intro r
    rw [transform, dif_pos (by omega)]
    dsimp only
    rw [if_neg (by omega)]
    exact transform_none _ _ _ (by simp; omega) (by omega) (by omega)
  have hu : update (Ctx.init garbage) data = none := by
    unfold update
    dsimp only
    rw [show (Ctx.init garbage).count0 = 0 from rfl, if_neg (by omega)]
    unfold updateTail
    rw [if_pos (by omega), show data.length % 2 ^ 32 / 64 * 64 = 0 by omega, ht]
    rfl
  unfold hashPieces
  rw [List.foldlM_cons, hu]
  rfl

/-! ## Non-vacuity -/

example : hashPieces (zeros 64) [[97, 98], [], [99]] =
    some [0x90, 0x01, 0x50, 0x98, 0x3c, 0xd2, 0x4f, 0xb0, 0xd6, 0x96, 0x3f, 0x7d, 0x28, 0xe1, 0x7f, 0x72] := by decide +kernel
example : Spec.Md5.md5 [97, 98, 99] =
    [0x90, 0x01, 0x50, 0x98, 0x3c, 0xd2, 0x4f, 0xb0, 0xd6, 0x96, 0x3f, 0x7d, 0x28, 0xe1, 0x7f, 0x72] := by decide +kernel
example : (zeros 64).length = 64 ∧ ∀ p ∈ [[97, 98], [], [99]], (p : List UInt8).length < 2 ^ 32 := by
  refine ⟨by simp, by simp⟩
example : hashBitmap (zeros 64) ⟨8, fun i => if i % 4 = 3 then 77 else i.toUInt8⟩ 0 4 3 1 2 =
    hashBitmap (zeros 64) (Buf.ofList [0, 1, 2, 4, 5, 6]) 0 3 3 1 2 := by decide +kernel

end Verif
