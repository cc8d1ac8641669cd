import Verif.Proof.CreateCzi3
import Verif.Props.CoordMore
import Verif.Props.CompressOptions

/-!
# C102: the documents created with the command "CreateCZI"
-/

namespace Verif
open Czi Spec CreateCzi Blit Zstd

/-- **C102 (partial: options for which all numbers are in range, no empty interval, no JpgXr and no packed Bgr48).** Whatever was in the file before, the command ends without an exception, and the document
can be opened with any options. It has one sub-block for each coordinate within the bounds (channel 0 if there is no channel) and each row and column of the mosaic, with the coordinate, the m-index counted row
by row, the position (exact if the tiles do not overlap), the size, the metadata and the picture that was generated for this tile and this position; and it has no other sub-blocks. The metadata of the
document are those that were made when all the sub-blocks had been added. `L` is any list of the coordinates without repetitions. Outside of the excluded cases: `C102_jxr_violated`,
`C102_empty_interval_violated`, `C102_position_violated`. -/
theorem C102_document_partial (env : Env) (o : Options) (bpp : Nat) (L : List Coord) (d0 : Disk) (hj : JobOk o bpp) (hg : GeneratorOk env o bpp)
    (hk : o.compression = .Zstd0 ∨ o.compression = .Zstd1 → CodecOk env (o.height * (o.width * bpp)))
    (hL : ∀ c, c ∈ L ↔ InBounds (inChannel o.bounds) c) (hnd : L.Nodup)
    (hcount : L.length * (mosaicRows o.tiles * mosaicColumns o.tiles) + 1 < 2 ^ 31)
    (hbytes : L.length * (mosaicRows o.tiles * mosaicColumns o.tiles) *
      (max (o.height * (o.width * bpp)) (3 + env.bound (o.height * (o.width * bpp))) + o.metadata.length) < 2 ^ 58)
    (hxml : ∀ w, (env.xml w).length < 2 ^ 31) (opts : OpenOptions) (al : Alloc) (hal : ∀ n, al n = true) :
    ∃ disk, (∀ fuel, L.length + mosaicRows o.tiles * mosaicColumns o.tiles < fuel → doIt env o fuel d0 = some (.ok disk)) ∧
      ∃ doc, openDoc al disk.stream opts = .ok doc ∧ doc.entries.length = L.length * (mosaicRows o.tiles * mosaicColumns o.tiles) ∧
      (∃ sbs : List SubBlock, sbs.length = doc.entries.length ∧ (∀ i (h : i < sbs.length), doc.readSubBlock al disk.stream i = .ok (some sbs[i])) ∧
        (∀ c ∈ L, ∀ r < mosaicRows o.tiles, ∀ k < mosaicColumns o.tiles, ∃! i, ∃ h : i < sbs.length, IsTile env o c r k (viewRead sbs[i])) ∧
        ∀ i (h : i < sbs.length), ∃ c ∈ L, ∃ r < mosaicRows o.tiles, ∃ k < mosaicColumns o.tiles, IsTile env o c r k (viewRead sbs[i])) ∧
      ∃ w : WState, w.dir.subBlks.length = L.length * (mosaicRows o.tiles * mosaicColumns o.tiles) ∧
        doc.readMetadata al disk.stream = .ok ⟨payload (env.xml w), payload []⟩ := by
  obtain ⟨L', hperm, hpw, w, disk, hw, hops, ed, hdo⟩ := doIt_eq env o bpp L d0 hj hg hk hL hnd hcount hbytes hxml
  have hsubs : subsOf ((allTiles env o L').map WOp.addSubBlock ++ [.writeMetadata ⟨some (env.xml w), some []⟩]) = allTiles env o L' := by
    have := subsOf_adds (allTiles env o L')
    unfold subsOf at this ⊢
    rw [List.filterMap_append, this]
    simp
  have hNL : ∀ c ∈ L, mosaicRows o.tiles * mosaicColumns o.tiles + 1 < 2 ^ 31 := by
    intro c hc
    have : 1 ≤ L.length := List.length_pos_iff.2 (by rintro rfl; cases hc)
    have : mosaicRows o.tiles * mosaicColumns o.tiles ≤ L.length * (mosaicRows o.tiles * mosaicColumns o.tiles) := Nat.le_mul_of_pos_left _ this
    omega
  have hmem : ∀ a ∈ allTiles env o L', ∃ c ∈ L, ∃ n < mosaicRows o.tiles * mosaicColumns o.tiles, a = made env o c n := by
    intro a ha
    unfold allTiles at ha
    rw [List.mem_flatMap] at ha
    obtain ⟨c, hc, ha⟩ := ha
    rw [List.mem_map] at ha
    obtain ⟨n, hn, rfl⟩ := ha
    exact ⟨c, hperm.subset hc, n, List.mem_range.1 hn, rfl⟩
  have htile : ∀ c ∈ L, ∀ n < mosaicRows o.tiles * mosaicColumns o.tiles, ∃ r k, r < mosaicRows o.tiles ∧ k < mosaicColumns o.tiles ∧
      n = r * mosaicColumns o.tiles + k ∧ IsTile env o c r k (viewAdded (made env o c n)) ∧ (made env o c n).sizeData ≤ 2147483647 ∧
      (made env o c n).mIndex = some (n : Int) := by
    intro c hc n hn
    have := hNL c hc
    obtain ⟨_, r, k, x, y, hr, hk', e, t1, t2, h⟩ := made_good hj hg hk (by omega) ((hL c).1 hc) hn
    have h' := h
    rw [e] at h'
    refine ⟨r, k, hr, hk', e, ?_, h.bytes.1, h.mIndex⟩
    have := isTile_of_good hj (by omega) t1 t2 h'
    rw [← e] at this
    exact this
  have hi := writerInfo_ok o
  obtain ⟨disk1, done1, ed1, doc, hdoc, sbs, k1, k2, k3, _⟩ := C01_sub_blocks_read_back_partial false d0 (writerInfo o) _ hi hops (by
    intro a ha
    rw [hsubs] at ha
    obtain ⟨c, hc, n, hn, rfl⟩ := hmem a ha
    obtain ⟨r, k, _, _, _, _, h, _⟩ := htile c hc n hn
    exact h) opts al hal
  obtain ⟨disk2, done2, ed2, doc2, hdoc2, m1, _⟩ := C03_metadata_reads_back_partial false d0 (writerInfo o) _ hi hops (by
    intro m hm
    rcases List.mem_append.1 hm with hm | hm
    · rw [List.mem_map] at hm
      obtain ⟨_, _, hm⟩ := hm
      cases hm
    · rw [List.mem_singleton] at hm
      injection hm with hm
      subst hm
      exact ⟨hxml w, by show (0 : Nat) < 2 ^ 31; omega⟩) opts al hal
  rw [ed] at ed1 ed2
  injection ed1 with ed1
  injection ed2 with ed2
  injection ed1 with e1 e2
  injection ed2 with e3 e4
  subst e1 e2 e3 e4
  rw [hdoc] at hdoc2
  injection hdoc2 with hdd
  subst hdd
  rw [hsubs] at k3
  have hlen : sbs.length = L.length * (mosaicRows o.tiles * mosaicColumns o.tiles) := by
    have := k3.length_eq
    rw [List.length_map, List.length_map, length_allTiles, hperm.length_eq] at this
    exact this
  have hkeys : (sbs.map fun s => ((viewRead s).coordinate, (viewRead s).mIndex)).Nodup := by
    have p : (sbs.map fun s => ((viewRead s).coordinate, (viewRead s).mIndex)).Perm
        ((allTiles env o L').map fun a => ((viewAdded a).coordinate, (viewAdded a).mIndex)) := by
      have := k3.map (fun v : SbView => (v.coordinate, v.mIndex))
      rw [List.map_map, List.map_map] at this
      exact this
    rw [p.nodup_iff]
    unfold List.Nodup
    rw [List.pairwise_map]
    refine List.Pairwise.imp_of_mem ?_ hpw
    intro a b ha hb hd he
    have hv : ∀ a ∈ allTiles env o L', (viewAdded a).mIndex = a.mIndex := by
      intro a ha
      obtain ⟨c, hc, n, hn, rfl⟩ := hmem a ha
      obtain ⟨r, k, _, _, e, ht, _, hm⟩ := htile c hc n hn
      rw [ht.mIndex, hm, ← e]
    rw [hv a ha, hv b hb] at he
    injection he with h1 h2
    rcases hd with hd | hd
    · exact hd h1.symm
    · exact hd h2.symm
  refine ⟨disk, hdo, doc, hdoc, by rw [← k1, hlen], ⟨sbs, k1, k2, ?_, ?_⟩, w, hw, ?_⟩
  · intro c hc r hr k hk'
    have hn : r * mosaicColumns o.tiles + k < mosaicRows o.tiles * mosaicColumns o.tiles := by
      have : (r + 1) * mosaicColumns o.tiles ≤ mosaicRows o.tiles * mosaicColumns o.tiles := Nat.mul_le_mul_right _ hr
      rw [Nat.succ_mul] at this
      omega
    obtain ⟨r', k', hr', hk'', e, ht, _⟩ := htile c hc _ hn
    have hrr : r' = r ∧ k' = k := by
      have hdiv : ∀ a b, b < mosaicColumns o.tiles → (a * mosaicColumns o.tiles + b) / mosaicColumns o.tiles = a := by
        intro a b hb
        rw [Nat.mul_comm, Nat.mul_add_div (by omega), Nat.div_eq_of_lt hb, Nat.add_zero]
      have h1 := hdiv r k hk'
      rw [e, hdiv r' k' hk''] at h1
      subst h1
      exact ⟨rfl, by omega⟩
    rw [hrr.1, hrr.2] at ht
    have hin : viewAdded (made env o c (r * mosaicColumns o.tiles + k)) ∈ sbs.map viewRead := by
      refine k3.symm.subset (List.mem_map.2 ⟨_, ?_, rfl⟩)
      unfold allTiles
      exact List.mem_flatMap.2 ⟨c, hperm.symm.subset hc, List.mem_map.2 ⟨_, List.mem_range.2 hn, rfl⟩⟩
    obtain ⟨s, hs, es⟩ := List.mem_map.1 hin
    obtain ⟨i, hi', rfl⟩ := List.mem_iff_getElem.1 hs
    refine ⟨i, ⟨hi', by rw [es]; exact ht⟩, ?_⟩
    rintro j ⟨hj', htj⟩
    have hti : IsTile env o c r k (viewRead sbs[i]) := by rw [es]; exact ht
    refine (List.Nodup.getElem_inj_iff hkeys (hi := by rw [List.length_map]; exact hj') (hj := by rw [List.length_map]; exact hi')).1 ?_
    rw [List.getElem_map, List.getElem_map, htj.coordinate, htj.mIndex, hti.coordinate, hti.mIndex]
  · intro i hi'
    have : viewRead sbs[i] ∈ sbs.map viewRead := List.mem_map.2 ⟨_, List.getElem_mem hi', rfl⟩
    obtain ⟨a, ha, e⟩ := List.mem_map.1 (k3.subset this)
    obtain ⟨c, hc, n, hn, rfl⟩ := hmem a ha
    obtain ⟨r, k, hr, hk', _, ht, _⟩ := htile c hc n hn
    rw [← e]
    exact ⟨c, hc, r, hr, k, hk', ht⟩
  · refine m1 ⟨some (env.xml w), some []⟩ ?_
    unfold lastMeta
    rw [List.filterMap_append]
    simp

/-! ## What is excluded -/

private theorem position_some (o : Options) : ∀ n < mosaicRows o.tiles * mosaicColumns o.tiles, (position o n).isSome := by
  intro n hn
  unfold position
  unfold mosaicRows mosaicColumns at hn
  by_cases hv : 0 < o.tiles.rows ∧ 0 < o.tiles.columns
  · rw [if_pos hv, if_pos hv] at hn
    rw [if_pos (by unfold TileInfo.isValid; simp [hv])]
    unfold calcTilePosition
    dsimp only
    have h1 : n / o.tiles.columns < o.tiles.rows := Nat.div_lt_of_lt_mul (by rw [Nat.mul_comm]; exact hn)
    have h2 := Nat.mod_lt n hv.2
    have h3 := Nat.div_add_mod n o.tiles.columns
    rw [Nat.mul_comm] at h3
    rw [if_neg (by omega)]
    rfl
  · rw [if_neg hv, if_neg hv] at hn
    rw [if_neg (by unfold TileInfo.isValid; simpa using hv), if_pos (by omega)]
    rfl

/-- **C102 violated for JpgXr and Jpg.** The options of the command line accept these methods (with every level), and the command ends without an exception; but whatever the bounds, the mosaic and the pictures are, the
document that is written has no sub-blocks at all. -/
theorem C102_jxr_violated (env : Env) (o : Options) (d0 : Disk) (ho : o.compression = .JpgXr ∨ o.compression = .Jpg)
    (hm : mosaicRows o.tiles * mosaicColumns o.tiles < 4294967296) (hxml : ∀ w, (env.xml w).length < 2 ^ 31) (opts : OpenOptions) (al : Alloc) (hal : ∀ n, al n = true) :
    (∃ s params, CompressOptions.parse s = some (o.compression, params)) ∧
    ∃ disk F, (∀ fuel ≥ F, doIt env o fuel d0 = some (.ok disk)) ∧ ∃ doc, openDoc al disk.stream opts = .ok doc ∧ doc.entries = [] := by
  constructor
  · rcases ho with h | h
    · rw [h]; exact ⟨_, _, C78_roundtrip .JpgXr _ rfl none (by intro x hx; cases hx) false⟩
    · rw [h]; exact ⟨_, _, C78_roundtrip .Jpg _ rfl none (by intro x hx; cases hx) false⟩
  have hsub : ∀ c p, subBlock env o c p = .ok none := by
    intro c p
    unfold subBlock
    rcases ho with h | h <;> rw [h]
  obtain ⟨L, _, _, _, l4⟩ := C23_enumerates_filled (inChannel o.bounds) ⟨.C, by
    unfold inChannel
    cases h : o.bounds .C <;> simp [h]⟩
  obtain ⟨s, segs, ec, hinv, hnx, _⟩ := step_create false d0 (writerInfo o) (writerInfo_ok o)
  have hx := hxml s.w
  have hmeta : MetaOk ⟨some (env.xml s.w), some []⟩ := by
    constructor
    · show (env.xml s.w).length < 2 ^ 59; omega
    · show (0 : Nat) < 2 ^ 59; omega
  have hacc := metadata_accepted hinv hmeta (by omega) rfl
  have hops : OpsOk [.writeMetadata ⟨some (env.xml s.w), some []⟩] := {
    each := by intro op hop; rw [List.mem_singleton] at hop; subst hop; exact hmeta
    count := by simp
    total := by
      have : (List.map opBytes [WOp.writeMetadata ⟨some (env.xml s.w), some []⟩]).sum = (env.xml s.w).length := by
        simp [opBytes, MetaInfo.xmlBytes, MetaInfo.attBytes]
      omega }
  obtain ⟨disk, done, ed, doc, hdoc, sbs, k1, _, k3, _⟩ := C01_sub_blocks_read_back_partial false d0 (writerInfo o) _ (writerInfo_ok o) hops (by
    intro a ha; cases ha) opts al hal
  have hdone : subsOf done = [] := by
    have := (writeDoc_sublist ed).filterMap (fun | WOp.addSubBlock a => some a | _ => none)
    exact List.sublist_nil.1 this
  have hent : doc.entries = [] := by
    have := k3.length_eq
    rw [hdone] at this
    simp only [List.length_map, List.length_nil, List.map_nil] at this
    exact List.length_eq_zero_iff.1 (by omega)
  refine ⟨disk, L.length + mosaicRows o.tiles * mosaicColumns o.tiles + 1, ?_, doc, hdoc, hent⟩
  intro fuel hf
  unfold writeDoc at ed
  dsimp only at ed
  rw [ec] at ed
  have hses : session s [.writeMetadata ⟨some (env.xml s.w), some []⟩] =
      ((step s (.writeMetadata ⟨some (env.xml s.w), some []⟩)).1, [.writeMetadata ⟨some (env.xml s.w), some []⟩]) := by
    simp only [session, hacc]
    rfl
  simp only [Option.isSome_none, Bool.false_eq_true, if_false, hses] at ed
  split at ed
  · cases ed
  · rename_i hcl
    injection ed with ed
    injection ed with e1 e2
    unfold doIt
    dsimp only
    rw [ec, withChannel_eq, l4 _ (forCoordinate env o fuel) (some (.ok s)) fuel (by omega),
      present_nothing hm (position_some o) (position_end o) hsub (by omega) s L 0]
    simp only [Option.isSome_none, Bool.false_eq_true, if_false]
    unfold finish
    dsimp only
    rw [if_neg (by rw [hacc]; simp), if_neg hcl, e1]

/-- The bounds used by the command, with their empty intervals replaced by their starts. -/
private theorem filled_inChannel (b : Bounds) : filled (inChannel b) = inChannel (filled b) := by
  funext d
  unfold filled inChannel
  by_cases hd : d = .C
  · subst hd
    cases h : b .C <;> simp [h]
  · simp [hd]

private theorem doIt_filled (env : Env) (o : Options) (fuel : Nat) (d0 : Disk) : doIt env o fuel d0 = doIt env { o with bounds := filled o.bounds } fuel d0 := by
  have htl : ∀ c f n s, tileLoop env { o with bounds := filled o.bounds } c f n s = tileLoop env o c f n s := by
    intro c f
    induction f with
    | zero => intro n s; rfl
    | succ f ih =>
      intro n s
      rw [tileLoop, tileLoop]
      have hp : position { o with bounds := filled o.bounds } n = position o n := rfl
      rw [hp]
      cases position o n with
      | none => rfl
      | some p =>
        have ha : addTile env { o with bounds := filled o.bounds } c p s = addTile env o c p s := rfl
        dsimp only
        rw [ha]
        cases addTile env o c p s with
        | ok s' => exact ih _ s'
        | throws => rfl
        | undefined => rfl
  have hfc : forCoordinate env { o with bounds := filled o.bounds } fuel = forCoordinate env o fuel := by
    funext st n c
    unfold forCoordinate
    cases st with
    | none => rfl
    | some r =>
      cases r with
      | ok s => dsimp only; rw [htl]
      | throws => rfl
      | undefined => rfl
  have hen : ∀ st, EnumAll.enumAll (inChannel (filled o.bounds)) (forCoordinate env o fuel) fuel st = EnumAll.enumAll (inChannel o.bounds) (forCoordinate env o fuel) fuel st := by
    intro st
    rw [← filled_inChannel]
    unfold EnumAll.enumAll
    rw [filled_validDims, reset_filled]
    split
    · rfl
    · refine run_filled _ _ fuel 0 _ st (notBelow_reset _ ?_)
      intro d s n v _ hv
      cases hv
  unfold doIt
  rw [hfc, withChannel_eq, withChannel_eq]
  have hw : writerInfo { o with bounds := filled o.bounds } = writerInfo o := rfl
  rw [hw]
  dsimp only
  rw [hen]

/-- **C102 violated for bounds with an empty interval.** There is no coordinate within such bounds; but (if the other options make sense) the document has sub-blocks, namely all the tiles for the bounds in which the empty interval is replaced by
its start (`L` is a list of these coordinates). -/
theorem C102_empty_interval_violated (env : Env) (o : Options) (bpp : Nat) (L : List Coord) (d0 : Disk) (d : Dim) (s : Int) (he : o.bounds d = some (s, 0))
    (hj : JobOk { o with bounds := filled o.bounds } bpp) (hg : GeneratorOk env o bpp)
    (hk : o.compression = .Zstd0 ∨ o.compression = .Zstd1 → CodecOk env (o.height * (o.width * bpp)))
    (hL : ∀ c, c ∈ L ↔ InBounds (inChannel (filled o.bounds)) c) (hnd : L.Nodup)
    (hcount : L.length * (mosaicRows o.tiles * mosaicColumns o.tiles) + 1 < 2 ^ 31)
    (hbytes : L.length * (mosaicRows o.tiles * mosaicColumns o.tiles) *
      (max (o.height * (o.width * bpp)) (3 + env.bound (o.height * (o.width * bpp))) + o.metadata.length) < 2 ^ 58)
    (hxml : ∀ w, (env.xml w).length < 2 ^ 31) (opts : OpenOptions) (al : Alloc) (hal : ∀ n, al n = true) :
    (¬ ∃ c, InBounds (inChannel o.bounds) c) ∧
    ∃ disk F, (∀ fuel ≥ F, doIt env o fuel d0 = some (.ok disk)) ∧ ∃ doc, openDoc al disk.stream opts = .ok doc ∧
      doc.entries.length = L.length * (mosaicRows o.tiles * mosaicColumns o.tiles) ∧ doc.entries ≠ [] := by
  constructor
  · rintro ⟨c, hc⟩
    have := hc d
    have hd : inChannel o.bounds d = some (s, 0) := by
      unfold inChannel
      rw [if_neg (by rintro ⟨rfl, h⟩; rw [he] at h; cases h), he]
    rw [hd] at this
    obtain ⟨v, _, h1, h2⟩ := this
    omega
  obtain ⟨disk, h1, doc, h2, h3, _⟩ := C102_document_partial env { o with bounds := filled o.bounds } bpp L d0 hj hg hk hL hnd hcount hbytes hxml opts al hal
  refine ⟨disk, L.length + mosaicRows o.tiles * mosaicColumns o.tiles + 1, ?_, doc, h2, h3, ?_⟩
  · intro fuel hf
    rw [doIt_filled]
    exact h1 fuel (by show L.length + mosaicRows o.tiles * mosaicColumns o.tiles < fuel; omega)
  · intro h0
    have hin : InBounds (inChannel (filled o.bounds)) (fun d => (inChannel (filled o.bounds) d).map Prod.fst) := by
      intro d
      split
      · rename_i h; dsimp only; rw [h]; rfl
      · rename_i s n h
        refine ⟨s, by dsimp only; rw [h]; rfl, by omega, ?_⟩
        unfold inChannel at h
        split at h
        · injection h with h
          injection h with e1 e2
          omega
        · have := (hj.bounds d s n h).1; omega
    have hpos : 0 < L.length := List.length_pos_iff.2 (by intro e; have := (hL _).2 hin; rw [e] at this; cases this)
    have hm : 0 < mosaicRows o.tiles * mosaicColumns o.tiles := by
      unfold mosaicRows mosaicColumns
      split
      · rename_i h; exact Nat.mul_pos h.1 h.2
      · decide
    have := Nat.mul_pos hpos hm
    rw [h0] at h3
    change 0 = L.length * (mosaicRows o.tiles * mosaicColumns o.tiles) at h3
    omega

/-- **C102 violated for large mosaics.** The positions are computed with 32 bits: in every mosaic without overlap, a tile whose exact position is between 2^31 and 2^32 is given a negative position, 2^32 pixels to the left of (or above) the
place where it belongs. -/
theorem C102_position_violated (o : Options) (r k : Nat) (hr : r < o.tiles.rows) (hk : k < o.tiles.columns) (h0 : o.tiles.overlap = 0)
    (hw : 2147483648 ≤ k * o.width ∧ k * o.width < 4294967296) :
    ∃ y m, position o (r * o.tiles.columns + k) = some (((k * o.width : Nat) : Int) - 4294967296, y, m) := by
  unfold position
  rw [if_pos (by unfold TileInfo.isValid; simp; omega)]
  unfold calcTilePosition
  dsimp only
  rw [show (r * o.tiles.columns + k) / o.tiles.columns = r by rw [Nat.mul_comm, Nat.mul_add_div (by omega), Nat.div_eq_of_lt hk, Nat.add_zero],
    Nat.add_sub_cancel_left, if_neg (by omega)]
  have : axisPosition k o.width o.tiles.overlap = ((k * o.width : Nat) : Int) - 4294967296 := by
    unfold axisPosition
    rw [h0, mul_zero, show Flt.f32 0 = 0 by simpa using Flt.f32_int 0 (by norm_num), show Flt.roundEven 0 = 0 by unfold Flt.roundEven; norm_num,
      Nat.mod_eq_of_lt hw.2]
    unfold Machine.asInt u32
    split <;> omega
  rw [this]
  exact ⟨_, _, rfl⟩

/-! ## Examples -/

private def exCodec : Codec := ⟨fun l => 7 :: l, fun l => some (l.length - 1), fun l => some l.tail⟩

/-- A generator: each byte is the m-index plus the number of the byte; one byte of space behind each line. -/
private def exEnv : Env where
  codec := exCodec
  fresh := fun _ => 0
  bound := fun n => n + 1
  generate := fun pt w h _ m _ => ⟨pt, ⟨w, h, w * (bytesPerPel pt).getD 0 + 1, ⟨h * (w * (bytesPerPel pt).getD 0 + 1), fun i => UInt8.ofNat (m.toNat + i)⟩⟩⟩
  xml := fun w => List.replicate (w.dir.subBlks.length % 100) 60

private def exBounds : Bounds := fun d => if d = .T then some (3, 2) else none

/-- Two time points, a mosaic of 2 × 3 tiles with 10 % overlap. -/
private def exOptions (m : CompressionMode) : Options :=
  ⟨exBounds, ⟨2, 3, 1 / 10⟩, 4, 5, .Gray8, m, true, exInfo.guid, [60, 77, 47, 62]⟩

private theorem exJob (m : CompressionMode) (hm : m = .Invalid ∨ m = .UnCompressed ∨ m = .Zstd0 ∨ m = .Zstd1) : JobOk (exOptions m) 1 where
  pixel := rfl
  size := by show 0 < 4 ∧ 0 < 5; decide
  bytes := by show 5 * (4 * 1) ≤ 2147483647; omega
  width := by show 3 * 4 ≤ 2147483647; omega
  height := by show 2 * 5 ≤ 2147483647; omega
  overlap := by show (0 : ℚ) ≤ 1 / 10 ∧ (1 : ℚ) / 10 ≤ 1; norm_num
  bounds := by
    intro d s n h
    change exBounds d = _ at h
    unfold exBounds at h
    split at h
    · injection h with h
      injection h with e1 e2
      subst e1 e2
      exact ⟨by omega, ⟨by omega, by omega⟩, by omega⟩
    · cases h
  metadata := by show 4 ≤ 2147483647; omega
  mode := hm
  packed := by intro _ _ h; cases h

private theorem exGen (m : CompressionMode) : GeneratorOk exEnv (exOptions m) 1 := by
  intro c i p
  exact ⟨rfl, rfl, rfl, by show 4 * 1 ≤ 4 * 1 + 1; omega, by show (5 - 1) * (4 * 1 + 1) + 4 * 1 ≤ 5 * (4 * 1 + 1); omega, .inr rfl⟩

private theorem exCodecOk : CodecOk exEnv (5 * (4 * 1)) where
  lossless := ⟨fun l _ => by show some ((7 :: l).length - 1) = _; simp, fun l _ => rfl, fun l => by intro h; cases h⟩
  bound := fun l => by show (7 :: l).length ≤ _; simp; exact Nat.le_refl _
  small := by decide

private def exCoord (t : Int) : Coord := fun d => if d = .T then some t else if d = .C then some 0 else none

private theorem exCoords (c : Coord) : c ∈ [exCoord 3, exCoord 4] ↔ InBounds (inChannel exBounds) c := by
  constructor
  · intro h d
    simp only [List.mem_cons, List.not_mem_nil, or_false] at h
    rcases h with rfl | rfl <;> cases d <;> simp [inChannel, exBounds, exCoord]
  · intro h
    have ht := h .T
    have hc := h .C
    simp only [inChannel, exBounds] at ht hc
    norm_num at ht hc
    obtain ⟨v, hv, h1, h2⟩ := ht
    obtain ⟨u, hu, h3, h4⟩ := hc
    have hu0 : u = 0 := by omega
    have hall : ∀ d, d ≠ .T → d ≠ .C → c d = none := by
      intro d hd1 hd2
      have := h d
      simp only [inChannel, exBounds, hd1, hd2, if_false, false_and] at this
      exact this
    have hcv : c = exCoord v := by
      funext d
      unfold exCoord
      by_cases h1 : d = .T
      · rw [if_pos h1, h1]; exact hv
      · rw [if_neg h1]
        by_cases h2 : d = .C
        · rw [if_pos h2, h2, hu, hu0]
        · rw [if_neg h2]; exact hall d h1 h2
    have : v = 3 ∨ v = 4 := by omega
    rcases this with rfl | rfl <;> simp [hcv]

/-- The example with each of the compression modes: the document has 12 sub-blocks. -/
example (m : CompressionMode) (hm : m = .Invalid ∨ m = .UnCompressed ∨ m = .Zstd0 ∨ m = .Zstd1) (d0 : Disk) (opts : OpenOptions) :
    ∃ disk, (∀ fuel, 8 < fuel → doIt exEnv (exOptions m) fuel d0 = some (.ok disk)) ∧
      ∃ doc, openDoc (fun _ => true) disk.stream opts = .ok doc ∧ doc.entries.length = 12 := by
  obtain ⟨disk, h1, doc, h2, h3, _⟩ := C102_document_partial exEnv (exOptions m) 1 [exCoord 3, exCoord 4] d0 (exJob m hm) (exGen m) (fun _ => exCodecOk) exCoords
    (by
      refine List.nodup_cons.2 ⟨?_, List.nodup_singleton _⟩
      intro h
      rw [List.mem_singleton] at h
      have := congrFun h .T
      simp [exCoord] at this)
    (by show 2 * (2 * 3) + 1 < 2 ^ 31; omega) (by show 2 * (2 * 3) * (max (5 * (4 * 1)) (3 + (5 * (4 * 1) + 1)) + 4) < 2 ^ 58; decide) (by
      intro w
      show (List.replicate (w.dir.subBlks.length % 100) _).length < _
      rw [List.length_replicate]
      omega) opts (fun _ => true) (fun _ => rfl)
  exact ⟨disk, h1, doc, h2, h3⟩

/-- The positions of the tiles of the example: with 10 % overlap of 4 pixels the positions 3.6 and 7.2 are rounded. -/
example : (List.range 7).map (position (exOptions .Zstd1)) =
    [some (0, 0, 0), some (4, 0, 1), some (7, 0, 2), some (0, 5, 3), some (4, 5, 4), some (7, 5, 5), none] := by
  decide +kernel

/-- The hypotheses of the negative theorems can be met. -/
example : (exOptions .JpgXr).compression = .JpgXr ∧ mosaicRows (exOptions .JpgXr).tiles * mosaicColumns (exOptions .JpgXr).tiles < 4294967296 :=
  ⟨rfl, by decide⟩

/-- An empty interval of time points: replaced by its start, the options make sense. -/
example : let o := { exOptions .Zstd1 with bounds := fun d => if d = .T then some (3, 0) else none }
    o.bounds .T = some (3, 0) ∧ JobOk { o with bounds := filled o.bounds } 1 ∧ GeneratorOk exEnv o 1 := by
  have j := exJob .Zstd1 (.inr (.inr (.inr rfl)))
  refine ⟨rfl, ⟨j.pixel, j.size, j.bytes, j.width, j.height, j.overlap, ?_, j.metadata, j.mode, j.packed⟩, exGen .Zstd1⟩
  intro d s n h
  unfold filled at h
  cases d <;> simp at h
  obtain ⟨rfl, rfl⟩ := h
  exact ⟨by omega, ⟨by omega, by omega⟩, by omega⟩

example : ∃ o : Options, 2 < o.tiles.columns ∧ 0 < o.tiles.rows ∧ o.tiles.overlap = 0 ∧ 2147483648 ≤ 2 * o.width ∧ 2 * o.width < 4294967296 :=
  ⟨{ exOptions .Zstd1 with tiles := ⟨1, 3, 0⟩, width := 1073741824 }, by decide, by decide, rfl, by decide, by decide⟩

end Verif
