import Verif.Spec.CreateCzi
import Verif.Proof.AddOverloads
import Verif.Props.AddOverloads
import Verif.Props.Zstd
import Verif.Props.Jxr

/-!
# The command that creates a document: the sub-block of a tile
-/

namespace Verif.CreateCzi
open Czi Blit Zstd Spec

theorem asInt_small {n : Nat} (h : n ≤ 2147483647) : Machine.asInt n = n := by
  unfold Machine.asInt
  rw [if_pos (by omega)]
  omega

theorem with_inv {b : AddBase} {n : Nat} {d : Option Source} {m t : Given} {a : AddInfo} (h : b.with n d m t = .ok a) :
    ∃ sd sm sa, d = some sd ∧ m.source = some sm ∧ t.source = some sa ∧ a = {
      coordinate := b.coordinate, mIndex := b.mIndex, x := b.x, y := b.y, logicalWidth := b.logicalWidth, logicalHeight := b.logicalHeight,
      physicalWidth := b.physicalWidth, physicalHeight := b.physicalHeight, pixelType := b.pixelType, pyramidType := b.pyramidType,
      compression := b.compression, sizeMetadata := m.size, sizeData := n, sizeAttachment := t.size,
      metadata := some sm, data := some sd, attachment := some sa } := by
  unfold AddBase.with at h
  split at h
  · rename_i sd sm sa h1 h2
    injection h with h
    exact ⟨sd, sm, sa, rfl, h1, h2, h.symm⟩
  · cases h

theorem givenMetadata_valid {m : List UInt8} (h : m.length ≤ 2147483647) :
    Spec.Valid (givenMetadata m) ∧ (givenMetadata m).size = m.length ∧ (givenMetadata m).size ≤ 2147483647 := by
  unfold givenMetadata
  split
  · rename_i e
    subst e
    exact ⟨.inl rfl, rfl, by decide⟩
  · have e : m.length % 4294967296 = m.length := Nat.mod_eq_of_lt (by omega)
    rw [e]
    exact ⟨.inr ⟨_, rfl, by exact Nat.le_refl _⟩, rfl, h⟩

theorem shown_metadata {m : List UInt8} (h : m.length ≤ 2147483647) {p : Payload} (hs : Shown (givenMetadata m) p) : p = payload m := by
  obtain ⟨h1, h2⟩ := hs
  have e := (givenMetadata_valid h).2.1
  rw [e] at h1 h2
  obtain ⟨sz, by'⟩ := p
  dsimp only at h1 h2
  subst h1
  unfold payload
  by_cases h0 : m.length = 0
  · rw [if_pos h0] at h2
    rw [if_pos h0, h2]
  · rw [if_neg h0] at h2
    rw [if_neg h0]
    obtain ⟨b, l, hb, hl, hlen, hi⟩ := h2
    have hne : m ≠ [] := by rintro rfl; exact h0 rfl
    unfold givenMetadata at hb
    rw [if_neg hne] at hb
    injection hb with hb
    subst hb
    rw [hl]
    congr 2
    refine List.ext_getElem? fun i => ?_
    by_cases hi' : i < m.length
    · rw [hi i hi']
      show some (m.getD i 0) = _
      rw [List.getD_eq_getElem?_getD, List.getElem?_eq_getElem hi']
      rfl
    · rw [List.getElem?_eq_none (by omega), List.getElem?_eq_none (by omega)]

theorem shown_nothing {p : Payload} (hs : Shown ⟨none, 0⟩ p) : p = payload [] := by
  obtain ⟨h1, h2⟩ := hs
  obtain ⟨sz, by'⟩ := p
  dsimp only at h1 h2
  rw [if_pos rfl] at h2
  subst h1 h2
  rfl

/-- The sub-block is as it has to be for the tile at `p`. -/
structure Good (env : Env) (o : Options) (bpp : Nat) (c : Coord) (p : Int × Int × Int) (D : Nat) (a : AddInfo) : Prop where
  ok : SubOk a
  check : a.check = true
  bytes : a.sizeData ≤ 2147483647 ∧ a.sizeData ≤ D
  others : a.sizeMetadata = o.metadata.length ∧ a.sizeAttachment = 0
  coordinate : a.coordinate = c
  mIndex : a.mIndex = some p.2.2
  place : a.x = p.1 ∧ a.y = p.2.1
  logical : a.logicalWidth = o.width ∧ a.logicalHeight = o.height
  physical : a.physicalWidth = o.width ∧ a.physicalHeight = o.height
  layer0 : a.pyramidType = .None
  metadata : (viewAdded a).metadata = payload o.metadata
  attachment : (viewAdded a).attachment = payload []
  picture : Depicts env.codec (viewAdded a) o.pixelType o.width o.height (o.width * bpp)
    (fun y i => (env.generate o.pixelType o.width o.height c p.2.2 (p.1, p.2.1)).bm.buf.get
      (y * (env.generate o.pixelType o.width o.height c p.2.2 (p.1, p.2.1)).bm.stride + i))

/-- The most bytes of data of a tile. -/
def dataBound (env : Env) (n : Nat) : Nat := max n (3 + env.bound n)

theorem base_fits {c : Coord} {p : Int × Int × Int} {t : Jxr.Typed} {mode : CompressionMode} (hc : CoordInt32 c)
    (hp : IsInt32 p.1 ∧ IsInt32 p.2.1 ∧ IsInt32 p.2.2) (hw : t.bm.w ≤ 2147483647) (hh : t.bm.h ≤ 2147483647) : BaseFits (base c p t mode) := by
  have hi : ∀ {n : Nat}, n ≤ 2147483647 → IsInt32 (Machine.asInt n) := by
    intro n h
    rw [asInt_small h]
    constructor <;> omega
  refine ⟨hc, ?_, hp.1, hp.2.1, hi hw, hi hh, hi hw, hi hh, ?_⟩
  · intro m hm
    injection hm with hm
    subst hm
    exact hp.2.2
  · show IsInt32 (compressionModeToInt mode)
    cases mode <;> constructor <;> decide

/-- A sub-block made with valid arguments passes the check of its arguments. -/
theorem check_of {a : AddInfo} (h1 : a.data.isSome) (h2 : a.metadata.isSome) (h3 : a.attachment.isSome)
    (h4 : 0 ≤ a.logicalWidth ∧ 0 ≤ a.logicalHeight ∧ 0 ≤ a.physicalWidth ∧ 0 ≤ a.physicalHeight)
    (h5 : a.compression ≠ compressionModeToInt .Invalid) : a.check = true := by
  obtain ⟨w1, w2, w3, w4⟩ := h4
  unfold AddInfo.check
  cases hd : a.data <;> rw [hd] at h1 <;> try cases h1
  cases hm : a.metadata <;> rw [hm] at h2 <;> try cases h2
  cases ha : a.attachment <;> rw [ha] at h3 <;> try cases h3
  simp [h5]
  omega

theorem good_uncompressed (env : Env) (o : Options) (bpp D : Nat) (c : Coord) (p : Int × Int × Int) (hj : JobOk o bpp) (hg : GeneratorOk env o bpp)
    (hc : CoordInt32 c) (hp : IsInt32 p.1 ∧ IsInt32 p.2.1 ∧ IsInt32 p.2.2) (hD : o.height * (o.width * bpp) ≤ D) (t : Jxr.Typed)
    (ht : t = env.generate o.pixelType o.width o.height c p.2.2 (p.1, p.2.1)) :
    ∃ a, (AddStrided.mk (base c p t .UnCompressed) (some t.bm.buf) t.bm.stride (givenMetadata o.metadata) ⟨none, 0⟩).info = .ok a ∧ Good env o bpp c p D a := by
  have hg' := hg c p.2.2 (p.1, p.2.1)
  dsimp only at hg'
  rw [← ht] at hg'
  obtain ⟨g1, g2, g3, g4, g5, _⟩ := hg'
  have hbpp : 0 < bpp := by
    have := hj.pixel
    cases hp : o.pixelType <;> rw [hp] at this <;> simp [bytesPerPel] at this <;> omega
  have hwb : o.width ≤ o.width * bpp := Nat.le_mul_of_pos_right _ hbpp
  have hb := hj.bytes
  have hw1 : o.width * bpp ≤ o.height * (o.width * bpp) := Nat.le_mul_of_pos_left _ hj.size.2
  have hh1 : o.height ≤ o.height * (o.width * bpp) := Nat.le_mul_of_pos_right _ (by have := hj.size.1; omega)
  have hbf := base_fits (mode := .UnCompressed) (t := t) hc hp (by omega) (by omega)
  have hv := givenMetadata_valid hj.metadata
  have hargs : BitmapArgs (base c p t .UnCompressed) (givenMetadata o.metadata) ⟨none, 0⟩ o.width o.height bpp := {
    fits := hbf
    pixel := by show bytesPerPel t.pt = _; rw [g1]; exact hj.pixel
    width := by show Machine.asInt t.bm.w = _; rw [g2, asInt_small (by omega)]
    height := by show Machine.asInt t.bm.h = _; rw [g3, asInt_small (by omega)]
    pos := hj.size
    size := hb
    uncompressed := rfl
    metadata := ⟨hv.1, hv.2.2⟩
    attachment := ⟨.inl rfl, by decide⟩ }
  have hmem : ∀ y < o.height, y * t.bm.stride + o.width * bpp ≤ t.bm.buf.size := by
    intro y hy
    have : y * t.bm.stride ≤ (o.height - 1) * t.bm.stride := Nat.mul_le_mul_right _ (by omega)
    omega
  obtain ⟨a, e, hd⟩ := C67_strided (AddStrided.mk (base c p t .UnCompressed) (some t.bm.buf) t.bm.stride (givenMetadata o.metadata) ⟨none, 0⟩) t.bm.buf
    o.width o.height bpp hargs rfl hmem
  refine ⟨a, e, ?_⟩
  have hsz : ∃ d, (base c p t .UnCompressed).with (o.height * (o.width * bpp)) d (givenMetadata o.metadata) ⟨none, 0⟩ = .ok a := by
    unfold AddStrided.info at e
    rw [hargs.pixel] at e
    dsimp only at e
    rw [hargs.width, hargs.height, show (o.width : Int) * (bpp : Int) = ((o.width * bpp : Nat) : Int) by norm_num, toSizeT_nat (by omega),
      show (o.height : Int) * ((o.width * bpp : Nat) : Int) = ((o.height * (o.width * bpp) : Nat) : Int) by norm_num, toSizeT_nat (by omega)] at e
    exact ⟨_, e⟩
  obtain ⟨d, e2⟩ := hsz
  obtain ⟨sd, sm, sa, -, -, -, ea⟩ := with_inv e2
  have ew : (base c p t .UnCompressed).logicalWidth = o.width := hargs.width
  have eh : (base c p t .UnCompressed).logicalHeight = o.height := hargs.height
  have hsv := hd.shows
  exact {
    ok := hd.writable.1
    check := by
      subst ea
      refine check_of rfl rfl rfl ⟨?_, ?_, ?_, ?_⟩ (by show compressionModeToInt .UnCompressed ≠ _; decide)
      · show 0 ≤ (base c p t .UnCompressed).logicalWidth; rw [ew]; omega
      · show 0 ≤ (base c p t .UnCompressed).logicalHeight; rw [eh]; omega
      · show 0 ≤ (base c p t .UnCompressed).physicalWidth; rw [hargs.width]; omega
      · show 0 ≤ (base c p t .UnCompressed).physicalHeight; rw [hargs.height]; omega
    bytes := by subst ea; exact ⟨hb, hD⟩
    others := by subst ea; exact ⟨hv.2.1, rfl⟩
    coordinate := by subst ea; rfl
    mIndex := by subst ea; rfl
    place := by subst ea; exact ⟨rfl, rfl⟩
    logical := by subst ea; exact ⟨ew, eh⟩
    physical := by subst ea; exact ⟨hargs.width, hargs.height⟩
    layer0 := by subst ea; rfl
    metadata := shown_metadata hj.metadata hsv.metadata
    attachment := shown_nothing hsv.attachment
    picture := by
      rw [← ht]
      obtain ⟨pc, ps, l, pl, pz, pb⟩ := hsv.picture
      have hpt : (viewAdded a).pixelType = o.pixelType := by rw [hsv.described.1]; exact g1
      refine ⟨l, pl, pz, ps, hpt, ?_⟩
      intro lib enc fresh fresh2
      obtain ⟨bm, b1, b2, b3, b4⟩ := pb fresh true
      rw [hpt] at b1
      refine ⟨bm, ?_, b2, b3, ?_, ?_⟩
      · rw [pc]
        exact (C80_decoders lib env.codec enc fresh fresh2 l o.pixelType o.width o.height none ⟨o.pixelType, bm⟩).2.2.2.2 ⟨rfl, b1⟩
      · intro y i hy hi
        have := b4 y hy i hi
        unfold Buf.read at this
        split at this
        · assumption
        · cases this
      · intro y i hy hi
        have := b4 y hy i hi
        unfold Buf.read at this
        split at this
        · exact Option.some.inj this
        · cases this }

theorem good_compressed (env : Env) (o : Options) (bpp D : Nat) (c : Coord) (p : Int × Int × Int) (hj : JobOk o bpp) (hg : GeneratorOk env o bpp)
    (hc : CoordInt32 c) (hp : IsInt32 p.1 ∧ IsInt32 p.2.1 ∧ IsInt32 p.2.2) (t : Jxr.Typed)
    (ht : t = env.generate o.pixelType o.width o.height c p.2.2 (p.1, p.2.1)) (mode : CompressionMode) (hmode : mode = .Zstd0 ∨ mode = .Zstd1)
    (z : List UInt8) (hz0 : z ≠ []) (hz : z.length ≤ D) (hz2 : z.length ≤ 2147483647)
    (hdec : ∀ lib enc fresh fresh2, ∃ bm, Jxr.createBitmap lib env.codec enc fresh fresh2 mode z o.pixelType o.width o.height none = .ok ⟨o.pixelType, bm⟩ ∧
      Zstd.Shows bm o.width o.height (o.width * bpp) (fun y i => t.bm.buf.get (y * t.bm.stride + i))) :
    ∃ a, compressed c p t mode o.metadata (some (.ok (some z))) = .ok a ∧ Good env o bpp c p D a := by
  have hg' := hg c p.2.2 (p.1, p.2.1)
  dsimp only at hg'
  rw [← ht] at hg'
  obtain ⟨g1, g2, g3, g4, g5, _⟩ := hg'
  have hbpp : 0 < bpp := by
    have := hj.pixel
    cases hp : o.pixelType <;> rw [hp] at this <;> simp [bytesPerPel] at this <;> omega
  have hwb : o.width ≤ o.width * bpp := Nat.le_mul_of_pos_right _ hbpp
  have hb := hj.bytes
  have hw1 : o.width * bpp ≤ o.height * (o.width * bpp) := Nat.le_mul_of_pos_left _ hj.size.2
  have hh1 : o.height ≤ o.height * (o.width * bpp) := Nat.le_mul_of_pos_right _ (by have := hj.size.1; omega)
  have hbf := base_fits (mode := mode) (t := t) hc hp (by omega) (by omega)
  have hv := givenMetadata_valid hj.metadata
  have hzp : 0 < z.length := List.length_pos_iff.2 hz0
  obtain ⟨sm, m1, m2, m3, m4⟩ := source_valid hv.1
  obtain ⟨sa, a1, a2, a3, a4⟩ := source_valid (g := ⟨none, 0⟩) (.inl rfl)
  have em : z.length % 4294967296 = z.length := Nat.mod_eq_of_lt (by omega)
  have ew : Machine.asInt t.bm.w = o.width := by rw [g2, asInt_small (by omega)]
  have eh : Machine.asInt t.bm.h = o.height := by rw [g3, asInt_small (by omega)]
  have esrc : (Given.mk (some (Buf.ofList z)) z.length).source = some ⟨[z], false⟩ := by
    unfold Given.source
    dsimp only
    rw [memBytes_some (by show 0 + z.length ≤ z.length; omega)]
    show some (Source.mk [_] false) = _
    congr 3
    refine List.ext_getElem? fun i => ?_
    by_cases hi : i < z.length
    · rw [List.getElem?_map, List.getElem?_range hi]
      show some (z.getD (0 + i) 0) = _
      rw [Nat.zero_add, List.getD_eq_getElem?_getD, List.getElem?_eq_getElem hi]
      rfl
    · rw [List.getElem?_eq_none (by simp; omega), List.getElem?_eq_none (by omega)]
  unfold compressed AddMemPtr.info AddBase.with
  dsimp only
  rw [em, esrc, m1, a1]
  refine ⟨_, rfl, ?_⟩
  have hdata : payloadView z.length (some ⟨[z], false⟩) = ⟨z.length, some z⟩ := by
    unfold payloadView payloadOf
    rw [if_neg (by omega)]
    simp
  have hmc : compressionModeFromInt (compressionModeToInt mode) = mode := by rcases hmode with rfl | rfl <;> decide
  exact {
    ok := ⟨⟨hbf.coordinate, hbf.mIndex, hbf.x, hbf.y, hbf.logicalWidth, hbf.logicalHeight, hbf.physicalWidth, hbf.physicalHeight, hbf.compression⟩,
      ⟨⟨m2, m3⟩, ⟨fun s hs hn => (by have e := Option.some.inj hs; subst e; cases hn),
        fun s hs => (by have e := Option.some.inj hs; subst e; show z.length ≤ [z].flatten.length + 4096; simp)⟩, ⟨a2, a3⟩⟩,
      hv.2.2, (by show z.length < 2 ^ 59; omega), (by show 0 ≤ 2147483647; omega)⟩
    check := by
      refine check_of rfl rfl rfl ⟨?_, ?_, ?_, ?_⟩ (by show compressionModeToInt mode ≠ compressionModeToInt .Invalid; rcases hmode with rfl | rfl <;> decide)
      · show 0 ≤ Machine.asInt t.bm.w; rw [ew]; omega
      · show 0 ≤ Machine.asInt t.bm.h; rw [eh]; omega
      · show 0 ≤ Machine.asInt t.bm.w; rw [ew]; omega
      · show 0 ≤ Machine.asInt t.bm.h; rw [eh]; omega
    bytes := ⟨hz2, hz⟩
    others := ⟨hv.2.1, rfl⟩
    coordinate := rfl
    mIndex := rfl
    place := ⟨rfl, rfl⟩
    logical := ⟨ew, eh⟩
    physical := ⟨ew, eh⟩
    layer0 := rfl
    metadata := shown_metadata hj.metadata m4
    attachment := shown_nothing a4
    picture := by
      rw [← ht]
      refine ⟨z, ?_, ?_, ?_, g1, ?_⟩
      · show (payloadView z.length (some ⟨[z], false⟩)).bytes = _
        rw [hdata]
      · rfl
      · show (Machine.asInt t.bm.w, Machine.asInt t.bm.h) = _
        rw [ew, eh]
      · show ∀ lib enc fresh fresh2, ∃ bm, Jxr.createBitmap lib env.codec enc fresh fresh2 (compressionModeFromInt (compressionModeToInt mode)) z _ _ _ _ = _ ∧ _
        rw [hmc]
        exact hdec }

/-- **The sub-block of a tile.** -/
theorem subBlock_good (env : Env) (o : Options) (bpp : Nat) (c : Coord) (p : Int × Int × Int) (hj : JobOk o bpp) (hg : GeneratorOk env o bpp)
    (hk : o.compression = .Zstd0 ∨ o.compression = .Zstd1 → CodecOk env (o.height * (o.width * bpp)))
    (hc : CoordInt32 c) (hp : IsInt32 p.1 ∧ IsInt32 p.2.1 ∧ IsInt32 p.2.2) :
    ∃ a, subBlock env o c p = .ok (some a) ∧ Good env o bpp c p (dataBound env (o.height * (o.width * bpp))) a := by
  have hg' := hg c p.2.2 (p.1, p.2.1)
  generalize ht : env.generate o.pixelType o.width o.height c p.2.2 (p.1, p.2.1) = t at hg'
  dsimp only at hg'
  obtain ⟨g1, g2, g3, g4, g5, g6⟩ := hg'
  have hbpp : 0 < bpp := by
    have := hj.pixel
    cases hp : o.pixelType <;> rw [hp] at this <;> simp [bytesPerPel] at this <;> omega
  have hb := hj.bytes
  have hw1 : o.width * bpp ≤ o.height * (o.width * bpp) := Nat.le_mul_of_pos_left _ hj.size.2
  have hn : t.bm.w * (bytesPerPel t.pt).getD 0 * t.bm.h = o.height * (o.width * bpp) := by
    rw [g1, g2, g3, hj.pixel]
    exact Nat.mul_comm _ _
  unfold subBlock
  dsimp only
  rw [ht, hn, g1, g2, g3]
  generalize hN : o.height * (o.width * bpp) = N at *
  have unc : o.compression = .Invalid ∨ o.compression = .UnCompressed → ∃ a,
      (AddStrided.mk (base c p t .UnCompressed) (some t.bm.buf) t.bm.stride (givenMetadata o.metadata) ⟨none, 0⟩).info = .ok a ∧
        Good env o bpp c p (dataBound env N) a :=
    fun _ => good_uncompressed env o bpp _ c p hj hg hc hp (by rw [hN]; exact Nat.le_max_left _ _) t ht.symm
  rcases hj.mode with hm | hm | hm | hm
  · obtain ⟨a, e, h⟩ := unc (.inl hm)
    rw [hm]
    dsimp only
    rw [e]
    exact ⟨a, rfl, h⟩
  · obtain ⟨a, e, h⟩ := unc (.inr hm)
    rw [hm]
    dsimp only
    rw [e]
    exact ⟨a, rfl, h⟩
  · have k := hk (.inl hm)
    rw [hm]
    dsimp only
    have hpos : 0 < env.bound N := by
      have h1 := k.bound (List.replicate N 0)
      rw [List.length_replicate] at h1
      have := List.length_pos_iff.2 (k.lossless.nonempty (List.replicate N 0))
      omega
    obtain ⟨r, r1, r2, r3⟩ := C37_zstd0_round_trip env.codec k.lossless env.fresh env.fresh o.width o.height t.bm.stride o.pixelType bpp t.bm.buf (env.bound N)
      hj.pixel hj.size.1 hj.size.2 g4 g5 g6 hpos
    have hne := r2 (fun l hl => by have := k.bound l; rw [hl, hN] at this; exact this)
    cases r with
    | none => exact absurd rfl hne
    | some z =>
      have hzl : z ≠ [] ∧ z.length ≤ env.bound N := by
        have := r1
        unfold compress0 at this
        simp only [hj.pixel] at this
        repeat' split at this <;> try (cases this; done)
        unfold compressZstd at this
        repeat' split at this <;> try (cases this; done)
        · rename_i h
          have e : some (Except.ok (some _)) = some (Except.ok (some z)) := this
          injection e with e; injection e with e; injection e with e
          subst e
          exact ⟨k.lossless.nonempty _, h⟩
      rw [r1]
      have hs := k.small
      obtain ⟨a, e, h⟩ := good_compressed env o bpp (dataBound env N) c p hj hg hc hp t ht.symm .Zstd0 (.inl rfl) z hzl.1 (by unfold dataBound; omega) (by omega)
        (fun lib enc fresh fresh2 => by
          obtain ⟨r', q1, q2, q3⟩ := C37_zstd0_round_trip env.codec k.lossless env.fresh fresh o.width o.height t.bm.stride o.pixelType bpp t.bm.buf (env.bound N)
            hj.pixel hj.size.1 hj.size.2 g4 g5 g6 hpos
          rw [r1] at q1
          have e : r' = some z := by
            injection q1 with q1; injection q1 with q1; exact q1.symm
          obtain ⟨bm, b1, b2⟩ := q3 z e true
          exact ⟨bm, (C80_decoders lib env.codec enc fresh fresh2 z o.pixelType o.width o.height none ⟨o.pixelType, bm⟩).2.1.2 ⟨rfl, b1⟩, b2⟩)
      rw [e]
      exact ⟨a, rfl, h⟩
  · have k := hk (.inr hm)
    rw [hm]
    dsimp only
    have hpos : 0 < env.bound N := by
      have h1 := k.bound (List.replicate N 0)
      rw [List.length_replicate] at h1
      have := List.length_pos_iff.2 (k.lossless.nonempty (List.replicate N 0))
      omega
    obtain ⟨z, r1, r2⟩ := C37_compress_succeeds env.codec env.fresh o.width o.height t.bm.stride o.pixelType bpp o.packing t.bm.buf (3 + env.bound N)
      hj.pixel hj.size.1 hj.size.2 g4 g5 g6 (by omega) (by omega) (fun l hl => by have := k.bound l; rw [hl, hN] at this; omega)
    have hdec := fun fresh => C37_round_trip_partial env.codec k.lossless env.fresh fresh o.width o.height t.bm.stride o.pixelType bpp o.packing t.bm.buf (3 + env.bound N)
      hj.pixel hj.size.1 hj.size.2 g4 g5 g6 (by omega) (by omega) z r1 true (fun h1 h2 => absurd h2 (hj.packed hm h1))
    have hz0 : z ≠ [] := by
      rintro rfl
      obtain ⟨bm, b1, _⟩ := hdec env.fresh
      revert b1
      unfold decode1
      simp [parseHeader]
    rw [r1]
    have hs := k.small
    obtain ⟨a, e, h⟩ := good_compressed env o bpp (dataBound env N) c p hj hg hc hp t ht.symm .Zstd1 (.inr rfl) z hz0 (by unfold dataBound; omega) (by omega)
      (fun lib enc fresh fresh2 => by
        obtain ⟨bm, b1, b2⟩ := hdec fresh
        exact ⟨bm, (C80_decoders lib env.codec enc fresh fresh2 z o.pixelType o.width o.height none ⟨o.pixelType, bm⟩).2.2.1.2 ⟨rfl, b1⟩, b2⟩)
    rw [e]
    exact ⟨a, rfl, h⟩

end Verif.CreateCzi
