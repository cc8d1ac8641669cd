import Verif.Proof.CreateCzi2
import Verif.Props.Document
import Mathlib.Algebra.Order.BigOperators.Group.List

/-!
# The command that creates a document: the whole document
-/

namespace Verif.CreateCzi
open Czi Blit Zstd Spec

theorem position_all (o : Options) (hm : mosaicRows o.tiles * mosaicColumns o.tiles ≤ 2147483647)
    (hw : mosaicColumns o.tiles * o.width ≤ 2147483647) (hh : mosaicRows o.tiles * o.height ≤ 2147483647) (h0 : 0 ≤ o.tiles.overlap ∧ o.tiles.overlap ≤ 1)
    {n : Nat} (hn : n < mosaicRows o.tiles * mosaicColumns o.tiles) :
    ∃ r k, r < mosaicRows o.tiles ∧ k < mosaicColumns o.tiles ∧ n = r * mosaicColumns o.tiles + k ∧
      ∃ x y, position o n = some (x, y, (n : Int)) ∧ TileAt k o.width o.tiles.overlap x ∧ TileAt r o.height o.tiles.overlap y ∧ IsInt32 x ∧ IsInt32 y := by
  have hc : 0 < mosaicColumns o.tiles := by
    rcases Nat.eq_zero_or_pos (mosaicColumns o.tiles) with h | h
    · rw [h, Nat.mul_zero] at hn; omega
    · exact h
  have hr : n / mosaicColumns o.tiles < mosaicRows o.tiles := Nat.div_lt_of_lt_mul (by rw [Nat.mul_comm]; exact hn)
  have hk : n % mosaicColumns o.tiles < mosaicColumns o.tiles := Nat.mod_lt _ hc
  have e : n = n / mosaicColumns o.tiles * mosaicColumns o.tiles + n % mosaicColumns o.tiles := by rw [Nat.mul_comm]; exact (Nat.div_add_mod _ _).symm
  refine ⟨_, _, hr, hk, e, ?_⟩
  obtain ⟨x, y, h⟩ := position_tile o hr hk hm hw hh h0
  rw [← e] at h
  exact ⟨x, y, h⟩

private def dummy : AddInfo := ⟨fun _ => none, none, 0, 0, 0, 0, 0, 0, .Gray8, .None, 0, 0, 0, 0, none, none, none⟩

/-- The sub-block that is made for a tile. -/
def made (env : Env) (o : Options) (c : Coord) (n : Nat) : AddInfo :=
  match subBlock env o c ((position o n).getD (0, 0, 0)) with | .ok (some a) => a | _ => dummy

/-- The sub-blocks of the document, in the order in which they are added. -/
def allTiles (env : Env) (o : Options) (L : List Coord) : List AddInfo :=
  L.flatMap fun c => (List.range (mosaicRows o.tiles * mosaicColumns o.tiles)).map (made env o c)

theorem inBounds_int32 {o : Options} {bpp : Nat} (hj : JobOk o bpp) {c : Coord} (hc : InBounds (inChannel o.bounds) c) : CoordInt32 c := by
  intro d v hv
  have h := hc d
  unfold inChannel at h
  split at h
  · rename_i h1
    rw [h] at hv; cases hv
  · rename_i s n h1
    obtain ⟨v', h2, h3, h4⟩ := h
    rw [hv] at h2
    injection h2 with h2
    subst h2
    split at h1
    · injection h1 with h1
      injection h1 with e1 e2
      subst e1 e2
      exact ⟨by omega, by omega⟩
    · obtain ⟨_, b2, b3⟩ := hj.bounds d s n h1
      have := b2.1
      exact ⟨by omega, by omega⟩

theorem length_allTiles (env : Env) (o : Options) (L : List Coord) :
    (allTiles env o L).length = L.length * (mosaicRows o.tiles * mosaicColumns o.tiles) := by
  unfold allTiles
  induction L with
  | nil => simp
  | cons c L ih => rw [List.flatMap_cons, List.length_append, ih, List.length_map, List.length_range, List.length_cons, Nat.succ_mul, Nat.add_comm]

theorem writerInfo_ok (o : Options) : InfoOk (writerInfo o) where
  metadata := by intro n h; cases h
  subDir := by intro n h; cases h
  attDir := by intro n h; cases h

/-- A tile: the sub-block is good and it is at the right place. -/
theorem made_good {env : Env} {o : Options} {bpp : Nat} (hj : JobOk o bpp) (hg : GeneratorOk env o bpp)
    (hk : o.compression = .Zstd0 ∨ o.compression = .Zstd1 → CodecOk env (o.height * (o.width * bpp)))
    (hm : mosaicRows o.tiles * mosaicColumns o.tiles ≤ 2147483647) {c : Coord} (hc : InBounds (inChannel o.bounds) c) {n : Nat}
    (hn : n < mosaicRows o.tiles * mosaicColumns o.tiles) :
    subBlock env o c ((position o n).getD (0, 0, 0)) = .ok (some (made env o c n)) ∧
    ∃ r k x y, r < mosaicRows o.tiles ∧ k < mosaicColumns o.tiles ∧ n = r * mosaicColumns o.tiles + k ∧ TileAt k o.width o.tiles.overlap x ∧
      TileAt r o.height o.tiles.overlap y ∧
      Good env o bpp c (x, y, (n : Int)) (dataBound env (o.height * (o.width * bpp))) (made env o c n) := by
  obtain ⟨r, k, hr, hk', e, x, y, hp, t1, t2, i1, i2⟩ := position_all o hm hj.width hj.height hj.overlap hn
  obtain ⟨a, e1, h1⟩ := subBlock_good env o bpp c (x, y, (n : Int)) hj hg hk (inBounds_int32 hj hc) ⟨i1, i2, by constructor <;> (show _ ≤ _; dsimp only; omega)⟩
  have ea : made env o c n = a := by
    unfold made
    rw [hp]
    show (match subBlock env o c (x, y, (n : Int)) with | .ok (some a) => a | _ => dummy) = a
    rw [e1]
  rw [ea, hp]
  exact ⟨e1, r, k, x, y, hr, hk', e, t1, t2, h1⟩

theorem isTile_of_good {env : Env} {o : Options} {bpp D r k : Nat} {c : Coord} {x y : Int} {a : AddInfo} (hj : JobOk o bpp)
    (hm : r * mosaicColumns o.tiles + k < 2147483647) (t1 : TileAt k o.width o.tiles.overlap x) (t2 : TileAt r o.height o.tiles.overlap y)
    (h : Good env o bpp c (x, y, ((r * mosaicColumns o.tiles + k : Nat) : Int)) D a) : IsTile env o c r k (viewAdded a) := by
  have ex : (viewAdded a).logicalRect = (x, y, (o.width : Int), (o.height : Int)) := by
    show (a.x, a.y, a.logicalWidth, a.logicalHeight) = _
    rw [h.place.1, h.place.2, h.logical.1, h.logical.2]
  exact {
    coordinate := h.coordinate
    mIndex := by
      show a.mIndex.bind validM = _
      rw [h.mIndex]
      show validM _ = _
      unfold validM
      dsimp only
      rw [if_neg (by omega)]
    position := by rw [ex]; exact ⟨t1, t2⟩
    size := by rw [ex]
    layer0 := by
      show (if a.pyramidType = .Invalid then PyramidType.None else a.pyramidType) = _
      rw [h.layer0]; rfl
    metadata := h.metadata
    attachment := h.attachment
    picture := by
      intro bpp' hb
      rw [hj.pixel] at hb
      injection hb with hb
      subst hb
      dsimp only
      rw [ex]
      exact h.picture }

theorem subsOf_adds (as : List AddInfo) : subsOf (as.map WOp.addSubBlock) = as := by
  unfold subsOf
  induction as with
  | nil => rfl
  | cons a as ih => rw [List.map_cons, List.filterMap_cons]; dsimp only; rw [ih]

/-- What the command does, in terms of calls to the writer. -/
theorem doIt_eq (env : Env) (o : Options) (bpp : Nat) (L : List Coord) (d0 : Disk) (hj : JobOk o bpp) (hg : GeneratorOk env o bpp)
    (hk : o.compression = .Zstd0 ∨ o.compression = .Zstd1 → CodecOk env (o.height * (o.width * bpp)))
    (hL : ∀ c, c ∈ L ↔ InBounds (inChannel o.bounds) c) (hnd : L.Nodup)
    (hcount : L.length * (mosaicRows o.tiles * mosaicColumns o.tiles) + 1 < 2 ^ 31)
    (hbytes : L.length * (mosaicRows o.tiles * mosaicColumns o.tiles) * (dataBound env (o.height * (o.width * bpp)) + o.metadata.length) < 2 ^ 58)
    (hxml : ∀ w, (env.xml w).length < 2 ^ 31) :
    ∃ L' : List Coord, L'.Perm L ∧ (allTiles env o L').Pairwise (fun a b => Distinct b a) ∧ ∃ w disk,
      w.dir.subBlks.length = L.length * (mosaicRows o.tiles * mosaicColumns o.tiles) ∧ OpsOk ((allTiles env o L').map WOp.addSubBlock ++ [.writeMetadata ⟨some (env.xml w), some []⟩]) ∧
      writeDoc false d0 (writerInfo o) ((allTiles env o L').map WOp.addSubBlock ++ [.writeMetadata ⟨some (env.xml w), some []⟩]) =
        some (disk, (allTiles env o L').map WOp.addSubBlock ++ [.writeMetadata ⟨some (env.xml w), some []⟩]) ∧
      ∀ fuel, L.length + mosaicRows o.tiles * mosaicColumns o.tiles < fuel → doIt env o fuel d0 = some (.ok disk) := by
  obtain ⟨L', l1, l2, _, l4⟩ := C23_enumerates_exactly_partial (inChannel o.bounds) ⟨.C, by
      unfold inChannel
      cases h : o.bounds .C <;> simp [h]⟩ (by
      intro d s n h
      unfold inChannel at h
      split at h
      · injection h with h
        injection h with e1 e2
        omega
      · exact (hj.bounds d s n h).1)
  have hperm : L'.Perm L := (List.perm_ext_iff_of_nodup l2 hnd).2 (fun c => (l1 c).trans (hL c).symm)
  have hlen := hperm.length_eq
  refine ⟨L', hperm, ?_⟩
  generalize hN : mosaicRows o.tiles * mosaicColumns o.tiles = N at *
  by_cases hLe : L' = []
  · -- there is always a coordinate, since no interval is empty
    exfalso
    have : InBounds (inChannel o.bounds) (fun d => ((inChannel o.bounds) d).map Prod.fst) := by
      intro d
      split
      · rename_i h; dsimp only; rw [h]; rfl
      · rename_i s n h
        refine ⟨s, by dsimp only; rw [h]; rfl, by omega, ?_⟩
        unfold inChannel at h
        split at h
        · injection h with h
          injection h with e1 e2
          omega
        · have := (hj.bounds d s n h).1; omega
    have := (l1 _).2 this
    rw [hLe] at this
    cases this
  have hL1 : 1 ≤ L'.length := List.length_pos_iff.2 hLe
  have hNle : N ≤ L'.length * N := Nat.le_mul_of_pos_left _ hL1
  rw [hlen] at hNle
  have hN1 : N ≤ 2147483647 := by omega
  have hgood : ∀ c ∈ L', ∀ n < N, subBlock env o c ((position o n).getD (0, 0, 0)) = .ok (some (made env o c n)) ∧
      ∃ r k x y, r < mosaicRows o.tiles ∧ k < mosaicColumns o.tiles ∧ n = r * mosaicColumns o.tiles + k ∧ TileAt k o.width o.tiles.overlap x ∧
      TileAt r o.height o.tiles.overlap y ∧
      Good env o bpp c (x, y, (n : Int)) (dataBound env (o.height * (o.width * bpp))) (made env o c n) :=
    fun c hc n hn => made_good hj hg hk (by omega) ((l1 c).1 hc) (by omega)
  have hmem : ∀ a ∈ allTiles env o L', ∃ c ∈ L', ∃ n < N, a = made env o c n := by
    intro a ha
    unfold allTiles at ha
    rw [List.mem_flatMap] at ha
    obtain ⟨c, hc, ha⟩ := ha
    rw [List.mem_map] at ha
    obtain ⟨n, hn, rfl⟩ := ha
    rw [List.mem_range, hN] at hn
    exact ⟨c, hc, n, hn, rfl⟩
  have hkey : ∀ c ∈ L', ∀ n < N, (made env o c n).coordinate = c ∧ (made env o c n).mIndex = some (n : Int) := by
    intro c hc n hn
    obtain ⟨_, r, k, x, y, _, _, _, _, _, h⟩ := hgood c hc n hn
    exact ⟨h.coordinate, h.mIndex⟩
  have hok : ∀ a ∈ allTiles env o L', SubOk a ∧ a.check = true ∧ Uniform (o.width : Int) (o.height : Int) a := by
    intro a ha
    obtain ⟨c, hc, n, hn, rfl⟩ := hmem a ha
    obtain ⟨_, r, k, x, y, _, _, _, _, _, h⟩ := hgood c hc n hn
    exact ⟨h.ok, h.check, h.logical, h.physical, (n : Int), h.mIndex, by unfold intMin; omega⟩
  have hpw : (allTiles env o L').Pairwise (fun a b => Distinct b a) := by
    unfold allTiles
    rw [hN, List.pairwise_flatMap]
    constructor
    · intro c hc
      rw [List.pairwise_map]
      refine List.Pairwise.imp_of_mem ?_ (List.nodup_range (n := N))
      intro i j hi hj' hij
      right
      rw [(hkey c hc i (List.mem_range.1 hi)).2, (hkey c hc j (List.mem_range.1 hj')).2]
      intro h
      injection h with h
      omega
    · refine List.Pairwise.imp_of_mem ?_ l2
      intro c c' hc hc' hne a ha b hb
      rw [List.mem_map] at ha hb
      obtain ⟨i, hi, rfl⟩ := ha
      obtain ⟨j, hj', rfl⟩ := hb
      left
      rw [(hkey c hc i (List.mem_range.1 hi)).1, (hkey c' hc' j (List.mem_range.1 hj')).1]
      exact fun h => hne h.symm
  obtain ⟨s, segs, ec, hinv, hnx, _⟩ := step_create false d0 (writerInfo o) (writerInfo_ok o)
  have hall : (session s ((allTiles env o L').map WOp.addSubBlock)).2 = (allTiles env o L').map WOp.addSubBlock :=
    session_adds rfl _ hinv hok (by intro b hb; cases hb) hpw
  have hsum : ∀ as : List AddInfo, (∀ a ∈ as, a ∈ allTiles env o L') →
      ((as.map WOp.addSubBlock).map opBytes).sum ≤ as.length * (dataBound env (o.height * (o.width * bpp)) + o.metadata.length) := by
    intro as
    induction as with
    | nil => intro _; simp
    | cons a as ih =>
      intro ha
      have h1 := ih (fun x hx => ha x (List.mem_cons_of_mem _ hx))
      obtain ⟨c, hc, n, hn, e⟩ := hmem a (ha a (List.mem_cons_self ..))
      obtain ⟨_, r, k, x, y, _, _, _, _, _, h⟩ := hgood c hc n hn
      rw [← e] at h
      have h2 := h.bytes.2
      have h3 := h.others
      simp only [List.map_cons, List.sum_cons, List.length_cons, Nat.succ_mul]
      have : opBytes (.addSubBlock a) = a.sizeMetadata + a.sizeData + a.sizeAttachment := rfl
      omega
  have hlenT : (allTiles env o L').length = L.length * N := by rw [length_allTiles, hN, hlen]
  have htot := hsum _ (fun a ha => ha)
  rw [hlenT] at htot
  have hnext : (session s ((allTiles env o L').map WOp.addSubBlock)).1.w.next < 2 ^ 60 ∧
      ∃ segs' subs atts mt, Czi.Inv (session s ((allTiles env o L').map WOp.addSubBlock)).1 (writerInfo o) segs' subs atts mt ∧ subs.length = L.length * N := by
    have hos : opsSize ((allTiles env o L').map WOp.addSubBlock) =
        (((allTiles env o L').map WOp.addSubBlock).map opBytes).sum + 4096 * ((allTiles env o L').map WOp.addSubBlock).length := rfl
    rw [List.length_map, hlenT] at hos
    obtain ⟨segs', h1, h2, _⟩ := session_inv ((allTiles env o L').map WOp.addSubBlock) hinv (by
      intro op hop
      rw [List.mem_map] at hop
      obtain ⟨a, ha, rfl⟩ := hop
      exact (hok a ha).1) (by omega)
    refine ⟨by omega, segs', _, _, _, h1, ?_⟩
    rw [hall, subsOf_adds, List.nil_append, hlenT]
  generalize hs1 : (session s ((allTiles env o L').map WOp.addSubBlock)).1 = s1 at *
  obtain ⟨hn1, segs', subs, atts, mt, hinv1, hsl⟩ := hnext
  have hdl : s1.w.dir.subBlks.length = L.length * N := by
    rw [hinv1.dir.length_eq, ← hsl, ← hinv1.subs_eq]
    refine filterMap_length_eq ?_ _
    intro g
    unfold Seg.subEntry Seg.addInfo
    cases g.owner <;> rfl
  have hx := hxml s1.w
  have hmeta : MetaOk ⟨some (env.xml s1.w), some []⟩ := by
    constructor
    · show (env.xml s1.w).length < 2 ^ 59; omega
    · show (0 : Nat) < 2 ^ 59; omega
  have hacc := metadata_accepted hinv1 hmeta (by omega) rfl
  have hses : session s ((allTiles env o L').map WOp.addSubBlock ++ [.writeMetadata ⟨some (env.xml s1.w), some []⟩]) =
      ((step s1 (.writeMetadata ⟨some (env.xml s1.w), some []⟩)).1, (allTiles env o L').map WOp.addSubBlock ++ [.writeMetadata ⟨some (env.xml s1.w), some []⟩]) := by
    rw [session_append, hall, hs1]
    simp only [session, hacc]
    rfl
  have hops : OpsOk ((allTiles env o L').map WOp.addSubBlock ++ [.writeMetadata ⟨some (env.xml s1.w), some []⟩]) := {
    each := by
      intro op hop
      rcases List.mem_append.1 hop with h | h
      · rw [List.mem_map] at h
        obtain ⟨a, ha, rfl⟩ := h
        exact (hok a ha).1
      · rw [List.mem_singleton] at h
        subst h
        exact hmeta
    count := by rw [List.length_append, List.length_map, hlenT, List.length_singleton]; exact hcount
    total := by
      rw [List.map_append, List.sum_append]
      have : (List.map opBytes [WOp.writeMetadata ⟨some (env.xml s1.w), some []⟩]).sum = (env.xml s1.w).length := by
        simp [opBytes, MetaInfo.xmlBytes, MetaInfo.attBytes]
      omega }
  obtain ⟨disk, done, ed, _⟩ := writeDoc_written false d0 (writerInfo o) _ (writerInfo_ok o) hops
  have ed' := ed
  unfold writeDoc at ed'
  dsimp only at ed'
  rw [ec] at ed'
  simp only [Option.isSome_none, Bool.false_eq_true, if_false, hses] at ed'
  split at ed'
  · cases ed'
  · rename_i hcl
    injection ed' with ed'
    injection ed' with e1 e2
    rw [← e2] at ed
    refine ⟨hpw, s1.w, disk, hdl, hops, ed, ?_⟩
    intro fuel hfuel
    have hpres := present_session (env := env) (o := o) (N := N) (fuel := fuel) (P := fun n => (position o n).getD (0, 0, 0)) (A := made env o) (by omega)
      (by
        intro n hn
        obtain ⟨_, _, _, _, _, x, y, hp, _⟩ := position_all o (by omega) hj.width hj.height hj.overlap (n := n) (by omega)
        rw [hp]; rfl)
      (by rw [← hN]; exact position_end o) (by omega) L' 0 s (fun c hc n hn => (hgood c hc n hn).1)
    have hmap : (L'.flatMap fun c => (List.range N).map fun i => WOp.addSubBlock (made env o c i)) = (allTiles env o L').map WOp.addSubBlock := by
      unfold allTiles
      rw [List.map_flatMap, hN]
      simp only [List.map_map]
      rfl
    rw [hmap] at hpres
    have hpres := hpres hall
    unfold doIt
    dsimp only
    rw [ec, withChannel_eq, l4 _ (forCoordinate env o fuel) (some (.ok s)) fuel (by omega), hpres]
    simp only [Option.isSome_none, Bool.false_eq_true, if_false, hs1]
    unfold finish
    dsimp only
    rw [if_neg (by rw [hacc]; simp), if_neg hcl, e1]

end Verif.CreateCzi
