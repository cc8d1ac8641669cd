import Verif.Proof.CreateCzi
import Verif.Proof.Float
import Verif.Proof.DocMore
import Verif.Props.Arguments
import Verif.Props.Coord

/-!
# The command that creates a document: the loops and the writer
-/

namespace Verif.CreateCzi
open Czi Blit Zstd Spec

/-! ## Positions -/

theorem asInt_u32 {p q : Nat} {d : Int} (hd : d = (p : Int) - q) (h : -2147483648 ≤ d ∧ d ≤ 2147483647) :
    Machine.asInt (u32 ((p : Int) - u32 (q : Int))) = d := by
  unfold Machine.asInt u32
  split <;> omega

theorem axisPosition_eq (k size : Nat) (overlap : ℚ) (h : k * size ≤ 2147483647) (h0 : 0 ≤ overlap) (h1 : overlap ≤ 1) :
    TileAt k size overlap (axisPosition k size overlap) ∧ IsInt32 (axisPosition k size overlap) := by
  have hm : k * size % 4294967296 = k * size := Nat.mod_eq_of_lt (by omega)
  have hcast : ((k * size : Nat) : ℚ) = (k : ℚ) * size := by push_cast; ring
  unfold axisPosition
  rw [hm]
  generalize k * size = p at *
  have hp0 : (0 : ℚ) ≤ (p : ℚ) := Nat.cast_nonneg p
  have hp1 : (p : ℚ) ≤ 2147483647 := by exact_mod_cast h
  have e1 := Flt.f32_err (p : ℚ)
  rw [abs_of_nonneg hp0] at e1
  generalize ha : Flt.f32 (p : ℚ) = a at *
  have e1' := abs_le.1 e1
  have ha0 : 0 ≤ a := by
    have : (p : ℚ) / 2 ^ 24 ≤ p := div_le_self hp0 (by norm_num)
    linarith
  have hao : 0 ≤ a * overlap := mul_nonneg ha0 h0
  have hao1 : a * overlap ≤ a := mul_le_of_le_one_right ha0 h1
  have e2 := Flt.f32_err (a * overlap)
  rw [abs_of_nonneg hao] at e2
  have hz : overlap = 0 → Flt.f32 (a * overlap) = 0 := by
    intro h
    rw [h, mul_zero]
    have := Flt.f32_int 0 (by norm_num)
    simpa using this
  generalize hb : Flt.f32 (a * overlap) = b at *
  have e2' := abs_le.1 e2
  have hb0 : 0 ≤ b := by
    have : a * overlap / 2 ^ 24 ≤ a * overlap := div_le_self hao (by norm_num)
    linarith
  have e3 := abs_le.1 (Flt.roundEven_err b)
  have hz' : b = 0 → Flt.roundEven b = 0 := by
    intro h
    rw [h]
    unfold Flt.roundEven
    norm_num
  generalize hq : Flt.roundEven b = q at *
  have hq0 : 0 ≤ q := by
    have : (-1 : ℚ) < q := by linarith
    have : (-1 : ℤ) < q := by exact_mod_cast this
    omega
  have hoe : |overlap * (a - p)| ≤ p / 2 ^ 24 := by
    rw [abs_mul, abs_of_nonneg h0]
    exact (mul_le_of_le_one_left (abs_nonneg _) h1).trans e1
  have hoe' := abs_le.1 hoe
  have hab : a * overlap / 2 ^ 24 ≤ 2 * p / 2 ^ 24 := by
    refine div_le_div_of_nonneg_right ?_ (by norm_num)
    have : (p : ℚ) / 2 ^ 24 ≤ p := div_le_self hp0 (by norm_num)
    linarith
  have herr : |((p : ℚ) - q) - p * (1 - overlap)| ≤ 1 / 2 + p / 2 ^ 22 := by
    rw [abs_le]
    constructor <;> ring_nf at * <;> linarith
  have hop : (p : ℚ) * overlap ≤ p := mul_le_of_le_one_right hp0 h1
  have hop0 : 0 ≤ (p : ℚ) * overlap := mul_nonneg hp0 h0
  have herr' := abs_le.1 herr
  have hrange : -2147483648 ≤ (p : Int) - q ∧ (p : Int) - q ≤ 2147483647 := by
    constructor
    · have : (-2147483648 : ℚ) ≤ (p : ℚ) - q := by ring_nf at *; linarith
      exact_mod_cast this
    · omega
  obtain ⟨n, rfl⟩ := Int.eq_ofNat_of_zero_le hq0
  rw [asInt_u32 rfl hrange]
  refine ⟨⟨?_, ?_⟩, ?_⟩
  · intro h
    have := hz' (hz h)
    have hn : n = 0 := by exact_mod_cast this
    subst hn
    have : ((p : Int) : ℚ) = ((k * size : Int) : ℚ) := by push_cast; exact hcast
    have := Int.cast_injective (α := ℚ) this
    simpa using this
  · rw [← hcast]
    push_cast
    push_cast at herr
    exact herr
  · exact ⟨by omega, by omega⟩

/-! ## What the writer accepts -/

theorem setInsert_isSome {α : Type} (lt : α → α → Bool) (a : α) : ∀ l : List α, (∀ b ∈ l, lt b a = true ∨ lt a b = true) → (setInsert lt a l).isSome
  | [], _ => rfl
  | b :: r, h => by
    unfold setInsert
    split
    · rw [Option.isSome_map]
      exact setInsert_isSome lt a r (fun x hx => h x (List.mem_cons_of_mem _ hx))
    · rename_i hn
      rcases h b (List.mem_cons_self ..) with h1 | h1
      · exact absurd h1 hn
      · rw [if_pos h1]; rfl

/-- All sub-blocks have this size, in the document and stored, and an m-index. -/
structure Uniform (W H : Int) (a : AddInfo) : Prop where
  logical : a.logicalWidth = W ∧ a.logicalHeight = H
  physical : a.physicalWidth = W ∧ a.physicalHeight = H
  mIndex : ∃ m, a.mIndex = some m ∧ m ≠ intMin

theorem apart_of_key {W H : Int} {a b : AddInfo} (ha : Uniform W H a) (hb : Uniform W H b) (fp : Bool) (p q : Nat)
    (hk : a.coordinate ≠ b.coordinate ∨ a.mIndex ≠ b.mIndex) : entryLt fp (b.entry q) (a.entry p) = true ∨ entryLt fp (a.entry p) (b.entry q) = true := by
  have hz : zoom (a.entry p) = zoom (b.entry q) := by
    unfold zoom zoomFraction AddInfo.entry
    dsimp only
    rw [ha.logical.1, ha.logical.2, ha.physical.1, ha.physical.2, hb.logical.1, hb.logical.2, hb.physical.1, hb.physical.2]
  rw [entryLt_iff fp _ _ (.inl hz.symm), entryLt_iff fp _ _ (.inl hz)]
  have hn := (fullCmp_cmp fp).neg (a.entry p) (b.entry q)
  have h0 : fullCmp fp (a.entry p) (b.entry q) ≠ 0 := by
    intro h0
    obtain ⟨⟨_, hc, hm⟩, _⟩ := (fullCmp_zero fp _ _).1 h0
    obtain ⟨m, e1, n1⟩ := ha.mIndex
    obtain ⟨m', e2, n2⟩ := hb.mIndex
    have hm1 : (a.entry p).mIndex = m := by unfold AddInfo.entry; rw [e1]; rfl
    have hm2 : (b.entry q).mIndex = m' := by unfold AddInfo.entry; rw [e2]; rfl
    rcases hm with ⟨_, _, hm⟩ | ⟨hm, _⟩
    · rw [hm1, hm2] at hm
      rcases hk with hk | hk
      · exact hk (funext hc)
      · exact hk (by rw [e1, e2, hm])
    · exact hm (by unfold HasM; rw [hm1]; exact n1)
  omega

/-- Sub-blocks with different coordinates or m-indices are accepted. -/
theorem add_accepted {s : Sys} {info : WriterInfo} {segs : List Seg} {subs : List AddInfo} {atts : List AddAtt} {mt : Option MetaInfo} {W H : Int}
    (h : Czi.Inv s info segs subs atts mt) (hi : info.dimBounds = none) {a : AddInfo} (ha : SubOk a) (hck : a.check = true) (hu : Uniform W H a)
    (hs : ∀ b ∈ subs, Uniform W H b ∧ (a.coordinate ≠ b.coordinate ∨ a.mIndex ≠ b.mIndex)) : (step s (.addSubBlock a)).2 = none := by
  refine C56_valid_accepted s a info h.operational ?_ ?_ ?_ ha
  · intro hb
    rw [(check_false_iff a).2 hb] at hck
    cases hck
  · rw [hi]; rfl
  · have : (setInsert (entryLt s.w.dir.allowDuplicates) (a.entry s.w.next) s.w.dir.subBlks).isSome := by
      refine setInsert_isSome _ _ _ ?_
      intro e he
      have he' := h.dir.subset he
      obtain ⟨g, hg, e1⟩ := List.mem_filterMap.1 he'
      have : ∃ b, g.addInfo = some b ∧ e = b.entry g.pos := by
        unfold Seg.subEntry at e1
        unfold Seg.addInfo
        split at e1
        · rename_i b hb
          exact ⟨b, rfl, (Option.some.inj e1).symm⟩
        · cases e1
      obtain ⟨b, hb1, rfl⟩ := this
      have hbm : b ∈ subs := by
        rw [← h.subs_eq]
        exact List.mem_filterMap.2 ⟨g, hg, hb1⟩
      exact apart_of_key hu (hs b hbm).1 _ _ _ (hs b hbm).2
    unfold WriterDir.tryAdd
    obtain ⟨l, hl⟩ := Option.isSome_iff_exists.1 this
    rw [hl]

def Distinct (a b : AddInfo) : Prop := a.coordinate ≠ b.coordinate ∨ a.mIndex ≠ b.mIndex

theorem session_adds {info : WriterInfo} {W H : Int} (hi : info.dimBounds = none) : ∀ (as : List AddInfo) {s : Sys} {segs : List Seg} {subs : List AddInfo}
    {atts : List AddAtt} {mt : Option MetaInfo}, Czi.Inv s info segs subs atts mt → (∀ a ∈ as, SubOk a ∧ a.check = true ∧ Uniform W H a) →
    (∀ b ∈ subs, Uniform W H b ∧ ∀ a ∈ as, Distinct a b) → as.Pairwise (fun a b => Distinct b a) →
    (session s (as.map WOp.addSubBlock)).2 = as.map WOp.addSubBlock := by
  intro as
  induction as with
  | nil => intro s segs subs atts mt _ _ _ _; rfl
  | cons a as ih =>
    intro s segs subs atts mt h hok hsub hpw
    obtain ⟨h1, h2, h3⟩ := hok a (List.mem_cons_self ..)
    have hacc := add_accepted h hi h1 h2 h3 (fun b hb => ⟨(hsub b hb).1, (hsub b hb).2 a (List.mem_cons_self ..)⟩)
    rcases step_addSubBlock h h1 with ⟨e, he⟩ | ⟨s', he, hinv, _⟩
    · rw [he] at hacc; cases hacc
    · obtain ⟨p1, p2⟩ := List.pairwise_cons.1 hpw
      have := ih hinv (fun x hx => hok x (List.mem_cons_of_mem _ hx)) (by
        intro b hb
        rcases List.mem_append.1 hb with hb | hb
        · exact ⟨(hsub b hb).1, fun x hx => (hsub b hb).2 x (List.mem_cons_of_mem _ hx)⟩
        · rw [List.mem_singleton] at hb
          subst hb
          exact ⟨h3, fun x hx => p1 x hx⟩) p2
      rw [List.map_cons, session]
      dsimp only
      rw [he]
      dsimp only
      rw [this]
      rfl

theorem session_append (s : Sys) (a b : List WOp) :
    session s (a ++ b) = ((session (session s a).1 b).1, (session s a).2 ++ (session (session s a).1 b).2) := by
  induction a generalizing s with
  | nil => rfl
  | cons x a ih =>
    rw [List.cons_append, session, session]
    dsimp only
    rw [ih]
    split <;> rfl

/-- If all calls of a session succeed then the first one does, and all the others. -/
theorem session_cons_all {s : Sys} {op : WOp} {ops : List WOp} (h : (session s (op :: ops)).2 = op :: ops) :
    (step s op).2 = none ∧ (session (step s op).1 ops).2 = ops ∧ (session s (op :: ops)).1 = (session (step s op).1 ops).1 := by
  rw [session] at h
  dsimp only at h
  split at h
  · rename_i hn
    exact ⟨Option.isNone_iff_eq_none.1 hn, (List.cons.inj h).2, rfl⟩
  · have := (session_sublist (step s op).1 ops).length_le
    rw [h, List.length_cons] at this
    omega

theorem metadata_accepted {s : Sys} {info : WriterInfo} {segs : List Seg} {subs : List AddInfo} {atts : List AddAtt} {mt : Option MetaInfo}
    (h : Czi.Inv s info segs subs atts mt) {m : MetaInfo} (hm : MetaOk m) (hn : s.w.next < 2 ^ 61) (hck : m.check = true) :
    (step s (.writeMetadata m)).2 = none := by
  obtain ⟨hx, hxa⟩ := hm
  have hlt : ∀ i, s.w.metaSeg = some i → i.alloc < 2 ^ 62 := by
    intro i hi
    have := h.chain.mem (h.metaSeg i hi).1
    dsimp only at this
    omega
  obtain ⟨mw, pos, alloc, hp, ws, e, hcg⟩ := writeMetadata_ok s.w.metaSeg markIfLive s.w.next m (fun i hi => hlt i hi) (by omega)
  unfold step stepOp WOp.phases writeMetadataPhases
  dsimp only
  rw [runPhases_ok (ws := mw ++ ws) (w := { s.w with metaSeg := some ⟨pos, alloc, false⟩, next := if pos = s.w.next then s.w.next + (alloc + 32) else s.w.next })]
  · rfl
  · rw [if_neg (by rw [h.operational]; simp), if_neg (by simp [hck]), e, Plan.bind_ok, Plan.pure_eq]
    simp

/-! ## The loops -/

theorem addTile_eq {env : Env} {o : Options} {c : Coord} {p : Int × Int × Int} {a : AddInfo} {s : Sys} (h : subBlock env o c p = .ok (some a))
    (hs : (step s (.addSubBlock a)).2 = none) : addTile env o c p s = .ok (step s (.addSubBlock a)).1 := by
  unfold addTile
  rw [h]
  dsimp only
  rw [if_neg (by rw [hs]; simp)]

theorem tileLoop_session {env : Env} {o : Options} {c : Coord} {N : Nat} {P : Nat → Int × Int × Int} {A : Nat → AddInfo} (hN : N < 4294967296)
    (hpos : ∀ k < N, position o k = some (P k)) (hend : position o N = none) (hsub : ∀ k < N, subBlock env o c (P k) = .ok (some (A k))) :
    ∀ (n k : Nat) (s : Sys) (fuel : Nat), k + n = N → n < fuel →
      (session s ((List.range' k n).map fun i => WOp.addSubBlock (A i))).2 = ((List.range' k n).map fun i => WOp.addSubBlock (A i)) →
      tileLoop env o c fuel k s = some (.ok (session s ((List.range' k n).map fun i => WOp.addSubBlock (A i))).1) := by
  intro n
  induction n with
  | zero =>
    intro k s fuel hk hf _
    obtain ⟨f, rfl⟩ : ∃ f, fuel = f + 1 := ⟨fuel - 1, by omega⟩
    have : k = N := by omega
    subst this
    rw [tileLoop, hend]
    rfl
  | succ n ih =>
    intro k s fuel hk hf hall
    obtain ⟨f, rfl⟩ : ∃ f, fuel = f + 1 := ⟨fuel - 1, by omega⟩
    rw [List.range'_succ, List.map_cons] at hall ⊢
    obtain ⟨h1, h2, h3⟩ := session_cons_all hall
    rw [tileLoop, hpos k (by omega)]
    dsimp only
    rw [addTile_eq (hsub k (by omega)) h1]
    dsimp only
    rw [Nat.mod_eq_of_lt (by omega), h3]
    exact ih (k + 1) _ f (by omega) (by omega) h2

theorem session_append_all {s : Sys} {a b : List WOp} (h : (session s (a ++ b)).2 = a ++ b) :
    (session s a).2 = a ∧ (session (session s a).1 b).2 = b := by
  rw [session_append] at h
  dsimp only at h
  have l1 := (session_sublist s a).length_le
  have l2 := (session_sublist (session s a).1 b).length_le
  have hl := congrArg List.length h
  rw [List.length_append, List.length_append] at hl
  exact List.append_inj h (by omega)

theorem present_session {env : Env} {o : Options} {N fuel : Nat} {P : Nat → Int × Int × Int} {A : Coord → Nat → AddInfo} (hN : N < 4294967296)
    (hpos : ∀ k < N, position o k = some (P k)) (hend : position o N = none) (hf : N < fuel) :
    ∀ (L : List Coord) (no : Nat) (s : Sys), (∀ c ∈ L, ∀ k < N, subBlock env o c (P k) = .ok (some (A c k))) →
      (session s (L.flatMap fun c => (List.range N).map fun i => WOp.addSubBlock (A c i))).2 = (L.flatMap fun c => (List.range N).map fun i => WOp.addSubBlock (A c i)) →
      present (forCoordinate env o fuel) no L (some (.ok s)) =
        (true, some (.ok (session s (L.flatMap fun c => (List.range N).map fun i => WOp.addSubBlock (A c i))).1)) := by
  intro L
  induction L with
  | nil => intro no s _ _; rfl
  | cons c L ih =>
    intro no s hsub hall
    rw [List.flatMap_cons] at hall ⊢
    obtain ⟨h1, h2⟩ := session_append_all hall
    have hloop : tileLoop env o c fuel 0 s = some (.ok (session s ((List.range N).map fun i => WOp.addSubBlock (A c i))).1) := by
      have := tileLoop_session (c := c) (A := A c) hN hpos hend (hsub c (List.mem_cons_self ..)) N 0 s fuel (by omega) hf (by rw [← List.range_eq_range']; exact h1)
      rw [← List.range_eq_range'] at this
      exact this
    have hcall : forCoordinate env o fuel (some (.ok s)) no c = (true, some (.ok (session s ((List.range N).map fun i => WOp.addSubBlock (A c i))).1)) := by
      unfold forCoordinate
      dsimp only
      rw [hloop]
    rw [present, hcall, if_neg (by simp), session_append]
    exact ih (no + 1) _ (fun x hx => hsub x (List.mem_cons_of_mem _ hx)) h2

/-- Nothing is written if no sub-blocks are made. -/
theorem tileLoop_nothing {env : Env} {o : Options} {c : Coord} {N : Nat} (hN : N < 4294967296) (hpos : ∀ k < N, (position o k).isSome) (hend : position o N = none)
    (hsub : ∀ p, subBlock env o c p = .ok none) : ∀ (n k : Nat) (s : Sys) (fuel : Nat), k + n = N → n < fuel → tileLoop env o c fuel k s = some (.ok s) := by
  intro n
  induction n with
  | zero =>
    intro k s fuel hk hf
    obtain ⟨f, rfl⟩ : ∃ f, fuel = f + 1 := ⟨fuel - 1, by omega⟩
    have : k = N := by omega
    subst this
    rw [tileLoop, hend]
  | succ n ih =>
    intro k s fuel hk hf
    obtain ⟨f, rfl⟩ : ∃ f, fuel = f + 1 := ⟨fuel - 1, by omega⟩
    obtain ⟨p, hp⟩ := Option.isSome_iff_exists.1 (hpos k (by omega))
    rw [tileLoop, hp]
    dsimp only
    unfold addTile
    rw [hsub p]
    dsimp only
    rw [Nat.mod_eq_of_lt (by omega)]
    exact ih (k + 1) s f (by omega) (by omega)

theorem present_nothing {env : Env} {o : Options} {N fuel : Nat} (hN : N < 4294967296) (hpos : ∀ k < N, (position o k).isSome) (hend : position o N = none)
    (hsub : ∀ c p, subBlock env o c p = .ok none) (hf : N < fuel) (s : Sys) : ∀ (L : List Coord) (no : Nat),
    present (forCoordinate env o fuel) no L (some (.ok s)) = (true, some (.ok s)) := by
  intro L
  induction L with
  | nil => intro no; rfl
  | cons c L ih =>
    intro no
    rw [present]
    have : forCoordinate env o fuel (some (.ok s)) no c = (true, some (.ok s)) := by
      unfold forCoordinate
      dsimp only
      rw [tileLoop_nothing hN hpos hend (hsub c) N 0 s fuel (by omega) hf]
    rw [this, if_neg (by simp)]
    exact ih (no + 1)

/-! ## The tiles -/

theorem position_tile (o : Options) {r k : Nat} (hr : r < mosaicRows o.tiles) (hk : k < mosaicColumns o.tiles)
    (hm : mosaicRows o.tiles * mosaicColumns o.tiles ≤ 2147483647)
    (hw : mosaicColumns o.tiles * o.width ≤ 2147483647) (hh : mosaicRows o.tiles * o.height ≤ 2147483647) (h0 : 0 ≤ o.tiles.overlap ∧ o.tiles.overlap ≤ 1) :
    ∃ x y, position o (r * mosaicColumns o.tiles + k) = some (x, y, ((r * mosaicColumns o.tiles + k : Nat) : Int)) ∧
      TileAt k o.width o.tiles.overlap x ∧ TileAt r o.height o.tiles.overlap y ∧ IsInt32 x ∧ IsInt32 y := by
  unfold position
  by_cases hv : 0 < o.tiles.rows ∧ 0 < o.tiles.columns
  · unfold mosaicRows at hr hm hh
    unfold mosaicColumns at hk hm hw
    unfold mosaicColumns
    rw [if_pos hv] at hr hk hw hh ⊢
    rw [if_pos hv, if_pos hv] at hm
    rw [if_pos (by unfold TileInfo.isValid; simp [hv])]
    unfold calcTilePosition
    have hdiv : (r * o.tiles.columns + k) / o.tiles.columns = r := by
      rw [Nat.mul_comm, Nat.mul_add_div hv.2, Nat.div_eq_of_lt hk, Nat.add_zero]
    dsimp only
    rw [hdiv, Nat.add_sub_cancel_left, if_neg (by omega)]
    have h1 : (r + 1) * o.tiles.columns ≤ o.tiles.rows * o.tiles.columns := Nat.mul_le_mul_right _ hr
    rw [Nat.succ_mul] at h1
    rw [asInt_small (by omega)]
    obtain ⟨a1, a2⟩ := axisPosition_eq k o.width o.tiles.overlap ((Nat.mul_le_mul_right _ (le_of_lt hk)).trans hw) h0.1 h0.2
    obtain ⟨b1, b2⟩ := axisPosition_eq r o.height o.tiles.overlap ((Nat.mul_le_mul_right _ (le_of_lt hr)).trans hh) h0.1 h0.2
    exact ⟨_, _, rfl, a1, b1, a2, b2⟩
  · unfold mosaicRows at hr
    unfold mosaicColumns at hk
    unfold mosaicColumns
    rw [if_neg hv] at hr hk ⊢
    have e1 : r = 0 := by omega
    have e2 : k = 0 := by omega
    subst e1 e2
    have hz : ∀ size, TileAt 0 size o.tiles.overlap 0 := by
      intro size
      refine ⟨fun _ => by simp, by norm_num⟩
    rw [if_neg (by unfold TileInfo.isValid; simpa using hv), if_pos rfl]
    exact ⟨0, 0, rfl, hz _, hz _, ⟨by decide, by decide⟩, ⟨by decide, by decide⟩⟩

theorem position_end (o : Options) : position o (mosaicRows o.tiles * mosaicColumns o.tiles) = none := by
  unfold position mosaicRows mosaicColumns
  by_cases hv : 0 < o.tiles.rows ∧ 0 < o.tiles.columns
  · rw [if_pos hv, if_pos hv, if_pos (by unfold TileInfo.isValid; simp [hv])]
    unfold calcTilePosition
    dsimp only
    rw [Nat.mul_div_cancel _ hv.2, if_pos (.inl (Nat.le_refl _))]
  · rw [if_neg hv, if_neg hv, if_neg (by unfold TileInfo.isValid; simpa using hv), if_neg (by omega)]

theorem withChannel_eq (b : Bounds) : withChannel b = inChannel b := by
  funext d
  unfold withChannel inChannel Bounds.set
  cases hc : b .C with
  | none =>
    simp only [Option.isSome_none, Bool.false_eq_true, if_false, and_true]
  | some v => simp

end Verif.CreateCzi
