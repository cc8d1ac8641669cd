import Verif.Proof.Codec
import Verif.Proof.Coord
import Verif.Spec.Czi

/-! Directory entries: what is written is what is parsed. -/

namespace Verif.Czi

open Spec (IsInt32 CoordInt32 EntryFits)

theorem int4 {i : Int} (h : IsInt32 i) : unleInt (leInt 4 i) = i := unleInt4 h

/-- A dimension entry as parsed from `dimBytes`. -/
def dimOf (c : Char) (start size stored : Int) : DimEntry := ⟨UInt8.ofNat c.toNat, start, size, stored⟩

theorem dimEntryOf_dimBytes (c : Char) {a b d : Int} (ha : IsInt32 a) (hb : IsInt32 b) (hd : IsInt32 d) (r : List UInt8) :
    dimEntryOf (dimBytes c a b d ++ r) = dimOf c a b d := by
  have e (o n : Nat) (h : o + n ≤ 20) : field (dimBytes c a b d ++ r) o n = field (dimBytes c a b d) o n :=
    field_left (by simpa using h)
  unfold dimEntryOf dimOf fieldInt
  rw [e 4 4 (by decide), e 8 4 (by decide), e 16 4 (by decide), getD_append_left (by simp)]
  unfold dimBytes
  congr 1
  · have : field (UInt8.ofNat c.toNat :: zeros 3 ++ leInt 4 a ++ leInt 4 b ++ zeros 4 ++ leInt 4 d) 4 4 = leInt 4 a := by
      simp only [field_left, field_right, field_self, List.length_append, List.length_cons, zeros_length, leInt_length,
        Nat.reduceAdd, Nat.reduceLeDiff, Nat.reduceSub]
    rw [this, int4 ha]
  · have : field (UInt8.ofNat c.toNat :: zeros 3 ++ leInt 4 a ++ leInt 4 b ++ zeros 4 ++ leInt 4 d) 8 4 = leInt 4 b := by
      simp only [field_left, field_right, field_self, List.length_append, List.length_cons, zeros_length, leInt_length,
        Nat.reduceAdd, Nat.reduceLeDiff, Nat.reduceSub]
    rw [this, int4 hb]
  · have : field (UInt8.ofNat c.toNat :: zeros 3 ++ leInt 4 a ++ leInt 4 b ++ zeros 4 ++ leInt 4 d) 16 4 = leInt 4 d := by
      simp only [field_left, field_right, field_self, List.length_append, List.length_cons, zeros_length, leInt_length,
        Nat.reduceAdd, Nat.reduceLeDiff, Nat.reduceSub]
    rw [this, int4 hd]

/-- A parsed list of dimension entries of a sub-block. -/
def dimListOf (c : Coord) (m : Option Int) (x y w h sw sh : Int) : List DimEntry :=
  [dimOf 'X' x w sw, dimOf 'Y' y h sh] ++ (m.map (fun v => dimOf 'M' v 1 1)).toList ++
  c.validDims.map (fun d => dimOf (dimensionToChar d) ((c d).getD 0) 1 1)

/-- `b` encodes the dimension entry `e`. -/
def DimCodes (b : List UInt8) (e : DimEntry) : Prop := b.length = 20 ∧ ∀ r, dimEntryOf (b ++ r) = e

theorem dimCodes {c : Char} {a b d : Int} (ha : IsInt32 a) (hb : IsInt32 b) (hd : IsInt32 d) :
    DimCodes (dimBytes c a b d) (dimOf c a b d) :=
  ⟨by simp, dimEntryOf_dimBytes c ha hb hd⟩

theorem dimEntries_flatten {bs : List (List UInt8)} {es : List DimEntry} (h : List.Forall₂ DimCodes bs es) (r : List UInt8) :
    dimEntries (bs.flatten ++ r) bs.length = es := by
  induction h with
  | nil => rfl
  | cons hd _ ih =>
    simp only [List.flatten_cons, List.length_cons, dimEntries, List.append_assoc]
    rw [hd.2, List.drop_append_of_le_length (by rw [hd.1]; exact Nat.le_refl _),
      List.drop_eq_nil_of_le (by rw [hd.1]; exact Nat.le_refl _)]
    rw [List.nil_append, ih]

theorem dims_flatten_length {bs : List (List UInt8)} (h : ∀ b ∈ bs, b.length = 20) : bs.flatten.length = 20 * bs.length := by
  induction bs with
  | nil => rfl
  | cons b bs ih =>
    have := ih (fun x hx => h x (List.mem_cons_of_mem _ hx))
    have := h b (List.mem_cons_self ..)
    simp only [List.flatten_cons, List.length_append, List.length_cons]
    omega

theorem int32_one : IsInt32 1 := by constructor <;> decide

theorem dimList_codes {c : Coord} {m : Option Int} {x y w h sw sh : Int} (hc : CoordInt32 c)
    (hm : ∀ v, m = some v → IsInt32 v) (hx : IsInt32 x) (hy : IsInt32 y) (hw : IsInt32 w) (hh : IsInt32 h) (hsw : IsInt32 sw)
    (hsh : IsInt32 sh) : List.Forall₂ DimCodes (dimList c m x y w h sw sh) (dimListOf c m x y w h sw sh) := by
  unfold dimList dimListOf
  have h3 : List.Forall₂ DimCodes (c.validDims.map (fun d => dimBytes (dimensionToChar d) ((c d).getD 0) 1 1))
      (c.validDims.map (fun d => dimOf (dimensionToChar d) ((c d).getD 0) 1 1)) := by
    have : ∀ ds : List Dim, List.Forall₂ DimCodes (ds.map (fun d => dimBytes (dimensionToChar d) ((c d).getD 0) 1 1))
      (ds.map (fun d => dimOf (dimensionToChar d) ((c d).getD 0) 1 1)) := by
      intro ds
      induction ds with
      | nil => exact .nil
      | cons d ds ih =>
        refine .cons (dimCodes ?_ int32_one int32_one) ih
        cases e : c d with
        | none => constructor <;> decide
        | some v => exact hc d v e
    exact this _
  have h2 : List.Forall₂ DimCodes (m.map (fun v => dimBytes 'M' v 1 1)).toList (m.map (fun v => dimOf 'M' v 1 1)).toList := by
    cases m with
    | none => exact .nil
    | some v => exact .cons (dimCodes (hm v rfl) int32_one int32_one) .nil
  have app : ∀ {l1 l2 : List (List UInt8)} {k1 k2 : List DimEntry}, List.Forall₂ DimCodes l1 k1 → List.Forall₂ DimCodes l2 k2 →
      List.Forall₂ DimCodes (l1 ++ l2) (k1 ++ k2) := by
    intro l1 l2 k1 k2 a b
    induction a with
    | nil => exact b
    | cons h _ ih => exact .cons h ih
  exact app (app (.cons (dimCodes hx hw hsw) (.cons (dimCodes hy hh hsh) .nil)) h2) h3

/-- Setting the dimensions of a coordinate one by one from the empty coordinate gives the coordinate. -/
theorem fold_set (c : Coord) (ds : List Dim) (hds : ∀ d ∈ ds, (c d).isSome) : ∀ (a : Coord) (e : Dim),
    (ds.foldl (fun a d => a.set d ((c d).getD 0)) a) e = if e ∈ ds then c e else a e := by
  induction ds with
  | nil => intro a e; simp
  | cons d ds ih =>
    intro a e
    have hs := hds d (List.mem_cons_self ..)
    rw [List.foldl_cons, ih (fun x hx => hds x (List.mem_cons_of_mem _ hx))]
    by_cases h1 : e ∈ ds
    · simp [h1]
    · by_cases h2 : e = d
      · subst h2
        simp only [h1, if_false, List.mem_cons, true_or, if_true, Coord.set]
        cases hc : c e with
        | none => simp [hc] at hs
        | some v => simp
      · simp [h1, h2, Coord.set]

theorem fold_set_eq (c : Coord) : c.validDims.foldl (fun a d => a.set d ((c d).getD 0)) Coord.empty = c := by
  funext e
  rw [fold_set c c.validDims (by intro d hd; simp [Coord.validDims] at hd; exact hd.2)]
  by_cases h : e ∈ c.validDims
  · simp [h]
  · simp only [h, if_false, Coord.empty]
    cases hc : c e with
    | none => rfl
    | some v => simp [Coord.validDims, Dim.mem_all, hc] at h

@[simp] theorem dimKind_X (a b d : Int) : dimKind (dimOf 'X' a b d).char = some .x :=
  (by decide : dimKind (UInt8.ofNat 'X'.toNat) = some .x)
@[simp] theorem dimKind_Y (a b d : Int) : dimKind (dimOf 'Y' a b d).char = some .y :=
  (by decide : dimKind (UInt8.ofNat 'Y'.toNat) = some .y)
@[simp] theorem dimKind_M (a b d : Int) : dimKind (dimOf 'M' a b d).char = some .m :=
  (by decide : dimKind (UInt8.ofNat 'M'.toNat) = some .m)
@[simp] theorem dimKind_dim (k : Dim) (a b d : Int) : dimKind (dimOf (dimensionToChar k) a b d).char = some (.dim k) := by
  have : (dimOf (dimensionToChar k) a b d).char = UInt8.ofNat (dimensionToChar k).toNat := rfl
  rw [this]
  cases k <;> decide

theorem dvLoop_append (o : ParseOptions) (a b : List DimEntry) : ∀ st,
    dvLoop o (a ++ b) st = (dvLoop o a st).bind (dvLoop o b) := by
  induction a with
  | nil => intro st; rfl
  | cons d a ih =>
    intro st
    simp only [List.cons_append, dvLoop]
    show (dvStep o st d).bind _ = ((dvStep o st d).bind _).bind _
    cases dvStep o st d with
    | error e => rfl
    | ok s => exact ih s

theorem dvLoop_dims (o : ParseOptions) (c : Coord) (ds : List Dim) : ∀ st,
    dvLoop o (ds.map (fun d => dimOf (dimensionToChar d) ((c d).getD 0) 1 1)) st =
    .ok { st with entry := { st.entry with
      coordinate := ds.foldl (fun a d => a.set d ((c d).getD 0)) st.entry.coordinate } } := by
  induction ds with
  | nil => intro st; rfl
  | cons d ds ih =>
    intro st
    have hs : dvStep o st (dimOf (dimensionToChar d) ((c d).getD 0) 1 1) =
        .ok { st with entry := { st.entry with coordinate := st.entry.coordinate.set d ((c d).getD 0) } } := by
      simp only [dvStep, dimKind_dim]
      simp [dimOf]
    simp only [List.map_cons, dvLoop]
    rw [hs]
    show dvLoop o _ _ = _
    rw [ih]
    rfl

theorem dvLoop_dimListOf (o : ParseOptions) (c : Coord) (m : Option Int) (x y w h sw sh : Int) (e : Entry)
    (he : e.coordinate = Coord.empty) (b1 b2 b3 : Bool) :
    dvLoop o (dimListOf c m x y w h sw sh) ⟨e, b1, b2, b3⟩ =
    .ok ⟨{ e with coordinate := c, mIndex := m.getD e.mIndex, x := x, y := y, width := w, height := h,
                  storedWidth := sw, storedHeight := sh }, true, true, b3⟩ := by
  unfold dimListOf
  rw [dvLoop_append, dvLoop_append]
  simp only [dvLoop, dvStep, dimKind_X, dimKind_Y, bind, Except.bind]
  cases m with
  | none =>
    simp only [Option.map_none, Option.toList_none, dvLoop, dvLoop_dims, he, fold_set_eq]
    simp [dimOf]
  | some v =>
    have : ¬ (dimOf 'M' v 1 1).size ≠ 1 := by simp [dimOf]
    simp only [Option.map_some, Option.toList_some, dvLoop, dvStep, dimKind_M, this, if_false, bind, Except.bind, dvLoop_dims,
      he, fold_set_eq]
    simp [dimOf]

theorem addEntryDV_dimListOf (o : ParseOptions) (c : Coord) (m : Option Int) (x y w h sw sh : Int) (e : Entry)
    (he : e.coordinate = Coord.empty) :
    addEntryDV o e (dimListOf c m x y w h sw sh) =
    .ok { e with coordinate := c, mIndex := m.getD e.mIndex, x := x, y := y, width := w, height := h,
                 storedWidth := sw, storedHeight := sh } := by
  unfold addEntryDV
  rw [dvLoop_dimListOf o c m x y w h sw sh e he]
  simp [bind, Except.bind]

theorem validDims_length_le (c : Coord) : c.validDims.length ≤ 9 :=
  List.length_filter_le _ Dim.all

theorem dimList_length (c : Coord) (m : Option Int) (x y w h sw sh : Int) :
    (dimList c m x y w h sw sh).length = 2 + c.count + (if m.isSome then 1 else 0) := by
  cases m <;> simp [dimList, Coord.count, Coord.validDims] <;> omega

theorem dimList_length_le (c : Coord) (m : Option Int) (x y w h sw sh : Int) : (dimList c m x y w h sw sh).length ≤ 12 := by
  rw [dimList_length]
  have := validDims_length_le c
  unfold Coord.validDims at this
  unfold Coord.count
  split <;> omega

theorem dimList_each (c : Coord) (m : Option Int) (x y w h sw sh : Int) : ∀ b ∈ dimList c m x y w h sw sh, b.length = 20 := by
  intro b hb
  cases m <;> simp [dimList] at hb
  · rcases hb with h | h | ⟨d, _, h⟩ <;> subst h <;> simp
  · rcases hb with h | h | h | ⟨d, _, h⟩ <;> subst h <;> simp

theorem dvBytes_length (pt : Int) (pos : Nat) (cm : Int) (py : UInt8) {dims : List (List UInt8)} (h : ∀ b ∈ dims, b.length = 20) :
    (dvBytes pt pos cm py dims).length = 32 + 20 * dims.length := by
  simp only [dvBytes, List.length_append, ascii_DV_length, leInt_length, le_length, zeros_length, List.length_cons,
    dims_flatten_length h, List.length_nil]

theorem entryBytes_length (e : Entry) : (entryBytes e).length = 32 + 20 * (entryDims e).length :=
  dvBytes_length _ _ _ _ (dimList_each _ _ _ _ _ _ _ _)

/-- The fields of the fixed part of a DV entry. -/
theorem dvBytes_fields {pt : Int} {pos : Nat} {cm : Int} {py : UInt8} {dims : List (List UInt8)} (hpt : IsInt32 pt) (hpos : pos < 2 ^ 64)
    (hcm : IsInt32 cm) (hn : dims.length ≤ 40) (r : List UInt8) :
    field (dvBytes pt pos cm py dims ++ r) 0 2 = ascii "DV" ∧
    fieldInt (dvBytes pt pos cm py dims ++ r) 2 4 = pt ∧
    fieldNat (dvBytes pt pos cm py dims ++ r) 6 8 = pos ∧
    fieldInt (dvBytes pt pos cm py dims ++ r) 18 4 = cm ∧
    (dvBytes pt pos cm py dims ++ r).getD 22 0 = py ∧
    fieldInt (dvBytes pt pos cm py dims ++ r) 28 4 = dims.length ∧
    (dvBytes pt pos cm py dims ++ r).drop 32 = dims.flatten ++ r := by
  have hcount : IsInt32 (dims.length : Int) := by unfold IsInt32; omega
  let A := ascii "DV"
  have eq : dvBytes pt pos cm py dims ++ r = A ++ (leInt 4 pt ++ (le 8 pos ++ (zeros 4 ++ (leInt 4 cm ++ ([py] ++ (zeros 5 ++
    (leInt 4 dims.length ++ (dims.flatten ++ r)))))))) := by
    simp only [dvBytes, List.append_assoc, A]
  have hA : A.length = 2 := rfl
  rw [eq]
  refine ⟨?_, ?_, ?_, ?_, ?_, ?_, ?_⟩
  · exact field_mid (a := []) rfl hA
  · unfold fieldInt
    rw [field_mid hA (by simp), int4 hpt]
  · unfold fieldNat
    rw [field_right (by omega), hA, field_mid (by simp) (by simp), unle8 hpos]
  · unfold fieldInt
    simp only [← List.append_assoc A, ← List.append_assoc (A ++ leInt 4 pt), ← List.append_assoc (A ++ leInt 4 pt ++ le 8 pos)]
    rw [field_mid (by simp [hA]) (by simp), int4 hcm]
  · simp only [← List.append_assoc A, ← List.append_assoc (A ++ leInt 4 pt), ← List.append_assoc (A ++ leInt 4 pt ++ le 8 pos),
      ← List.append_assoc (A ++ leInt 4 pt ++ le 8 pos ++ zeros 4)]
    rw [getD_append_right (by simp [hA])]
    simp [hA]
  · unfold fieldInt
    simp only [← List.append_assoc A, ← List.append_assoc (A ++ leInt 4 pt), ← List.append_assoc (A ++ leInt 4 pt ++ le 8 pos),
      ← List.append_assoc (A ++ leInt 4 pt ++ le 8 pos ++ zeros 4),
      ← List.append_assoc (A ++ leInt 4 pt ++ le 8 pos ++ zeros 4 ++ leInt 4 cm),
      ← List.append_assoc (A ++ leInt 4 pt ++ le 8 pos ++ zeros 4 ++ leInt 4 cm ++ [py])]
    rw [field_mid (by simp [hA]) (by simp), int4 hcount]
  · simp only [← List.append_assoc A, ← List.append_assoc (A ++ leInt 4 pt), ← List.append_assoc (A ++ leInt 4 pt ++ le 8 pos),
      ← List.append_assoc (A ++ leInt 4 pt ++ le 8 pos ++ zeros 4),
      ← List.append_assoc (A ++ leInt 4 pt ++ le 8 pos ++ zeros 4 ++ leInt 4 cm),
      ← List.append_assoc (A ++ leInt 4 pt ++ le 8 pos ++ zeros 4 ++ leInt 4 cm ++ [py]),
      ← List.append_assoc (A ++ leInt 4 pt ++ le 8 pos ++ zeros 4 ++ leInt 4 cm ++ [py] ++ zeros 5)]
    rw [List.drop_append_of_le_length (by simp [hA]), List.drop_eq_nil_of_le (by simp [hA]), List.nil_append]

theorem mOpt_getD (e : Entry) : (Entry.mOpt e).getD intMin = e.mIndex := by
  unfold Entry.mOpt Entry.isMIndexValid
  by_cases h : e.mIndex = intMin <;> simp [h]

theorem mOpt_int32 {e : Entry} (h : IsInt32 e.mIndex) : ∀ v, Entry.mOpt e = some v → IsInt32 v := by
  intro v hv
  unfold Entry.mOpt at hv
  split at hv
  · cases hv; exact h
  · cases hv

theorem u64_eq {n : Nat} (h : n < 2 ^ 64) : u64 (n : Int) = n := by
  unfold u64
  omega

theorem i32_eq {n : Nat} (h : n < 2 ^ 31) : i32 (n : Int) = n := by
  unfold i32 toSigned
  have : ((n : Int) % (2 ^ 32 : Nat)).toNat = n := by omega
  rw [this, if_pos (by omega)]

theorem bufReadDims_ok {buf : List UInt8} {cur k : Nat} (hk : k ≤ 40) (h : cur + 20 * k ≤ buf.length) (hl : buf.length < 2 ^ 63) :
    bufReadDims buf cur (k : Int) = .ok (field buf cur (20 * k), cur + 20 * k) := by
  have hi : i32 ((k : Int) * 20) = ((20 * k : Nat) : Int) := by
    rw [show (k : Int) * 20 = ((20 * k : Nat) : Int) by omega, i32_eq (by omega)]
  have hu : u64 ((cur : Int) + ((20 * k : Nat) : Int)) = cur + 20 * k := by
    rw [← Int.natCast_add, u64_eq (by omega)]
  unfold bufReadDims
  dsimp only
  rw [hi, hu, if_pos h, if_neg (by omega), Int.toNat_natCast]

/-- One DV entry at the current position. -/
theorem parseEntries_dv (o : ParseOptions) (buf : List UInt8) (n cur k : Nat) (ds : List DimEntry) (hl : buf.length < 2 ^ 63)
    (h1 : field buf cur 2 = ascii "DV") (hk : k ≤ 40) (h2 : cur + 32 + 20 * k ≤ buf.length)
    (h3 : fieldInt buf (cur + 28) 4 = k) (hds : dimEntries (field buf (cur + 32) (20 * k)) k = ds) :
    parseEntries o buf (n + 1) cur =
    (addEntryDV o (Entry.start (fieldInt buf (cur + 2) 4) (fieldNat buf (cur + 6) 8) (fieldInt buf (cur + 18) 4)
      (buf.getD (cur + 22) 0)) ds).bind
    (fun e => (parseEntries o buf n (cur + 32 + 20 * k)).map (e :: ·)) := by
  have r1 : bufRead buf cur 2 = .ok (ascii "DV") := by
    unfold bufRead
    rw [if_pos (by omega), h1]
  have r2 : bufRead buf (cur + 2) 30 = .ok (field buf (cur + 2) 30) := by
    unfold bufRead
    rw [if_pos (by omega)]
  have c1 : fieldInt (field buf (cur + 2) 30) 26 4 = k := by
    unfold fieldInt at h3 ⊢
    rw [field_field (by decide), Nat.add_assoc]
    exact h3
  have c2 : fieldInt (field buf (cur + 2) 30) 0 4 = fieldInt buf (cur + 2) 4 := by
    unfold fieldInt
    rw [field_field (by decide), Nat.add_zero]
  have c3 : fieldNat (field buf (cur + 2) 30) 4 8 = fieldNat buf (cur + 6) 8 := by
    unfold fieldNat
    rw [field_field (by decide), Nat.add_assoc]
  have c4 : fieldInt (field buf (cur + 2) 30) 16 4 = fieldInt buf (cur + 18) 4 := by
    unfold fieldInt
    rw [field_field (by decide), Nat.add_assoc]
  have c5 : (field buf (cur + 2) 30).getD 20 0 = buf.getD (cur + 22) 0 := by
    rw [field_getD (by decide), Nat.add_assoc]
  rw [parseEntries]
  simp only [r1, bind, Except.bind, if_true, r2, c1, bufReadDims_ok hk h2 hl]
  rw [if_neg (by omega), c2, c3, c4, c5, Int.toNat_natCast, hds]
  cases addEntryDV o (Entry.start (fieldInt buf (cur + 2) 4) (fieldNat buf (cur + 6) 8) (fieldInt buf (cur + 18) 4)
      (buf.getD (cur + 22) 0)) ds with
  | error _ => rfl
  | ok e =>
    dsimp only
    cases parseEntries o buf n (cur + 32 + 20 * k) <;> rfl

/-- Parsing one entry at a position of a buffer. -/
theorem parseEntries_cons (o : ParseOptions) (e : Entry) (h : EntryFits e) (pre post : List UInt8) (n : Nat)
    (hl : (pre ++ (entryBytes e ++ post)).length < 2 ^ 63) :
    parseEntries o (pre ++ (entryBytes e ++ post)) (n + 1) pre.length =
    (parseEntries o (pre ++ (entryBytes e ++ post)) n (pre ++ entryBytes e).length).map (e :: ·) := by
  have hdl : (entryDims e).length ≤ 12 := dimList_length_le ..
  obtain ⟨f1, f2, f3, f4, f5, f6, f7⟩ := dvBytes_fields (py := e.pyramidType) h.pixelType h.filePosition h.compression
    (dims := entryDims e) (by omega) post
  have hlen := entryBytes_length e
  have hcodes : List.Forall₂ DimCodes (entryDims e) _ :=
    dimList_codes h.coordinate (mOpt_int32 h.mIndex) h.x h.y h.width h.height h.storedWidth h.storedHeight
  have hfl := dims_flatten_length (bs := entryDims e) (dimList_each _ _ _ _ _ _ _ _)
  have hb : dvBytes e.pixelType e.filePosition e.compression e.pyramidType (entryDims e) = entryBytes e := rfl
  rw [hb] at f1 f2 f3 f4 f5 f6 f7
  have hentry := addEntryDV_dimListOf o e.coordinate (Entry.mOpt e) e.x e.y e.width e.height e.storedWidth e.storedHeight
    (Entry.start e.pixelType e.filePosition e.compression e.pyramidType) rfl
  generalize entryDims e = dims at *
  generalize entryBytes e = b at *
  have shift (off k : Nat) : field (pre ++ (b ++ post)) (pre.length + off) k = field (b ++ post) off k := by
    rw [field_right (by omega), Nat.add_sub_cancel_left]
  have L : (pre ++ (b ++ post)).length = pre.length + (32 + 20 * dims.length) + post.length := by
    rw [List.length_append, List.length_append, hlen]; omega
  have hf : field (b ++ post) 32 (20 * dims.length) = dims.flatten := by
    unfold field
    rw [f7, List.take_append_of_le_length (by omega), List.take_of_length_le (by omega)]
  have hdims := dimEntries_flatten hcodes []
  rw [List.append_nil] at hdims
  rw [parseEntries_dv o (pre ++ (b ++ post)) n pre.length dims.length _ hl
    (by have := shift 0 2; rw [Nat.add_zero] at this; rw [this, f1]) (by omega) (by omega)
    (by unfold fieldInt at f6 ⊢; rw [shift, f6]) (by rw [shift, hf, hdims])]
  have g1 : fieldInt (pre ++ (b ++ post)) (pre.length + 2) 4 = e.pixelType := by unfold fieldInt at f2 ⊢; rw [shift, f2]
  have g2 : fieldNat (pre ++ (b ++ post)) (pre.length + 6) 8 = e.filePosition := by unfold fieldNat at f3 ⊢; rw [shift, f3]
  have g3 : fieldInt (pre ++ (b ++ post)) (pre.length + 18) 4 = e.compression := by unfold fieldInt at f4 ⊢; rw [shift, f4]
  have g4 : (pre ++ (b ++ post)).getD (pre.length + 22) 0 = e.pyramidType := by
    rw [getD_append_right (by omega), Nat.add_sub_cancel_left, f5]
  rw [g1, g2, g3, g4, hentry]
  have e1 : pre.length + 32 + 20 * dims.length = (pre ++ b).length := by rw [List.length_append, hlen]; omega
  rw [e1]
  have e2 : ({ Entry.start e.pixelType e.filePosition e.compression e.pyramidType with
      coordinate := e.coordinate, mIndex := (Entry.mOpt e).getD intMin, x := e.x, y := e.y, width := e.width, height := e.height,
      storedWidth := e.storedWidth, storedHeight := e.storedHeight } : Entry) = e := by
    rw [mOpt_getD]
    rfl
  have e3 : (Entry.start e.pixelType e.filePosition e.compression e.pyramidType).mIndex = intMin := rfl
  rw [e3, e2]
  rfl

theorem parseEntries_all (o : ParseOptions) (es : List Entry) (h : ∀ e ∈ es, EntryFits e) : ∀ (pre post : List UInt8),
    (pre ++ (es.map entryBytes).flatten ++ post).length < 2 ^ 63 →
    parseEntries o (pre ++ (es.map entryBytes).flatten ++ post) es.length pre.length = .ok es := by
  induction es with
  | nil => intro pre post _; rfl
  | cons e es ih =>
    intro pre post hl
    have e1 : pre ++ ((e :: es).map entryBytes).flatten ++ post = pre ++ (entryBytes e ++ ((es.map entryBytes).flatten ++ post)) := by
      simp
    have e2 : pre ++ (entryBytes e ++ ((es.map entryBytes).flatten ++ post)) =
        (pre ++ entryBytes e) ++ (es.map entryBytes).flatten ++ post := by simp
    rw [e1] at hl ⊢
    rw [List.length_cons, parseEntries_cons o e (h e (List.mem_cons_self ..)) _ _ _ hl]
    rw [e2] at hl ⊢
    rw [ih (fun x hx => h x (List.mem_cons_of_mem _ hx)) _ _ hl]
    rfl

end Verif.Czi
