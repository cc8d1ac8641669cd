import Verif.Proof.JsonText
import Verif.Proof.DisplayRead
import Verif.Props.DateTime

/-!
# Lemmas about the JSON texts of the axes and channels
-/

namespace Verif
open Verif.Spec Verif.JsonText Verif.Xml

theorem layerSaid_json (l : LayerInfo × Nat) : layerSaid (layerJson l) = some (((l.1.1 : Int), (l.1.2 : Int)), (l.2 : Int)) := rfl

theorem layersSaid (l : List (LayerInfo × Nat)) : (l.map layerJson).mapM layerSaid = some (l.map fun x => (((x.1.1 : Int), (x.1.2 : Int)), (x.2 : Int))) := by
  induction l with
  | nil => rfl
  | cons a l ih =>
    rw [List.map_cons, List.mapM_cons, ih, layerSaid_json]
    rfl

theorem layers_finite (l : List (LayerInfo × Nat)) : FiniteList (l.map layerJson) := by
  induction l with
  | nil => simp [FiniteList]
  | cons a l ih =>
    rw [List.map_cons, FiniteList]
    refine ⟨?_, ih⟩
    simp [layerJson, FiniteNumbers, FiniteMembers]

theorem positions_finite {k : String} {q : Positions} (h : FinitePositions q) : FiniteMembers (positionsJson k q) := by
  cases q with
  | none => simp [positionsJson, tryInterval, tryList, opt, FiniteMembers]
  | interval a b =>
    show FiniteMembers [("interval_definition".toList, .arr [.num a, .num b])]
    rw [FiniteMembers, FiniteMembers, FiniteNumbers, FiniteList, FiniteList, FiniteList]
    exact ⟨⟨finite_num h.1, finite_num h.2, trivial⟩, trivial⟩
  | list l =>
    show FiniteMembers [(k.toList, .arr (l.map .num))]
    rw [FiniteMembers, FiniteMembers, FiniteNumbers]
    exact ⟨finite_nums h, trivial⟩

/-- The positions as optional members. -/
def positionsList (k : String) (q : Positions) : List (String × Option JVal) :=
  [("interval_definition", (tryInterval q).map fun i => .arr [.num i.1, .num i.2]), (k, (tryList q).map fun l => .arr (l.map .num))]

theorem positionsJson_eq (k : String) (q : Positions) : positionsJson k q = opts (positionsList k q) := by
  cases q <;> rfl

theorem positions_in {L : List (String × Option JVal)} (hn : (L.map (·.1)).Nodup) {k : String} {q : Positions} (h : ∀ e ∈ positionsList k q, e ∈ L) :
    PositionsIn (opts L) k q := by
  have h1 := opts_member hn (h _ (List.mem_cons_self ..))
  have h2 := opts_member hn (h _ (List.mem_cons_of_mem _ (List.mem_cons_self ..)))
  dsimp only at h1 h2
  unfold PositionsIn
  cases q <;> exact ⟨h1, h2⟩

theorem map_num {a b : Option Num} (h : a.map JVal.num = b.map JVal.num) : a = b := by
  cases a <;> cases b <;> simp_all

theorem nums_inj : ∀ {a b : List Num}, a.map JVal.num = b.map JVal.num → a = b
  | [], [], _ => rfl
  | [], _ :: _, h => by cases h
  | _ :: _, [], h => by cases h
  | x :: xs, y :: ys, h => by
    rw [List.map_cons, List.map_cons] at h
    injection h with h1 h2
    injection h1 with h1
    rw [h1, nums_inj h2]

theorem positions_unique {m : List (Str × JVal)} {k : String} {q q' : Positions} (h : PositionsIn m k q) (h' : PositionsIn m k q') : q = q' := by
  have key : ∀ q, memberOf m "interval_definition".toList = ((tryInterval q).map fun i => JVal.arr [.num i.1, .num i.2]) ∧
      memberOf m k.toList = ((tryList q).map fun l => JVal.arr (l.map .num)) ↔ PositionsIn m k q := by
    intro q
    cases q <;> exact Iff.rfl
  obtain ⟨h1, h2⟩ := (key q).2 h
  obtain ⟨g1, g2⟩ := (key q').2 h'
  have e1 := h1.symm.trans g1
  have e2 := h2.symm.trans g2
  clear h h' h1 h2 g1 g2 key
  cases q with
  | none =>
    cases q' with
    | none => rfl
    | interval c d => cases e1
    | list l => cases e2
  | interval a b =>
    cases q' with
    | none => cases e1
    | interval c d =>
      simp only [tryInterval, Option.map_some, Option.some.injEq, JVal.arr.injEq, List.cons.injEq, JVal.num.injEq, and_true] at e1
      rw [e1.1, e1.2]
    | list l => cases e1
  | list l =>
    cases q' with
    | none => cases e2
    | interval c d => cases e1
    | list l' =>
      simp only [tryList, Option.map_some, Option.some.injEq, JVal.arr.injEq] at e2
      rw [nums_inj e2]

theorem channels_text (p : Printer) (doc : Node) (chs : List Node) (hc : channelNodes doc = some chs)
    (hcol : ∀ ch ∈ chs, ∀ t, fieldOf ch "Color".toList = some t → Text.rgbFromString t ≠ .undefined) (hf : ∀ ch ∈ chs, FiniteChannel ch) :
    ∃ t m, getDimensionText p doc 2 = .ok (.ok (some t)) ∧ IsJsonText p (.obj m) t ∧ DistinctNames m ∧ m.length = chs.length ∧
      ∀ i ch, chs[i]? = some ch → ∃ c, parseChannel ch = .ok c ∧ memberOf m (Text.decimal i) = some (.obj (channelMembers c)) := by
  have hparse : ∀ o ∈ chs.map parseChannel, ∃ c, o = .ok c := by
    intro o ho
    obtain ⟨ch, hm, rfl⟩ := List.mem_map.1 ho
    unfold parseChannel colorOf
    cases hx : fieldOf ch "Color".toList with
    | none => exact ⟨_, rfl⟩
    | some t =>
      dsimp only
      cases hr : Text.rgbFromString t with
      | rejected => exact ⟨_, rfl⟩
      | undefined => exact absurd hr (hcol ch hm t hx)
      | color c => exact ⟨_, rfl⟩
  obtain ⟨cs, hcs⟩ := allOk_exists hparse
  have hall := allOk_ok hcs
  rw [List.forall₂_map_left_iff] at hall
  have hch : channelsOf doc = some (.ok cs) := by
    unfold channelNodes at hc
    unfold channelsOf
    cases hp : findPath doc ["Metadata".toList, "Information".toList, "Image".toList, "Dimensions".toList, "Channels".toList] with
    | none => rw [hp] at hc; cases hc
    | some n =>
      rw [hp] at hc
      injection hc with hc
      dsimp only [Option.map_some] at hc ⊢
      rw [hc, hcs]
  have hfin : FiniteMembers (cs.mapIdx fun i c => (Text.decimal i, JVal.obj (channelMembers c))) := by
    have : ∀ (f : Nat → Channel → Str × JVal), (∀ i c, c ∈ cs → FiniteNumbers (f i c).2) → FiniteMembers (cs.mapIdx f) := by
      have h0 : ∀ c ∈ cs, ∃ ch ∈ chs, parseChannel ch = .ok c := by
        intro c hm
        obtain ⟨i, hi⟩ := List.getElem?_of_mem hm
        have hl := hall.length_eq
        have hlt : i < cs.length := (List.getElem?_eq_some_iff.1 hi).1
        refine ⟨chs[i], List.getElem_mem _, ?_⟩
        have := List.forall₂_iff_get.1 hall
        have := this.2 i (by omega) hlt
        rw [List.getElem?_eq_getElem hlt] at hi
        injection hi with hi
        simpa [hi] using this
      clear hch hcs hall hc hcol hf hparse h0
      induction cs with
      | nil => intro f _; simp [FiniteMembers]
      | cons c cs ih =>
        intro f hff
        rw [List.mapIdx_cons, FiniteMembers]
        exact ⟨hff 0 c (by simp), ih _ fun i c hc => hff (i + 1) c (List.mem_cons_of_mem _ hc)⟩
    apply this
    intro i c hm
    rw [FiniteNumbers]
    obtain ⟨j, hj⟩ := List.getElem?_of_mem hm
    have hl := hall.length_eq
    have hlt : j < cs.length := (List.getElem?_eq_some_iff.1 hj).1
    have h1 := (List.forall₂_iff_get.1 hall).2 j (by omega) hlt
    rw [List.getElem?_eq_getElem hlt] at hj
    injection hj with hj
    have h2 : parseChannel (chs[j]'(by omega)) = .ok c := by rw [← hj]; exact h1
    exact channel_finite h2 (hf _ (List.getElem_mem _))
  obtain ⟨t, h1, h2⟩ := text_ok p hfin
  have hnames : (cs.mapIdx fun i c => (Text.decimal i, JVal.obj (channelMembers c))).map (·.1) = (List.range cs.length).map Text.decimal := by
    apply List.ext_getElem?
    intro i
    simp only [List.getElem?_map, List.getElem?_mapIdx]
    by_cases hi : i < cs.length
    · rw [List.getElem?_eq_getElem hi, List.getElem?_range hi]
      rfl
    · rw [List.getElem?_eq_none (by omega), List.getElem?_eq_none (by simp; omega)]
      rfl
  have hd : DistinctNames (cs.mapIdx fun i c => (Text.decimal i, JVal.obj (channelMembers c))) := by
    unfold DistinctNames
    rw [hnames]
    exact List.Nodup.map (fun a b h => decimal_inj h) List.nodup_range
  refine ⟨t, _, ?_, h2, hd, ?_, ?_⟩
  · unfold getDimensionText
    rw [if_neg (by decide), if_neg (by decide), if_pos rfl, hch]
    exact h1
  · rw [List.length_mapIdx, hall.length_eq]
  · intro i ch hi
    have hlt : i < chs.length := (List.getElem?_eq_some_iff.1 hi).1
    have hlt2 : i < cs.length := by rw [← hall.length_eq]; exact hlt
    have h3 := (List.forall₂_iff_get.1 hall).2 i hlt hlt2
    rw [List.getElem?_eq_getElem hlt] at hi
    injection hi with hi
    refine ⟨cs[i], by rw [← hi]; exact h3, ?_⟩
    unfold memberOf
    have : (cs.mapIdx fun i c => (Text.decimal i, JVal.obj (channelMembers c))).find? (fun e => e.1 = Text.decimal i) =
        some (Text.decimal i, JVal.obj (channelMembers cs[i])) := by
      rw [List.find?_eq_some_iff_getElem]
      refine ⟨by simp, i, by rw [List.length_mapIdx]; exact hlt2, by rw [List.getElem_mapIdx], ?_⟩
      intro j hj
      rw [List.getElem_mapIdx]
      simp only [Bool.not_eq_true', decide_eq_false_iff_not]
      intro h
      have := decimal_inj h
      omega
    rw [this]
    rfl

theorem six_f64 {d : ℚ} (h : HasDigits 6 d) : decimalOf 6 (Flt.f64 d) = d := by
  by_cases h0 : d = 0
  · rw [h0, show Flt.f64 0 = 0 from Flt.fround_zero 53, decimalOf_zero]
  · have hr := sigDigits_recovered (p := 6) (y := Flt.f64 d) (by norm_num) h (by
      have h1 := Flt.f64_err d
      have hpos := abs_pos.2 h0
      have h2 : 2 * 10 ^ 6 * |Flt.f64 d - d| ≤ 2 * 10 ^ 6 * (|d| / 2 ^ 53) := by nlinarith
      refine lt_of_le_of_lt h2 ?_
      have h3 : (2 : ℚ) * 10 ^ 6 * (|d| / 2 ^ 53) = |d| * (2 * 10 ^ 6 / 2 ^ 53) := by ring
      rw [h3]
      norm_num
      linarith)
    rw [decimalOf_congr hr.1 hr.2, decimalOf_exact (by norm_num) h]

theorem showNum_text {d : ℚ} (h : HasDigits 6 d) : DoubleText (showNum (.fin (Flt.f64 d))) (.fin (Flt.f64 d)) := by
  have := showG_text (p := 6) (by norm_num) (Flt.f64 d)
  rw [six_f64 h] at this
  exact ⟨d, this, rfl⟩

theorem doubleText_chars {t : Str} {x : Num} (h : DoubleText t x) : ',' ∉ t ∧ ∀ c ∈ t, ¬ IsWhite c := by
  refine ⟨?_, (double_scans.chars h).2⟩
  obtain ⟨d, hd, _⟩ := h
  obtain ⟨sg, ip, pf, fp, ex, g, e, rfl, hs, hd, hne, hp, he, rfl⟩ := hd
  have hchar := text_char hd hp he
  intro hm
  rcases List.mem_append.1 hm with hm | hm
  · cases hs <;> simp at hm
  · rcases hchar _ hm with h | h
    · revert h; unfold IsDigit; decide
    · revert h; decide

theorem showG_head {x : ℚ} (hx : 0 ≤ x) : (showG 6 x).head? ≠ some '-' := by
  intro hc
  have ht := showG_text (p := 6) (by norm_num) x
  by_cases h0 : x = 0
  · rw [h0] at hc
    exact absurd hc (by decide +kernel)
  · have hpos : 0 < decimalOf 6 x := by
      have h1 := (sigDigits_decimalOf (p := 6) (by norm_num) x).2
      have h2 : ¬ decimalOf 6 x < 0 := fun h => absurd (h1.1 h) (not_lt.2 hx)
      rcases lt_or_eq_of_le (not_lt.1 h2) with h | h
      · exact h
      · have h3 := (sigDigits_decimalOf (p := 6) (by norm_num) x).1
        rw [← h, sigDigits_zero] at h3
        have h4 := decimalOf_err (p := 6) (by norm_num) x
        rw [← h, zero_sub, abs_neg] at h4
        have h5 := abs_pos.2 h0
        norm_num at h4
        linarith
    obtain ⟨sg, ip, pf, fp, ex, g, e, h1, hs, hd, hne, hp, he, h2⟩ := ht
    rw [h1] at hc
    have hrest : (ip ++ (pf ++ ex)).head? ≠ some '-' := by
      intro hr
      cases ip with
      | cons a as =>
        injection hr with hr
        have := hd a (by simp)
        rw [hr] at this
        exact absurd this (by unfold IsDigit; decide)
      | nil =>
        rcases hp with ⟨_, h⟩ | h
        · rw [h] at hne; exact hne rfl
        · rw [h] at hr
          injection hr with hr
          exact absurd hr (by decide)
    cases hs with
    | none => exact hrest hc
    | plus => injection hc with hc; exact absurd hc (by decide)
    | minus =>
      rw [h2] at hpos
      have : (0 : ℚ) ≤ digitsValue (ip ++ fp) * 10 ^ (e - (fp.length : ℤ)) := by positivity
      linarith

theorem range_text {r : RangeOrSingle Num} (h : SixDigitRange r) :
    ∃ v, RangeText DoubleText (rangeText showNum r) v ∧ shownDouble v = r ∧ ',' ∉ rangeText showNum r ∧ (∀ c ∈ rangeText showNum r, ¬ IsWhite c) ∧
      rangeText showNum r ≠ [] := by
  obtain ⟨single, a, b⟩ := r
  obtain ⟨⟨d, h0, hd, ha⟩, hb⟩ := h
  dsimp only at ha hb
  subst ha
  have t1 := showNum_text hd
  obtain ⟨c1, c2⟩ := doubleText_chars t1
  have hh : (showNum (.fin (Flt.f64 d))).head? ≠ some '-' := showG_head (by
    have := Flt.f64_mono h0
    rwa [show Flt.f64 0 = 0 from Flt.fround_zero 53] at this)
  have hne := (double_scans.chars t1).1
  unfold rangeText
  cases single with
  | true =>
    simp only [if_true] at hb ⊢
    subst hb
    exact ⟨.single (.fin (Flt.f64 d)), .single t1 hh, rfl, c1, c2, hne⟩
  | false =>
    simp only [Bool.false_eq_true, if_false] at hb ⊢
    obtain ⟨d', hd', rfl⟩ := hb
    have t2 := showNum_text hd'
    obtain ⟨c3, c4⟩ := doubleText_chars t2
    refine ⟨.range (some (.fin (Flt.f64 d))) (some (.fin (Flt.f64 d'))), .both t1 hh t2, rfl, ?_, ?_, by simp⟩
    · intro hm
      rcases List.mem_append.1 hm with hm | hm
      · exact c1 hm
      · rcases List.mem_cons.1 hm with hm | hm
        · exact absurd hm (by decide)
        · exact c3 hm
    · intro c hm
      rcases List.mem_append.1 hm with hm | hm
      · exact c2 c hm
      · rcases List.mem_cons.1 hm with hm | hm
        · rw [hm]; unfold IsWhite; decide
        · exact c4 c hm

theorem withoutWhite_self {s : Str} (h : ∀ c ∈ s, ¬ IsWhite c) : withoutWhite s = s := by
  unfold withoutWhite
  rw [List.filter_eq_self]
  intro c hc
  simpa [IsWhite] using h c hc

theorem rangesText_join : ∀ l : List (RangeOrSingle Num), rangesText l = joinComma (l.map (rangeText showNum))
  | [] => rfl
  | [r] => rfl
  | r :: s :: l => by
    show _ ++ ',' :: rangesText (s :: l) = _
    rw [rangesText_join (s :: l)]
    rfl

theorem set_foldl : ∀ (dims : List Nat) (k : Nat) (a : List Nat), k + dims.length ≤ a.length →
    (dims.zipIdx k).foldl (fun a d => a.set d.2 d.1) a = a.take k ++ (dims ++ a.drop (k + dims.length))
  | [], k, a, _ => by simp
  | d :: ds, k, a, h => by
    rw [List.zipIdx_cons, List.foldl_cons]
    have hk : k < a.length := by rw [List.length_cons] at h; omega
    rw [set_foldl ds (k + 1) (a.set k d) (by rw [List.length_set]; simp only [List.length_cons] at h; omega)]
    rw [List.take_set, List.drop_set_of_lt (by omega), List.take_add_one, List.getElem?_eq_getElem hk]
    rw [List.set_append_right _ _ (by simp)]
    have : k - (a.take k).length = 0 := by simp; omega
    rw [this]
    simp [Nat.add_comm, Nat.add_left_comm]

end Verif
