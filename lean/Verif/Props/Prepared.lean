import Verif.Proof.Prepared
import Verif.Props.DocInfo

/-!
# C66: the metadata prepared by the writer describes the sub-blocks written
-/

namespace Verif
open Xml Spec

theorem minMax_unique {l : List Int} {a b c d : Int} (h : MinMax l a b) (h' : MinMax l c d) : a = c ∧ b = d := by
  obtain ⟨h1, h2, h3⟩ := h
  obtain ⟨k1, k2, k3⟩ := h'
  have := h3 _ k1
  have := h3 _ k2
  have := k3 _ h1
  have := k3 _ h2
  omega

/-- The document after the statistics are written. -/
theorem statistics_new (s : Stats) (acc : List Entry) (hs : StatsExact s acc)
    (hr : ∀ d lo hi, MinMax (values acc d) lo hi → IsInt32 (hi - lo + 1)) :
    let r := writeStatistics s.bbox.w s.bbox.h s.dimBounds (if s.minM ≤ s.maxM then some (s.minM, s.maxM) else none) newDoc
    r.2 = .ok () ∧ r.1.isElement = true ∧ resolve r.1 (namesPath channelsParts) = none ∧ resolve r.1 (namesPath (imageField "PixelType")) = none ∧
    ValueIs r.1 (imageField "SizeX") (Text.printInt s.bbox.w) ∧ ValueIs r.1 (imageField "SizeY") (Text.printInt s.bbox.h) ∧
    (∀ lo hi, MinMax (mIndices acc) lo hi → ValueIs r.1 (imageField "SizeM") (Text.printInt (hi - lo + 1))) ∧
    (mIndices acc = [] → NoSuchNode r.1 (imageField "SizeM")) ∧
    (∀ d lo hi, MinMax (values acc d) lo hi → getDimension r.1 d = some ((0, false), (hi - lo + 1, true))) ∧
    (∀ d, values acc d = [] → getDimension r.1 d = none) := by
  have hnew : ∀ p : List Str, p ≠ [] → resolve newDoc (namesPath p) = none := by
    intro p hp
    cases p with
    | nil => exact absurd rfl hp
    | cons a p => rfl
  have hto : ∀ p : List Str, p ≠ [] → TextOnly newDoc p := by
    intro p hp
    rw [textOnly_iff]
    intro n h
    rw [hnew p hp] at h
    cases h
  have hn : ∀ d, getDimension newDoc d = none := fun d => by cases d <;> rfl
  have hbound : ∀ d st n, s.dimBounds d = some (st, n) → IsInt32 n := by
    intro d st n h
    have := hr d _ _ (hs.dimRange d st n h)
    rwa [show st + n - 1 - st + 1 = n by omega] at this
  obtain ⟨a1, a2, a3, a4, a5, a6⟩ := C64_sizes s.bbox.w s.bbox.h s.dimBounds (if s.minM ≤ s.maxM then some (s.minM, s.maxM) else none) newDoc rfl hbound
    (fun name _ => hto _ (by simp [imageField]))
  obtain ⟨h1, h2, _⟩ := statTexts_ok s.bbox.w s.bbox.h s.dimBounds (if s.minM ≤ s.maxM then some (s.minM, s.maxM) else none)
  have hother := writeTexts_other _ h1 newDoc rfl
  have hkeep := (writeTexts_ok _ h1 h2 newDoc rfl (fun e he _ => hto _ (h1 e he).1)).2
  rw [← writeStatistics_eq] at hother hkeep
  have hnames : ∀ e ∈ statTexts s.bbox.w s.bbox.h s.dimBounds (if s.minM ≤ s.maxM then some (s.minM, s.maxM) else none), ∃ n ∈ sizeNames, e.1 = imageField n := by
    intro e he
    have : e.1 ∈ (statTexts s.bbox.w s.bbox.h s.dimBounds (if s.minM ≤ s.maxM then some (s.minM, s.maxM) else none)).map (·.1) := List.mem_map.mpr ⟨e, he, rfl⟩
    rw [statTexts_fst] at this
    obtain ⟨n, hn, e'⟩ := List.mem_map.mp this
    exact ⟨n, hn, e'.symm⟩
  have hne : ∀ n ∈ sizeNames, n.toList ≠ "Dimensions".toList ∧ n.toList ≠ "PixelType".toList := by decide +kernel
  have hmm : mIndices acc ≠ [] → s.minM ≤ s.maxM := by
    intro h
    have := hs.mRange h
    exact (this.2.2 _ this.1).2
  refine ⟨a1, hother.1, ?_, ?_, a2, a3, ?_, ?_, ?_, ?_⟩
  · refine (hother.2 _ ?_).trans (hnew _ channelsParts_ok.1)
    intro e he
    obtain ⟨n, hn, e'⟩ := hnames e he
    rw [e']
    exact diverge_channels (hne n hn).1
  · refine (hother.2 _ ?_).trans (hnew _ pixelType_parts.1)
    intro e he
    obtain ⟨n, hn, e'⟩ := hnames e he
    rw [e']
    exact diverge_image (hne n hn).2
  · intro lo hi h
    have hm : mIndices acc ≠ [] := List.ne_nil_of_mem h.1
    obtain ⟨rfl, rfl⟩ := minMax_unique (hs.mRange hm) h
    exact a4 _ _ (if_pos (hmm hm))
  · intro h
    obtain ⟨m1, m2⟩ := hs.mNone h
    have hif : (if s.minM ≤ s.maxM then some (s.minM, s.maxM) else none) = none := by
      rw [if_neg]
      rw [m1, m2]
      decide
    rw [noSuchNode_iff]
    have := (hkeep (imageField "SizeM", none) (by
      rw [hif]
      exact List.mem_append_right _ (List.mem_singleton.mpr rfl))).1 rfl
    exact this.trans (hnew _ (by simp [imageField]))
  · intro d lo hi h
    cases hb : s.dimBounds d with
    | none =>
      rw [(hs.dimPresent d).mp hb] at h
      cases h.1
    | some r =>
      obtain ⟨st, n⟩ := r
      obtain ⟨rfl, rfl⟩ := minMax_unique (hs.dimRange d st n hb) h
      obtain ⟨start, e1, _, e3⟩ := a5 d st n hb
      rw [e1, e3 (hn d), show st + n - 1 - st + 1 = n by omega]
  · intro d h
    rw [a6 d ((hs.dimPresent d).mpr h)]
    exact hn d

/-- What the parts of the document are, for exact statistics. -/
theorem prepared_new (dup : Bool) (es : List Entry) (gen : Int → Str × Option Str) (hes : ∀ e ∈ es, EntryOk e) (hg : GoodNames gen)
    (hr : ∀ d lo hi, MinMax (values (acceptedFrom (WriterDir.init dup) es) d) lo hi → IsInt32 (hi - lo + 1)) :
    ∃ (s : Stats) (types : PixelTypes) (d : Node),
      s = (es.foldl PreparedState.tryAdd (PreparedState.init dup)).dir.upd.stats ∧ types = (es.foldl PreparedState.tryAdd (PreparedState.init dup)).types ∧
      StatsExact s (acceptedFrom (WriterDir.init dup) es) ∧
      types.noChannel = ((acceptedFrom (WriterDir.init dup) es).find? (fun e => e.coordinate .C = none)).map (·.pixelType) ∧
      (∀ c, mapFind types.perChannel c = ((acceptedFrom (WriterDir.init dup) es).find? (fun e => e.coordinate .C = some c)).map (·.pixelType)) ∧
      d = (writeStatistics s.bbox.w s.bbox.h s.dimBounds (if s.minM ≤ s.maxM then some (s.minM, s.maxM) else none) newDoc).1 ∧
      preparedMetadata (es.foldl PreparedState.tryAdd (PreparedState.init dup)) gen = fillChannels s.dimBounds types gen d := by
  obtain ⟨f1, f2⟩ := prepared_fold es (PreparedState.init dup)
  have hmem : ∀ (es : List Entry) (d : WriterDir), ∀ e ∈ acceptedFrom d es, e ∈ es := by
    intro es
    induction es with
    | nil => intro d e h; cases h
    | cons a es ih =>
      intro d e h
      rw [acceptedFrom] at h
      split at h
      · rcases List.mem_cons.mp h with rfl | h
        · exact List.mem_cons_self ..
        · exact List.mem_cons_of_mem _ (ih _ _ h)
      · exact List.mem_cons_of_mem _ (ih _ _ h)
  have hex : StatsExact (es.foldl PreparedState.tryAdd (PreparedState.init dup)).dir.upd.stats (acceptedFrom (WriterDir.init dup) es) := by
    rw [f1]
    exact (statsInv_fold _ (fun e he => hes e (hmem _ _ e he))).exact
  obtain ⟨t1, t2⟩ := types_fold (acceptedFrom (WriterDir.init dup) es) PixelTypes.init List.Pairwise.nil
  refine ⟨_, _, _, rfl, rfl, hex, ?_, ?_, rfl, ?_⟩
  · rw [f2]
    exact t1
  · intro c
    rw [f2]
    exact (t2 c).trans (by
      show (none <|> _) = _
      generalize Option.map _ _ = o
      cases o <;> rfl)
  · have h1 := (statistics_new _ _ hex hr).1
    rw [preparedMetadata, show (Node.element "ImageDocument".toList [] []) = newDoc from rfl, writeAll_cons, h1]
    dsimp only
    rw [writeAll_cons]
    generalize fillChannels _ _ _ _ = r
    obtain ⟨r1, r2⟩ := r
    cases r2 <;> rfl

/-! ## Sizes -/

/-- **C66 (sizes).** Whatever sub-blocks were added to the writer (some may have been rejected as duplicates), `GetPreparedMetadata` succeeds,
and the document states the extent of the bounding box of the sub-blocks accepted, the number of m-indices from the smallest to
the largest one, and for every dimension the number of indices from the smallest to the largest one; nothing is stated for
dimensions and m-indices that do not occur. `GetDimensionInfo` returns these sizes. -/
theorem C66_sizes (dup : Bool) (es : List Entry) (gen : Int → Str × Option Str) (hes : ∀ e ∈ es, EntryOk e) (hg : GoodNames gen)
    (hr : ∀ d lo hi, MinMax (values (acceptedFrom (WriterDir.init dup) es) d) lo hi → IsInt32 (hi - lo + 1)) :
    let acc := acceptedFrom (WriterDir.init dup) es
    let r := preparedMetadata (es.foldl PreparedState.tryAdd (PreparedState.init dup)) gen
    r.2 = .ok () ∧
    (acc ≠ [] → ∃ box, IsBox box acc ∧ ValueIs r.1 (imageField "SizeX") (Text.printInt box.w) ∧ ValueIs r.1 (imageField "SizeY") (Text.printInt box.h)) ∧
    (∀ lo hi, MinMax (mIndices acc) lo hi → ValueIs r.1 (imageField "SizeM") (Text.printInt (hi - lo + 1))) ∧
    (mIndices acc = [] → NoSuchNode r.1 (imageField "SizeM")) ∧
    (∀ d lo hi, MinMax (values acc d) lo hi → getDimension r.1 d = some ((0, false), (hi - lo + 1, true))) ∧
    (∀ d, values acc d = [] → getDimension r.1 d = none) := by
  obtain ⟨s, types, d, _, _, hex, _, _, hd, hp⟩ := prepared_new dup es gen hes hg hr
  obtain ⟨b1, b2, b3, b4, b5, b6, b7, b8, b9, b10⟩ := statistics_new s _ hex hr
  rw [← hd] at b2 b3 b4 b5 b6 b7 b8 b9 b10
  obtain ⟨k1, k2, _⟩ := fillChannels_spec s.dimBounds types gen hg.1 hg.2 d b2 b3 b4
  rw [← hp] at k1 k2
  have hdim : ∀ x, getDimension (preparedMetadata (es.foldl PreparedState.tryAdd (PreparedState.init dup)) gen).1 x = getDimension d x := by
    intro x
    have e1 : textAt (preparedMetadata (es.foldl PreparedState.tryAdd (PreparedState.init dup)) gen).1 (imageField ("Start" ++ dimName x)) = textAt d (imageField ("Start" ++ dimName x)) := by
      rw [textAt, k2 _ (by cases x <;> decide +kernel) (by cases x <;> decide +kernel)]
      rfl
    have e2 : textAt (preparedMetadata (es.foldl PreparedState.tryAdd (PreparedState.init dup)) gen).1 (imageField ("Size" ++ dimName x)) = textAt d (imageField ("Size" ++ dimName x)) := by
      rw [textAt, k2 _ (by cases x <;> decide +kernel) (by cases x <;> decide +kernel)]
      rfl
    rw [getDimension_eq, getDimension_eq, e1, e2]
  have hX := k2 "SizeX" (by decide +kernel) (by decide +kernel)
  have hY := k2 "SizeY" (by decide +kernel) (by decide +kernel)
  have hM := k2 "SizeM" (by decide +kernel) (by decide +kernel)
  refine ⟨k1, fun h => ⟨s.bbox, hex.box.2 h, valueIs_congr hX b5, valueIs_congr hY b6⟩, fun lo hi h => valueIs_congr hM (b7 lo hi h), ?_, ?_, ?_⟩
  · intro h
    rw [noSuchNode_iff, hM]
    exact noSuchNode_iff.mp (b8 h)
  · intro x lo hi h
    rw [hdim]
    exact b9 x lo hi h
  · intro x h
    rw [hdim]
    exact b10 x h

/-! ## Channels -/

/-- **C66 (channels).** `GetDimensionChannelsInfo` returns, for the prepared document and for the document read after saving it, one entry for
every index from the smallest channel index to the largest one, in this order, with identifier and name as given by the function
passed in, and with the pixel type of the first sub-block of the channel (none if there is no such sub-block or its pixel type
cannot be stated); if there is no channel index, there is no information about channels. -/
theorem C66_channels (dup : Bool) (es : List Entry) (gen : Int → Str × Option Str) (hes : ∀ e ∈ es, EntryOk e) (hg : GoodNames gen)
    (hr : ∀ d lo hi, MinMax (values (acceptedFrom (WriterDir.init dup) es) d) lo hi → IsInt32 (hi - lo + 1)) :
    let acc := acceptedFrom (WriterDir.init dup) es
    let doc := (preparedMetadata (es.foldl PreparedState.tryAdd (PreparedState.init dup)) gen).1
    (∀ lo hi, MinMax (values acc .C) lo hi → getChannels doc = some ((indices lo hi).map (channelOf acc gen)) ∧
      getChannels (reload doc) = some ((indices lo hi).map (channelOf acc gen))) ∧
    (values acc .C = [] → getChannels doc = none ∧ getChannels (reload doc) = none) := by
  obtain ⟨s, types, d, _, _, hex, _, ht, hd, hp⟩ := prepared_new dup es gen hes hg hr
  obtain ⟨b1, b2, b3, b4, _⟩ := statistics_new s _ hex hr
  rw [← hd] at b2 b3 b4
  obtain ⟨_, _, k3, k4, _⟩ := fillChannels_spec s.dimBounds types gen hg.1 hg.2 d b2 b3 b4
  rw [← hp] at k3 k4
  have hget : ∀ n : Node, getChannels n = (resolve n (namesPath channelsParts)).map (fun n => (n.children.filter (isNamed "Channel".toList)).map channelInfo) := by
    intro n
    rw [← findPath_eq]
    rfl
  dsimp only
  constructor
  · intro lo hi h
    cases hb : s.dimBounds .C with
    | none =>
      rw [(hex.dimPresent .C).mp hb] at h
      cases h.1
    | some r =>
      obtain ⟨st, n⟩ := r
      obtain ⟨rfl, rfl⟩ := minMax_unique (hex.dimRange .C st n hb) h
      have hpos : 0 < n := by
        have := h.2.2 _ h.1
        omega
      obtain ⟨k5, k6⟩ := k4 st n hb
      have hl : ((channelRange st n).map (fun c => (gen c, mapFind types.perChannel c))).map (fun e => infoOf e.1 e.2) = (indices st (st + n - 1)).map (channelOf (acceptedFrom (WriterDir.init dup) es) gen) := by
        have e1 : channelRange st n = indices st (st + n - 1) := by
          unfold channelRange indices
          rw [show st + n - 1 - st + 1 = n by omega]
        rw [e1, List.map_map]
        apply List.map_congr_left
        intro c _
        show infoOf (gen c) (mapFind types.perChannel c) = _
        rw [ht, infoOf, channelOf, channelType, Option.map_map]
        rfl
      obtain ⟨r1, r2⟩ := channels_read _ _ k6
      rw [hl] at r1 r2
      generalize (preparedMetadata (es.foldl PreparedState.tryAdd (PreparedState.init dup)) gen).1 = doc at *
      rw [hget, hget, resolve_reload]
      cases hx : resolve doc (namesPath channelsParts) with
      | none => exact absurd hx (k5 hpos)
      | some m =>
        rw [chChildren, hx] at r1 r2
        dsimp only at r1 r2
        rw [Option.map_some, Option.map_some, Option.map_some, reload_children, r1, r2]
        exact ⟨rfl, rfl⟩
  · intro h
    have := k3 ((hex.dimPresent .C).mpr h)
    rw [hget, hget, resolve_reload, this]
    exact ⟨rfl, rfl⟩

/-! ## Pixel type of the image -/

/-- **C66 (pixel type of the image).** The document states as pixel type of the image that of the first channel whose pixel type is known, and for
sub-blocks without channel index that of the first sub-block. -/
theorem C66_image_type (dup : Bool) (es : List Entry) (gen : Int → Str × Option Str) (hes : ∀ e ∈ es, EntryOk e) (hg : GoodNames gen)
    (hr : ∀ d lo hi, MinMax (values (acceptedFrom (WriterDir.init dup) es) d) lo hi → IsInt32 (hi - lo + 1)) :
    let acc := acceptedFrom (WriterDir.init dup) es
    let doc := (preparedMetadata (es.foldl PreparedState.tryAdd (PreparedState.init dup)) gen).1
    (∀ c t, channelType acc c = some t → t ≠ .Invalid → (∀ c' < c, ∀ t', channelType acc c' = some t' → t' = .Invalid) →
      if Statable t then ValueIs doc (imageField "PixelType") (typeName t).toList else NoSuchNode doc (imageField "PixelType")) ∧
    (∀ e, values acc .C = [] → acc.head? = some e →
      if Statable (pixelTypeFromInt e.pixelType) then ValueIs doc (imageField "PixelType") (typeName (pixelTypeFromInt e.pixelType)).toList
      else NoSuchNode doc (imageField "PixelType")) := by
  obtain ⟨s, types, d, _, _, hex, hnc, ht, hd, hp⟩ := prepared_new dup es gen hes hg hr
  obtain ⟨b1, b2, b3, b4, _⟩ := statistics_new s _ hex hr
  rw [← hd] at b2 b3 b4
  obtain ⟨_, _, _, _, k5, k6⟩ := fillChannels_spec s.dimBounds types gen hg.1 hg.2 d b2 b3 b4
  rw [← hp] at k5 k6
  have fin : ∀ t, imageTypeOf s.dimBounds types = t →
      if Statable t then ValueIs (preparedMetadata (es.foldl PreparedState.tryAdd (PreparedState.init dup)) gen).1 (imageField "PixelType") (typeName t).toList
      else NoSuchNode (preparedMetadata (es.foldl PreparedState.tryAdd (PreparedState.init dup)) gen).1 (imageField "PixelType") := by
    intro t e
    rw [e, pixelTypeText_eq] at k5 k6
    by_cases h : Statable t
    · rw [if_pos h] at k5 ⊢
      exact k5 _ rfl
    · rw [if_neg h] at k6 ⊢
      exact k6 rfl
  dsimp only
  generalize acceptedFrom (WriterDir.init dup) es = acc at *
  have hty : ∀ c, (mapFind types.perChannel c).map pixelTypeFromInt = channelType acc c := by
    intro c
    rw [ht, channelType, Option.map_map]
    rfl
  constructor
  · intro c t hc hv hmin
    apply fin
    have hmem : c ∈ values acc .C := by
      unfold channelType at hc
      cases hf : acc.find? (fun e => e.coordinate .C = some c) with
      | none => rw [hf] at hc; cases hc
      | some e =>
        have h1 := List.mem_of_find?_eq_some hf
        have h2 := List.find?_some hf
        exact List.mem_filterMap.mpr ⟨e, h1, by simpa using h2⟩
    cases hb : s.dimBounds .C with
    | none =>
      rw [(hex.dimPresent .C).mp hb] at hmem
      cases hmem
    | some r =>
      obtain ⟨st, n⟩ := r
      rw [imageTypeOf, hb]
      dsimp only
      have hin := (hex.dimRange .C st n hb).2.2 c hmem
      -- the indices below are passed over
      have key : ∀ (k : Nat) (i : Nat), i + k = (c - st).toNat → i < n.toNat →
          firstPixelType types ((List.range' i (n.toNat - i)).map (fun j : Nat => st + (j : Int))) = t := by
        intro k
        induction k with
        | zero =>
          intro i hi hn
          have e : n.toNat - i = (n.toNat - i - 1) + 1 := by omega
          rw [e, List.range'_succ, List.map_cons, firstPixelType]
          have ec : st + (i : Int) = c := by omega
          rw [ec]
          have := hty c
          rw [hc] at this
          cases hm : mapFind types.perChannel c with
          | none => rw [hm] at this; cases this
          | some k =>
            rw [hm] at this
            injection this with this
            dsimp only
            rw [this, if_neg hv]
        | succ k ih =>
          intro i hi hn
          have e : n.toNat - i = (n.toNat - (i + 1)) + 1 := by omega
          have hrec := ih (i + 1) (by omega) (by omega)
          rw [e, List.range'_succ, List.map_cons, firstPixelType]
          have := hmin (st + (i : Int)) (by omega)
          rw [← hty] at this
          cases hm : mapFind types.perChannel (st + (i : Int)) with
          | none => exact hrec
          | some v =>
            rw [hm] at this
            dsimp only
            rw [if_pos (this _ rfl)]
            exact hrec
      have := key (c - st).toNat 0 (by omega) (by omega)
      rw [channelRange, List.range_eq_range']
      exact this
  · intro e h0 hh
    apply fin
    rw [imageTypeOf, (hex.dimPresent .C).mpr h0]
    dsimp only
    cases acc with
    | nil => cases hh
    | cons a l =>
      injection hh with hh
      subst hh
      have hc : a.coordinate .C = none := by
        cases hx : a.coordinate .C with
        | none => rfl
        | some v =>
          have : v ∈ values (a :: l) .C := List.mem_filterMap.mpr ⟨a, List.mem_cons_self .., hx⟩
          rw [h0] at this
          cases this
      have : types.noChannel = some a.pixelType := by
        rw [hnc, List.find?_cons]
        simp [hc]
      rw [this]

/-! ## Names -/

theorem printInt_inj {a b : Int} (h : Text.printInt a = Text.printInt b) : a = b := by
  have e : ∀ v : Int, Text.printInt v = if v < 0 then '-' :: Text.decimal v.natAbs else Text.decimal v.natAbs := fun _ => rfl
  have key : ∀ n : Nat, Digits (Text.decimal n) ∧ digitsValue (Text.decimal n) = n := fun n => ⟨(Text.decimal_spec n).1, (Text.decimal_spec n).2.1⟩
  have hd : ∀ n m : Nat, Text.decimal n ≠ '-' :: Text.decimal m := by
    intro n m h
    have := (key n).1.2 '-' (by rw [h]; exact List.mem_cons_self ..)
    revert this
    unfold IsDigit
    decide
  rw [e, e] at h
  by_cases ha : a < 0 <;> by_cases hb : b < 0
  · rw [if_pos ha, if_pos hb] at h
    injection h with _ h
    have := (key a.natAbs).2
    rw [h, (key b.natAbs).2] at this
    omega
  · rw [if_pos ha, if_neg hb] at h
    exact absurd h.symm (hd _ _)
  · rw [if_neg ha, if_pos hb] at h
    exact absurd h (hd _ _)
  · rw [if_neg ha, if_neg hb] at h
    have := (key a.natAbs).2
    rw [h, (key b.natAbs).2] at this
    omega

/-- **C66 (names).** The names that the writer gives to channels if no function is passed in meet the condition of the theorems above. -/
theorem C66_default_names : GoodNames defaultIdAndName := by
  constructor
  · intro c
    refine ⟨?_, by intro n h; cases h⟩
    intro x hx
    rcases List.mem_append.mp hx with h | h
    · have : ∀ x ∈ "Channel:".toList, x ∉ ['/', '[', ']', ',', ';'] := by decide +kernel
      exact this x h
    · have : x = '-' ∨ IsDigit x := by
        unfold Text.printInt at h
        split at h
        · rcases List.mem_cons.mp h with h | h
          · exact .inl h
          · exact .inr ((Text.decimal_spec _).1.2 x h)
        · exact .inr ((Text.decimal_spec _).1.2 x h)
      rcases this with rfl | h
      · decide
      · intro hm
        unfold IsDigit at h
        simp only [List.mem_cons, List.not_mem_nil, or_false] at hm
        rcases hm with rfl | rfl | rfl | rfl | rfl <;> revert h <;> decide
  · intro c c' h
    exact printInt_inj (List.append_cancel_left h)

/-! ## Examples -/

/-- A sub-block of a channel. -/
def channelEntry (c type : Int) : Entry := ⟨Coord.empty.set .C c, 0, 0, 0, 10, 20, 10, 20, type, 0, 0, 0⟩

/-- The state of a writer after adding sub-blocks. -/
def preparedAfter (es : List Entry) : PreparedState := es.foldl PreparedState.tryAdd (PreparedState.init false)

example : ∀ e ∈ [channelEntry 1 0, channelEntry 3 1, channelEntry 1 1], EntryOk e := by
  intro e he
  simp only [List.mem_cons, List.not_mem_nil, or_false] at he
  rcases he with rfl | rfl | rfl
  all_goals
    refine ⟨by simp [channelEntry], by simp [channelEntry, intMax, intMin], fun _ => ⟨.C, by simp [channelEntry, Coord.set]⟩⟩

example : (acceptedFrom (WriterDir.init false) [channelEntry 1 0, channelEntry 3 1, channelEntry 1 1]).map (·.pixelType) = [0, 1] := by decide +kernel

example : MinMax (values (acceptedFrom (WriterDir.init false) [channelEntry 1 0, channelEntry 3 1, channelEntry 1 1]) .C) 1 3 := by
  unfold MinMax
  decide +kernel

example : getChannels (preparedMetadata (preparedAfter [channelEntry 1 0, channelEntry 3 1, channelEntry 1 1]) defaultIdAndName).1 =
    some [⟨some "Channel:1".toList, none, some .Gray8⟩, ⟨some "Channel:2".toList, none, none⟩, ⟨some "Channel:3".toList, none, some .Gray16⟩] := by
  decide +kernel

example : GoodNames (fun c => ("Channel:".toList ++ Text.printInt c, some "green".toList)) := by
  refine ⟨fun c => ⟨(C66_default_names.1 c).1, ?_⟩, fun c c' h => C66_default_names.2 c c' h⟩
  intro n h
  injection h with h
  subst h
  unfold AttrValue
  decide +kernel

/-! ## Violations -/

/-- **C66 (violation: no sub-blocks).** For a writer to which nothing was added, the document states that the image has the sizes -1. -/
theorem C66_empty (dup : Bool) (gen : Int → Str × Option Str) :
    let r := preparedMetadata (PreparedState.init dup) gen
    r.2 = .ok () ∧ ValueIs r.1 (imageField "SizeX") "-1".toList ∧ ValueIs r.1 (imageField "SizeY") "-1".toList := by
  have h : preparedMetadata (PreparedState.init dup) gen = preparedMetadata (PreparedState.init false) defaultIdAndName := rfl
  dsimp only
  rw [h]
  have h1 : (preparedMetadata (PreparedState.init false) defaultIdAndName).2.toOption = some () := by decide +kernel
  have h2 : (resolve (preparedMetadata (PreparedState.init false) defaultIdAndName).1 (namesPath (imageField "SizeX"))).bind tryGetValue = some "-1".toList := by decide +kernel
  have h3 : (resolve (preparedMetadata (PreparedState.init false) defaultIdAndName).1 (namesPath (imageField "SizeY"))).bind tryGetValue = some "-1".toList := by decide +kernel
  refine ⟨?_, ?_, ?_⟩
  · cases hr : (preparedMetadata (PreparedState.init false) defaultIdAndName).2 with
    | ok u => rfl
    | error e => rw [hr] at h1; cases h1
  · rw [valueIs_iff]
    exact Option.bind_eq_some_iff.mp h2
  · rw [valueIs_iff]
    exact Option.bind_eq_some_iff.mp h3

/-- **C66 (violation: pixel types).** For a channel with the pixel type Gray32 (12) or Gray64Float (13), no pixel type is stated, although such
a statement would be understood when read. -/
theorem C66_type_not_stated : ∀ k ∈ [(12 : Int), 13],
    getChannels (preparedMetadata (preparedAfter [channelEntry 0 k]) defaultIdAndName).1 = some [⟨some "Channel:0".toList, none, none⟩] ∧
    channelType [channelEntry 0 k] 0 = some (pixelTypeFromInt k) ∧
    stringToPixelType (typeName (pixelTypeFromInt k)).toList = some (pixelTypeFromInt k) := by
  decide +kernel

/-- **C66 (violation: names).** With an identifier that contains a comma or a slash, `GetPreparedMetadata` throws; if two channels have the same
identifier, there is only one entry. -/
theorem C66_bad_names :
    (preparedMetadata (preparedAfter [channelEntry 0 0]) (fun _ => ("a,b".toList, none))).2.toOption = none ∧
    (preparedMetadata (preparedAfter [channelEntry 0 0]) (fun _ => ("a/b".toList, none))).2.toOption = none ∧
    getChannels (preparedMetadata (preparedAfter [channelEntry 0 0, channelEntry 1 1]) (fun _ => ("a".toList, none))).1 =
      some [⟨some "a".toList, none, some .Gray8⟩] := by
  decide +kernel

end Verif
