import Verif.Proof.JsonMore
import Verif.Props.AxisInfo

/-!
# C89: the JSON texts that the C interface returns say what the document says
-/

namespace Verif
open Verif.Spec Verif.JsonText Verif.Xml

/-! ## General information -/

/-- **C89 (general information).** For every document the function returns a JSON text of an object. A member has the text of the element with the same meaning, and is
missing if there is no such element; the rating is the number. The names are different. -/
theorem C89_general (p : Printer) (doc : Node) :
    ∃ t m, getGeneralText p doc = .ok (.ok (some t)) ∧ IsJsonText p (.obj m) t ∧ DistinctNames m ∧
      (∀ e ∈ generalNames, memberOf m e.1.toList =
        ((findPath doc ["Metadata".toList, "Information".toList, "Document".toList]).bind fun n => fieldOf n e.2.toList).map .str) ∧
      memberOf m "rating".toList = ((findPath doc ["Metadata".toList, "Information".toList, "Document".toList]).bind fun n => fieldOf n "Rating".toList).map
        (fun t => .int (asInt t)) ∧
      ∀ e ∈ m, e.1 ∈ ("rating" :: generalNames.map (·.1)).map String.toList := by
  let L : GeneralInfo → List (String × Option JVal) := fun g => [("name", g.name.map .str), ("title", g.title.map .str), ("user_name", g.userName.map .str),
    ("description", g.description.map .str), ("comment", g.comment.map .str), ("keywords", g.keywords.map .str), ("creation_date_time", g.creationDate.map .str),
    ("rating", g.rating.map .int)]
  have hL : ∀ g, generalJson g = .obj (opts (L g)) := by
    intro g
    unfold generalJson opts
    simp only [L, List.flatMap_cons, List.flatMap_nil, List.append_nil, opt_map _ JVal.str, opt_map _ JVal.int]
  have hn : ∀ g, ((L g).map (·.1)).Nodup := by
    intro g
    show (["name", "title", "user_name", "description", "comment", "keywords", "creation_date_time", "rating"] : List String).Nodup
    decide +kernel
  have hf : ∀ g, FiniteMembers (opts (L g)) := by
    intro g
    refine opts_finite ?_
    simp only [L, List.forall_mem_cons, List.not_mem_nil, false_imp_iff, implies_true, and_true]
    have hs : ∀ (o : Option Str) v, o.map JVal.str = some v → FiniteNumbers v := by
      intro o v h
      cases o with
      | none => cases h
      | some s => injection h with h; rw [← h]; simp [FiniteNumbers]
    refine ⟨hs _, hs _, hs _, hs _, hs _, hs _, hs _, ?_⟩
    intro v h
    cases hr : g.rating with
    | none => rw [hr] at h; cases h
    | some s => rw [hr] at h; injection h with h; rw [← h]; simp [FiniteNumbers]
  obtain ⟨t, h1, h2⟩ := text_ok p (hf (getGeneral doc))
  have en : ∀ (i : Nat) {k : String} {o o' : Option JVal}, (L (getGeneral doc))[i]? = some (k, o) → o = o' → memberOf (opts (L (getGeneral doc))) k.toList = o' :=
    fun i _ _ _ h e => e ▸ opts_member (hn _) (List.mem_of_getElem? h)
  refine ⟨t, opts (L (getGeneral doc)), ?_, h2, opts_distinct (hn _), ?_, ?_, ?_⟩
  · unfold getGeneralText
    rw [hL]
    exact h1
  · unfold generalNames
    simp only [List.forall_mem_cons, List.not_mem_nil, false_imp_iff, implies_true, and_true]
    refine ⟨en 0 rfl ?_, en 1 rfl ?_, en 2 rfl ?_, en 3 rfl ?_, en 4 rfl ?_, en 5 rfl ?_, en 6 rfl ?_⟩
    all_goals
      unfold getGeneral
      cases findPath doc ["Metadata".toList, "Information".toList, "Document".toList] <;> rfl
  · refine en 7 rfl ?_
    unfold getGeneral
    cases findPath doc ["Metadata".toList, "Information".toList, "Document".toList] with
    | none => rfl
    | some n =>
      dsimp only [Option.bind_some]
      cases fieldOf n "Rating".toList <;> rfl
  · intro e he
    obtain ⟨k, hk, hk2⟩ := List.mem_map.1 (opts_names _ e he)
    refine List.mem_map.2 ⟨k, ?_, hk2⟩
    have hall : ∀ k ∈ (["name", "title", "user_name", "description", "comment", "keywords", "creation_date_time", "rating"] : List String),
        k ∈ "rating" :: generalNames.map (·.1) := by decide +kernel
    exact hall k hk

/-! ## Pyramid statistics -/

/-- **C89 (pyramid statistics).** The function returns a JSON text. It says about a scene exactly what the statistics say: minification factor, number and count for every
layer, in the same order, and nothing about other scenes. -/
theorem C89_pyramid (p : Printer) (s : PyrStats) (hs : (s.map (·.1)).Nodup) :
    ∃ t v, getPyramidStatistics p s = .ok (.ok (some t)) ∧ IsJsonText p v t ∧
      ∀ scene, sceneSaid v scene = (mapFind s scene).map fun l => l.map fun x => (((x.1.1 : Int), (x.1.2 : Int)), (x.2 : Int)) := by
  have hf : FiniteMembers (s.map fun e => (Text.printInt e.1, JVal.arr (e.2.map layerJson))) := by
    clear hs
    induction s with
    | nil => simp [FiniteMembers]
    | cons e s ih =>
      rw [List.map_cons, FiniteMembers]
      refine ⟨?_, ih⟩
      rw [FiniteNumbers]
      exact layers_finite _
  have hf2 : FiniteMembers [("scenePyramidStatistics".toList, JVal.obj (s.map fun e => (Text.printInt e.1, JVal.arr (e.2.map layerJson))))] := by
    rw [FiniteMembers, FiniteMembers, FiniteNumbers]
    exact ⟨hf, trivial⟩
  obtain ⟨t, h1, h2⟩ := text_ok p hf2
  refine ⟨t, _, h1, h2, ?_⟩
  intro scene
  show ((memberOf (s.map fun e => (Text.printInt e.1, JVal.arr (e.2.map layerJson))) (Text.printInt scene)).bind fun a => match a with
    | .arr l => l.mapM layerSaid
    | _ => none) = _
  clear hf hf2 h1 h2 hs
  induction s with
  | nil => rfl
  | cons e s ih =>
    rw [List.map_cons, memberOf_cons]
    unfold mapFind at ih ⊢
    rw [List.find?_cons]
    by_cases he : e.1 = scene
    · rw [if_pos (by rw [he])]
      simp only [he, beq_self_eq_true]
      exact layersSaid _
    · rw [if_neg (fun h => he (printInt_inj h))]
      have : (e.1 == scene) = false := by simpa using he
      rw [this]
      exact ih

/-! ## Z and T -/

/-- **C89 (Z axis).** If the metadata have information about the Z axis (C88 says which) and its numbers are finite, the function returns a JSON text of an object with
exactly this information. -/
theorem C89_z (p : Printer) (doc : Node) (z : ZInfo) (hz : getZInfo doc = some (.ok z))
    (hf : (∀ x, z.start = some x → FiniteNum x) ∧ (∀ x, z.driveSpeed = some x → FiniteNum x) ∧ FinitePositions z.positions) :
    ∃ t m, getDimensionText p doc 1 = .ok (.ok (some t)) ∧ IsJsonText p (.obj m) t ∧ DistinctNames m ∧ ZIn m z := by
  let L : List (String × Option JVal) := ("reference_position", z.start.map .num) :: (positionsList "position_list" z.positions ++
    [("xyz_handedness", z.handedness.map handednessJson), ("z_axis_direction", z.direction.map directionJson), ("z_drive_mode", z.driveMode.map driveModeJson),
     ("z_drive_speed", z.driveSpeed.map .num)])
  have hL : zJson z = .obj (opts L) := by
    unfold zJson
    rw [positionsJson_eq]
    unfold opts
    simp only [L, List.flatMap_cons, List.flatMap_append, List.flatMap_nil, List.append_nil, opt_map _ JVal.num, opt_map _ handednessJson, opt_map _ directionJson,
      opt_map _ driveModeJson]
  have hn : (L.map (·.1)).Nodup := by
    show (["reference_position", "interval_definition", "position_list", "xyz_handedness", "z_axis_direction", "z_drive_mode", "z_drive_speed"] : List String).Nodup
    decide +kernel
  have hfin : FiniteMembers (opts L) := by
    have hnum : ∀ (o : Option Num), (∀ x, o = some x → FiniteNum x) → ∀ v, o.map JVal.num = some v → FiniteNumbers v := by
      intro o ho v h
      cases o with
      | none => cases h
      | some x => injection h with h; rw [← h]; exact finite_num (ho x rfl)
    show FiniteMembers (opt _ id _ ++ opts (positionsList "position_list" z.positions ++ _))
    rw [finiteMembers_append]
    unfold opts
    rw [List.flatMap_append, finiteMembers_append]
    refine ⟨?_, ?_, ?_⟩
    · have := opts_finite (L := [("reference_position", z.start.map .num)]) (by
        simp only [List.forall_mem_cons, List.not_mem_nil, false_imp_iff, implies_true, and_true]
        exact hnum _ hf.1)
      simpa [opts] using this
    · have := positions_finite (k := "position_list") hf.2.2
      rw [positionsJson_eq] at this
      exact this
    · refine opts_finite ?_
      simp only [List.forall_mem_cons, List.not_mem_nil, false_imp_iff, implies_true, and_true]
      refine ⟨?_, ?_, ?_, hnum _ hf.2.1⟩
      · intro v h
        cases hh : z.handedness with
        | none => rw [hh] at h; cases h
        | some x => rw [hh] at h; injection h with h; rw [← h]; cases x <;> simp [handednessJson, FiniteNumbers]
      · intro v h
        cases hh : z.direction with
        | none => rw [hh] at h; cases h
        | some x => rw [hh] at h; injection h with h; rw [← h]; cases x <;> simp [directionJson, FiniteNumbers]
      · intro v h
        cases hh : z.driveMode with
        | none => rw [hh] at h; cases h
        | some x => rw [hh] at h; injection h with h; rw [← h]; cases x <;> simp [driveModeJson, FiniteNumbers]
  obtain ⟨t, h1, h2⟩ := text_ok p hfin
  have en : ∀ (i : Nat) {k : String} {o o' : Option JVal}, L[i]? = some (k, o) → o = o' → memberOf (opts L) k.toList = o' :=
    fun i _ _ _ h e => e ▸ opts_member hn (List.mem_of_getElem? h)
  refine ⟨t, opts L, ?_, h2, opts_distinct hn, en 0 rfl rfl, positions_in hn ?_, en 3 rfl ?_, en 4 rfl ?_, en 5 rfl ?_, en 6 rfl rfl⟩
  · unfold getDimensionText
    rw [if_pos rfl, hz]
    show textResult p (.ok (zJson z)) = _
    rw [hL]
    exact h1
  · intro e he
    exact List.mem_cons_of_mem _ (List.mem_append_left _ he)
  · cases z.handedness with
    | none => rfl
    | some x => cases x <;> rfl
  · cases z.direction with
    | none => rfl
    | some x => cases x <;> rfl
  · cases z.driveMode with
    | none => rfl
    | some x => cases x <;> rfl

/-- **C89 (nothing is lost).** The object determines the information about the Z axis: two different ones have different texts. -/
theorem C89_z_unique (m : List (Str × JVal)) (z z' : ZInfo) (h : ZIn m z) (h' : ZIn m z') : z = z' := by
  have e : ∀ {α : Type} {a b : Option α} {f : α → String}, (∀ x y, (f x).toList = (f y).toList → x = y) →
      (a.map fun x => JVal.str (f x).toList) = (b.map fun x => JVal.str (f x).toList) → a = b := by
    intro α a b f hf h
    cases a <;> cases b
    · rfl
    · cases h
    · cases h
    · injection h with h
      injection h with h
      rw [hf _ _ h]
  obtain ⟨a1, a2, a3, a4, a5, a6⟩ := z
  obtain ⟨b1, b2, b3, b4, b5, b6⟩ := z'
  obtain ⟨h1, h2, h3, h4, h5, h6⟩ := h
  obtain ⟨g1, g2, g3, g4, g5, g6⟩ := h'
  have i1 := map_num (h1.symm.trans g1)
  have i6 := map_num (h6.symm.trans g6)
  have i2 := positions_unique h2 g2
  have i3 := e (by intro x y; cases x <;> cases y <;> decide +kernel) (h3.symm.trans g3)
  have i4 := e (by intro x y; cases x <;> cases y <;> decide +kernel) (h4.symm.trans g4)
  have i5 := e (by intro x y; cases x <;> cases y <;> decide +kernel) (h5.symm.trans g5)
  dsimp only at i1 i2 i3 i4 i5 i6
  subst i1 i2 i3 i4 i5 i6
  rfl

/-- **C89 (T axis).** If the metadata have information about the T axis (C88) and its numbers are finite, the function returns a JSON text of an object with this
information; the start time is in the format of XML Schema. It does not fail for a date that could be read. -/
theorem C89_t (p : Printer) (doc : Node) (ti : TInfo) (ht : getTInfo doc = some (.ok ti)) (hf : FinitePositions ti.positions) :
    ∃ t m, getDimensionText p doc 3 = .ok (.ok (some t)) ∧ IsJsonText p (.obj m) t ∧ DistinctNames m ∧ TIn m ti := by
  have hvalid : ∀ d, ti.start = some d → ∃ s, toXmlString d = some s := by
    intro d hd
    unfold getTInfo at ht
    cases hp : findPath doc ["Metadata".toList, "Information".toList, "Image".toList, "Dimensions".toList, "T".toList] with
    | none => rw [hp] at ht; cases ht
    | some axis =>
      rw [hp] at ht
      injection ht with ht
      dsimp only at ht
      unfold startTime at ht
      cases hfld : fieldOf axis "StartTime".toList with
      | none =>
        rw [hfld] at ht
        cases hr : readPositions axis with
        | ok q =>
          simp only [hr, Czi.Outcome.bind] at ht
          injection ht with ht
          rw [← ht] at hd
          cases hd
        | throws => simp only [hr, Czi.Outcome.bind] at ht; cases ht
        | undefined => simp only [hr, Czi.Outcome.bind] at ht; cases ht
      | some s =>
        rw [hfld] at ht
        dsimp only at ht
        cases hr : tryParse s with
        | date d' =>
          rw [hr] at ht
          cases hq : readPositions axis with
          | ok q =>
            simp only [hq, Czi.Outcome.bind] at ht
            injection ht with ht
            rw [← ht] at hd
            injection hd with hd
            obtain ⟨_, _, _, _, hv⟩ := C63_parse s d' hr
            rw [hd] at hv
            cases hx : toXmlString d with
            | some s => exact ⟨s, rfl⟩
            | none => exact absurd hv ((C63_valid d).2.1 hx)
          | throws => simp only [hq, Czi.Outcome.bind] at ht; cases ht
          | undefined => simp only [hq, Czi.Outcome.bind] at ht; cases ht
        | fails =>
          rw [hr] at ht
          cases hq : readPositions axis with
          | ok q =>
            simp only [hq, Czi.Outcome.bind] at ht
            injection ht with ht
            rw [← ht] at hd
            cases hd
          | throws => simp only [hq, Czi.Outcome.bind] at ht; cases ht
          | undefined => simp only [hq, Czi.Outcome.bind] at ht; cases ht
        | throws =>
          rw [hr] at ht
          simp only [Czi.Outcome.bind] at ht
          cases ht
  let L : List (String × Option JVal) := ("start_time", (ti.start.bind toXmlString).map .str) :: positionsList "offset_list" ti.positions
  have hL : tJson ti = .ok (.obj (opts L)) := by
    unfold tJson
    cases hs : ti.start with
    | none =>
      dsimp only
      rw [positionsJson_eq]
      simp only [L, hs]
      rfl
    | some d =>
      obtain ⟨s, hx⟩ := hvalid d hs
      dsimp only
      rw [hx]
      dsimp only
      rw [positionsJson_eq]
      simp only [L, hs, Option.bind_some, hx]
      rfl
  have hn : (L.map (·.1)).Nodup := by
    show (["start_time", "interval_definition", "offset_list"] : List String).Nodup
    decide +kernel
  have hfin : FiniteMembers (opts L) := by
    have := positions_finite (k := "offset_list") hf
    rw [positionsJson_eq] at this
    show FiniteMembers (opt _ id _ ++ opts (positionsList "offset_list" ti.positions))
    rw [finiteMembers_append]
    refine ⟨?_, this⟩
    dsimp only
    cases ti.start.bind toXmlString with
    | none => simp [opt, FiniteMembers]
    | some s => simp [opt, FiniteMembers, FiniteNumbers]
  obtain ⟨t, h1, h2⟩ := text_ok p hfin
  refine ⟨t, opts L, ?_, h2, opts_distinct hn, ?_, hvalid, positions_in hn ?_⟩
  · unfold getDimensionText
    rw [if_neg (by decide), if_pos rfl, ht]
    show textResult p (tJson ti) = _
    rw [hL]
    exact h1
  · exact opts_member hn (List.mem_cons_self ..)
  · intro e he
    exact List.mem_cons_of_mem _ he

/-! ## Channels -/

/-- **C89 (channels, partial).** If no colour has a text with undefined behaviour (C27 and C83 say which are read) and all numbers are finite, the function returns a JSON
text of an object with one member for each channel, named by its index, and the object for a channel says what the metadata say. Missing: the contrast of the condenser
(`C89_condenser_violated`), and digits of wavelengths beyond the sixth (`C89_digits_violated`). -/
theorem C89_channels_partial (p : Printer) (doc : Node) (chs : List Node) (hc : channelNodes doc = some chs)
    (hcol : ∀ ch ∈ chs, ∀ t, fieldOf ch "Color".toList = some t → Text.rgbFromString t ≠ .undefined) (hf : ∀ ch ∈ chs, FiniteChannel ch) :
    ∃ t m, getDimensionText p doc 2 = .ok (.ok (some t)) ∧ IsJsonText p (.obj m) t ∧ DistinctNames m ∧ m.length = chs.length ∧
      ∀ i ch, chs[i]? = some ch → ∃ mc, memberOf m (Text.decimal i) = some (.obj mc) ∧ ChannelIn mc ch := by
  obtain ⟨t, m, h1, h2, h3, h4, h5⟩ := channels_text p doc chs hc hcol hf
  refine ⟨t, m, h1, h2, h3, h4, fun i ch hi => ?_⟩
  obtain ⟨c, hp, hm⟩ := h5 i ch hi
  exact ⟨_, hm, channel_in hp⟩

/-- **C89 (violated: contrast of the condenser).** The member "condensor_contrast" has the text of the element "Reflector" instead of "CondenserContrast", for every channel
of every document: it is missing if there is no reflector, whatever the contrast of the condenser. -/
theorem C89_condenser_violated (p : Printer) (doc : Node) (chs : List Node) (hc : channelNodes doc = some chs)
    (hcol : ∀ ch ∈ chs, ∀ t, fieldOf ch "Color".toList = some t → Text.rgbFromString t ≠ .undefined) (hf : ∀ ch ∈ chs, FiniteChannel ch) :
    ∃ t m, getDimensionText p doc 2 = .ok (.ok (some t)) ∧ IsJsonText p (.obj m) t ∧
      ∀ i ch, chs[i]? = some ch → ∃ mc, memberOf m (Text.decimal i) = some (.obj mc) ∧
        memberOf mc "condensor_contrast".toList = (fieldOf ch "Reflector".toList).map .str := by
  obtain ⟨t, m, h1, h2, h3, h4, h5⟩ := channels_text p doc chs hc hcol hf
  refine ⟨t, m, h1, h2, fun i ch hi => ?_⟩
  obtain ⟨c, hp, hm⟩ := h5 i ch hi
  refine ⟨_, hm, ?_⟩
  obtain ⟨color, _, he⟩ := parseChannel_ok hp
  have e : c.reflector = fieldOf ch "Reflector".toList := by rw [he]
  rw [channelMembers_eq, ← e]
  exact opts_member (channelList_nodup c) (e := ("condensor_contrast", c.reflector.map .str)) (List.mem_of_getElem? (i := 27) rfl)

/-! ## Wavelengths -/

/-- **C89 (wavelengths, partial).** If the numbers have at most six significant digits, the text of the ranges in the JSON text denotes exactly these numbers and ranges, in
the notation of the metadata. -/
theorem C89_ranges_partial (l : List (RangeOrSingle Num)) (h0 : l ≠ []) (h : ∀ r ∈ l, SixDigitRange r) :
    ∃ vs, SpectrumText (rangesText l) vs ∧ vs.map shownDouble = l := by
  have key : ∀ l : List (RangeOrSingle Num), (∀ r ∈ l, SixDigitRange r) → ∃ vs : List (RangeValue Num),
      List.Forall₂ (fun p r => RangeText DoubleText (withoutWhite p) r) (l.map (rangeText showNum)) vs ∧ vs.map shownDouble = l := by
    intro l
    induction l with
    | nil => intro _; exact ⟨[], .nil, rfl⟩
    | cons r l ih =>
      intro h
      obtain ⟨vs, h1, h2⟩ := ih fun x hx => h x (List.mem_cons_of_mem _ hx)
      obtain ⟨v, g1, g2, _, g4, _⟩ := range_text (h r (by simp))
      exact ⟨v :: vs, .cons (by rw [withoutWhite_self g4]; exact g1) h1, by rw [List.map_cons, g2, h2]⟩
  obtain ⟨vs, h1, h2⟩ := key l h
  refine ⟨vs, ⟨l.map (rangeText showNum), by simpa using h0, rangesText_join l, ?_, ?_⟩, h2⟩
  · intro q hq
    obtain ⟨r, hr, rfl⟩ := List.mem_map.1 hq
    obtain ⟨_, _, _, g, _⟩ := range_text (h r hr)
    exact g
  · rw [List.filter_eq_self.2]
    · exact h1
    · intro q hq
      obtain ⟨r, hr, rfl⟩ := List.mem_map.1 hq
      obtain ⟨_, _, _, _, _, g⟩ := range_text (h r hr)
      simpa using g

/-- **C89 (violated: digits of wavelengths).** Wavelengths that are nearer to the same number with six digits have the same text: every `x` in a whole interval around `d` is
shown as `d`. -/
theorem C89_digits_violated (d x : ℚ) (hd : HasDigits 6 d) (hx : 2 * 10 ^ 6 * |x - d| < |d|) :
    spectrumJson (.ranges [⟨true, .fin x, .nan⟩]) = spectrumJson (.ranges [⟨true, .fin d, .nan⟩]) := by
  obtain ⟨h1, h2⟩ := sigDigits_recovered (p := 6) (by norm_num) hd hx
  have : showG 6 x = showG 6 d := showG_congr h1 h2
  unfold spectrumJson rangesText rangeText showNum
  simp only [this]

/-! ## Errors -/

/-- **C89 (no information).** Without the element for the dimension the result is `InvalidArgument`; if the information cannot be read because of an exception, it is
`UnspecifiedError`. -/
theorem C89_errors (p : Printer) (doc : Node) :
    (getZInfo doc = none → getDimensionText p doc 1 = .ok .invalidArgument) ∧ (getTInfo doc = none → getDimensionText p doc 3 = .ok .invalidArgument) ∧
    (channelNodes doc = none → getDimensionText p doc 2 = .ok .invalidArgument) ∧
    (getZInfo doc = some .throws → getDimensionText p doc 1 = .ok .unspecifiedError) ∧
    (getTInfo doc = some .throws → getDimensionText p doc 3 = .ok .unspecifiedError) := by
  refine ⟨?_, ?_, ?_, ?_, ?_⟩
  · intro h
    unfold getDimensionText
    rw [if_pos rfl, h]
  · intro h
    unfold getDimensionText
    rw [if_neg (by decide), if_pos rfl, h]
  · intro h
    have : channelsOf doc = none := by
      unfold channelNodes at h
      unfold channelsOf
      cases hp : findPath doc ["Metadata".toList, "Information".toList, "Image".toList, "Dimensions".toList, "Channels".toList] with
      | none => rfl
      | some n => rw [hp] at h; cases h
    unfold getDimensionText
    rw [if_neg (by decide), if_neg (by decide), if_pos rfl, this]
  · intro h
    unfold getDimensionText
    rw [if_pos rfl, h]
    rfl
  · intro h
    unfold getDimensionText
    rw [if_neg (by decide), if_pos rfl, h]
    rfl

/-- **C89 (violated: success without a text).** For every dimension except Z, T and C the function reports success and stores nothing. -/
theorem C89_other_dimension_violated (p : Printer) (doc : Node) (dim : Nat) (h : dim ≠ 1 ∧ dim ≠ 2 ∧ dim ≠ 3) : getDimensionText p doc dim = .ok (.ok none) := by
  unfold getDimensionText
  rw [if_neg h.1, if_neg h.2.2, if_neg h.2.1]

/-- **C89 (violated: numbers that are not finite).** If the start of the Z axis is infinite or not a number, the function reports success, and what it returns is not a JSON
text of any value: it ends in the middle. -/
theorem C89_not_finite_violated (p : Printer) (hp : Prints p) (doc : Node) (z : ZInfo) (hz : getZInfo doc = some (.ok z)) (x : Num) (hx : z.start = some x)
    (hn : ¬ FiniteNum x) : ∃ t, getDimensionText p doc 1 = .ok (.ok (some t)) ∧ ∀ v, ¬ IsJsonText p v t := by
  have h : ∃ m, zJson z = .obj m ∧ ¬ FiniteNumbers (.obj m) := by
    refine ⟨_, rfl, ?_⟩
    rw [FiniteNumbers, finiteMembers_append, hx]
    intro hf
    have h1 := hf.1
    simp only [opt, FiniteMembers] at h1
    cases x with
    | fin q => exact hn ⟨q, rfl⟩
    | inf b => simp [FiniteNumbers] at h1
    | nan => simp [FiniteNumbers] at h1
  obtain ⟨m, hm, hf⟩ := h
  refine ⟨jsonString p (.obj m), ?_, fun v => not_text hp hf v⟩
  unfold getDimensionText
  rw [if_pos rfl, hz]
  show textResult p (.ok (zJson z)) = _
  rw [hm]
  rfl

/-! ## The available dimensions -/

/-- **C89 (available dimensions).** If the caller's array is too small for all dimensions and the terminator, the function reports an error and leaves it unchanged.
Otherwise the array begins with the dimensions and the terminator (0), and the rest is unchanged. -/
theorem C89_available (dims : List Nat) (count : Nat) (array : List Nat) (hc : count ≤ array.length) :
    (count < dims.length + 1 → getAvailable dims count array = (false, array)) ∧
    (dims.length + 1 ≤ count → getAvailable dims count array = (true, dims ++ 0 :: array.drop (dims.length + 1))) := by
  refine ⟨fun h => ?_, fun h => ?_⟩
  · unfold getAvailable
    rw [if_pos h]
  · unfold getAvailable
    rw [if_neg (by omega), set_foldl dims 0 array (by omega)]
    have hlt : dims.length < array.length := by omega
    rw [List.take_zero, List.nil_append, Nat.zero_add, List.set_append_right _ _ (by omega), Nat.sub_self, List.drop_eq_getElem_cons hlt]
    rfl

/-! ## Cases that meet the hypotheses -/

private def dimDoc (children : List Node) : Node :=
  .element "ImageDocument".toList [] [.element "Metadata".toList [] [.element "Information".toList [] [.element "Image".toList [] [.element "Dimensions".toList [] children]]]]

private def leafJ (name text : String) : Node := .element name.toList [] [.text false text.toList]

private def plainPrinter : Printer := ⟨fun s => '"' :: (s ++ ['"']), fun x => 'r' :: Text.decimal x.den⟩

/-- The hypothesis about the printer holds for one. -/
example : Prints plainPrinter := ⟨fun _ => rfl, fun _ => by simp [plainPrinter]⟩

/-- The hypotheses of `C89_z` hold for a document with handedness and direction. -/
example : ∃ z, getZInfo (dimDoc [.element "Z".toList [] [leafJ "XYZHandedness" "LeftHanded", leafJ "ZAxisDirection" " FromObjectiveToSpecimen"]]) = some (.ok z) ∧
    z.handedness = some .LeftHanded ∧ z.direction = some .FromObjectiveToSpecimen ∧
    ((∀ x, z.start = some x → FiniteNum x) ∧ (∀ x, z.driveSpeed = some x → FiniteNum x) ∧ FinitePositions z.positions) :=
  ⟨⟨none, some .LeftHanded, some .FromObjectiveToSpecimen, none, none, .none⟩, rfl, rfl, rfl, (fun _ h => by cases h), (fun _ h => by cases h), trivial⟩

/-- The hypotheses of `C89_not_finite_violated` hold for a document whose start position is "nan". -/
example : ∃ z, getZInfo (dimDoc [.element "Z".toList [] [leafJ "StartPosition" "nan"]]) = some (.ok z) ∧ z.start = some .nan ∧ ¬ FiniteNum .nan :=
  ⟨⟨some .nan, none, none, none, none, .none⟩, rfl, rfl, fun ⟨_, h⟩ => by cases h⟩

/-- The hypotheses of `C89_t` hold for a document with a date. -/
example : ∃ ti, getTInfo (dimDoc [.element "T".toList [] [leafJ "StartTime" "2024-02-29T12:30:15Z"]]) = some (.ok ti) ∧ (∃ d, ti.start = some d) ∧ FinitePositions ti.positions :=
  ⟨_, rfl, ⟨_, rfl⟩, trivial⟩

private def channelsDoc : Node :=
  dimDoc [.element "Channels".toList [] [.element "Channel".toList [("Id".toList, "Channel:0".toList)] [leafJ "Color" "#FF00FF80", leafJ "CondenserContrast" "DIC"],
    .element "Channel".toList [("Id".toList, "Channel:1".toList)] [leafJ "ExposureTime" "5000000", leafJ "Reflector" "BF"]]]

/-- The hypotheses of `C89_channels_partial` and `C89_condenser_violated` hold for a document with two channels: one with the contrast of the condenser and no reflector. -/
example : ∃ c0 c1, channelNodes channelsDoc = some [c0, c1] ∧ fieldOf c0 "CondenserContrast".toList = some "DIC".toList ∧ fieldOf c0 "Reflector".toList = none ∧
    fieldOf c1 "Reflector".toList = some "BF".toList ∧
    (∀ ch ∈ [c0, c1], ∀ t, fieldOf ch "Color".toList = some t → Text.rgbFromString t ≠ .undefined) ∧ ∀ ch ∈ [c0, c1], FiniteChannel ch := by
  refine ⟨.element "Channel".toList [("Id".toList, "Channel:0".toList)] [leafJ "Color" "#FF00FF80", leafJ "CondenserContrast" "DIC"],
    .element "Channel".toList [("Id".toList, "Channel:1".toList)] [leafJ "ExposureTime" "5000000", leafJ "Reflector" "BF"], rfl, rfl, rfl, rfl, ?_, ?_⟩
  · intro ch hch t ht
    rcases List.mem_cons.1 hch with rfl | hch
    · have e : t = "#FF00FF80".toList := by
        have : fieldOf (.element "Channel".toList [("Id".toList, "Channel:0".toList)] [leafJ "Color" "#FF00FF80", leafJ "CondenserContrast" "DIC"]) "Color".toList =
          some "#FF00FF80".toList := rfl
        rw [this] at ht
        injection ht with ht
        exact ht.symm
      rw [e]
      decide +kernel
    · rcases List.mem_cons.1 hch with rfl | hch
      · cases ht
      · cases hch
  · intro ch hch
    rcases List.mem_cons.1 hch with rfl | hch
    · refine ⟨?_, fun x h => by rcases h with h | h <;> cases h⟩
      unfold channelReals
      simp only [List.forall_mem_cons, List.not_mem_nil, false_imp_iff, implies_true, and_true]
      refine ⟨?_, ?_, ?_, ?_, ?_, ?_, ?_, ?_, ?_⟩ <;> (intro t ht; cases ht)
    · rcases List.mem_cons.1 hch with rfl | hch
      · refine ⟨?_, fun x h => by rcases h with h | h <;> cases h⟩
        unfold channelReals
        simp only [List.forall_mem_cons, List.not_mem_nil, false_imp_iff, implies_true, and_true]
        refine ⟨?_, ?_, ?_, ?_, ?_, ?_, ?_, ?_, ?_⟩ <;> (intro t ht; cases ht)
      · cases hch

/-- The hypotheses of `C89_ranges_partial` hold for the range from 410 to 450.5. -/
example : SixDigitRange ⟨false, .fin (Flt.f64 410), .fin (Flt.f64 (9010 / 20))⟩ :=
  ⟨⟨410, by norm_num, ⟨410, 0, by norm_num, by norm_num⟩, rfl⟩, ⟨9010 / 20, ⟨4505, -1, by norm_num, by norm_num⟩, rfl⟩⟩

/-- The hypotheses of `C89_digits_violated` hold for 488.1231 and 488.123. -/
example : HasDigits 6 (488123 / 1000) ∧ 2 * 10 ^ 6 * |(4881231 / 10000 : ℚ) - 488123 / 1000| < |(488123 / 1000 : ℚ)| ∧ (4881231 / 10000 : ℚ) ≠ 488123 / 1000 := by
  refine ⟨⟨488123, -3, by norm_num, by norm_num⟩, ?_, by norm_num⟩
  rw [abs_of_pos (by norm_num), abs_of_pos (by norm_num)]
  norm_num

/-- The hypotheses of `C89_errors`: a document without axes, and one with a number that is too large in the list of positions (C88). -/
example : getZInfo (dimDoc []) = none ∧ getTInfo (dimDoc []) = none ∧ channelNodes (dimDoc []) = none := ⟨rfl, rfl, rfl⟩

/-- The hypothesis of `C89_pyramid` holds for statistics with two scenes. -/
example : (([(0, [((0, 0), 12), ((2, 1), 3)]), (1, [((0, 0), 5)])] : PyrStats).map (·.1)).Nodup := by decide

/-- Both cases of `C89_available`. -/
example : getAvailable [26, 20, 3] 3 [9, 9, 9, 9, 9] = (false, [9, 9, 9, 9, 9]) ∧ getAvailable [26, 20, 3] 4 [9, 9, 9, 9, 9] = (true, [26, 20, 3, 0, 9]) := by
  decide +kernel

end Verif
