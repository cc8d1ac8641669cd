import Verif.Spec.JsonText
import Verif.Proof.ChannelText

/-!
# Lemmas about the JSON texts of the C interface
-/

namespace Verif.JsonText
open Verif.Xml Verif.Spec

/-! ## The writer -/

mutual
theorem write_text (p : Printer) : ∀ v, FiniteNumbers v → (write p v).2 = true ∧ IsJsonText p v (write p v).1
  | .str s, _ => ⟨rfl, .str s⟩
  | .int n, _ => ⟨rfl, .int n⟩
  | .num (.fin x), _ => ⟨rfl, .num x⟩
  | .num (.inf _), h => by simp only [FiniteNumbers] at h
  | .num .nan, h => by simp only [FiniteNumbers] at h
  | .arr l, h => by
    simp only [FiniteNumbers] at h
    obtain ⟨h1, us, h2, h3⟩ := writeItems_text p l h
    simp only [write, h1, h3, if_true]
    exact ⟨trivial, .arr l us h2⟩
  | .obj m, h => by
    simp only [FiniteNumbers] at h
    obtain ⟨h1, us, h2, h3⟩ := writeMembers_text p m h
    simp only [write, h1, h3, if_true]
    exact ⟨trivial, .obj m us h2⟩

theorem writeItems_text (p : Printer) : ∀ l, FiniteList l → (writeItems p l).2 = true ∧ ∃ us, List.Forall₂ (IsJsonText p) l us ∧ (writeItems p l).1 = joinComma us
  | [], _ => ⟨rfl, [], .nil, rfl⟩
  | [v], h => by
    simp only [FiniteList] at h
    obtain ⟨h1, h2⟩ := write_text p v h.1
    simp only [writeItems]
    exact ⟨h1, [(write p v).1], .cons h2 .nil, rfl⟩
  | v :: w :: vs, h => by
    rw [FiniteList] at h
    obtain ⟨h1, h2⟩ := write_text p v h.1
    obtain ⟨h3, us, h4, h5⟩ := writeItems_text p (w :: vs) h.2
    have hu : us ≠ [] := by rintro rfl; cases h4
    refine ⟨?_, (write p v).1 :: us, .cons h2 h4, ?_⟩
    · rw [writeItems, if_pos h1]
      exact h3
      simp
    · rw [writeItems, if_pos h1, h5]
      · cases us with
        | nil => exact absurd rfl hu
        | cons a as => rfl
      · simp

theorem writeMembers_text (p : Printer) : ∀ m, FiniteMembers m → (writeMembers p m).2 = true ∧ ∃ us, List.Forall₂ (IsJsonText p) (m.map (·.2)) us ∧
      (writeMembers p m).1 = joinComma (List.zipWith (fun (e : List Char × JVal) u => p.quote e.1 ++ ':' :: u) m us)
  | [], _ => ⟨rfl, [], .nil, rfl⟩
  | [(k, v)], h => by
    simp only [FiniteMembers] at h
    obtain ⟨h1, h2⟩ := write_text p v h.1
    simp only [writeMembers]
    exact ⟨h1, [(write p v).1], .cons h2 .nil, rfl⟩
  | (k, v) :: e :: es, h => by
    rw [FiniteMembers] at h
    obtain ⟨h1, h2⟩ := write_text p v h.1
    obtain ⟨h3, us, h4, h5⟩ := writeMembers_text p (e :: es) h.2
    have hu : us ≠ [] := by rintro rfl; cases h4
    refine ⟨?_, (write p v).1 :: us, .cons h2 h4, ?_⟩
    · rw [writeMembers, if_pos h1]
      exact h3
      simp
    · rw [writeMembers, if_pos h1, h5]
      · cases us with
        | nil => exact absurd rfl hu
        | cons a as =>
          show _ = (p.quote k ++ ':' :: (write p v).1) ++ ',' :: _
          rw [List.append_assoc]
          rfl
      · simp
end

/-- The text ends with a colon, a comma or an opening bracket. -/
def Open (s : Str) : Prop := ∃ t c, s = t ++ [c] ∧ c ∈ [':', ',', '[']

theorem Open.append (a : Str) {s : Str} (h : Open s) : Open (a ++ s) := by
  obtain ⟨t, c, rfl, hc⟩ := h
  exact ⟨a ++ t, c, by rw [List.append_assoc], hc⟩

mutual
theorem write_stop (p : Printer) : ∀ v, ¬ FiniteNumbers v → (write p v).2 = false ∧ ((write p v).1 = [] ∨ Open (write p v).1)
  | .str s, h => by simp only [FiniteNumbers, not_true_eq_false] at h
  | .int n, h => by simp only [FiniteNumbers, not_true_eq_false] at h
  | .num (.fin x), h => by simp only [FiniteNumbers, not_true_eq_false] at h
  | .num (.inf _), _ => ⟨rfl, .inl rfl⟩
  | .num .nan, _ => ⟨rfl, .inl rfl⟩
  | .arr l, h => by
    simp only [FiniteNumbers] at h
    obtain ⟨h1, h2⟩ := writeItems_stop p l h
    have e : write p (.arr l) = (['['] ++ (writeItems p l).1, false) := by
      simp only [write, h1]
      simp
    rw [e]
    refine ⟨rfl, .inr ?_⟩
    cases h2 with
    | inl h => rw [h]; exact ⟨[], '[', rfl, by simp⟩
    | inr h => exact h.append _
  | .obj m, h => by
    simp only [FiniteNumbers] at h
    obtain ⟨h1, h2⟩ := writeMembers_stop p m h
    have e : write p (.obj m) = (['{'] ++ (writeMembers p m).1, false) := by
      simp only [write, h1]
      simp
    rw [e]
    exact ⟨rfl, .inr (h2.append _)⟩

theorem writeItems_stop (p : Printer) : ∀ l, ¬ FiniteList l → (writeItems p l).2 = false ∧ ((writeItems p l).1 = [] ∨ Open (writeItems p l).1)
  | [], h => by simp only [FiniteList, not_true_eq_false] at h
  | [v], h => by
    simp only [FiniteList, and_true] at h
    simp only [writeItems]
    exact write_stop p v h
  | v :: w :: vs, h => by
    rw [FiniteList] at h
    by_cases hv : FiniteNumbers v
    · have hs : ¬ FiniteList (w :: vs) := fun hs => h ⟨hv, hs⟩
      obtain ⟨h1, h2⟩ := writeItems_stop p (w :: vs) hs
      rw [writeItems, if_pos (write_text p v hv).1]
      · refine ⟨h1, .inr ?_⟩
        show Open (_ ++ ([','] ++ _))
        cases h2 with
        | inl h => rw [h]; exact Open.append _ ⟨[], ',', rfl, by simp⟩
        | inr h => exact (h.append _).append _
      · simp
    · obtain ⟨h1, h2⟩ := write_stop p v hv
      rw [writeItems, if_neg (by rw [h1]; simp)]
      · exact ⟨rfl, h2⟩
      · simp

theorem writeMembers_stop (p : Printer) : ∀ m, ¬ FiniteMembers m → (writeMembers p m).2 = false ∧ Open (writeMembers p m).1
  | [], h => by simp only [FiniteMembers, not_true_eq_false] at h
  | [(k, v)], h => by
    simp only [FiniteMembers, and_true] at h
    obtain ⟨h1, h2⟩ := write_stop p v h
    simp only [writeMembers]
    refine ⟨h1, ?_⟩
    show Open (_ ++ ([':'] ++ _))
    cases h2 with
    | inl h => rw [h]; exact Open.append _ ⟨[], ':', rfl, by simp⟩
    | inr h => exact (h.append _).append _
  | (k, v) :: e :: es, h => by
    rw [FiniteMembers] at h
    by_cases hv : FiniteNumbers v
    · have hs : ¬ FiniteMembers (e :: es) := fun hs => h ⟨hv, hs⟩
      obtain ⟨h1, h2⟩ := writeMembers_stop p (e :: es) hs
      rw [writeMembers, if_pos (write_text p v hv).1]
      · refine ⟨h1, ?_⟩
        show Open (_ ++ ([':'] ++ (_ ++ ([','] ++ _))))
        exact ((((h2.append _).append _).append _).append _)
      · simp
    · obtain ⟨h1, h2⟩ := write_stop p v hv
      rw [writeMembers, if_neg (by rw [h1]; simp)]
      · refine ⟨rfl, ?_⟩
        show Open (_ ++ ([':'] ++ _))
        cases h2 with
        | inl h => rw [h]; exact Open.append _ ⟨[], ':', rfl, by simp⟩
        | inr h => exact (h.append _).append _
      · simp
end

theorem decimal_head (n : Nat) : (Text.decimal n).head? ≠ some '{' := by
  intro h
  cases hd : Text.decimal n with
  | nil => rw [hd] at h; cases h
  | cons c cs =>
    rw [hd] at h
    injection h with h
    have := (Text.decimal_spec n).1.2 c (by rw [hd]; simp)
    rw [h] at this
    exact absurd this (by unfold IsDigit; decide)

theorem printInt_head (n : Int) : (Text.printInt n).head? ≠ some '{' := by
  unfold Text.printInt
  split
  · intro h; injection h with h; exact absurd h (by decide)
  · exact decimal_head _

theorem not_text {p : Printer} (hp : Prints p) {m : List (Str × JVal)} (h : ¬ FiniteNumbers (.obj m)) (v : JVal) : ¬ IsJsonText p v (jsonString p (.obj m)) := by
  intro hv
  obtain ⟨_, h2⟩ := write_stop p _ h
  have he : ∃ t, jsonString p (.obj m) = '{' :: t := ⟨_, rfl⟩
  obtain ⟨t, he⟩ := he
  have ho : Open (jsonString p (.obj m)) := by
    cases h2 with
    | inl h => rw [show jsonString p (.obj m) = [] from h] at he; cases he
    | inr h => exact h
  generalize jsonString p (.obj m) = s at hv he ho
  cases hv with
  | str x =>
    have := hp.1 x
    rw [he] at this
    injection this with this
    exact absurd this (by decide)
  | int n => exact printInt_head n (by rw [he]; rfl)
  | num x => exact hp.2 x (by rw [he]; rfl)
  | arr l us hl => injection he with h1 _; exact absurd h1 (by decide)
  | obj m' us hl =>
    obtain ⟨t', c, e, hc⟩ := ho
    have e2 : ('{' :: joinComma (List.zipWith (fun (e : List Char × JVal) u => p.quote e.1 ++ ':' :: u) m' us)) ++ ['}'] = t' ++ [c] := e
    have := (List.append_inj' e2 rfl).2
    injection this with this _
    rw [← this] at hc
    exact absurd hc (by decide)

/-! ## Optional members -/

/-- The members for a list of names with optional values. -/
def opts (L : List (String × Option JVal)) : List (Str × JVal) := L.flatMap fun e => opt e.1 id e.2

theorem opt_map {α : Type} (k : String) (f : α → JVal) (a : Option α) : opt k f a = opt k id (a.map f) := by cases a <;> rfl

theorem opts_names (L : List (String × Option JVal)) : ∀ e ∈ opts L, e.1 ∈ (L.map (·.1)).map String.toList := by
  intro e he
  unfold opts at he
  rw [List.mem_flatMap] at he
  obtain ⟨x, hx, h⟩ := he
  rw [List.mem_map]
  refine ⟨x.1, List.mem_map.2 ⟨x, hx, rfl⟩, ?_⟩
  cases h2 : x.2 with
  | none => rw [h2] at h; cases h
  | some v => rw [h2] at h; rw [List.mem_singleton.1 h]

theorem memberOf_cons (e : Str × JVal) (m : List (Str × JVal)) (k : Str) : memberOf (e :: m) k = if e.1 = k then some e.2 else memberOf m k := by
  unfold memberOf
  rw [List.find?_cons]
  by_cases h : e.1 = k
  · simp [h]
  · simp [h]

theorem memberOf_not {m : List (Str × JVal)} {k : Str} (h : ∀ e ∈ m, e.1 ≠ k) : memberOf m k = none := by
  unfold memberOf
  rw [List.find?_eq_none.2]
  · rfl
  · intro e he
    simpa using h e he

theorem opts_distinct {L : List (String × Option JVal)} (h : (L.map (·.1)).Nodup) : DistinctNames (opts L) := by
  induction L with
  | nil => exact List.nodup_nil
  | cons e L ih =>
    rw [List.map_cons, List.nodup_cons] at h
    unfold DistinctNames at *
    show ((opt e.1 id e.2 ++ opts L).map (·.1)).Nodup
    cases h2 : e.2 with
    | none => exact ih h.2
    | some v =>
      show ((e.1.toList, v) :: opts L |>.map (·.1)).Nodup
      rw [List.map_cons, List.nodup_cons]
      refine ⟨?_, ih h.2⟩
      intro hc
      obtain ⟨x, hx, hx2⟩ := List.mem_map.1 hc
      obtain ⟨n, hn, hn2⟩ := List.mem_map.1 (opts_names L x hx)
      have : n = e.1 := String.toList_inj.1 (hn2.trans hx2)
      exact h.1 (this ▸ hn)

theorem opts_member {L : List (String × Option JVal)} (h : (L.map (·.1)).Nodup) {e : String × Option JVal} (he : e ∈ L) : memberOf (opts L) e.1.toList = e.2 := by
  induction L with
  | nil => cases he
  | cons x L ih =>
    rw [List.map_cons, List.nodup_cons] at h
    show memberOf (opt x.1 id x.2 ++ opts L) _ = _
    cases he with
    | head =>
      cases h2 : e.2 with
      | none =>
        refine memberOf_not fun y hy => ?_
        obtain ⟨n, hn, hn2⟩ := List.mem_map.1 (opts_names L y hy)
        intro hc
        have : n = e.1 := String.toList_inj.1 (hn2.trans hc)
        exact h.1 (this ▸ hn)
      | some v =>
        show memberOf ((e.1.toList, v) :: opts L) _ = _
        rw [memberOf_cons, if_pos rfl]
    | tail _ he =>
      have hne : x.1 ≠ e.1 := fun hc => h.1 (hc ▸ List.mem_map.2 ⟨e, he, rfl⟩)
      cases h2 : x.2 with
      | none => exact ih h.2 he
      | some v =>
        show memberOf ((x.1.toList, v) :: opts L) _ = _
        rw [memberOf_cons, if_neg (fun hc => hne (String.toList_inj.1 hc))]
        exact ih h.2 he

theorem finiteMembers_append {a b : List (Str × JVal)} : FiniteMembers (a ++ b) ↔ FiniteMembers a ∧ FiniteMembers b := by
  induction a with
  | nil => simp [FiniteMembers]
  | cons e a ih => simp only [List.cons_append, FiniteMembers, ih, and_assoc]

theorem opts_finite {L : List (String × Option JVal)} (h : ∀ e ∈ L, ∀ v, e.2 = some v → FiniteNumbers v) : FiniteMembers (opts L) := by
  induction L with
  | nil => simp [opts, FiniteMembers]
  | cons x L ih =>
    show FiniteMembers (opt x.1 id x.2 ++ opts L)
    rw [finiteMembers_append]
    refine ⟨?_, ih fun e he => h e (List.mem_cons_of_mem _ he)⟩
    cases h2 : x.2 with
    | none => simp [opt, FiniteMembers]
    | some v =>
      simp only [opt, FiniteMembers, and_true]
      exact h x (by simp) v h2

theorem finite_num {x : Num} (h : FiniteNum x) : FiniteNumbers (.num x) := by
  obtain ⟨q, rfl⟩ := h
  simp [FiniteNumbers]

theorem finite_nums {l : List Num} (h : ∀ x ∈ l, FiniteNum x) : FiniteList (l.map JVal.num) := by
  induction l with
  | nil => simp [FiniteList]
  | cons a l ih =>
    rw [List.map_cons, FiniteList]
    exact ⟨finite_num (h a (by simp)), ih fun x hx => h x (List.mem_cons_of_mem _ hx)⟩

theorem text_ok (p : Printer) {m : List (Str × JVal)} (h : FiniteMembers m) :
    ∃ t, textResult p (.ok (.obj m)) = .ok (.ok (some t)) ∧ IsJsonText p (.obj m) t := by
  have h' : FiniteNumbers (.obj m) := by rw [FiniteNumbers]; exact h
  refine ⟨jsonString p (.obj m), ?_, (write_text p _ h').2⟩
  rfl

/-! ## Channels -/

/-- The members for a channel with their values. -/
def channelList (c : Channel) : List (String × Option JVal) :=
  [("attribute_id", c.id.map .str), ("attribute_name", c.name.map .str), ("channel_type", c.type.map channelTypeJson), ("channel_unit", c.unit.map .str),
   ("pixel_type", c.pixelType.bind pixelTypeJson), ("component_bit_count", c.bitCount.map .int), ("acquisition_mode", c.acquisitionMode.map acquisitionModeJson),
   ("illumination_type", c.illuminationType.map illuminationTypeJson), ("contrast_method", c.contrastMethod.map contrastMethodJson),
   ("illumination_wavelength", c.illumination.map spectrumJson), ("detection_wavelength", c.detection.map spectrumJson), ("excitation_wavelength", c.excitation.map .num),
   ("emission_wavelength", c.emission.map .num), ("effective_na", c.effectiveNA.map .num), ("dye_id", c.dyeId.map .str), ("dye_database_id", c.dyeDatabaseId.map .str),
   ("pinhole_size", c.pinholeSize.map .num), ("pinhole_size_airy", c.pinholeSizeAiry.map .num), ("pinhole_geometry", c.pinholeGeometry.map pinholeGeometryJson),
   ("fluor", c.fluor.map .str), ("nd_filter", c.ndFilter.map .num), ("pocket_cell_setting", c.pockelCell.map .int), ("color", c.color.map fun x => .str (colorText x)),
   ("exposure_time", c.exposureTime.map fun r => .str (rangeText Text.decimal r)), ("depth_of_focus", c.depthOfFocus.map .num),
   ("section_thickness", c.sectionThickness.map .num), ("reflector", c.reflector.map .str), ("condensor_contrast", c.reflector.map .str),
   ("na_condensor", c.naCondenser.map .num)]

theorem channelMembers_eq (c : Channel) : channelMembers c = opts (channelList c) := by
  unfold channelMembers opts
  rw [List.flatMap_def]
  refine congrArg List.flatten ?_
  simp only [channelList, List.map_cons, List.map_nil, opt_map _ JVal.str, opt_map _ channelTypeJson, opt_map _ JVal.int, opt_map _ acquisitionModeJson,
    opt_map _ illuminationTypeJson, opt_map _ contrastMethodJson, opt_map _ spectrumJson, opt_map _ JVal.num, opt_map _ pinholeGeometryJson,
    opt_map _ (fun x => JVal.str (colorText x)), opt_map _ (fun r => JVal.str (rangeText Text.decimal r))]

theorem channelList_names (c : Channel) : (channelList c).map (·.1) = ["attribute_id", "attribute_name", "channel_type", "channel_unit", "pixel_type",
    "component_bit_count", "acquisition_mode", "illumination_type", "contrast_method", "illumination_wavelength", "detection_wavelength", "excitation_wavelength",
    "emission_wavelength", "effective_na", "dye_id", "dye_database_id", "pinhole_size", "pinhole_size_airy", "pinhole_geometry", "fluor", "nd_filter",
    "pocket_cell_setting", "color", "exposure_time", "depth_of_focus", "section_thickness", "reflector", "condensor_contrast", "na_condensor"] := rfl

theorem channelList_nodup (c : Channel) : ((channelList c).map (·.1)).Nodup := by
  rw [channelList_names]
  decide +kernel

theorem enum_value {α : Type} {table : List (String × α)} {f : α → JVal} {names : List (String × String)}
    (h : List.Forall₂ (fun (e : String × α) (n : String × String) => e.1 = n.1 ∧ f e.2 = .str n.2.toList) table names) (s : Str) :
    (tryParseEnum table s).map f = (ShownAs.oneOf names).value s := by
  show _ = (names.find? fun e => s = e.1.toList).map fun e => JVal.str e.2.toList
  induction h with
  | nil => rfl
  | @cons e n _ _ h1 _ ih =>
    rw [tryParseEnum, List.find?_cons, ← h1.1]
    by_cases hs : s = e.1.toList
    · simp [hs, h1.2]
    · simp [hs, ih]

theorem enum_read {α : Type} {table : List (String × α)} {f : α → JVal} {names : List (String × String)}
    (h : List.Forall₂ (fun (e : String × α) (n : String × String) => e.1 = n.1 ∧ f e.2 = .str n.2.toList) table names) (name : String) (n : Node) :
    (enumField table name.toList n).map f = ((Source.element name).read n).bind (ShownAs.oneOf names).value := by
  unfold enumField
  show _ = (fieldOf n name.toList).bind _
  cases fieldOf n name.toList with
  | none => rfl
  | some t => exact enum_value h t

theorem text_read (s : Source) (n : Node) : (s.read n).map JVal.str = (s.read n).bind ShownAs.text.value := by cases s.read n <;> rfl

theorem int_read (s : Source) (n : Node) : ((s.read n).map asInt).map JVal.int = (s.read n).bind ShownAs.integer.value := by cases s.read n <;> rfl

theorem real_read (s : Source) (n : Node) : ((s.read n).map asDoubleLimited).map JVal.num = (s.read n).bind ShownAs.real.value := by cases s.read n <;> rfl

theorem findSome_value {α : Type} {table : List (String × α)} {f : α → Option JVal} {names : List (String × String)}
    (h : List.Forall₂ (fun (e : String × α) (n : String × String) => e.1 = n.1 ∧ f e.2 = some (.str n.2.toList)) table names) (s : Str) :
    (table.findSome? (fun e => if s = e.1.toList then some e.2 else none)).bind f = (ShownAs.oneOf names).value s := by
  show _ = (names.find? fun e => s = e.1.toList).map fun e => JVal.str e.2.toList
  induction h with
  | nil => rfl
  | @cons e n _ _ h1 _ ih =>
    rw [List.findSome?_cons, List.find?_cons, ← h1.1]
    by_cases hs : s = e.1.toList
    · simp [hs, h1.2]
    · simp [hs, ih]

theorem pixel_value (s : Str) : (stringToPixelType s).bind pixelTypeJson = (same ["Gray8", "Gray16", "Gray32Float", "Bgr24", "Bgr48", "Bgr96Float", "Bgra32",
    "Gray64ComplexFloat", "Bgr192ComplexFloat", "Gray32", "Gray64Float"]).value s := by
  refine findSome_value ?_ s
  repeat (first | exact .nil | refine .cons ⟨rfl, rfl⟩ ?_)

theorem pixel_read (n : Node) : ((fieldOf n "PixelType".toList).bind stringToPixelType).bind pixelTypeJson = ((Source.element "PixelType").read n).bind
    (same ["Gray8", "Gray16", "Gray32Float", "Bgr24", "Bgr48", "Bgr96Float", "Bgra32", "Gray64ComplexFloat", "Bgr192ComplexFloat", "Gray32", "Gray64Float"]).value := by
  show _ = (fieldOf n "PixelType".toList).bind _
  cases fieldOf n "PixelType".toList with
  | none => rfl
  | some t => exact pixel_value t

theorem parseChannel_ok {n : Node} {c : Channel} (h : parseChannel n = .ok c) : ∃ color, colorOf n = .ok color ∧ c =
    { id := attrOf n.attrs "Id".toList, name := attrOf n.attrs "Name".toList, type := enumField ChannelType.table "ChannelType".toList n
      unit := fieldOf n "ChannelUnit".toList, pixelType := (fieldOf n "PixelType".toList).bind stringToPixelType
      bitCount := (fieldOf n "ComponentBitCount".toList).map asInt, acquisitionMode := enumField AcquisitionMode.table "AcquisitionMode".toList n
      illuminationType := enumField IlluminationType.table "IlluminationType".toList n, contrastMethod := enumField ContrastMethod.table "ContrastMethod".toList n
      illumination := illuminationWavelength n, detection := detectionWavelength n, excitation := (fieldOf n "ExcitationWavelength".toList).map asDoubleLimited
      emission := (fieldOf n "EmissionWavelength".toList).map asDoubleLimited, effectiveNA := (fieldOf n "EffectiveNA".toList).map asDoubleLimited
      dyeId := fieldOf n "DyeId".toList, dyeDatabaseId := fieldOf n "DyeDatabaseId".toList, pinholeSize := (fieldOf n "PinholeSize".toList).map asDoubleLimited
      pinholeSizeAiry := (fieldOf n "PinholeSizeAiry".toList).map asDoubleLimited, pinholeGeometry := enumField PinholeGeometry.table "PinholeGeometry".toList n
      fluor := fieldOf n "Fluor".toList, ndFilter := (fieldOf n "NDFilter".toList).map asDoubleLimited
      pockelCell := (fieldOf n "PockelCellSetting".toList).map asInt, color := color, exposureTime := exposureTime n
      depthOfFocus := (fieldOf n "DepthOfFocus".toList).map asDoubleLimited, sectionThickness := (fieldOf n "SectionThickness".toList).map asDoubleLimited
      reflector := fieldOf n "Reflector".toList, condenserContrast := fieldOf n "CondenserContrast".toList
      naCondenser := (fieldOf n "NACondenser".toList).map asDoubleLimited } := by
  unfold parseChannel at h
  cases hc : colorOf n with
  | ok color =>
    rw [hc] at h
    injection h with h
    exact ⟨color, rfl, h.symm⟩
  | throws => rw [hc] at h; cases h
  | undefined => rw [hc] at h; cases h

theorem channel_table {n : Node} {c : Channel} (h : parseChannel n = .ok c) :
    ∀ e ∈ channelTable, (e.1, (e.2.1.read n).bind e.2.2.value) ∈ channelList c := by
  obtain ⟨color, _, rfl⟩ := parseChannel_ok h
  have hm : ∀ {k : String} {a b : Option JVal} {L : List (String × Option JVal)}, (k, a) ∈ L → a = b → (k, b) ∈ L := fun h e => e ▸ h
  unfold channelTable
  simp only [List.forall_mem_cons, List.not_mem_nil, false_imp_iff, implies_true, and_true]
  have en : ∀ (i : Nat) {L : List (String × Option JVal)} {x : String × Option JVal}, L[i]? = some x → x ∈ L := fun i _ _ h => List.mem_of_getElem? h
  refine ⟨hm (en 0 rfl) (text_read (.attribute "Id") n), hm (en 1 rfl) (text_read (.attribute "Name") n), hm (en 2 rfl) (enum_read ?_ "ChannelType" n),
    hm (en 3 rfl) (text_read (.element "ChannelUnit") n), hm (en 4 rfl) (pixel_read n), hm (en 5 rfl) (int_read (.element "ComponentBitCount") n),
    hm (en 6 rfl) (enum_read ?_ "AcquisitionMode" n), hm (en 7 rfl) (enum_read ?_ "IlluminationType" n), hm (en 8 rfl) (enum_read ?_ "ContrastMethod" n),
    hm (en 11 rfl) (real_read (.element "ExcitationWavelength") n), hm (en 12 rfl) (real_read (.element "EmissionWavelength") n),
    hm (en 13 rfl) (real_read (.element "EffectiveNA") n), hm (en 14 rfl) (text_read (.element "DyeId") n), hm (en 15 rfl) (text_read (.element "DyeDatabaseId") n),
    hm (en 16 rfl) (real_read (.element "PinholeSize") n), hm (en 17 rfl) (real_read (.element "PinholeSizeAiry") n), hm (en 18 rfl) (enum_read ?_ "PinholeGeometry" n),
    hm (en 19 rfl) (text_read (.element "Fluor") n), hm (en 20 rfl) (real_read (.element "NDFilter") n), hm (en 21 rfl) (int_read (.element "PockelCellSetting") n),
    hm (en 24 rfl) (real_read (.element "DepthOfFocus") n), hm (en 25 rfl) (real_read (.element "SectionThickness") n),
    hm (en 26 rfl) (text_read (.element "Reflector") n), hm (en 28 rfl) (real_read (.element "NACondenser") n)⟩
  all_goals repeat (first | exact .nil | refine .cons ⟨rfl, rfl⟩ ?_)

/-! ## Colours and exposure times -/

theorem hexByte_ok (b : UInt8) : (∀ x ∈ hexByte b, isHexDigit x = true) ∧ (hexByte b).length = 2 ∧ hexOf (hexByte b) = b.toNat := by
  have : ∀ k : Fin 256, let b : UInt8 := UInt8.ofNat k.val
      (∀ x ∈ hexByte b, isHexDigit x = true) ∧ (hexByte b).length = 2 ∧ hexOf (hexByte b) = b.toNat := by decide +kernel
  have h := this ⟨b.toNat, b.toNat_lt⟩
  simpa using h

theorem color_text (c : Text.Rgb8) : ColorText (colorText c) c := by
  obtain ⟨r1, r2, r3⟩ := hexByte_ok c.r
  obtain ⟨g1, g2, g3⟩ := hexByte_ok c.g
  obtain ⟨b1, b2, b3⟩ := hexByte_ok c.b
  refine ⟨_, _, _, rfl, ?_, r2, g2, b2, r3, g3, b3⟩
  intro x hx
  simp only [List.mem_append] at hx
  rcases hx with h | h | h
  · exact r1 x h
  · exact g1 x h
  · exact b1 x h

theorem decimal_uint {x : Nat} (h : x < 2 ^ 64) : UInt64Text (Text.decimal x) x ∧ (Text.decimal x).head? ≠ some '-' := by
  obtain ⟨h1, h2, _⟩ := Text.decimal_spec x
  refine ⟨⟨[], _, rfl, .inl rfl, h1, h2.symm, h⟩, ?_⟩
  intro hc
  cases hd : Text.decimal x with
  | nil => rw [hd] at hc; cases hc
  | cons c cs =>
    rw [hd] at hc
    injection hc with hc
    have := h1.2 c (by rw [hd]; simp)
    rw [hc] at this
    exact absurd this (by unfold IsDigit; decide)

theorem stoull_lt {s rest : Str} {x : Nat} (h : stoull s = some (x, rest)) : x < 2 ^ 64 := by
  unfold stoull at h
  cases hs : scanInt s with
  | none => rw [hs] at h; cases h
  | some q =>
    obtain ⟨neg, ds, r⟩ := q
    rw [hs] at h
    dsimp only at h
    split at h
    · cases h
    · injection h with h
      injection h with h _
      rw [← h]
      split
      · exact Nat.mod_lt _ (by positivity)
      · omega

theorem exposure_bounds {s : Str} {r : RangeOrSingle Nat} (h : parseRangeUInt64 s = some r) : r.start < 2 ^ 64 ∧ r.stop < 2 ^ 64 ∧ (r.single = true → r.stop = 0) := by
  unfold parseRangeUInt64 parseRange at h
  split at h
  · cases he : stoull (s.drop 1) with
    | none => rw [he] at h; cases h
    | some q =>
      obtain ⟨e, rest⟩ := q
      rw [he] at h
      dsimp only at h
      split at h
      · injection h with h
        rw [← h]
        exact ⟨by norm_num, stoull_lt he, fun h => by cases h⟩
      · cases h
  · cases he : stoull s with
    | none => rw [he] at h; cases h
    | some q =>
      obtain ⟨a, rest⟩ := q
      have ha := stoull_lt he
      rw [he] at h
      cases rest with
      | nil =>
        injection h with h
        rw [← h]
        exact ⟨ha, by norm_num, fun _ => rfl⟩
      | cons c rest =>
        dsimp only at h
        split at h
        · cases h
        · split at h
          · injection h with h
            rw [← h]
            exact ⟨ha, by norm_num, fun h => by cases h⟩
          · cases hb : stoull rest with
            | none => rw [hb] at h; cases h
            | some q =>
              obtain ⟨b, rest2⟩ := q
              rw [hb] at h
              dsimp only at h
              split at h
              · injection h with h
                rw [← h]
                exact ⟨ha, stoull_lt hb, fun h => by cases h⟩
              · cases h

theorem exposure_text {r : RangeOrSingle Nat} (h : r.start < 2 ^ 64 ∧ r.stop < 2 ^ 64 ∧ (r.single = true → r.stop = 0)) :
    ∃ v, RangeText UInt64Text (rangeText Text.decimal r) v ∧ shownUInt64 v = r := by
  obtain ⟨single, a, b⟩ := r
  obtain ⟨h1, h2, h3⟩ := h
  obtain ⟨a1, a2⟩ := decimal_uint h1
  unfold rangeText
  cases single with
  | true => exact ⟨.single a, .single a1 a2, by rw [show b = 0 from h3 rfl]; rfl⟩
  | false => exact ⟨.range (some a) (some b), .both a1 a2 (decimal_uint h2).1, rfl⟩

theorem exposure_of {n : Node} {r : RangeOrSingle Nat} (h : exposureTime n = some r) : ∃ v, RangeText UInt64Text (rangeText Text.decimal r) v ∧ shownUInt64 v = r := by
  unfold exposureTime at h
  split at h
  · cases h
  · split at h
    · cases h
    · exact exposure_text (exposure_bounds h)

theorem wavelength_in (w : Option Spectrum) : WavelengthIn (w.map spectrumJson) w := by
  cases w with
  | none => rfl
  | some s =>
    cases s with
    | peak x => exact ⟨_, rfl, (by decide +kernel : (["type".toList, "single_peak".toList] : List Str).Nodup), rfl, rfl⟩
    | ranges l => exact ⟨_, rfl, (by decide +kernel : (["type".toList, "ranges".toList] : List Str).Nodup), rfl, rfl⟩

theorem channel_in {n : Node} {c : Channel} (h : parseChannel n = .ok c) : ChannelIn (channelMembers c) n := by
  have ht := channel_table h
  have hmem : ∀ {k : String} {o : Option JVal} (i : Nat), (channelList c)[i]? = some (k, o) → memberOf (channelMembers c) k.toList = o := by
    intro k o i hi
    rw [channelMembers_eq]
    exact opts_member (channelList_nodup c) (List.mem_of_getElem? hi)
  obtain ⟨color, hc, he⟩ := parseChannel_ok h
  have e1 : c.illumination = illuminationWavelength n := by rw [he]
  have e2 : c.detection = detectionWavelength n := by rw [he]
  have e3 : c.color = color := by rw [he]
  have e4 : c.exposureTime = exposureTime n := by rw [he]
  clear he
  refine ⟨?_, ?_, ?_, ⟨?_, ?_⟩, ⟨?_, ?_⟩, ?_, ?_⟩
  · intro e hm
    rw [channelMembers_eq]
    exact opts_member (channelList_nodup c) (ht e hm)
  · rw [hmem 9 rfl, e1]
    exact wavelength_in _
  · rw [hmem 10 rfl, e2]
    exact wavelength_in _
  · intro t x hf hx
    unfold colorOf at hc
    rw [hf] at hc
    dsimp only at hc
    rw [hx] at hc
    injection hc with hc
    refine ⟨colorText x, ?_, color_text x⟩
    rw [hmem 22 rfl, e3, ← hc]
    rfl
  · intro hf
    rw [hmem 22 rfl, e3]
    unfold colorOf at hc
    cases hx : fieldOf n "Color".toList with
    | none =>
      rw [hx] at hc
      injection hc with hc
      rw [← hc]
      rfl
    | some t =>
      rw [hx] at hc
      dsimp only at hc
      rw [hf t hx] at hc
      injection hc with hc
      rw [← hc]
      rfl
  · intro r hr
    obtain ⟨v, h1, h2⟩ := exposure_of hr
    exact ⟨_, v, by rw [hmem 23 rfl, e4, hr]; rfl, h1, h2⟩
  · intro hr
    rw [hmem 23 rfl, e4, hr]
    rfl
  · rw [channelMembers_eq]
    exact opts_distinct (channelList_nodup c)
  · intro e hm
    rw [channelMembers_eq] at hm
    have hall : ∀ k ∈ (channelList c).map (·.1), k ∈ channelTable.map (·.1) ++ otherNames := by
      rw [channelList_names]
      decide +kernel
    obtain ⟨k, hk, hk2⟩ := List.mem_map.1 (opts_names _ e hm)
    exact List.mem_map.2 ⟨k, hall k hk, hk2⟩

theorem channel_finite {n : Node} {c : Channel} (h : parseChannel n = .ok c) (hf : FiniteChannel n) : FiniteMembers (channelMembers c) := by
  rw [channelMembers_eq]
  obtain ⟨color, _, he⟩ := parseChannel_ok h
  have key : ∀ {α : Type} (f : α → JVal) (o : Option α), (∀ a, o = some a → FiniteNumbers (f a)) → ∀ v, o.map f = some v → FiniteNumbers v := by
    intro α f o ho v hv
    cases o with
    | none => cases hv
    | some a => injection hv with hv; rw [← hv]; exact ho a rfl
  have hreal : ∀ name ∈ channelReals, ∀ a, (fieldOf n name.toList).map asDoubleLimited = some a → FiniteNumbers (.num a) := by
    intro name hn a ha
    cases hx : fieldOf n name.toList with
    | none => rw [hx] at ha; cases ha
    | some t => rw [hx] at ha; injection ha with ha; rw [← ha]; exact finite_num (hf.1 name hn t hx)
  have hspec : ∀ w, (∀ x, w = some (.peak x) → FiniteNum (limitNum x)) → ∀ a, w = some a → FiniteNumbers (spectrumJson a) := by
    intro w hw a ha
    cases a with
    | peak x =>
      unfold spectrumJson
      rw [FiniteNumbers, FiniteMembers, FiniteMembers, FiniteMembers]
      exact ⟨by simp [FiniteNumbers], finite_num (hw x ha), trivial⟩
    | ranges l => simp [spectrumJson, FiniteNumbers, FiniteMembers]
  refine opts_finite ?_
  rw [he]
  unfold channelList
  simp only [List.forall_mem_cons, List.not_mem_nil, false_imp_iff, implies_true, and_true]
  have hs : ∀ s : Str, FiniteNumbers (.str s) := fun s => by simp [FiniteNumbers]
  have hi : ∀ k : Int, FiniteNumbers (.int k) := fun s => by simp [FiniteNumbers]
  refine ⟨key _ _ fun a _ => hs a, key _ _ fun a _ => hs a, key _ _ fun a _ => ?_, key _ _ fun a _ => hs a, ?_, key _ _ fun a _ => hi a, key _ _ fun a _ => ?_,
    key _ _ fun a _ => ?_, key _ _ fun a _ => ?_, key _ _ (hspec _ fun x hx => hf.2 x (.inl hx)), key _ _ (hspec _ fun x hx => hf.2 x (.inr hx)),
    key _ _ (hreal "ExcitationWavelength" (by simp [channelReals])), key _ _ (hreal "EmissionWavelength" (by simp [channelReals])),
    key _ _ (hreal "EffectiveNA" (by simp [channelReals])), key _ _ fun a _ => hs a, key _ _ fun a _ => hs a, key _ _ (hreal "PinholeSize" (by simp [channelReals])),
    key _ _ (hreal "PinholeSizeAiry" (by simp [channelReals])), key _ _ fun a _ => ?_, key _ _ fun a _ => hs a, key _ _ (hreal "NDFilter" (by simp [channelReals])),
    key _ _ fun a _ => hi a, key _ _ fun a _ => hs _, key _ _ fun a _ => hs _, key _ _ (hreal "DepthOfFocus" (by simp [channelReals])),
    key _ _ (hreal "SectionThickness" (by simp [channelReals])), key _ _ fun a _ => hs a, key _ _ fun a _ => hs a, key _ _ (hreal "NACondenser" (by simp [channelReals]))⟩
  · cases a <;> exact hs _
  · intro v hv
    cases hp : ((fieldOf n "PixelType".toList).bind stringToPixelType) with
    | none => rw [hp] at hv; cases hv
    | some a =>
      rw [hp] at hv
      cases a <;> first | (injection hv with hv; rw [← hv]; exact hs _) | cases hv
  all_goals (cases a <;> exact hs _)

/-! ## All channels -/

theorem allOk_ok {α : Type} : ∀ {os : List (Czi.Outcome α)} {as : List α}, allOk os = .ok as → List.Forall₂ (fun o a => o = .ok a) os as
  | [], as, h => by injection h with h; subst h; exact .nil
  | o :: os, as, h => by
    unfold allOk at h
    cases o with
    | ok a =>
      cases hr : allOk os with
      | ok r =>
        rw [hr] at h
        injection h with h
        rw [← h]
        exact .cons rfl (allOk_ok hr)
      | throws => rw [hr] at h; cases h
      | undefined => rw [hr] at h; cases h
    | throws => cases h
    | undefined => cases h

theorem allOk_exists {α : Type} : ∀ {os : List (Czi.Outcome α)}, (∀ o ∈ os, ∃ a, o = .ok a) → ∃ as, allOk os = .ok as
  | [], _ => ⟨[], rfl⟩
  | o :: os, h => by
    obtain ⟨a, ha⟩ := h o (by simp)
    obtain ⟨as, has⟩ := allOk_exists (os := os) fun o ho => h o (List.mem_cons_of_mem _ ho)
    exact ⟨a :: as, by rw [allOk, ha, has]; rfl⟩

theorem decimal_inj {a b : Nat} (h : Text.decimal a = Text.decimal b) : a = b := by
  rw [← (Text.decimal_spec a).2.1, ← (Text.decimal_spec b).2.1, h]

theorem printInt_inj {a b : Int} (h : Text.printInt a = Text.printInt b) : a = b := by
  have hm : ∀ n cs, Text.decimal n ≠ '-' :: cs := by
    intro n cs hn
    have := (Text.decimal_spec n).1.2 '-' (by rw [hn]; simp)
    exact absurd this (by unfold IsDigit; decide)
  unfold Text.printInt at h
  split at h <;> split at h
  · injection h with _ h
    have := decimal_inj h
    omega
  · exact absurd h.symm (hm _ _)
  · exact absurd h (hm _ _)
  · have := decimal_inj h
    omega

end Verif.JsonText
