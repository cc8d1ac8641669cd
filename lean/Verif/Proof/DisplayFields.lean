import Verif.Proof.DisplayRead

/-!
# The fields of a channel
-/

namespace Verif.Xml
open Spec Flt
open Text (isSpace isSpace_iff rgbToString rgbFromString Rgb8 nibbleToHex trim)

/-- The fields for the tinting. -/
def tintFields (tint : Option Rgb8) (pt : Str) : List (Str × Str) :=
  match tint with
  | some c => [("Color".toList, rgbToString c), ("ColorMode".toList, "Color".toList)]
  | none => ("ColorMode".toList, "None".toList) :: (if pt = [] then [] else [("PixelType".toList, pt)])

/-- The fields for the curve. -/
def curveFields (v : ChannelView ℚ) : List (Str × Str) :=
  match v.mode with
  | .linear => []
  | .gamma => (v.gamma.map (fun g => ("Gamma".toList, showG 6 g))).toList
  | .spline => match v.points with
    | none => []
    | some ps => [("Points".toList, pointsText ps), ("Mode".toList, "spline".toList)]

/-- All fields of a channel. -/
def fieldsOf (v : ChannelView ℚ) (pt : Str) : List (Str × Str) :=
  ("IsSelected".toList, if v.isEnabled then "true".toList else "false".toList) :: (tintFields v.tint pt ++
    (("Low".toList, showG 6 v.black) :: ("High".toList, showG 6 v.white) :: curveFields v))

theorem writeChannelSettings_eq (v : ChannelView ℚ) (pt : Str) : writeChannelSettings v pt = writeLeaves (fieldsOf v pt) := by
  obtain ⟨en, w, tint, b, wh, mode, g, ps⟩ := v
  unfold writeChannelSettings writeLeaves fieldsOf writeTint tintFields writeCurve curveFields
  congr 1
  cases tint <;> cases mode <;> cases g <;> cases ps <;> by_cases hp : pt = [] <;> (try simp only [hp, if_true, if_false]) <;> rfl

/-- The names of the fields in all cases. -/
def fieldNames (tinted typed : Bool) (curve : Nat) : List Str :=
  "IsSelected".toList :: ((if tinted then ["Color".toList, "ColorMode".toList] else "ColorMode".toList :: (if typed then ["PixelType".toList] else [])) ++
    ("Low".toList :: "High".toList :: (if curve = 0 then [] else if curve = 1 then ["Gamma".toList] else ["Points".toList, "Mode".toList])))

theorem fieldNames_check : ∀ a ∈ [true, false], ∀ b ∈ [true, false], ∀ c ∈ [0, 1, 2], (fieldNames a b c).Nodup ∧ (∀ s ∈ fieldNames a b c, s ≠ [] ∧ ∀ c ∈ s, c ∉ ['/', '[', ']']) ∧
    "Weight".toList ∉ fieldNames a b c ∧ ("Color".toList ∈ fieldNames a b c ↔ a = true) ∧ ("PixelType".toList ∈ fieldNames a b c ↔ a = false ∧ b = true) ∧
    ("Gamma".toList ∈ fieldNames a b c ↔ c = 1) ∧ ("Points".toList ∈ fieldNames a b c ↔ c = 2) ∧ ("Mode".toList ∈ fieldNames a b c ↔ c = 2) := by
  decide +kernel

theorem fieldNames_ok (a b : Bool) (c : Nat) (hc : c < 3) : (fieldNames a b c).Nodup ∧ (∀ s ∈ fieldNames a b c, s ≠ [] ∧ ∀ c ∈ s, c ∉ ['/', '[', ']']) ∧
    "Weight".toList ∉ fieldNames a b c ∧ ("Color".toList ∈ fieldNames a b c ↔ a = true) ∧ ("PixelType".toList ∈ fieldNames a b c ↔ a = false ∧ b = true) ∧
    ("Gamma".toList ∈ fieldNames a b c ↔ c = 1) ∧ ("Points".toList ∈ fieldNames a b c ↔ c = 2) ∧ ("Mode".toList ∈ fieldNames a b c ↔ c = 2) := by
  apply fieldNames_check
  · cases a <;> simp
  · cases b <;> simp
  · match c, hc with
    | 0, _ => simp
    | 1, _ => simp
    | 2, _ => simp

/-- The number of the curve in `fieldNames`. -/
def curveNumber (v : ChannelView ℚ) : Nat := if v.gamma.isSome then 1 else if v.points.isSome then 2 else 0

theorem curveNumber_lt (v : ChannelView ℚ) : curveNumber v < 3 := by
  unfold curveNumber
  split
  · omega
  · split <;> omega

theorem consistent_cases {v : ChannelView ℚ} (h : ConsistentView v) :
    (v.mode = .linear ∧ v.gamma = none ∧ v.points = none) ∨ (∃ g, v.mode = .gamma ∧ v.gamma = some g ∧ v.points = none) ∨
      ∃ ps, v.mode = .spline ∧ v.gamma = none ∧ v.points = some ps := by
  obtain ⟨en, w, tint, b, wh, mode, g, ps⟩ := v
  unfold ConsistentView at h
  cases mode <;> cases g <;> cases ps <;> simp_all

theorem fieldsOf_names {v : ChannelView ℚ} (h : ConsistentView v) (pt : Str) :
    (fieldsOf v pt).map (·.1) = fieldNames v.tint.isSome (decide (pt ≠ [])) (curveNumber v) := by
  have hc := consistent_cases h
  obtain ⟨en, w, tint, b, wh, mode, g, ps⟩ := v
  unfold fieldsOf tintFields curveFields fieldNames curveNumber
  dsimp only at hc ⊢
  rcases hc with ⟨rfl, rfl, rfl⟩ | ⟨g, rfl, rfl, rfl⟩ | ⟨ps, rfl, rfl, rfl⟩
  · cases tint with
    | some c => rfl
    | none => by_cases hp : pt = []
              · subst hp; rfl
              · simp only [if_neg hp, ne_eq, hp, not_false_eq_true, decide_true]; rfl
  · cases tint with
    | some c => rfl
    | none => by_cases hp : pt = []
              · subst hp; rfl
              · simp only [if_neg hp, ne_eq, hp, not_false_eq_true, decide_true]; rfl
  · cases tint with
    | some c => rfl
    | none => by_cases hp : pt = []
              · subst hp; rfl
              · simp only [if_neg hp, ne_eq, hp, not_false_eq_true, decide_true]; rfl

theorem fieldsOf_nodup {v : ChannelView ℚ} (h : ConsistentView v) (pt : Str) : ((fieldsOf v pt).map (·.1)).Nodup := by
  rw [fieldsOf_names h]
  exact (fieldNames_ok _ _ _ (curveNumber_lt v)).1

theorem fieldsOf_nodeName {v : ChannelView ℚ} (h : ConsistentView v) (pt : Str) : ∀ f ∈ fieldsOf v pt, NodeName f.1 := by
  intro f hf
  have := (fieldNames_ok v.tint.isSome (decide (pt ≠ [])) _ (curveNumber_lt v)).2.1 f.1 (by
    rw [← fieldsOf_names h]
    exact List.mem_map_of_mem hf)
  exact this

theorem writeChannelSettings_new {v : ChannelView ℚ} (h : ConsistentView v) (pt nm : Str) (as : List (Str × Str)) :
    writeChannelSettings v pt (.element nm as []) = (.element nm as ((fieldsOf v pt).map leafNode), .ok ()) := by
  rw [writeChannelSettings_eq, writeLeaves_eq _ _ _ _ (fieldsOf_nodeName h pt) (fieldsOf_nodup h pt) (by intro f _ c hc; cases hc)]
  rfl

theorem plain_lit {t : Str} (h : ¬ (t.all isPugiSpace = true) ∧ '\r' ∉ t) : Plain t := by
  refine Or.inr ⟨?_, h.2⟩
  rw [← blank_iff]
  exact h.1

theorem rgbText_plain (c : Rgb8) : Plain (rgbToString c) := by
  refine plain_lit ⟨by simp [rgbToString, isPugiSpace], ?_⟩
  have : ∀ b : UInt8, nibbleToHex b ≠ '\r' := by
    intro b
    unfold nibbleToHex
    have key : ∀ n, ['0', '1', '2', '3', '4', '5', '6', '7', '8', '9', 'A', 'B', 'C', 'D', 'E', 'F'].getD n '0' ≠ '\r' := by
      intro n
      by_cases hn : n < 16
      · revert n; decide
      · rw [List.getD_eq_getElem?_getD, List.getElem?_eq_none (by simpa using Nat.le_of_not_lt hn)]; decide
    exact key _
  simp [rgbToString, Ne.symm (this _)]

theorem pixelTypeText_plain (t : Option PixelType) : Plain ((t.bind pixelTypeText).getD []) := by
  cases t with
  | none => exact Or.inl rfl
  | some t =>
    cases t <;> first | exact Or.inl rfl | exact plain_lit (by decide +kernel)

theorem fieldsOf_plain (v : ChannelView ℚ) {pt : Str} (hpt : Plain pt) : ∀ f ∈ fieldsOf v pt, Plain f.2 := by
  have n1 : ∀ x, Plain (showG 6 x) := fun x => numberText_plain (showG_text (by norm_num) x)
  have l1 : Plain "true".toList := plain_lit (by decide +kernel)
  have l2 : Plain "false".toList := plain_lit (by decide +kernel)
  have l3 : Plain "Color".toList := plain_lit (by decide +kernel)
  have l4 : Plain "None".toList := plain_lit (by decide +kernel)
  have l5 : Plain "spline".toList := plain_lit (by decide +kernel)
  intro f hf
  rcases List.mem_cons.1 hf with hf | hf
  · rw [hf]; dsimp only; split
    · exact l1
    · exact l2
  rcases List.mem_append.1 hf with hf | hf
  · unfold tintFields at hf
    split at hf
    · rcases List.mem_cons.1 hf with hf | hf
      · rw [hf]; exact rgbText_plain _
      · rw [List.mem_singleton.1 hf]; exact l3
    · rcases List.mem_cons.1 hf with hf | hf
      · rw [hf]; exact l4
      · split at hf
        · cases hf
        · rw [List.mem_singleton.1 hf]; exact hpt
  rcases List.mem_cons.1 hf with hf | hf
  · rw [hf]; exact n1 _
  rcases List.mem_cons.1 hf with hf | hf
  · rw [hf]; exact n1 _
  unfold curveFields at hf
  split at hf
  · cases hf
  · cases hg : v.gamma with
    | none => rw [hg] at hf; cases hf
    | some g =>
      rw [hg] at hf
      rw [List.mem_singleton.1 hf]
      exact n1 _
  · split at hf
    · cases hf
    · rcases List.mem_cons.1 hf with hf | hf
      · rw [hf]; exact pointsText_plain _
      · rw [List.mem_singleton.1 hf]; exact l5

/-! ## Reading -/

/-- The number that is read for `x`. -/
def readNumber (x : ℚ) : Num := .fin (f32 (f64 (decimalOf 6 x)))

theorem readNumber_near (x : ℚ) : NearNumber x (readNumber x) := ⟨_, rfl, float_err x⟩

/-- What is read for a channel. -/
def readPod (v : ChannelView ℚ) : ChannelPod Num :=
  { isEnabled := v.isEnabled, weight := .fin 1, tinted := v.tint.isSome, tintingColor := v.tint.getD ⟨255, 255, 255⟩
    blackPoint := readNumber v.black, whitePoint := readNumber v.white
    mode := if (v.points.getD []) ≠ [] then .spline else if v.gamma.isSome then .gamma else .linear
    gamma := (v.gamma.map readNumber).getD .nan
    points := (v.points.getD []).map (fun p => (.fin p.1, .fin p.2)) }

theorem asFloat_show (x : ℚ) : asFloat (showG 6 x) = readNumber x := asFloat_text (showG_text (by norm_num) x)

theorem asBool_lit : asBool "true".toList = true ∧ asBool "false".toList = false ∧ icasecmp (trim "Color".toList) "none".toList = false ∧
    icasecmp (trim "None".toList) "none".toList = true ∧ icasecmp (trim "spline".toList) "spline".toList = true := by decide +kernel

theorem readChannel_fields {v : ChannelView ℚ} (h : ConsistentView v) (hd : DoublePoints v) {n : Node}
    (f1 : fieldOf n "IsSelected".toList = some (if v.isEnabled then "true".toList else "false".toList))
    (f2 : fieldOf n "Color".toList = v.tint.map rgbToString)
    (f3 : fieldOf n "ColorMode".toList = some (if v.tint.isSome then "Color".toList else "None".toList))
    (f4 : fieldOf n "Low".toList = some (showG 6 v.black)) (f5 : fieldOf n "High".toList = some (showG 6 v.white))
    (f6 : fieldOf n "Gamma".toList = v.gamma.map (showG 6)) (f7 : fieldOf n "Points".toList = v.points.map pointsText)
    (f8 : fieldOf n "Mode".toList = v.points.map (fun _ => "spline".toList)) (f9 : fieldOf n "Weight".toList = none) :
    readChannelSettings n = .ok (readPod v) := by
  obtain ⟨e1, e2, e3, e4, e5⟩ := asBool_lit
  have hcol : readColor n = .ok (v.tint.getD ⟨255, 255, 255⟩) := by
    unfold readColor
    rw [f2]
    cases v.tint with
    | none => rfl
    | some c =>
      simp only [Option.map_some, Option.getD_some]
      rw [C42_round_trip]
  have hsp : readSpline n = .ok ((v.points.getD []).map (fun p => (.fin p.1, .fin p.2))) := by
    unfold readSpline
    rw [f7, f8]
    cases hp : v.points with
    | none => rfl
    | some ps =>
      simp only [Option.map_some, Option.getD_some]
      rw [if_pos e5, points_read (hd ps hp)]
  unfold readChannelSettings
  rw [hcol, hsp]
  dsimp only
  rw [f1, f3, f4, f5, f6, f9]
  unfold readPod
  congr 2
  · cases v.isEnabled
    · exact e2
    · exact e1
  · cases v.tint
    · show (!icasecmp (trim "None".toList) "none".toList) = _
      rw [e4]; rfl
    · show (!icasecmp (trim "Color".toList) "none".toList) = _
      rw [e3]; rfl
  · exact asFloat_show _
  · exact asFloat_show _
  · cases v.points.getD [] <;> cases v.gamma <;> simp
  · cases v.gamma with
    | none => rfl
    | some g => exact asFloat_show g

theorem mem_tint {v : ChannelView ℚ} {pt : Str} {f : Str × Str} (h : f ∈ tintFields v.tint pt) : f ∈ fieldsOf v pt :=
  List.mem_cons_of_mem _ (List.mem_append_left _ h)

theorem mem_low (v : ChannelView ℚ) (pt : Str) : ("Low".toList, showG 6 v.black) ∈ fieldsOf v pt :=
  List.mem_cons_of_mem _ (List.mem_append_right _ (List.mem_cons_self ..))

theorem mem_high (v : ChannelView ℚ) (pt : Str) : ("High".toList, showG 6 v.white) ∈ fieldsOf v pt :=
  List.mem_cons_of_mem _ (List.mem_append_right _ (List.mem_cons_of_mem _ (List.mem_cons_self ..)))

theorem mem_curve {v : ChannelView ℚ} {pt : Str} {f : Str × Str} (h : f ∈ curveFields v) : f ∈ fieldsOf v pt :=
  List.mem_cons_of_mem _ (List.mem_append_right _ (List.mem_cons_of_mem _ (List.mem_cons_of_mem _ h)))

theorem mem_curve_gamma {v : ChannelView ℚ} (h : ConsistentView v) {g : ℚ} (hg : v.gamma = some g) (pt : Str) : ("Gamma".toList, showG 6 g) ∈ fieldsOf v pt := by
  have hm : v.mode = .gamma := h.1.1 (by rw [hg]; rfl)
  apply mem_curve
  unfold curveFields
  rw [hm, hg]
  exact List.mem_singleton.2 rfl

theorem mem_curve_spline {v : ChannelView ℚ} (h : ConsistentView v) {ps : List (ℚ × ℚ)} (hg : v.points = some ps) (pt : Str) :
    ("Points".toList, pointsText ps) ∈ fieldsOf v pt ∧ ("Mode".toList, "spline".toList) ∈ fieldsOf v pt := by
  have hm : v.mode = .spline := h.2.1 (by rw [hg]; rfl)
  have : curveFields v = [("Points".toList, pointsText ps), ("Mode".toList, "spline".toList)] := by
    unfold curveFields
    rw [hm, hg]
  constructor
  · apply mem_curve
    rw [this]
    exact List.mem_cons_self ..
  · apply mem_curve
    rw [this]
    exact List.mem_cons_of_mem _ (List.mem_singleton.2 rfl)

theorem curveNumber_gamma {v : ChannelView ℚ} : curveNumber v = 1 ↔ v.gamma ≠ none := by
  unfold curveNumber
  cases v.gamma <;> cases v.points <;> simp

theorem curveNumber_spline {v : ChannelView ℚ} (h : ConsistentView v) : curveNumber v = 2 ↔ v.points ≠ none := by
  unfold curveNumber
  rcases consistent_cases h with ⟨_, h1, h2⟩ | ⟨g, _, h1, h2⟩ | ⟨g, _, h1, h2⟩ <;> rw [h1, h2] <;> simp

theorem readChannel_new {v : ChannelView ℚ} (h : ConsistentView v) (hd : DoublePoints v) (pt nm : Str) (as : List (Str × Str)) :
    readChannelSettings (.element nm as ((fieldsOf v pt).map leafNode)) = .ok (readPod v) := by
  have hnd := fieldsOf_nodup h pt
  obtain ⟨_, _, n1, n2, _, n3, n4, n5⟩ := fieldNames_ok v.tint.isSome (decide (pt ≠ [])) _ (curveNumber_lt v)
  rw [← fieldsOf_names h] at n1 n2 n3 n4 n5
  refine readChannel_fields h hd ?_ ?_ ?_ ?_ ?_ ?_ ?_ ?_ ?_
  · exact fieldOf_mem hnd (by unfold fieldsOf; exact List.mem_cons_self ..)
  · cases ht : v.tint with
    | none => exact fieldOf_not_mem (by intro hm; have := n2.1 hm; rw [ht] at this; cases this)
    | some c => exact fieldOf_mem hnd (mem_tint (by rw [ht]; exact List.mem_cons_self ..))
  · cases ht : v.tint with
    | none => exact fieldOf_mem hnd (mem_tint (by rw [ht]; exact List.mem_cons_self ..))
    | some c => exact fieldOf_mem hnd (mem_tint (by rw [ht]; exact List.mem_cons_of_mem _ (List.mem_singleton.2 rfl)))
  · exact fieldOf_mem hnd (mem_low v pt)
  · exact fieldOf_mem hnd (mem_high v pt)
  · cases hg : v.gamma with
    | none => exact fieldOf_not_mem (fun hm => curveNumber_gamma.1 (n3.1 hm) hg)
    | some g => exact fieldOf_mem hnd (mem_curve_gamma h hg pt)
  · cases hg : v.points with
    | none => exact fieldOf_not_mem (fun hm => (curveNumber_spline h).1 (n4.1 hm) hg)
    | some g => exact fieldOf_mem hnd (mem_curve_spline h hg pt).1
  · cases hg : v.points with
    | none => exact fieldOf_not_mem (fun hm => (curveNumber_spline h).1 (n5.1 hm) hg)
    | some g => exact fieldOf_mem hnd (mem_curve_spline h hg pt).2
  · exact fieldOf_not_mem n1

theorem readChannel_empty (nm : Str) (as : List (Str × Str)) :
    ∃ p, readChannelSettings (.element nm as []) = .ok p ∧ p.view = defaultChannel := by
  have h : ∀ k, fieldOf (.element nm as []) k = none := fun k => rfl
  unfold readChannelSettings
  simp only [h]
  exact ⟨_, rfl, rfl⟩

theorem readPod_back {v : ChannelView ℚ} (h : ConsistentView v) : ReadBack v (readPod v).view := by
  constructor
  · rfl
  · show (if v.tint.isSome then some (v.tint.getD ⟨255, 255, 255⟩) else none) = v.tint
    cases v.tint <;> rfl
  · exact readNumber_near _
  · exact readNumber_near _
  · unfold ConsistentView ChannelPod.view
    dsimp only
    constructor
    · split <;> simp [*]
    · split <;> simp [*]
  · intro hm
    have h1 : v.gamma = none := by
      cases hg : v.gamma with
      | none => rfl
      | some g => have := h.1.1 (by rw [hg]; rfl); rw [hm] at this; cases this
    have h2 : v.points = none := by
      cases hg : v.points with
      | none => rfl
      | some g => have := h.2.1 (by rw [hg]; rfl); rw [hm] at this; cases this
    show (readPod v).mode = _
    simp [readPod, h1, h2]
  · intro g hg
    have hp : v.points = none := by
      cases hp : v.points with
      | none => rfl
      | some ps =>
        have := h.1.1 (by rw [hg]; rfl)
        have h2 := h.2.1 (by rw [hp]; rfl)
        rw [this] at h2; cases h2
    refine ⟨readNumber g, ?_, readNumber_near g⟩
    simp [ChannelPod.view, readPod, hg, hp]
  · intro ps hp hne
    simp [ChannelPod.view, readPod, hp, hne]

end Verif.Xml
