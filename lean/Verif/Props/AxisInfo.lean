import Verif.Proof.AxisInfo
import Verif.Proof.IndexSet
import Verif.Props.DateTime

/-!
# C88 - the information about the Z and T axes

`findPath n path` is the node at the path, `fieldOf n name` the text of the child `name`.
-/

namespace Verif
open Verif.Xml Verif.Spec Verif.Text Verif.Czi

/-- The path of the node of an axis. -/
def axisPath (name : String) : List Str := ["Metadata".toList, "Information".toList, "Image".toList, "Dimensions".toList, name.toList]

private theorem field_start {n : Node} {name : String} {v : Option Num} (h : FieldSays n name AxisNumber v) : (fieldOf n name.toList).map asDoubleLimited = v := by
  rcases h with ⟨h1, h2⟩ | ⟨t, x, h1, h2, h3⟩
  · rw [h1, h2]; rfl
  · rw [h1, h3, Option.map_some, asDoubleLimited_text h2]

private theorem field_text {α : Type} {n : Node} {name : String} {text : α → String} {f : Str → Option α} (hf : ∀ s a, f s = some a ↔ s = (text a).toList) {v : Option α}
    (h : FieldSays n name (fun t a => Padded (text a).toList t) v) : ((fieldOf n name.toList).bind fun t => f (trim t)) = v := by
  rcases h with ⟨h1, h2⟩ | ⟨t, x, h1, h2, h3⟩
  · rw [h1, h2]; rfl
  · rw [h1, h3, Option.bind_some, (hf _ x).2 (trim_unique h2)]

private theorem speed_says {axis : Node} {v : Option Num} (h : FieldSays axis "ZDriveSpeed" (fun t x => ∃ u, Padded u t ∧ AxisNumber u x) v) : driveSpeed axis = .ok v := by
  unfold driveSpeed
  rcases h with ⟨h1, h2⟩ | ⟨t, x, h1, ⟨u, h4, h5⟩, h3⟩
  · rw [h1, h2]
  · rw [h1, h3]
    dsimp only
    rw [trim_unique h4, if_neg, oneNumber_word h5]
    obtain ⟨d, h6, _⟩ := h5
    exact (double_scans.chars (doubleText_of h6)).1

private theorem positions_say {axis : Node} {p : Positions} (h : PositionsSay axis p) : readPositions axis = .ok p := by
  unfold readPositions
  cases h with
  | none h1 h2 => rw [h1, h2]
  | interval n a b h1 h2 h3 =>
    rw [h1]
    dsimp only
    rw [field_start h2, field_start h3]
  | list n words xs h1 h2 h3 h4 =>
    rw [h1, h2]
    dsimp only
    rw [(splitAt_words h3).1]
    have := numbers_good h4 [] [] rfl
    rw [List.append_nil, List.append_nil] at this
    rw [this]
    rfl

/-- **C88 (the z-axis, partial).** The information about the z-axis is what the metadata say - for all texts and any number of positions - if they do not say anything about the mode of
the drive. What is missing: the mode of the drive. -/
theorem C88_z_partial (doc axis : Node) (i : ZInfo) (hd : findPath doc (axisPath "Z") = some axis) (h : SaysZ axis i) (hm : i.driveMode = none) :
    getZInfo doc = some (.ok i) := by
  have hm' : fieldOf axis "ZDriveMode".toList = none := by
    rcases h.driveMode with ⟨h1, _⟩ | ⟨_, _, _, _, h3⟩
    · exact h1
    · rw [hm] at h3; cases h3
  unfold axisPath at hd
  unfold getZInfo
  rw [hd, Option.map_some, speed_says h.driveSpeed, positions_say h.positions]
  simp only [Outcome.bind]
  rw [field_start h.start, field_text handednessOf_iff h.handedness, field_text directionOf_iff h.direction]
  have : driveMode axis = i.driveMode := by
    unfold driveMode
    rw [hm', hm]
  rw [this]

/-- **C88 (the mode of the drive, violated).** If the metadata say how the z-drive was operated, this is never returned: there is no drive mode in the information, everything else is
right. (The code takes the text of another element.) -/
theorem C88_drive_mode_violated (doc axis : Node) (i : ZInfo) (hd : findPath doc (axisPath "Z") = some axis) (h : SaysZ axis i) (m : DriveMode) (hm : i.driveMode = some m) :
    ∃ j, getZInfo doc = some (.ok j) ∧ j.driveMode = none ∧ j = { i with driveMode := none } := by
  have hx : driveMode axis = none := by
    unfold driveMode
    cases hf : fieldOf axis "ZDriveMode".toList with
    | none => rfl
    | some t =>
      dsimp only
      have key : ∀ s : Str, (∀ x : DriveMode, s ≠ (driveModeText x).toList) → driveModeOf s = none := by
        intro s hs
        cases hq : driveModeOf s with
        | none => rfl
        | some x => exact absurd ((driveModeOf_iff s x).1 hq) (hs x)
      apply key
      rcases h.direction with ⟨h1, _⟩ | ⟨t, x, h1, h2, _⟩
      · rw [h1]
        intro x e
        revert e
        cases x <;> decide +kernel
      · rw [h1, Option.getD_some, trim_unique h2]
        intro y
        cases x <;> cases y <;> decide +kernel
  refine ⟨{ i with driveMode := none }, ?_, rfl, rfl⟩
  unfold axisPath at hd
  unfold getZInfo
  rw [hd, Option.map_some, speed_says h.driveSpeed, positions_say h.positions]
  simp only [Outcome.bind]
  rw [field_start h.start, field_text handednessOf_iff h.handedness, field_text directionOf_iff h.direction, hx]

/-- **C88 (the mode of the drive, violated the other way).** A drive mode is returned if the element for the direction of the axis contains one. -/
theorem C88_direction_as_mode_violated (doc axis : Node) (t : Str) (m : DriveMode) (hd : findPath doc (axisPath "Z") = some axis)
    (h1 : fieldOf axis "ZAxisDirection".toList = some t) (h2 : Padded (driveModeText m).toList t) (u : Str) (h3 : fieldOf axis "ZDriveMode".toList = some u) (i : ZInfo)
    (hi : getZInfo doc = some (.ok i)) : i.driveMode = some m := by
  unfold axisPath at hd
  unfold getZInfo at hi
  rw [hd, Option.map_some] at hi
  injection hi with hi
  obtain ⟨s, _, hi⟩ := bind_okay hi
  obtain ⟨p, _, hi⟩ := bind_okay hi
  injection hi with hi
  rw [← hi]
  show driveMode axis = some m
  unfold driveMode
  rw [h3]
  dsimp only
  rw [h1, Option.getD_some, trim_unique h2]
  exact (driveModeOf_iff _ m).2 rfl

/-- **C88 (texts that stand for nothing).** Whatever the metadata contain, a handedness and a direction are returned if and only if the text of the element is the one for it. -/
theorem C88_texts (doc axis : Node) (i : ZInfo) (hd : findPath doc (axisPath "Z") = some axis) (hi : getZInfo doc = some (.ok i)) :
    (∀ x, i.handedness = some x ↔ ∃ t, fieldOf axis "XYZHandedness".toList = some t ∧ Padded (handednessText x).toList t) ∧
    (∀ x, i.direction = some x ↔ ∃ t, fieldOf axis "ZAxisDirection".toList = some t ∧ Padded (directionText x).toList t) := by
  unfold axisPath at hd
  unfold getZInfo at hi
  rw [hd, Option.map_some] at hi
  injection hi with hi
  obtain ⟨s, _, hi⟩ := bind_okay hi
  obtain ⟨p, _, hi⟩ := bind_okay hi
  injection hi with hi
  rw [← hi]
  constructor
  · intro x
    show ((fieldOf axis "XYZHandedness".toList).bind fun t => handednessOf (trim t)) = some x ↔ _
    cases fieldOf axis "XYZHandedness".toList with
    | none => simp
    | some t =>
      rw [Option.bind_some, handednessOf_iff]
      constructor
      · intro e; exact ⟨t, rfl, e ▸ trim_padded t⟩
      · rintro ⟨t', e, h⟩; cases e; exact trim_unique h
  · intro x
    show ((fieldOf axis "ZAxisDirection".toList).bind fun t => directionOf (trim t)) = some x ↔ _
    cases fieldOf axis "ZAxisDirection".toList with
    | none => simp
    | some t =>
      rw [Option.bind_some, directionOf_iff]
      constructor
      · intro e; exact ⟨t, rfl, e ▸ trim_padded t⟩
      · rintro ⟨t', e, h⟩; cases e; exact trim_unique h

/-- **C88 (the t-axis).** The information about the t-axis is what the metadata say, for all dates, texts and any number of positions. -/
theorem C88_t (doc axis : Node) (s : Option DateTime) (p : Positions) (hd : findPath doc (axisPath "T") = some axis) (hs : FieldSays axis "StartTime" DateSays s)
    (hp : PositionsSay axis p) :
    ∃ i, getTInfo doc = some (.ok i) ∧ i.positions = p ∧ (s = none → i.start = none) ∧
      ∀ d, s = some d → ∃ d', i.start = some d' ∧ d'.year = d.year ∧ d'.mon = d.mon ∧ d'.mday = d.mday ∧ d'.hour = d.hour ∧ d'.min = d.min ∧ d'.sec = d.sec ∧
        ∃ t, fieldOf axis "StartTime".toList = some t ∧ tryParse t = .date d' := by
  have hread : ∀ st, startTime axis = .ok st → getTInfo doc = some (.ok ⟨st, p⟩) := by
    intro st hst
    unfold axisPath at hd
    unfold getTInfo
    rw [hd, Option.map_some, hst, positions_say hp]
    rfl
  rcases hs with ⟨h1, rfl⟩ | ⟨t, d, h1, ⟨dt, h2, h3, h4, h5⟩, rfl⟩
  · refine ⟨⟨none, p⟩, hread none (by unfold startTime; rw [h1]), rfl, fun _ => rfl, ?_⟩
    intro d hd
    cases hd
  · have hc := C63_parse_complete t dt h2 h3
    obtain ⟨d', hd'⟩ := hc.1 ⟨h4.year ▸ h5.year.1, h4.year ▸ h5.year.2, by
      have := h5.day.2
      rw [h4.year, h4.month, h4.day] at this
      exact this⟩
    refine ⟨⟨some d', p⟩, hread (some d') (by unfold startTime; rw [h1]; dsimp only; rw [hd']), rfl, (fun e => by cases e), ?_⟩
    intro e he
    cases he
    obtain ⟨b, a, e1, e2, e3⟩ := h3
    have hm := match_trim h2 ⟨b, a, e1, e2, e3⟩
    unfold tryParse at hd'
    rw [hm] at hd'
    dsimp only at hd'
    split at hd'
    · cases hd'
    · split at hd'
      · injection hd' with hd'
        subst hd'
        refine ⟨_, rfl, ?_, ?_, ?_, ?_, ?_, ?_, t, h1, ?_⟩
        · exact (yearOf_pieces dt).trans h4.year.symm
        · exact h4.month.symm
        · exact h4.day.symm
        · exact h4.hour.symm
        · exact h4.minute.symm
        · exact h4.second.symm
        · unfold tryParse
          rw [hm]
          dsimp only
          rw [if_neg (by assumption), if_pos (by assumption)]
      · cases hd'

/-- **C88 (violated: years that are too large).** A start time whose year does not fit into an `int` makes the function throw, although the text can be recognised as
a date, so that the positions cannot be had either: the parser is documented to return false (`C63_throws`). -/
theorem C88_start_time_violated (doc axis : Node) (t : Str) (dt : DateText) (p : Positions) (hd : findPath doc (axisPath "T") = some axis)
    (ht : fieldOf axis "StartTime".toList = some t) (hok : dt.Ok) (htext : ∃ b a, t = b ++ dt.text ++ a ∧ Blanks b ∧ Blanks a)
    (hy : dt.yearValue < -2147483648 ∨ 2147483647 < dt.yearValue) (_hp : PositionsSay axis p) : getTInfo doc = some .throws := by
  unfold axisPath at hd
  unfold getTInfo startTime
  rw [hd, Option.map_some, ht]
  dsimp only
  rw [(C63_throws t).2 ⟨dt, hok, htext, hy⟩]
  rfl

/-- **C88 (the positions).** The object that is returned tells an interval and a list apart: `TryGetIntervalDefinition` succeeds exactly if the metadata have a start and an
increment, and returns them in this order; `TryGetPositionList` and `TryGetOffsetsList` succeed exactly if the metadata have a list, and return its numbers. -/
theorem C88_positions (axis : Node) (p : Positions) (hp : PositionsSay axis p) :
    (∀ a b, tryInterval p = some (a, b) ↔ ∃ n u v, findPath axis ["Positions".toList, "Interval".toList] = some n ∧ FieldSays n "Start" AxisNumber u ∧
      FieldSays n "Increment" AxisNumber v ∧ a = u.getD (.fin 0) ∧ b = v.getD (.fin 0)) ∧
    (∀ xs, tryList p = some xs ↔ findPath axis ["Positions".toList, "Interval".toList] = none ∧ ∃ n words,
      findPath axis ["Positions".toList, "List".toList, "Offsets".toList] = some n ∧ SpacedWords words (textIn n.children) ∧ List.Forall₂ AxisNumber words xs) := by
  have uniq : ∀ {q}, PositionsSay axis q → q = p := by
    intro q hq
    have h1 := positions_say hp
    rw [positions_say hq] at h1
    injection h1
  constructor
  · intro a b
    constructor
    · intro h
      cases hp with
      | interval n u v h1 h2 h3 =>
        simp only [tryInterval, Option.some.injEq, Prod.mk.injEq] at h
        exact ⟨n, u, v, h1, h2, h3, h.1.symm, h.2.symm⟩
      | none => cases h
      | list => cases h
    · rintro ⟨n, u, v, h1, h2, h3, rfl, rfl⟩
      rw [← uniq (.interval n u v h1 h2 h3)]
      rfl
  · intro xs
    constructor
    · intro h
      cases hp with
      | list n words ys h1 h2 h3 h4 =>
        simp only [tryList, Option.some.injEq] at h
        subst h
        exact ⟨h1, n, words, h2, h3, h4⟩
      | none => cases h
      | interval => cases h
    · rintro ⟨h1, n, words, h2, h3, h4⟩
      rw [← uniq (.list n words xs h1 h2 h3 h4)]
      rfl

/-- **C88 (no axis).** Without the element of the axis there is no information. -/
theorem C88_no_axis (doc : Node) : (findPath doc (axisPath "Z") = none → getZInfo doc = none) ∧ (findPath doc (axisPath "T") = none → getTInfo doc = none) := by
  constructor
  · intro h
    unfold axisPath at h
    unfold getZInfo
    rw [h]
    rfl
  · intro h
    unfold axisPath at h
    unfold getTInfo
    rw [h]
    rfl

/-- **C88 (a list that is not a list of numbers).** If a word is not a number, the numbers before it are returned; no number that is not in the text is made up. (Texts with
the letters of hexadecimal numbers, infinities and NaN are left out, and numbers that are too large.) -/
theorem C88_bad_word_partial (axis n : Node) (words rest : List Str) (bad : Str) (xs : List Num) (h1 : findPath axis ["Positions".toList, "Interval".toList] = none)
    (h2 : findPath axis ["Positions".toList, "List".toList, "Offsets".toList] = some n) (h3 : SpacedWords (words ++ bad :: rest) (textIn n.children))
    (h4 : List.Forall₂ AxisNumber words xs) (h5 : ¬ ∃ x, AxisNumber bad x) (h6 : ∀ c ∈ bad, c.toNat ≤ 255) (h7 : Decimal bad) (h8 : ∀ t r, bad = t ++ r → ¬ HugeNumber t) :
    readPositions axis = .ok (.list xs) := by
  unfold readPositions
  rw [h1, h2]
  dsimp only
  obtain ⟨e1, e2⟩ := splitAt_words h3
  obtain ⟨b1, b2, _⟩ := e2 bad (by simp)
  rw [e1, numbers_good h4 (bad :: rest) [] (by rw [numbers, oneNumber_bad b1 b2 h6 h7 h8 h5]; rfl), List.append_nil]
  rfl

/-- **C88 (other white space, violated).** A list whose numbers are separated by other white space - new lines or tabs - loses all numbers but the first: what follows is ignored without
an error. -/
theorem C88_newline_violated (axis n : Node) (a b : Str) (c : Char) (x y : Num) (h1 : findPath axis ["Positions".toList, "Interval".toList] = none)
    (h2 : findPath axis ["Positions".toList, "List".toList, "Offsets".toList] = some n) (h3 : textIn n.children = a ++ c :: b) (hc : c ∈ ['\t', '\n', '\r'])
    (ha : AxisNumber a x) (hb : AxisNumber b y) : readPositions axis = .ok (.list [x]) := by
  unfold readPositions
  rw [h1, h2]
  dsimp only
  obtain ⟨d, hd, hl, rfl⟩ := ha
  obtain ⟨e, he, _, rfl⟩ := hb
  have hcw : IsWhite c := by
    unfold IsWhite
    simp only [List.mem_cons, List.not_mem_nil, or_false] at hc ⊢
    tauto
  have hne : c ≠ ' ' := by
    simp only [List.mem_cons, List.not_mem_nil, or_false] at hc
    rcases hc with rfl | rfl | rfl <;> decide
  obtain ⟨ha0, haw⟩ := double_scans.chars (doubleText_of hd)
  obtain ⟨hb0, hbw⟩ := double_scans.chars (doubleText_of he)
  have hs : splitAt ' ' [] (textIn n.children) = [a ++ c :: b] := by
    have := splitAt_joinSpace [a ++ c :: b] (by simp) (by
      intro p hp hm
      rw [List.mem_singleton] at hp
      subst hp
      rcases List.mem_append.1 hm with hm | hm
      · exact haw _ hm space_white
      · rcases List.mem_cons.1 hm with hm | hm
        · exact hne hm.symm
        · exact hbw _ hm space_white)
    rw [h3]
    rw [show joinSpace [a ++ c :: b] = a ++ c :: b from rfl] at this
    rw [this]
    simp
  rw [hs, numbers]
  have hone := oneNumber_text (w := []) (t := a) (r := c :: b) (x := .fin (Flt.f64 d)) ⟨d, hd, hl, rfl⟩ (by simp) (by intro c' cs h; cases h; exact hcw)
  rw [List.nil_append] at hone
  rw [hone]
  rfl

/-- **C88 (numbers that are too large, violated).** A position or a drive speed that is too large for `double` makes the call fail with an exception, although it is documented to
return what is there, and although such a number in the start position is returned as infinite. -/
theorem C88_huge_violated (doc axis n : Node) (words rest : List Str) (huge : Str) (xs : List Num) (hd : findPath doc (axisPath "Z") = some axis)
    (hs : fieldOf axis "ZDriveSpeed".toList = none) (h1 : findPath axis ["Positions".toList, "Interval".toList] = none)
    (h2 : findPath axis ["Positions".toList, "List".toList, "Offsets".toList] = some n) (h3 : SpacedWords (words ++ huge :: rest) (textIn n.children))
    (h4 : List.Forall₂ AxisNumber words xs) (h5 : HugeNumber huge) : getZInfo doc = some .throws := by
  have hp : readPositions axis = .throws := by
    unfold readPositions
    rw [h1, h2]
    dsimp only
    have hone := oneNumber_huge (w := []) (r := []) h5 (by simp) ends_nil
    rw [List.nil_append, List.append_nil] at hone
    rw [(splitAt_words h3).1, numbers_throw h4 (huge :: rest) (by rw [numbers, hone]; rfl)]
    rfl
  unfold axisPath at hd
  unfold getZInfo
  rw [hd, Option.map_some]
  unfold driveSpeed
  rw [hs, hp]
  rfl

/-! ### Examples -/

private def zDoc (children : List Node) : Node :=
  .element "ImageDocument".toList [] [.element "Metadata".toList [] [.element "Information".toList [] [.element "Image".toList [] [.element "Dimensions".toList []
    [.element "Z".toList [] children]]]]]

private def leafZ (name text : String) : Node := .element name.toList [] [.text false text.toList]

private theorem num (ds : Str) (x : Nat) (h : Digits ds) (e : digitsValue ds = x) : NumberText ds x :=
  ⟨[], ds, [], [], [], 1, 0, by simp, .none, by simpa using h.2, by simpa using h.1, .inl ⟨rfl, rfl⟩, .none, by simp [e]⟩

private theorem axisNum (ds : Str) (x : Nat) (h : Digits ds) (e : digitsValue ds = x) (hx : x < 1000) : AxisNumber ds (.fin x) := by
  have hf : Flt.f64 x = x := by
    have h1 : (x : ℚ) < 1000 := by exact_mod_cast hx
    have := Flt.f64_int (x : ℤ) (by rw [abs_of_nonneg (by positivity)]; omega)
    simpa using this
  refine ⟨x, num ds x h e, ?_, by rw [hf]⟩
  rw [hf, abs_of_nonneg (by positivity)]
  have h1 : (x : ℚ) < 1000 := by exact_mod_cast hx
  exact lt_of_lt_of_le (lt_trans h1 (by norm_num : (1000 : ℚ) < 2 ^ 10)) (pow_le_pow_right₀ (by norm_num) (by norm_num))

private theorem seven : AxisNumber "7".toList (.fin (7 : Nat)) := axisNum _ 7 ⟨by decide, by unfold IsDigit; decide⟩ (by decide) (by decide)

private theorem twelve : AxisNumber "12".toList (.fin (12 : Nat)) := axisNum _ 12 ⟨by decide, by unfold IsDigit; decide⟩ (by decide) (by decide)

private theorem padded_self (s : Str) (h : ∀ c ∈ s, c ∉ ['\t', ' ']) : Padded s s :=
  ⟨[], [], by simp, by unfold Blanks; simp, by unfold Blanks; simp, fun c hc => h c (List.mem_of_head? hc), fun c hc => h c (List.mem_of_getLast? hc)⟩

private def zChildren : List Node :=
  [leafZ "StartPosition" "7", leafZ "XYZHandedness" "LeftHanded",
   .element "Positions".toList [] [.element "List".toList [] [leafZ "Offsets" "7  12"]]]

private def zAxis (extra : List Node) : Node := .element "Z".toList [] (zChildren ++ extra)

private theorem spaced : SpacedWords ["7".toList, "12".toList] "7  12".toList :=
  ⟨["7".toList, [], "12".toList], by simp, by decide +kernel, by unfold IsWhite; decide +kernel, by decide +kernel⟩

/-- The hypotheses of `C88_z_partial` hold for a document with a start position, a handedness and a list of two positions. -/
example : findPath (zDoc zChildren) (axisPath "Z") = some (zAxis []) ∧
    SaysZ (zAxis []) ⟨some (.fin (7 : Nat)), some .LeftHanded, none, none, none, .list [.fin (7 : Nat), .fin (12 : Nat)]⟩ :=
  ⟨rfl, Or.inr ⟨"7".toList, _, rfl, seven, rfl⟩, Or.inr ⟨"LeftHanded".toList, .LeftHanded, rfl, padded_self _ (by decide +kernel), rfl⟩, Or.inl ⟨rfl, rfl⟩, Or.inl ⟨rfl, rfl⟩, Or.inl ⟨rfl, rfl⟩,
    .list (leafZ "Offsets" "7  12") ["7".toList, "12".toList] _ rfl rfl spaced (.cons seven (.cons twelve .nil))⟩

/-- The hypotheses of `C88_drive_mode_violated` hold if the drive mode is there. -/
example : findPath (zDoc (zChildren ++ [leafZ "ZAxisDirection" "FromObjectiveToSpecimen", leafZ "ZDriveMode" "Step"])) (axisPath "Z") =
      some (zAxis [leafZ "ZAxisDirection" "FromObjectiveToSpecimen", leafZ "ZDriveMode" "Step"]) ∧
    SaysZ (zAxis [leafZ "ZAxisDirection" "FromObjectiveToSpecimen", leafZ "ZDriveMode" "Step"])
      ⟨some (.fin (7 : Nat)), some .LeftHanded, some .FromObjectiveToSpecimen, some .Step, none, .list [.fin (7 : Nat), .fin (12 : Nat)]⟩ :=
  ⟨rfl, Or.inr ⟨"7".toList, _, rfl, seven, rfl⟩, Or.inr ⟨"LeftHanded".toList, .LeftHanded, rfl, padded_self _ (by decide +kernel), rfl⟩,
    Or.inr ⟨"FromObjectiveToSpecimen".toList, .FromObjectiveToSpecimen, rfl, padded_self _ (by decide +kernel), rfl⟩, Or.inr ⟨"Step".toList, .Step, rfl, padded_self _ (by decide +kernel), rfl⟩,
    Or.inl ⟨rfl, rfl⟩, .list (leafZ "Offsets" "7  12") ["7".toList, "12".toList] _ rfl rfl spaced (.cons seven (.cons twelve .nil))⟩

/-- A start time for `C88_start_time_violated`. -/
example : ∃ dt : DateText, dt.Ok ∧ (∃ b a, "2147483648-02-28T23:59:58".toList = b ++ dt.text ++ a ∧ Blanks b ∧ Blanks a) ∧
    (dt.yearValue < -2147483648 ∨ 2147483647 < dt.yearValue) :=
  (C63_throws _).1 (by decide +kernel)

/-- A number for `C88_huge_violated`, and a text with it. -/
example : HugeNumber "1e999".toList ∧ SpacedWords (["7".toList] ++ "1e999".toList :: []) "7 1e999".toList := by
  refine ⟨⟨10 ^ 999, ⟨[], ['1'], [], [], "e999".toList, 1, 999, rfl, .none, by unfold IsDigit; decide, by simp, .inl ⟨rfl, rfl⟩, ?_, ?_⟩, ?_⟩,
    ⟨["7".toList, "1e999".toList], by simp, by decide +kernel, by unfold IsWhite; decide +kernel, by decide +kernel⟩⟩
  · have := @ExponentText.some 'e' [] "999".toList 1 (Or.inl rfl) (Or.inl ⟨rfl, rfl⟩) ⟨by decide, by unfold IsDigit; decide⟩
    have e : digitsValue "999".toList = 999 := by decide
    rw [e] at this
    exact this
  · have e : digitsValue (['1'] ++ []) = 1 := by decide
    rw [e]
    norm_num
  · have h := Flt.f64_err ((10 : ℚ) ^ 999)
    rw [abs_le] at h
    have h2 : |(10 : ℚ) ^ 999| = 10 ^ 999 := abs_of_pos (by positivity)
    rw [h2] at h
    have h3 : (2 : ℚ) ^ 1024 ≤ 10 ^ 998 := by
      have e1 : (2 : ℚ) ^ 1024 = (2 ^ 4) ^ 256 := by rw [← pow_mul]
      have e2 : (10 : ℚ) ^ 512 = (10 ^ 2) ^ 256 := by rw [← pow_mul]
      rw [e1]
      refine le_trans ?_ (pow_le_pow_right₀ (by norm_num) (by norm_num : 512 ≤ 998))
      rw [e2]
      exact pow_le_pow_left₀ (by norm_num) (by norm_num) _
    have h4 : (10 : ℚ) ^ 999 = 10 * 10 ^ 998 := by rw [pow_succ]; exact mul_comm _ _
    have h5 : (0 : ℚ) < 10 ^ 998 := by positivity
    refine le_trans ?_ (le_abs_self _)
    generalize (10 : ℚ) ^ 999 = x at *
    generalize (10 : ℚ) ^ 998 = y at *
    generalize (2 : ℚ) ^ 1024 = z at *
    have h6 := h.1
    rw [h4] at h6 ⊢
    norm_num at h6
    linarith

/-- A list of words for `C88_bad_word_partial`, one of which is not a number; a text for `C88_newline_violated`. -/
example : (¬ ∃ x, AxisNumber "?".toList x) ∧ Decimal "?".toList ∧ (∀ c ∈ "?".toList, c.toNat ≤ 255) ∧ (∀ t r, "?".toList = t ++ r → ¬ HugeNumber t) ∧
    SpacedWords (["7".toList] ++ "?".toList :: ["12".toList]) "7 ? 12".toList ∧ "7\n12".toList = "7".toList ++ '\n' :: "12".toList := by
  have no : ∀ t d, (t = [] ∨ t = ['?']) → ¬ NumberText t d := by
    rintro t d ht ⟨sg, ip, pf, fp, ex, g, e, h1, h2, h3, h4, h5, _⟩
    have hm : ∀ c ∈ ip ++ fp, c ∈ t := by
      intro c hc
      rw [h1]
      rcases List.mem_append.1 hc with hc | hc
      · simp [hc]
      · rcases h5 with ⟨_, rfl⟩ | rfl
        · cases hc
        · simp [hc]
    cases hq : ip ++ fp with
    | nil => exact h4 hq
    | cons c cs =>
      have hc := hm c (by rw [hq]; simp)
      have hg := h3 c (by rw [hq]; simp)
      rcases ht with rfl | rfl
      · cases hc
      · rw [List.mem_singleton] at hc
        subst hc
        revert hg
        unfold IsDigit
        decide
  refine ⟨?_, by unfold Decimal; decide, by decide, ?_, ⟨["7".toList, "?".toList, "12".toList], by simp, by decide +kernel, by unfold IsWhite; decide +kernel, by decide +kernel⟩,
    by decide +kernel⟩
  · rintro ⟨x, d, h, _⟩
    exact no _ d (Or.inr rfl) h
  · rintro t r h ⟨d, hd, _⟩
    refine no t d ?_ hd
    cases t with
    | nil => exact Or.inl rfl
    | cons c cs =>
      have h' : ['?'] = c :: (cs ++ r) := h
      injection h' with h1 h2
      have := (List.append_eq_nil_iff.1 h2.symm).1
      subst h1 this
      exact Or.inr rfl

end Verif
