import Verif.Proof.DisplayForeign
import Verif.Spec.DisplayForeign
import Verif.Props.Colour

/-!
# C72: display settings that were not written by the library
-/

namespace Verif
open Xml Spec Flt

/-- **C72 (settings of other software).** Whatever the texts in the element of a channel are, its settings can be read, except for control points with wide characters
(`C72_wide_character_violated`). The colour is the one that the text denotes, and white if there is no text or it denotes none. The channel is enabled iff the text means yes or there
is none. Without control points the curve is no spline. -/
theorem C72_foreign (ch : Node) (h : ∀ t, fieldOf ch "Points".toList = some t → ∀ c ∈ t, c.toNat < 256) :
    ∃ p, readChannelSettings ch = .ok p ∧
      (∀ t c, fieldOf ch "Color".toList = some t → ArgbText t c → p.tintingColor = c) ∧
      ((∀ t c, fieldOf ch "Color".toList = some t → ¬ArgbText t c) → p.tintingColor = ⟨255, 255, 255⟩) ∧
      (∀ t, fieldOf ch "IsSelected".toList = some t → (p.isEnabled = true ↔ YesText t)) ∧
      (fieldOf ch "IsSelected".toList = none → p.isEnabled = true) ∧
      (p.mode = .spline ↔ p.points ≠ []) ∧ (fieldOf ch "Points".toList = none → p.points = []) ∧
      (p.points = [] → (p.mode = .gamma ↔ (fieldOf ch "Gamma".toList).isSome = true)) := by
  obtain ⟨ps, h1, _, h3⟩ := readSpline_narrow h
  obtain ⟨c, hc, hc1, hc2⟩ : ∃ c, readColor ch = .ok c ∧ (∀ t c', fieldOf ch "Color".toList = some t → ArgbText t c' → c = c') ∧
      ((∀ t c, fieldOf ch "Color".toList = some t → ¬ArgbText t c) → c = ⟨255, 255, 255⟩) := by
    unfold readColor
    cases hf : fieldOf ch "Color".toList with
    | none => exact ⟨_, rfl, fun t c' e => (by cases e), fun _ => rfl⟩
    | some t =>
      obtain ⟨hu, ha⟩ := C42_accepted_iff_partial t
      dsimp only
      cases hr : Text.rgbFromString t with
      | undefined => exact absurd hr hu
      | rejected =>
        refine ⟨_, rfl, fun t' c' e h' => ?_, fun _ => rfl⟩
        cases e
        have := (ha c').2 h'
        rw [hr] at this
        cases this
      | color c =>
        refine ⟨c, rfl, fun t' c' e h' => ?_, fun hn => absurd ((ha c).1 hr) (hn t c rfl)⟩
        cases e
        have := (ha c').2 h'
        rw [hr] at this
        cases this
        rfl
  refine ⟨_, by unfold readChannelSettings; rw [hc, h1], hc1, hc2, ?_, ?_, ?_, h3, ?_⟩
  · intro t ht
    rw [ht]
    show asBool t = true ↔ _
    unfold asBool YesText
    cases t with
    | nil => simp
    | cons a r =>
      simp [or_assoc]
  · intro hn
    rw [hn]
    rfl
  · show (if ps ≠ [] then CurveMode.spline else _) = .spline ↔ ps ≠ []
    by_cases hp : ps = []
    · rw [if_neg (by simp [hp])]
      constructor
      · intro e; split at e <;> cases e
      · intro e; exact absurd hp e
    · rw [if_pos hp]
      simp [hp]
  · intro hp
    have hp : ps = [] := hp
    show (if ps ≠ [] then CurveMode.spline else if _ then _ else _) = .gamma ↔ _
    rw [if_neg (by simp [hp])]
    split <;> simp_all

/-- A channel with a colour of its own, a text that means yes, and control points that are none. -/
private def exForeign : Node :=
  .element "Channel".toList [] [.element "Color".toList [] [.text false " #ff0102Ab".toList], .element "IsSelected".toList [] [.text false "Yes".toList],
    .element "Mode".toList [] [.text false "Spline".toList], .element "Points".toList [] [.text false "0.1;0.2".toList]]

example : ∃ p, readChannelSettings exForeign = .ok p ∧ p.tintingColor = ⟨1, 2, 171⟩ ∧ p.isEnabled = true := by
  have hp : fieldOf exForeign "Points".toList = some "0.1;0.2".toList := by decide +kernel
  have hc : fieldOf exForeign "Color".toList = some " #ff0102Ab".toList := by decide +kernel
  have hs : fieldOf exForeign "IsSelected".toList = some "Yes".toList := by decide +kernel
  obtain ⟨p, h1, h2, _, h4, _⟩ := C72_foreign exForeign (by intro t ht; rw [hp] at ht; cases ht; decide)
  exact ⟨p, h1, h2 _ _ hc ((C42_accepted_iff_partial _).2 ⟨1, 2, 171⟩ |>.1 (by decide +kernel)), (h4 _ hs).2 ⟨'Y', "es".toList, by decide, by decide⟩⟩

/-- Without a colour, or with one that is none, the channel is white; a text that does not mean yes disables the channel. -/
example : ∃ p, readChannelSettings (.element "Channel".toList [] [.element "IsSelected".toList [] [.text false "no".toList]]) = .ok p ∧
    p.tintingColor = ⟨255, 255, 255⟩ ∧ p.isEnabled = false ∧ p.points = [] := by
  have hp : fieldOf (.element "Channel".toList [] [.element "IsSelected".toList [] [.text false "no".toList]]) "Points".toList = none := by decide +kernel
  have hc : fieldOf (.element "Channel".toList [] [.element "IsSelected".toList [] [.text false "no".toList]]) "Color".toList = none := by decide +kernel
  have hs : fieldOf (.element "Channel".toList [] [.element "IsSelected".toList [] [.text false "no".toList]]) "IsSelected".toList = some "no".toList := by decide +kernel
  obtain ⟨p, h1, _, h3, h4, _, _, h7, _⟩ := C72_foreign (.element "Channel".toList [] [.element "IsSelected".toList [] [.text false "no".toList]])
    (by intro t ht; rw [hp] at ht; cases ht)
  refine ⟨p, h1, h3 (by intro t c ht; rw [hc] at ht; cases ht), ?_, h7 hp⟩
  cases he : p.isEnabled with
  | false => rfl
  | true =>
    obtain ⟨c, r, e, hc'⟩ := (h4 _ hs).1 he
    have : "no".toList = ['n', 'o'] := by decide
    rw [this] at e
    cases e
    simp at hc'

private theorem readChannels_foreign (L : List Node) : ∀ (i : Int), (∀ ch ∈ L, ∀ t, fieldOf ch "Points".toList = some t → ∀ c ∈ t, c.toNat < 256) →
    ∃ s, readChannels i L = .ok s ∧ s.length = L.length ∧ ∀ (k : ℕ) ch, L[k]? = some ch → ∃ p, readChannelSettings ch = .ok p ∧ s[k]? = some (i + k, p.view) := by
  induction L with
  | nil => intro i _; exact ⟨[], rfl, rfl, fun k ch e => by simp at e⟩
  | cons n L ih =>
    intro i h
    obtain ⟨p, hp, _⟩ := C72_foreign n (h n (by simp))
    obtain ⟨s, h1, h2, h3⟩ := ih (i + 1) (fun ch hc => h ch (by simp [hc]))
    refine ⟨(i, p.view) :: s, by rw [readChannels, hp, h1], by simp [h2], ?_⟩
    intro k ch hk
    cases k with
    | zero =>
      rw [List.getElem?_cons_zero] at hk
      cases hk
      exact ⟨p, hp, by simp⟩
    | succ k =>
      rw [List.getElem?_cons_succ] at hk
      obtain ⟨q, h4, h5⟩ := h3 k ch hk
      refine ⟨q, h4, ?_⟩
      rw [List.getElem?_cons_succ, h5, Nat.cast_succ]
      congr 2
      ring

/-- **C72 (documents of other software).** If the document has an element `Metadata/DisplaySetting/Channels`, then `GetDisplaySettings` returns as many settings as that has elements
`Channel`, numbered from 0 in their order, each with what `C72_foreign` says (if there are no wide characters in control points). Otherwise it returns no object. -/
theorem C72_foreign_document (doc : Node) :
    (∀ chs, findPath doc ["Metadata".toList, "DisplaySetting".toList, "Channels".toList] = some chs →
      (∀ ch ∈ chs.children.filter (isNamed "Channel".toList), ∀ t, fieldOf ch "Points".toList = some t → ∀ c ∈ t, c.toNat < 256) →
      ∃ s, getDisplay doc = .ok (some s) ∧ s.length = (chs.children.filter (isNamed "Channel".toList)).length ∧
        ∀ (k : ℕ) ch, (chs.children.filter (isNamed "Channel".toList))[k]? = some ch → ∃ p, readChannelSettings ch = .ok p ∧ s[k]? = some ((k : Int), p.view)) ∧
    (findPath doc ["Metadata".toList, "DisplaySetting".toList, "Channels".toList] = none → getDisplay doc = .ok none) := by
  unfold getDisplay createFromXml
  simp only [findPath]
  cases childNamed doc "Metadata".toList with
  | none => exact ⟨fun chs e => (by cases e), fun _ => rfl⟩
  | some m =>
    dsimp only
    cases childNamed m "DisplaySetting".toList with
    | none => exact ⟨fun chs e => (by cases e), fun _ => rfl⟩
    | some d =>
      dsimp only
      cases childNamed d "Channels".toList with
      | none => exact ⟨fun chs e => (by cases e), fun _ => rfl⟩
      | some chs =>
        refine ⟨fun chs' e h => ?_, fun e => (by cases e)⟩
        cases e
        obtain ⟨s, h1, h2, h3⟩ := readChannels_foreign _ 0 h
        refine ⟨s, by dsimp only; rw [h1], h2, fun k ch hk => ?_⟩
        obtain ⟨p, h4, h5⟩ := h3 k ch hk
        exact ⟨p, h4, by rw [h5, Int.zero_add]⟩

/-- A document with two channels. -/
example : ∃ doc chs, findPath doc ["Metadata".toList, "DisplaySetting".toList, "Channels".toList] = some chs ∧ (chs.children.filter (isNamed "Channel".toList)).length = 2 ∧
    (∀ ch ∈ chs.children.filter (isNamed "Channel".toList), ∀ t, fieldOf ch "Points".toList = some t → ∀ c ∈ t, c.toNat < 256) ∧ ∃ s, getDisplay doc = .ok (some s) ∧ s.length = 2 := by
  have h0 : findPath (.element "ImageDocument".toList [] [.element "Metadata".toList [] [.element "DisplaySetting".toList [] [.element "Channels".toList [] [exForeign,
      .element "Channel".toList [] []]]]]) ["Metadata".toList, "DisplaySetting".toList, "Channels".toList] =
      some (.element "Channels".toList [] [exForeign, .element "Channel".toList [] []]) := rfl
  have h1 : (Node.element "Channels".toList [] [exForeign, .element "Channel".toList [] []]).children.filter (isNamed "Channel".toList) =
      [exForeign, .element "Channel".toList [] []] := rfl
  have hp : fieldOf exForeign "Points".toList = some "0.1;0.2".toList := rfl
  have hq : fieldOf (.element "Channel".toList [] []) "Points".toList = none := by decide +kernel
  have h2 : ∀ ch ∈ [exForeign, .element "Channel".toList [] []], ∀ t, fieldOf ch "Points".toList = some t → ∀ c ∈ t, c.toNat < 256 := by
    intro ch hch t ht
    simp only [List.mem_cons, List.not_mem_nil, or_false] at hch
    rcases hch with rfl | rfl
    · rw [hp] at ht; cases ht; decide
    · rw [hq] at ht; cases ht
  obtain ⟨s, h3, h4, _⟩ := (C72_foreign_document _).1 _ h0 (by rw [h1]; exact h2)
  exact ⟨_, _, h0, by rw [h1]; rfl, by rw [h1]; exact h2, s, h3, by rw [h4, h1]; rfl⟩

end Verif
