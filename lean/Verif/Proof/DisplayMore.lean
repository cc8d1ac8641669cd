import Verif.Proof.DisplayDoc
import Verif.Props.XmlValue

/-!
# Display settings: writing again, other nodes
-/

namespace Verif.Xml
open Spec Flt

theorem isChannelNode_eq : isChannelNode = isNamed "Channel".toList := by
  funext c
  cases c with
  | element n as cs => simp [isChannelNode, isNamed, Node.isElement, Node.name, beq_eq_decide]
  | text _ _ => rfl

/-- A node that is replaced by one with the same name and attributes is found by the same path. -/
theorem denotes_update {sels : List Selector} {p : List Nat} {n : Node} (h : PathDenotes n sels p) {n0 m : Node} (h0 : n.at p = some n0) (he : n0.isElement = true)
    (he' : m.isElement = true) (hn : m.name = n0.name) (ha : m.attrs = n0.attrs) : PathDenotes (n.update (fun _ => m) p) sels p := by
  induction h with
  | here n => exact .here _
  | step n s ss i c p hp hc _ ih =>
    rw [at_cons_some hc] at h0
    have ih' := ih h0
    obtain ⟨nm, as, cs, rfl⟩ := element_of_child hc
    dsimp only [Node.children] at hc
    rw [update_cons _ p hc]
    have hlt : i < cs.length := by
      by_contra hlt
      rw [List.getElem?_eq_none (by omega)] at hc
      cases hc
    have hcand : s.candidate (c.update (fun _ => m) p) = s.candidate c := by
      have key : ∀ a b : Node, a.isElement = true → b.isElement = true → a.name = b.name → a.attrs = b.attrs → s.candidate a = s.candidate b := by
        intro a b h1 h2 h3 h4
        cases a with
        | text _ _ => cases h1
        | element _ _ _ =>
          cases b with
          | text _ _ => cases h2
          | element _ _ _ =>
            simp only [Node.name, Node.attrs] at h3 h4
            subst h3 h4
            rfl
      cases p with
      | nil =>
        injection h0 with h0
        subst h0
        exact key _ _ he' he hn ha
      | cons j p =>
        obtain ⟨u1, u2, u3⟩ := update_same (n := c) (p := j :: p) (by simp) (fun _ => m)
        have hce : c.isElement = true := by
          cases c with
          | element _ _ _ => rfl
          | text _ _ => simp [Node.at, Node.children] at h0
        exact key _ _ (by rw [u1]; exact hce) hce u2 u3
    obtain ⟨c', hc1, hc2, hc3⟩ := hp
    dsimp only [Node.children] at hc1 hc3
    rw [hc] at hc1
    injection hc1 with hc1
    subst hc1
    have hget : (cs.set i (c.update (fun _ => m) p))[i]? = some (c.update (fun _ => m) p) := by simp [hlt]
    refine .step _ s ss i _ p ⟨_, hget, by rw [hcand]; exact hc2, ?_⟩ hget ih'
    show (((cs.set i _).take i).filter s.candidate).length = s.skip
    rw [filter_take_set s.candidate]
    exact hc3

/-- Writing what was read gives the same fields. -/
theorem fieldsOf_again {v v' : ChannelView ℚ} (h : ConsistentView v) (hp : v.points ≠ some []) (hr : asNumbers v' = (readPod v).view) (pt : Str) : fieldsOf v' pt = fieldsOf v pt := by
  have h1 : (asNumbers v').isEnabled = (readPod v).view.isEnabled := congrArg ChannelView.isEnabled hr
  change v'.isEnabled = v.isEnabled at h1
  have h2 : v'.tint = v.tint := by
    have := congrArg ChannelView.tint hr
    rw [(readPod_back h).tint] at this
    exact this
  have h3 : v'.black = f32 (f64 (decimalOf 6 v.black)) := Num.fin.inj (congrArg ChannelView.black hr)
  have h4 : v'.white = f32 (f64 (decimalOf 6 v.white)) := Num.fin.inj (congrArg ChannelView.white hr)
  have h5 := congrArg ChannelView.mode hr
  have h6 := congrArg ChannelView.gamma hr
  have h7 := congrArg ChannelView.points hr
  have hcurve : curveFields v' = curveFields v := by
    unfold curveFields
    rcases consistent_cases h with ⟨c1, c2, c3⟩ | ⟨g, c1, c2, c3⟩ | ⟨ps, c1, c2, c3⟩
    · have hm : v'.mode = .linear := by
        rw [show v'.mode = (asNumbers v').mode from rfl, h5]
        simp [ChannelPod.view, readPod, c2, c3]
      rw [hm, c1]
    · have hm : v'.mode = .gamma := by
        rw [show v'.mode = (asNumbers v').mode from rfl, h5]
        simp [ChannelPod.view, readPod, c2, c3]
      have hg : v'.gamma = some (f32 (f64 (decimalOf 6 g))) := by
        have h6' : v'.gamma.map Num.fin = some (readNumber g) := by
          rw [show v'.gamma.map Num.fin = (asNumbers v').gamma from rfl, h6]
          simp [ChannelPod.view, readPod, c2, c3]
        cases hv : v'.gamma with
        | none => rw [hv] at h6'; cases h6'
        | some y =>
          rw [hv] at h6'
          injection h6' with h6'
          rw [Num.fin.inj h6']
      rw [hm, c1, hg, c2]
      simp only [Option.map_some]
      rw [float_stable]
    · have hne : ps ≠ [] := by
        intro e
        exact hp (by rw [c3, e])
      have hm : v'.mode = .spline := by
        rw [show v'.mode = (asNumbers v').mode from rfl, h5]
        simp [ChannelPod.view, readPod, c3, hne]
      have hg : v'.points = some ps := by
        have h7' : v'.points.map (·.map (fun p => (Num.fin p.1, Num.fin p.2))) = some (ps.map (fun p => (Num.fin p.1, Num.fin p.2))) := by
          rw [show v'.points.map (·.map (fun p => (Num.fin p.1, Num.fin p.2))) = (asNumbers v').points from rfl, h7]
          simp [ChannelPod.view, readPod, c3, hne]
        cases hv : v'.points with
        | none => rw [hv] at h7'; cases h7'
        | some qs =>
          rw [hv] at h7'
          injection h7' with h7'
          congr 1
          have hinj : Function.Injective (fun p : ℚ × ℚ => (Num.fin p.1, Num.fin p.2)) := by
            intro a b hab
            exact Prod.ext (Num.fin.inj (Prod.ext_iff.1 hab).1) (Num.fin.inj (Prod.ext_iff.1 hab).2)
          exact (List.map_injective_iff.2 hinj) h7'
      rw [hm, c1, hg, c3]
  unfold fieldsOf
  rw [h1, h2, h3, h4, hcurve, float_stable, float_stable]

theorem lookup_range {β : Type} (f : Nat → ChannelView β) (n c : Nat) (h : c < n) :
    Settings.get ((List.range n).map (fun c : Nat => ((c : Int), f c))) c = some (f c) := by
  unfold Settings.get
  have : ∀ (k i : Nat), i ≤ c → c < i + k → ((List.range' i k).map (fun c : Nat => ((c : Int), f c))).find? (fun e => decide (e.1 = (c : Int))) = some ((c : Int), f c) := by
    intro k
    induction k with
    | zero => intro i h1 h2; omega
    | succ k ih =>
      intro i h1 h2
      rw [List.range'_succ, List.map_cons, List.find?_cons]
      by_cases hi : i = c
      · subst hi; simp
      · have : decide ((i : Int) = (c : Int)) = false := by simp; omega
        dsimp only
        rw [this]
        exact ih (i + 1) (by omega) (by omega)
  rw [List.range_eq_range', this n 0 (by omega) (by omega)]
  rfl

end Verif.Xml
