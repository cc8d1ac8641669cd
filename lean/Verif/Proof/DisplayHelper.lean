import Verif.Spec.DisplayHelper
import Verif.Proof.Lut

namespace Verif.Helper
open Verif.Lut Verif.Czi Verif.Xml Verif.Multi Verif.Spec

theorem bind_ok {α β : Type} {o : Outcome α} {f : α → Outcome β} {b : β} (h : o.bind f = .ok b) : ∃ a, o = .ok a ∧ f a = .ok b := by
  cases o with
  | ok a => exact ⟨a, rfl, h⟩
  | throws => cases h
  | undefined => cases h

theorem collect_all {α : Type} {f : Nat → Outcome α} {P : α → Prop} (hP : ∀ k v, f k = .ok v → P v) : ∀ n {l}, collect f n = .ok l → ∀ v ∈ l, P v
  | 0, l, h, v, hv => by cases h; simp at hv
  | n + 1, l, h, v, hv => by
    rw [collect] at h
    obtain ⟨m, hm, h⟩ := bind_ok h
    obtain ⟨w, hw, h⟩ := bind_ok h
    cases h
    rcases List.mem_append.1 hv with hv | hv
    · exact collect_all hP n hm v hv
    · rw [List.mem_singleton.1 hv]; exact hP n w hw

theorem table_le {n : Nat} {lo hi : Int} {M : Nat} {f : Nat → Outcome Nat} {t : List Nat} (hf : ∀ k v, f k = .ok v → v ≤ M)
    (h : table n lo hi M f = .ok t) : ∀ v ∈ t, v ≤ M := by
  unfold table at h
  obtain ⟨m, hm, h⟩ := bind_ok h
  cases h
  intro v hv
  simp only [List.mem_append, List.mem_replicate] at hv
  rcases hv with (hv | hv) | hv
  · omega
  · exact collect_all hf _ hm v hv
  · omega

theorem powerEntry_le {pow : ℚ → ℚ → ℚ} {M : Nat} {g : ℚ} {lo hi : Int} {k v : Nat} (h : powerEntry pow M g lo hi k = .ok v) : v ≤ M := by
  unfold powerEntry at h
  cases hp : position lo hi k with
  | none => rw [hp] at h; cases h
  | some x => rw [hp] at h; cases h; exact clampTo_le _ _

theorem toeEntry_le {pow : ℚ → ℚ → ℚ} {M : Nat} {g a : ℚ} {lo hi : Int} {k v : Nat} (h : toeEntry pow M g a lo hi k = .ok v) : v ≤ M := by
  unfold toeEntry at h
  cases hp : position lo hi k with
  | none => rw [hp] at h; cases h
  | some x =>
    rw [hp] at h
    dsimp only at h
    split at h
    · cases h
    · cases h; exact clampTo_le _ _

theorem splineEntry_le {rd : ℚ → ℚ} {l : List Piece} {lo hi : Int} {k v : Nat} (h : splineEntry rd l lo hi k = .ok v) : v ≤ 255 := by
  unfold splineEntry at h
  by_cases h1 : hi - lo - 1 = 0
  · rw [if_pos h1] at h
    split at h <;> cases h
  · rw [if_neg h1] at h
    obtain ⟨s, _, h⟩ := bind_ok h
    dsimp only at h
    split at h
    · cases h
    · simp only [Outcome.ok.injEq] at h
      subst h
      split
      · omega
      · split <;> omega

theorem gammaTable_le {pow : ℚ → ℚ → ℚ} {M n : Nat} {b w g : ℚ} {t : List Nat} (h : gammaTable pow M n b w g = .ok t) : ∀ v ∈ t, v ≤ M := by
  unfold gammaTable at h
  dsimp only at h
  split at h
  · exact table_le (fun _ _ => toeEntry_le) h
  · exact table_le (fun _ _ => powerEntry_le) h

theorem splineTable_le {rd : ℚ → ℚ} {n : Nat} {b w : ℚ} {l : List Piece} {t : List Nat} (h : splineTable rd n b w l = .ok t) : ∀ v ∈ t, v ≤ 255 := by
  unfold splineTable at h
  exact table_le (fun _ _ => splineEntry_le) h

theorem bytesOf_holds {t : List Nat} (h : ∀ v ∈ t, v ≤ 255) : Holds (bytesOf t) t := by
  refine ⟨rfl, ?_⟩
  intro i v hv
  show (UInt8.ofNat ((t[i]?).getD 0)).toNat = v
  rw [hv]
  have := h v (List.mem_of_getElem? hv)
  show (UInt8.ofNat v).toNat = v
  rw [UInt8.toNat_ofNat']
  omega

theorem sizeForLut_iff (pt : PixelType) (n : Nat) : sizeForLut pt = some n ↔ LutSize pt n := by
  unfold LutSize
  cases pt <;> simp [sizeForLut, eq_comm]

/-- The channel info that a call adds. -/
theorem describes_plain {pow : ℚ → ℚ → ℚ} {rd : ℚ → ℚ} {solve : Solver} {pt : PixelType} {v : ChannelView ℚ} (h : v.mode = .linear) :
    Describes pow rd solve pt v (plainInfo v) where
  weight := rfl
  black := rfl
  white := rfl
  tinting := rfl
  colour := by
    intro col hc
    simp only [plainInfo, hc]
    exact ⟨rfl, rfl, rfl⟩
  linear := fun _ => ⟨rfl, rfl⟩
  gamma := fun h' => by rw [h] at h'; cases h'
  spline := fun h' => by rw [h] at h'; cases h'

theorem describes_lut {pow : ℚ → ℚ → ℚ} {rd : ℚ → ℚ} {solve : Solver} {pt : PixelType} {v : ChannelView ℚ} {n : Nat} {t : List Nat} (h : v.mode ≠ .linear)
    (hn : sizeForLut pt = some n) (ht : tableOf pow rd solve v n = .ok t) : Describes pow rd solve pt v (lutInfo v n t) where
  weight := rfl
  black := rfl
  white := rfl
  tinting := rfl
  colour := by
    intro col hc
    simp only [lutInfo, plainInfo, hc]
    exact ⟨rfl, rfl, rfl⟩
  linear := fun h' => absurd h' h
  gamma := by
    intro h'
    unfold tableOf at ht
    rw [h'] at ht
    dsimp only at ht
    cases hg : v.gamma with
    | none => rw [hg] at ht; cases ht
    | some g =>
      rw [hg] at ht
      exact ⟨n, g, t, bytesOf t, (sizeForLut_iff pt n).1 hn, rfl, ht, rfl, rfl, bytesOf_holds (gammaTable_le ht)⟩
  spline := by
    intro h'
    unfold tableOf at ht
    rw [h'] at ht
    dsimp only at ht
    obtain ⟨l, hl, ht⟩ := bind_ok ht
    refine ⟨n, l, t, bytesOf t, (sizeForLut_iff pt n).1 hn, ?_, ?_, ht, rfl, rfl, bytesOf_holds (splineTable_le ht)⟩
    · intro hp
      unfold splineDataOf at hl
      rw [hp] at hl
      cases hl; rfl
    · intro ps hp
      unfold splineDataOf at hl
      rw [hp] at hl
      exact hl

/-- What one call does. -/
theorem addSetting_ok {pow : ℚ → ℚ → ℚ} {rd : ℚ → ℚ} {solve : Solver} {ptOf : Int → PixelType} {st st' : State} {ch : Int} {v : ChannelView ℚ}
    (h : addSetting pow rd solve ptOf st ch v = .ok st') :
    (v.isEnabled = false ∧ st' = st) ∨
    (v.isEnabled = true ∧ ∃ c, Describes pow rd solve (ptOf ch) v c ∧
      st' = ⟨st.infos ++ [c], st.active ++ [ch], st.asked ++ (if v.mode = .linear then [] else [ch])⟩) := by
  unfold addSetting at h
  by_cases he : v.isEnabled = false
  · rw [if_pos he] at h; cases h; exact Or.inl ⟨he, rfl⟩
  · rw [if_neg he] at h
    refine Or.inr ⟨by simpa using he, ?_⟩
    by_cases hm : v.mode = .linear
    · rw [if_pos hm] at h
      cases h
      exact ⟨plainInfo v, describes_plain hm, by rw [if_pos hm, List.append_nil]⟩
    · rw [if_neg hm] at h
      cases hs : sizeForLut (ptOf ch) with
      | none => rw [hs] at h; cases h
      | some n =>
        rw [hs] at h
        dsimp only at h
        obtain ⟨t, ht, h⟩ := bind_ok h
        cases h
        exact ⟨lutInfo v n t, describes_lut hm hs ht, by rw [if_neg hm]⟩

theorem describesAll_length {pow : ℚ → ℚ → ℚ} {rd : ℚ → ℚ} {solve : Solver} {ptOf : Int → PixelType} : ∀ {l : List (Int × ChannelView ℚ)} {cs},
    DescribesAll pow rd solve ptOf l cs → cs.length = l.length
  | [], [], _ => rfl
  | _ :: _, _ :: _, h => by
    have := describesAll_length h.2
    simp [this]
  | [], _ :: _, h => h.elim
  | _ :: _, [], h => h.elim

theorem addSettings_ok {pow : ℚ → ℚ → ℚ} {rd : ℚ → ℚ} {solve : Solver} {ptOf : Int → PixelType} : ∀ {l : List (Int × ChannelView ℚ)} {st st' : State},
    addSettings pow rd solve ptOf l st = .ok st' →
    ∃ cs, st'.infos = st.infos ++ cs ∧ DescribesAll pow rd solve ptOf (enabled l) cs ∧ st'.active = st.active ++ (enabled l).map (·.1) ∧
      st'.asked = st.asked ++ ((enabled l).filter fun e => e.2.mode ≠ .linear).map (·.1)
  | [], st, st', h => by
    cases h
    exact ⟨[], by simp, trivial, by simp [enabled], by simp [enabled]⟩
  | e :: l, st, st', h => by
    unfold addSettings at h
    obtain ⟨s1, h1, h⟩ := bind_ok h
    obtain ⟨cs, ha, hb, hc, hd⟩ := addSettings_ok h
    rcases addSetting_ok h1 with ⟨he, rfl⟩ | ⟨he, c, hdc, rfl⟩
    · have : enabled (e :: l) = enabled l := by simp [enabled, he]
      rw [this]
      exact ⟨cs, ha, hb, hc, hd⟩
    · have : enabled (e :: l) = e :: enabled l := by simp [enabled, he]
      rw [this]
      refine ⟨c :: cs, ?_, ⟨hdc, hb⟩, ?_, ?_⟩
      · rw [ha]; simp
      · rw [hc]; simp
      · rw [hd]
        by_cases hm : e.2.mode = .linear <;> simp [hm]

/-- Looking up every index of the map is going through its entries. -/
theorem get_of_mem : ∀ {s : Settings ℚ}, (s.map (·.1)).Nodup → ∀ e ∈ s, s.get e.1 = some e.2
  | x :: l, hn, e, he => by
    have hn' : x.1 ∉ l.map (·.1) ∧ (l.map (·.1)).Nodup := by simpa using hn
    have ih := get_of_mem (s := l) hn'.2 e
    simp only [Settings.get] at ih ⊢
    rcases List.mem_cons.1 he with rfl | he
    · simp
    · have : x.1 ≠ e.1 := by
        intro hx
        exact hn'.1 (by rw [hx]; exact List.mem_map.2 ⟨e, he, rfl⟩)
      simpa [List.find?_cons, this] using ih he

theorem addByIndex_eq {pow : ℚ → ℚ → ℚ} {rd : ℚ → ℚ} {solve : Solver} {ptOf : Int → PixelType} {s : Settings ℚ} : ∀ (l : List (Int × ChannelView ℚ)) (st : State),
    (∀ e ∈ l, s.get e.1 = some e.2) → addByIndex pow rd solve ptOf s (l.map (·.1)) st = addSettings pow rd solve ptOf l st
  | [], _, _ => rfl
  | e :: l, st, h => by
    rw [List.map_cons, addByIndex, h e (by simp), addSettings]
    dsimp only
    cases addSetting pow rd solve ptOf st e.1 e.2 with
    | ok a => exact addByIndex_eq l a (fun e' he' => h e' (by simp [he']))
    | throws => rfl
    | undefined => rfl

theorem initSettings_eq {pow : ℚ → ℚ → ℚ} {rd : ℚ → ℚ} {solve : Solver} {ptOf : Int → PixelType} {s : Settings ℚ} (hs : (s.map (·.1)).Nodup) (st : State) :
    initSettings pow rd solve ptOf st s = addSettings pow rd solve ptOf s ⟨[], [], []⟩ :=
  addByIndex_eq s _ (get_of_mem hs)

end Verif.Helper
