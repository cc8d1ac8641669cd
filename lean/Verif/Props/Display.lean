import Verif.Proof.DisplayMore

/-!
# C72: display settings in the metadata
-/

namespace Verif
open Xml Spec Flt

/-- **C72 (write and read).** `WriteDisplaySettings` does not throw, and `GetDisplaySettings` afterwards (on the document, or after saving and loading it) returns settings for exactly the
channels 0, 1, …, `count` - 1: for a channel that was given, whether it is enabled, its tinting, its kind of curve and its control points are what was given, and black point, white
point and gamma differ from what was given by at most 6 millionths; for one that was not given, the settings are the default ones. (The weight is missing, see `C72_weight_violated`.) -/
theorem C72_read_back_partial (s : Settings ℚ) (count : Int) (coerce : Int → Additional → Additional) (doc : Node) (he : doc.isElement = true) (hc : count < 2 ^ 31)
    (hs : ∀ (c : Nat) v, s.get c = some v → ConsistentView v ∧ DoublePoints v) :
    (writeDisplay s count coerce doc).2 = .ok () ∧ ∃ r, getDisplay (writeDisplay s count coerce doc).1 = .ok (some r) ∧
      getDisplay (reload (writeDisplay s count coerce doc).1) = .ok (some r) ∧ r.map (·.1) = (List.range count.toNat).map Int.ofNat ∧
      ∀ c : Nat, (c : Int) < count → (∀ v, s.get c = some v → ∃ w, r.get c = some w ∧ ReadBack v w) ∧ (s.get c = none → r.get c = some defaultChannel) := by
  obtain ⟨D, p, n0, h1, h2, h3, h4, h5, h6, h7⟩ := writeDisplay_spec (fun c v h => (hs c v h).1) (count := count) (by omega) coerce he
  obtain ⟨g1, g2⟩ := getDisplay_written (fun c v h => (hs c v h).1) (fun c v h => (hs c v h).2) coerce h3 h6
  rw [h5]
  refine ⟨rfl, _, g1, g2, by rw [List.map_map]; rfl, ?_⟩
  intro c hlt
  rw [lookup_range (readView s) count.toNat c (by omega)]
  constructor
  · intro v hv
    refine ⟨_, rfl, ?_⟩
    unfold readView
    rw [hv]
    exact readPod_back (hs c v hv).1
  · intro hv
    unfold readView
    rw [hv]

/-- Settings with a gamma curve, a tinting colour and two numbers with many digits. -/
def exampleChannel : ChannelView ℚ := ⟨false, 1, some ⟨255, 0, 17⟩, 1 / 3, 7 / 8, .gamma, some (9 / 4), none⟩

/-- Settings with a spline, without tinting. -/
def exampleSpline : ChannelView ℚ := ⟨true, 1, none, 0, 1, .spline, none, some [(0, 1 / 4), (1, 1)]⟩

example : ConsistentView exampleChannel ∧ DoublePoints exampleChannel ∧ ConsistentView exampleSpline ∧ DoublePoints exampleSpline := by
  refine ⟨(by unfold ConsistentView exampleChannel; decide), (by intro ps h; cases h), (by unfold ConsistentView exampleSpline; decide), ?_⟩
  intro ps h p hp
  injection h with h
  subst h
  rcases List.mem_cons.1 hp with rfl | hp
  · exact ⟨⟨0, 0, by norm_num, by norm_num⟩, ⟨1, -2, by norm_num, by norm_num⟩⟩
  · rw [List.mem_singleton.1 hp]
    exact ⟨⟨1, 0, by norm_num, by norm_num⟩, ⟨1, 0, by norm_num, by norm_num⟩⟩

/-- The settings of every channel that come from a structure are consistent. -/
theorem C72_pod_consistent {α : Type} (p : ChannelPod α) : ConsistentView p.view := by
  unfold ConsistentView ChannelPod.view
  dsimp only
  constructor
  · split <;> simp [*]
  · split <;> simp [*]

/-- **C72 (no drift).** If settings were given for all channels (and no spline without points), then writing what was read leaves the document as it is, to the last character. -/
theorem C72_write_again (s s' : Settings ℚ) (count : Int) (coerce : Int → Additional → Additional) (doc : Node) (he : doc.isElement = true) (hc : count < 2 ^ 31)
    (hs : ∀ (c : Nat) v, s.get c = some v → ConsistentView v ∧ DoublePoints v ∧ v.points ≠ some []) (hs' : ∀ (c : Nat) v, s'.get c = some v → ConsistentView v)
    (hall : ∀ c : Nat, (c : Int) < count → s.get c ≠ none) (r : Settings Num) (hr : getDisplay (writeDisplay s count coerce doc).1 = .ok (some r))
    (hrs : ∀ c : Nat, (c : Int) < count → ∃ v, s'.get c = some v ∧ r.get c = some (asNumbers v)) :
    writeDisplay s' count coerce (writeDisplay s count coerce doc).1 = ((writeDisplay s count coerce doc).1, .ok ()) := by
  obtain ⟨D, p, n0, h1, h2, h3, h4, h5, h6, h7⟩ := writeDisplay_spec (fun c v h => (hs c v h).1) (count := count) (by omega) coerce he
  obtain ⟨g1, g2⟩ := getDisplay_written (fun c v h => (hs c v h).1) (fun c v h => (hs c v h).2.1) coerce h3 h6
  rw [h5] at hr ⊢
  dsimp only at hr ⊢
  rw [g1] at hr
  injection hr with hr
  injection hr with hr
  subst hr
  generalize hdoc' : D.update (fun _ => newChannels doc s coerce count n0) p = doc' at *
  have hde : doc'.isElement = true := by
    cases doc' with
    | element _ _ _ => rfl
    | text a b => simp [resolve, namesPath, displayParts, Node.children] at h6
  obtain ⟨D', p', n0', i1, i2, i3, i4, i5, i6, i7⟩ := writeDisplay_spec hs' (count := count) (by omega) coerce hde
  have hn0' : n0' = newChannels doc s coerce count n0 := by
    rcases i4 with i4 | ⟨i4, _⟩
    · rw [h6] at i4; injection i4 with i4; exact i4.symm
    · rw [h6] at i4; cases i4
  have hD' : D' = doc' := by
    obtain ⟨d, q, c1, c2, c3, c4, c5, c6⟩ := C61_create doc' doc' [] (namesPath displayParts) _ (slashes_path displayParts_names.1 displayParts_names.2) (noIndex_names _) rfl hde
    rw [← displayParts_text, i1] at c1
    have := c4 (by
      obtain ⟨q, hq, _⟩ := (resolve_denotes (noIndex_names _) doc' _).1 h6
      exact ⟨q, hq⟩)
    rw [← this]
    exact (Prod.ext_iff.1 c1).1
  have hinfo : infoChannels doc' = infoChannels doc := by
    rw [infoChannels, infoChannels, h7 _ parts_diverge]
  have hsame : newChannels doc' s' coerce count n0' = newChannels doc s coerce count n0 := by
    have hf := (newChannels_filter doc s coerce count h3).2
    have hch : (List.range count.toNat).map (chanNode (infoChannels doc') s' coerce) = (List.range count.toNat).map (chanNode (infoChannels doc) s coerce) := by
      apply List.map_congr_left
      intro c hcm
      have hlt : (c : Int) < count := by have := List.mem_range.1 hcm; omega
      rw [hinfo]
      obtain ⟨v', e1, e2⟩ := hrs c hlt
      rw [lookup_range (readView s) count.toNat c (by omega)] at e2
      unfold chanNode
      cases hv : s.get c with
      | none => exact absurd hv (hall c hlt)
      | some v =>
        rw [e1]
        dsimp only
        injection e2 with e2
        unfold readView at e2
        rw [hv] at e2
        rw [fieldsOf_again (hs c v hv).1 (hs c v hv).2.2 e2.symm]
    conv_lhs => unfold newChannels
    rw [hch, hn0', hf]
    cases n0 with
    | text _ _ => cases h3
    | element nm as cs => rfl
  rw [i5, hsame, hD', ← hn0']
  rw [hD'] at i2
  rw [update_const p' doc' n0' i2]

/-- The settings read for `exampleChannel`. -/
def exampleRead : ChannelView ℚ :=
  ⟨false, 1, some ⟨255, 0, 17⟩, f32 (f64 (decimalOf 6 (1 / 3))), f32 (f64 (decimalOf 6 (7 / 8))), .gamma, some (f32 (f64 (decimalOf 6 (9 / 4)))), none⟩

example (coerce : Int → Additional → Additional) : ∃ r : Settings Num,
    getDisplay (writeDisplay [(0, exampleChannel)] 1 coerce (.element "ImageDocument".toList [] [])).1 = .ok (some r) ∧
    (∀ c : Nat, (c : Int) < 1 → Settings.get [(0, exampleChannel)] c ≠ none) ∧
    ∀ c : Nat, (c : Int) < 1 → ∃ v, Settings.get [(0, exampleRead)] c = some v ∧ r.get c = some (asNumbers v) := by
  have hcons : ∀ (c : Nat) v, Settings.get [(0, exampleChannel)] c = some v → ConsistentView v ∧ DoublePoints v := by
    intro c v hv
    have : v = exampleChannel := by
      unfold Settings.get at hv
      rw [List.find?_cons] at hv
      split at hv
      · cases hv; rfl
      · cases hv
    subst this
    exact ⟨(by unfold ConsistentView exampleChannel; decide), (by intro ps h; cases h)⟩
  obtain ⟨D, p, n0, h1, h2, h3, h4, h5, h6, h7⟩ := writeDisplay_spec (fun c v h => (hcons c v h).1) (count := 1) (by omega) coerce (doc := .element "ImageDocument".toList [] []) rfl
  obtain ⟨g1, _⟩ := getDisplay_written (fun c v h => (hcons c v h).1) (fun c v h => (hcons c v h).2) coerce h3 h6
  rw [h5]
  refine ⟨_, g1, ?_, ?_⟩
  · intro c hc
    have : c = 0 := by omega
    subst this
    exact nofun
  · intro c hc
    have : c = 0 := by omega
    subst this
    exact ⟨exampleRead, rfl, rfl⟩

/-- **C72 (nothing else is changed).** Everything outside the node `Metadata/DisplaySetting/Channels` is as before; the attributes of this node and its children that are not called
`Channel` are as before; and there are `count` children called `Channel`. -/
theorem C72_nothing_else (s : Settings ℚ) (count : Int) (coerce : Int → Additional → Additional) (doc : Node) (he : doc.isElement = true) (hc : count < 2 ^ 31)
    (hs : ∀ (c : Nat) v, s.get c = some v → ConsistentView v) :
    ∃ p m, PathDenotes (writeDisplay s count coerce doc).1 displayPath p ∧ (writeDisplay s count coerce doc).1.at p = some m ∧
      (∀ q n, ¬ p <+: q → doc.at q = some n → ∃ n', (writeDisplay s count coerce doc).1.at q = some n' ∧ SameNode n n') ∧
      (m.children.filter isChannelNode).length = count.toNat ∧
      ∀ q n, PathDenotes doc displayPath q → doc.at q = some n →
        m.attrs = n.attrs ∧ m.children.filter (fun c => !isChannelNode c) = n.children.filter (fun c => !isChannelNode c) := by
  obtain ⟨D, p, n0, h1, h2, h3, h4, h5, h6, h7⟩ := writeDisplay_spec hs (count := count) (by omega) coerce he
  obtain ⟨d, q, c1, c2, c3, c4, c5, c6⟩ := C61_create doc doc [] (namesPath displayParts) _ (slashes_path displayParts_names.1 displayParts_names.2) (noIndex_names _) rfl he
  rw [← displayParts_text, h1] at c1
  have hd : D = d := (Prod.ext_iff.1 c1).1
  have hq : p = q := by
    have := (Prod.ext_iff.1 c1).2
    injection this
  subst hd hq
  have hden : PathDenotes D (namesPath displayParts) p := by
    obtain ⟨r, r1, r2⟩ := C61_get D D [] (namesPath displayParts) _ (slashes_path displayParts_names.1 displayParts_names.2) rfl
    rw [r1] at c2
    injection c2 with c2
    obtain ⟨q, e, hq⟩ := (r2 _).1 c2
    rw [List.nil_append, List.nil_append] at e
    rw [e]
    exact hq
  have hm : (newChannels doc s coerce count n0).isElement = true ∧ (newChannels doc s coerce count n0).name = n0.name ∧ (newChannels doc s coerce count n0).attrs = n0.attrs := by
    cases n0 with
    | text _ _ => cases h3
    | element _ _ _ => exact ⟨rfl, rfl, rfl⟩
  obtain ⟨f1, f2⟩ := newChannels_filter doc s coerce count h3
  rw [h5, isChannelNode_eq]
  refine ⟨p, newChannels doc s coerce count n0, denotes_update hden h2 h3 hm.1 hm.2.1 hm.2.2, ?_, ?_, ?_, ?_⟩
  · have := at_update (fun _ => newChannels doc s coerce count n0) p D n0 h2 []
    rw [List.append_nil] at this
    exact this
  · intro q n hq hn
    obtain ⟨n', k1, k2⟩ := c5 q n hn
    have k3 := keepsOutside_update p D n0 _ h2 h3 hm.1 q hq
    rw [k1] at k3
    obtain ⟨n'', k4, k5⟩ := k3
    refine ⟨n'', k4, ?_⟩
    cases n with
    | element a b c =>
      cases n' with
      | text _ _ => cases k2
      | element a' b' c' =>
        cases n'' with
        | text _ _ => cases k5
        | element a'' b'' c'' =>
          obtain ⟨x1, x2, x3⟩ := k2
          obtain ⟨y1, y2, y3⟩ := k5
          subst x1 x2 y1 y2
          exact ⟨rfl, rfl, x3.trans y3⟩
    | text a b =>
      cases n' with
      | element _ _ _ => cases k2
      | text a' b' =>
        cases n'' with
        | element _ _ _ => cases k5
        | text a'' b'' => exact ⟨k2.1.trans k5.1, k2.2.trans k5.2⟩
  · rw [f1]; simp
  · intro q n hq hn
    have hres := (resolve_denotes (noIndex_names displayParts) doc n).2 ⟨q, hq, hn⟩
    rcases h4 with h4 | ⟨h4, _⟩
    · rw [hres] at h4
      injection h4 with h4
      subst h4
      exact ⟨hm.2.2, f2⟩
    · rw [hres] at h4; cases h4

/-- **C72 (attributes and pixel type).** The node of a channel the settings were given for gets the attributes `Id` and `Name` of the node with the same number in
`Metadata/Information/Image/Dimensions/Channels` (empty ones are left out), and no other attributes; it gets a pixel type if and only if the channel is not tinted and the pixel type was
given and has a name. -/
theorem C72_attributes (s : Settings ℚ) (count : Int) (types : Option (List (Int × PixelType))) (doc : Node) (he : doc.isElement = true) (hc : count < 2 ^ 31)
    (hs : ∀ (c : Nat) v, s.get c = some v → ConsistentView v) (c : Nat) (v : ChannelView ℚ) (hlt : (c : Int) < count) (hv : s.get c = some v) :
    ∃ p m n, PathDenotes (writeDisplay s count (coercePixelTypes types) doc).1 displayPath p ∧ (writeDisplay s count (coercePixelTypes types) doc).1.at p = some m ∧
      (m.children.filter isChannelNode)[c]? = some n ∧
      (∀ q i d, PathDenotes doc channelsPath q → doc.at q = some i → (i.children.filter isChannelNode)[c]? = some d →
        attrValue n.attrs "Id".toList = (attrValue d.attrs "Id".toList).filter (· ≠ []) ∧ attrValue n.attrs "Name".toList = (attrValue d.attrs "Name".toList).filter (· ≠ [])) ∧
      ((∀ q i, PathDenotes doc channelsPath q → doc.at q = some i → (i.children.filter isChannelNode)[c]? = none) → n.attrs = []) ∧
      (∀ k, attrValue n.attrs k ≠ none → k = "Id".toList ∨ k = "Name".toList) ∧
      fieldOf n "PixelType".toList =
        if v.tint = none then (types.bind (fun m => (m.find? (fun e => e.1 = (c : Int))).map (·.2))).bind pixelTypeText else none := by
  obtain ⟨D, p, n0, h1, h2, h3, h4, h5, h6, h7⟩ := writeDisplay_spec hs (count := count) (by omega) (coercePixelTypes types) he
  rw [h5, isChannelNode_eq]
  obtain ⟨p', hp1, hp2⟩ := (resolve_denotes (noIndex_names displayParts) _ _).1 h6
  have hget : ((newChannels doc s (coercePixelTypes types) count n0).children.filter (isNamed "Channel".toList))[c]? = some (chanNode (infoChannels doc) s (coercePixelTypes types) c) := by
    rw [(newChannels_filter doc s (coercePixelTypes types) count h3).1, List.getElem?_map, List.getElem?_range (by omega)]
    rfl
  have hnode : chanNode (infoChannels doc) s (coercePixelTypes types) c = .element "Channel".toList (newAttrs (coercePixelTypes types c (infoAttributes (infoChannels doc)[c]?)))
      ((fieldsOf v (typeText (coercePixelTypes types c (infoAttributes (infoChannels doc)[c]?)))).map leafNode) := by
    unfold chanNode
    rw [hv]
  have hco : (coercePixelTypes types c (infoAttributes (infoChannels doc)[c]?)).id = (infoAttributes (infoChannels doc)[c]?).id ∧
      (coercePixelTypes types c (infoAttributes (infoChannels doc)[c]?)).name = (infoAttributes (infoChannels doc)[c]?).name ∧
      (coercePixelTypes types c (infoAttributes (infoChannels doc)[c]?)).pixelType = types.bind (fun m => (m.find? (fun e => e.1 = (c : Int))).map (·.2)) := by
    unfold coercePixelTypes
    cases types.bind (fun m => (m.find? (fun e => e.1 = (c : Int))).map (·.2)) <;> exact ⟨rfl, rfl, rfl⟩
  have hattr : ∀ a : Additional, attrValue (newAttrs a) "Id".toList = a.id ∧ attrValue (newAttrs a) "Name".toList = a.name ∧
      ∀ k, attrValue (newAttrs a) k ≠ none → k = "Id".toList ∨ k = "Name".toList := by
    intro a
    unfold newAttrs
    have hne := id_name
    generalize "Id".toList = x at *
    generalize "Name".toList = y at *
    have hne' : y ≠ x := fun e => hne e.symm
    cases a.id <;> cases a.name <;> simp [attrValue, hne, hne'] <;> grind
  refine ⟨p', _, _, hp1, hp2, hget, ?_, ?_, ?_, ?_⟩
  · intro q i d hq hi hd
    have hres := (resolve_denotes (noIndex_names infoParts) doc i).2 ⟨q, hq, hi⟩
    have hinf : (infoChannels doc)[c]? = some d := by
      rw [infoChannels, hres]
      exact hd
    rw [hnode]
    show attrValue (newAttrs _) _ = _ ∧ attrValue (newAttrs _) _ = _
    rw [(hattr _).1, (hattr _).2.1, hco.1, hco.2.1, hinf]
    unfold infoAttributes tryGetAttribute
    dsimp only
    rw [Option.bind_some, Option.bind_some, attrOf_eq, attrOf_eq]
    exact ⟨rfl, rfl⟩
  · intro hno
    have hinf : (infoChannels doc)[c]? = none := by
      rw [infoChannels]
      cases hres : resolve doc (namesPath infoParts) with
      | none => rfl
      | some i =>
        obtain ⟨q, hq, hi⟩ := (resolve_denotes (noIndex_names infoParts) doc i).1 hres
        exact hno q i hq hi
    rw [hnode]
    show newAttrs _ = _
    unfold newAttrs
    rw [hco.1, hco.2.1, hinf]
    rfl
  · rw [hnode]
    exact (hattr _).2.2
  · rw [hnode]
    have hcons := hs c v hv
    have hnd := fieldsOf_nodup hcons (typeText (coercePixelTypes types c (infoAttributes (infoChannels doc)[c]?)))
    have hty : typeText (coercePixelTypes types c (infoAttributes (infoChannels doc)[c]?)) =
        ((types.bind (fun m => (m.find? (fun e => e.1 = (c : Int))).map (·.2))).bind pixelTypeText).getD [] := by
      unfold typeText
      rw [hco.2.2]
    rw [hty] at hnd ⊢
    generalize types.bind (fun m => (m.find? (fun e => e.1 = (c : Int))).map (·.2)) = t at *
    have hnb := (fieldNames_ok v.tint.isSome (decide ((t.bind pixelTypeText).getD [] ≠ [])) _ (curveNumber_lt v)).2.2.2.2.1
    rw [← fieldsOf_names hcons] at hnb
    cases ht : v.tint with
    | some col =>
      rw [if_neg (by simp)]
      exact fieldOf_not_mem (fun hm => by have := (hnb.1 hm).1; rw [ht] at this; cases this)
    | none =>
      rw [if_pos rfl]
      cases hx : t.bind pixelTypeText with
      | none =>
        rw [hx] at hnb
        exact fieldOf_not_mem (fun hm => by have := (hnb.1 hm).2; simp at this)
      | some x =>
        have hxne : x ≠ [] := by
          cases t with
          | none => cases hx
          | some t => cases t <;> first | (cases hx; decide +kernel) | cases hx
        refine fieldOf_mem (by rw [hx] at hnd; exact hnd) (mem_tint ?_)
        rw [ht]
        unfold tintFields
        dsimp only
        rw [Option.getD_some, if_neg hxne]
        exact List.mem_cons_of_mem _ (List.mem_singleton.2 rfl)

/-- **C72 (without the number of channels).** `WriteDisplaySettings` without a number of channels writes all channels up to the highest one that is given. -/
theorem C72_all_channels (s : Settings ℚ) (types : Option (List (Int × PixelType))) (doc : Node) :
    ∃ count, writeDisplayAll s types doc = writeDisplay s count (coercePixelTypes types) doc ∧ (∀ e ∈ s, e.1 < count) ∧ 1 ≤ count ∧ (count = 1 ∨ ∃ e ∈ s, e.1 + 1 = count) := by
  refine ⟨_, rfl, ?_⟩
  have key : ∀ (s : Settings ℚ) (a : Int), a ≤ s.foldl (fun m e => if m < e.1 then e.1 else m) a ∧ (∀ e ∈ s, e.1 ≤ s.foldl (fun m e => if m < e.1 then e.1 else m) a) ∧
      (s.foldl (fun m e => if m < e.1 then e.1 else m) a = a ∨ ∃ e ∈ s, e.1 = s.foldl (fun m e => if m < e.1 then e.1 else m) a) := by
    intro s
    induction s with
    | nil => intro a; simp
    | cons e s ih =>
      intro a
      rw [List.foldl_cons]
      obtain ⟨i1, i2, i3⟩ := ih (if a < e.1 then e.1 else a)
      have hle : a ≤ (if a < e.1 then e.1 else a) ∧ e.1 ≤ (if a < e.1 then e.1 else a) := by split <;> omega
      refine ⟨le_trans hle.1 i1, ?_, ?_⟩
      · intro f hf
        rcases List.mem_cons.1 hf with rfl | hf
        · exact le_trans hle.2 i1
        · exact i2 f hf
      · rcases i3 with i3 | ⟨f, hf, i3⟩
        · by_cases h : a < e.1
          · rw [if_pos h] at i3
            exact Or.inr ⟨e, List.mem_cons_self .., by rw [if_pos h]; exact i3.symm⟩
          · rw [if_neg h] at i3
            exact Or.inl (by rw [if_neg h]; exact i3)
        · exact Or.inr ⟨f, List.mem_cons_of_mem _ hf, i3⟩
  obtain ⟨k1, k2, k3⟩ := key s 0
  refine ⟨fun e he => by have := k2 e he; omega, by omega, ?_⟩
  rcases k3 with k3 | ⟨e, he, k3⟩
  · left; omega
  · exact Or.inr ⟨e, he, by omega⟩

/-- **C72 (violation: the weight).** The weight of a channel is not written; 1 is read. -/
theorem C72_weight_violated (s : Settings ℚ) (count : Int) (coerce : Int → Additional → Additional) (doc : Node) (he : doc.isElement = true) (hc : count < 2 ^ 31)
    (hs : ∀ (c : Nat) v, s.get c = some v → ConsistentView v ∧ DoublePoints v) (c : Nat) (v : ChannelView ℚ) (hlt : (c : Int) < count) (hv : s.get c = some v) (hw : v.weight ≠ 1) :
    ∃ r w, getDisplay (writeDisplay s count coerce doc).1 = .ok (some r) ∧ r.get c = some w ∧ w.weight = .fin 1 ∧ w.weight ≠ .fin v.weight := by
  obtain ⟨D, p, n0, h1, h2, h3, h4, h5, h6, h7⟩ := writeDisplay_spec (fun c v h => (hs c v h).1) (count := count) (by omega) coerce he
  obtain ⟨g1, _⟩ := getDisplay_written (fun c v h => (hs c v h).1) (fun c v h => (hs c v h).2) coerce h3 h6
  rw [h5]
  refine ⟨_, _, g1, lookup_range (readView s) count.toNat c (by omega), ?_⟩
  unfold readView
  rw [hv]
  refine ⟨rfl, ?_⟩
  show Num.fin 1 ≠ _
  intro e
  exact hw (Num.fin.inj e).symm

/-- **C72 (violation: a spline without points).** A spline without control points is read as a linear curve. -/
theorem C72_empty_spline_violated (s : Settings ℚ) (count : Int) (coerce : Int → Additional → Additional) (doc : Node) (he : doc.isElement = true) (hc : count < 2 ^ 31)
    (hs : ∀ (c : Nat) v, s.get c = some v → ConsistentView v ∧ DoublePoints v) (c : Nat) (v : ChannelView ℚ) (hlt : (c : Int) < count) (hv : s.get c = some v) (hw : v.points = some []) :
    v.mode = .spline ∧ ∃ r w, getDisplay (writeDisplay s count coerce doc).1 = .ok (some r) ∧ r.get c = some w ∧ w.mode = .linear := by
  obtain ⟨D, p, n0, h1, h2, h3, h4, h5, h6, h7⟩ := writeDisplay_spec (fun c v h => (hs c v h).1) (count := count) (by omega) coerce he
  obtain ⟨g1, _⟩ := getDisplay_written (fun c v h => (hs c v h).1) (fun c v h => (hs c v h).2) coerce h3 h6
  have hcons := (hs c v hv).1
  have hm : v.mode = .spline := hcons.2.1 (by rw [hw]; rfl)
  have hg : v.gamma = none := by
    cases hg : v.gamma with
    | none => rfl
    | some g => have := hcons.1.1 (by rw [hg]; rfl); rw [hm] at this; cases this
  rw [h5]
  refine ⟨hm, _, _, g1, lookup_range (readView s) count.toNat c (by omega), ?_⟩
  unfold readView
  rw [hv]
  simp [ChannelPod.view, readPod, hg, hw]

/-- **C72 (violation: a channel number below 0).** Settings for a channel with a negative number are lost. -/
theorem C72_negative_violated (s : Settings ℚ) (types : Option (List (Int × PixelType))) (doc : Node) (he : doc.isElement = true) (hb : ∀ e ∈ s, e.1 < 2 ^ 31 - 1)
    (hs : ∀ (c : Nat) v, s.get c = some v → ConsistentView v ∧ DoublePoints v) (c : Int) (hneg : c < 0) :
    ∃ r, getDisplay (writeDisplayAll s types doc).1 = .ok (some r) ∧ r.get c = none := by
  obtain ⟨count, k1, k2, k3, k4⟩ := C72_all_channels s types doc
  have hc : count < 2 ^ 31 := by
    rcases k4 with k4 | ⟨e, he, k4⟩
    · omega
    · have := hb e he; omega
  obtain ⟨_, r, r1, _, r2, _⟩ := C72_read_back_partial s count (coercePixelTypes types) doc he hc hs
  rw [k1]
  refine ⟨r, r1, ?_⟩
  unfold Settings.get
  rw [List.find?_eq_none.2]
  · rfl
  · intro e hem
    have : e.1 ∈ (List.range count.toNat).map Int.ofNat := by rw [← r2]; exact List.mem_map_of_mem hem
    obtain ⟨k, _, hk⟩ := List.mem_map.1 this
    simp only [decide_eq_true_eq]
    have : (0 : Int) ≤ e.1 := by rw [← hk]; exact Int.natCast_nonneg k
    omega

/-- **C72 (violation: undefined behaviour).** Reading the settings of a channel is undefined behaviour if in the list of control points a number is followed by a character with a code of
256 or more (`std::isspace` is called with it). -/
theorem C72_wide_character_violated (ch : Node) (t r : Str) (d : ℚ) (c : Char) (hm : fieldOf ch "Mode".toList = some "spline".toList) (ht : NumberText t d) (hc : 256 ≤ c.toNat)
    (hp : fieldOf ch "Points".toList = some (t ++ c :: r)) : readChannelSettings ch = .undefined := by
  have hend : EndsNumber (c :: r) := by
    intro c' cs e
    cases e
    constructor
    · intro h
      unfold IsDigit at h
      have key : ∀ x ∈ ['0', '1', '2', '3', '4', '5', '6', '7', '8', '9'], x.toNat < 256 := by decide
      have := key c h
      omega
    · intro h
      have key : ∀ x ∈ ['.', 'e', 'E', 'x', 'X'], x.toNat < 256 := by decide
      have := key c h
      omega
  have hw := wcstod_text ht (w := []) (by simp) hend
  rw [List.nil_append] at hw
  have hsk : skipComma (c :: r) = .undefined := by
    rw [skipComma, skipSpace, narrowSpace, if_neg (by omega)]
  have hpt : parsePoint (t ++ c :: r) = .undefined := by
    rw [parsePoint, hw]
    dsimp only
    rw [hsk]
  have hps : parsePoints (t ++ c :: r).length (t ++ c :: r) = .undefined := by
    cases hx : t ++ c :: r with
    | nil => simp at hx
    | cons a b =>
      rw [← hx]
      obtain ⟨k, hk⟩ : ∃ k, (t ++ c :: r).length = k + 1 := ⟨b.length, by rw [hx]; rfl⟩
      rw [hk, parsePoints, hpt]
      rw [hx]; simp
  have hsp : readSpline ch = .undefined := by
    rw [readSpline, hm]
    dsimp only
    rw [if_pos asBool_lit.2.2.2.2, hp]
    dsimp only
    rw [hps]
  rw [readChannelSettings, hsp]
  cases readColor ch <;> rfl

example : ∃ ch : Node, fieldOf ch "Mode".toList = some "spline".toList ∧ fieldOf ch "Points".toList = some ("1".toList ++ 'Ω' :: "2".toList) ∧ NumberText "1".toList 1 ∧ 256 ≤ 'Ω'.toNat :=
  ⟨.element "Channel".toList [] [.element "Mode".toList [] [.text false "spline".toList], .element "Points".toList [] [.text false ("1".toList ++ 'Ω' :: "2".toList)]],
    by decide +kernel, by decide +kernel,
    ⟨[], ['1'], [], [], [], 1, 0, rfl, .none, by unfold IsDigit; decide, by decide, .inl ⟨rfl, rfl⟩, .none, by norm_num [digitsValue, show ('1' : Char).toNat = 49 from rfl, show ('0' : Char).toNat = 48 from rfl]⟩, by decide⟩

/-- **C72 (cloning).** The structure that `Clone` fills stands for the same settings, whatever it contained before. -/
theorem C72_clone {α : Type} (zero one : α) (v : ChannelView α) (h : ConsistentView v) (old : ChannelPod α) : (cloneChannel zero one v old).view = v := by
  obtain ⟨en, w, tint, b, wh, mode, g, ps⟩ := v
  unfold ConsistentView at h
  unfold cloneChannel ChannelPod.view
  cases tint <;> cases mode <;> cases g <;> cases ps <;> simp_all

end Verif
