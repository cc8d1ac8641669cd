import Verif.Proof.DisplayFields
import Verif.Proof.Prepared
import Verif.Props.Xml

/-!
# Display settings in a document
-/

namespace Verif.Xml
open Spec Flt
open Text (decimal)

/-! ## The channels in `Metadata/Information` -/

theorem nthIdx_filter (p : Node → Bool) : ∀ (cs : List Node) (k : Nat), (nthIdx p k cs).bind (fun i => cs[i]?) = (cs.filter p)[k]? := by
  intro cs
  induction cs with
  | nil => intro k; simp [nthIdx]
  | cons c cs ih =>
    intro k
    have hs : ∀ r : Option Nat, (r.map (· + 1)).bind (fun i => (c :: cs)[i]?) = r.bind (fun i => cs[i]?) := by
      intro r; cases r <;> simp
    rw [nthIdx_cons]
    by_cases hp : p c = true
    · rw [if_pos hp, List.filter_cons_of_pos hp]
      cases k with
      | zero => simp
      | succ k =>
        rw [if_neg (by omega), hs, Nat.add_sub_cancel, ih]
        simp
    · rw [if_neg hp, List.filter_cons_of_neg hp, hs, ih]

/-- The node a path leads to, indices included. -/
def locate : Node → List Selector → Option Node
  | n, [] => some n
  | n, s :: ss => ((n.children.filter s.candidate)[s.skip]?).bind (fun c => locate c ss)

theorem getPath_locate {sels : List Selector} {ts : List Str} (h : Steps sels ts) : ∀ n : Node, ∃ r, getPath n ts = .ok r ∧ r.bind n.at = locate n sels := by
  induction h with
  | nil => intro n; exact ⟨some [], rfl, rfl⟩
  | cons s t ss ts hst _ ih =>
    intro n
    rw [locate, ← nthIdx_filter, getPath, getToken_text hst]
    cases hi : nthIdx s.candidate s.skip n.children with
    | none => exact ⟨none, rfl, rfl⟩
    | some i =>
      dsimp only
      cases hc : n.children[i]? with
      | none => exact ⟨none, rfl, by simp [hc]⟩
      | some c =>
        obtain ⟨r, h1, h2⟩ := ih c
        dsimp only
        rw [h1]
        cases r with
        | none => exact ⟨none, rfl, by simpa [hc] using h2⟩
        | some q =>
          refine ⟨some (i :: q), rfl, ?_⟩
          simp only [Option.bind_some, hc] at h2 ⊢
          rw [Node.at, hc]
          exact h2

theorem candidate_first (x : Str) : (Selector.first x).candidate = isNamed x := by
  funext c
  cases c with
  | element n as cs =>
    show decide (n = x ∧ ∀ kv ∈ ([] : List (Str × Str)), attrValue as kv.1 = some kv.2) = (true && n == x)
    simp [beq_eq_decide]
  | text a b => rfl

theorem candidate_nth (x : Str) (k : Nat) : (Selector.nth x k).candidate = isNamed x := by
  rw [← candidate_first]; rfl

theorem locate_names (parts : List Str) (x : Str) (k : Nat) : ∀ n : Node,
    locate n (namesPath parts ++ [.nth x k]) = (resolve n (namesPath parts)).bind (fun m => (m.children.filter (isNamed x))[k]?) := by
  induction parts with
  | nil =>
    intro n
    show ((n.children.filter (Selector.nth x k).candidate)[k]?).bind (fun c => some c) = _
    rw [candidate_nth]
    cases h : (n.children.filter (isNamed x))[k]? <;> simp [resolve, namesPath, h]
  | cons s parts ih =>
    intro n
    show ((n.children.filter (Selector.first s).candidate)[0]?).bind (fun c => locate c (namesPath parts ++ [.nth x k])) = (resolve n (.first s :: namesPath parts)).bind _
    rw [resolve_cons, ← List.head?_eq_getElem?, List.head?_filter]
    cases n.children.find? (Selector.first s).candidate with
    | none => rfl
    | some c => exact ih c

/-- The names of the path of the channels in `Metadata/Information`. -/
def infoParts : List Str := ["Metadata".toList, "Information".toList, "Image".toList, "Dimensions".toList, "Channels".toList]

/-- The names of the path of the display settings. -/
def displayParts : List Str := ["Metadata".toList, "DisplaySetting".toList, "Channels".toList]

theorem infoParts_text : "Metadata/Information/Image/Dimensions/Channels/Channel[".toList = slashes infoParts ++ '/' :: ("Channel".toList ++ ['[']) := by decide +kernel

theorem infoParts_names : infoParts ≠ [] ∧ ∀ s ∈ infoParts, s ≠ [] ∧ ∀ c ∈ s, c ∉ ['/', '[', ']'] := by decide +kernel

theorem displayParts_names : displayParts ≠ [] ∧ ∀ s ∈ displayParts, s ≠ [] ∧ ∀ c ∈ s, c ∉ ['/', '[', ']'] := by decide +kernel

theorem displayParts_text : "Metadata/DisplaySetting/Channels".toList = slashes displayParts := by decide +kernel

theorem channel_nodeName : "Channel".toList ≠ [] ∧ ∀ c ∈ "Channel".toList, c ∉ ['/', '[', ']'] := by decide +kernel

theorem parts_diverge : Diverge (namesPath displayParts) (namesPath infoParts) :=
  diverge_names 1 "DisplaySetting".toList "Information".toList rfl rfl (by decide +kernel) rfl

/-- The channels in `Metadata/Information`. -/
def infoChannels (doc : Node) : List Node := ((resolve doc (namesPath infoParts)).map (fun m => m.children.filter (isNamed "Channel".toList))).getD []

/-- The attributes of a channel in `Metadata/Information`. -/
def infoAttributes (n : Option Node) : Additional :=
  ⟨(n.bind (fun n => tryGetAttribute n "Id".toList)).filter (· ≠ []), (n.bind (fun n => tryGetAttribute n "Name".toList)).filter (· ≠ []), none⟩

theorem retrieve_eq (doc : Node) {ch : Nat} (h : ch < 4294967296) : retrieveAdditional doc ch = .ok (infoAttributes (infoChannels doc)[ch]?) := by
  have hdec := Text.decimal_spec ch
  have hp : PathText (namesPath infoParts ++ [.nth "Channel".toList ch]) ("Metadata/Information/Image/Dimensions/Channels/Channel[".toList ++ decimal ch ++ "]".toList) := by
    have h1 : "Metadata/Information/Image/Dimensions/Channels/Channel[".toList ++ decimal ch ++ "]".toList =
        slashes infoParts ++ '/' :: ("Channel".toList ++ '[' :: ([] ++ decimal ch ++ [] ++ [']'])) := by
      rw [infoParts_text, show "]".toList = [']'] from rfl]
      simp
    rw [h1]
    refine pathText_append (slashes_path infoParts_names.1 infoParts_names.2) (.one _ _ ?_)
    have := StepText.nth "Channel".toList [] (decimal ch) [] channel_nodeName (by intro c hc; cases hc) hdec.1 (by intro c hc; cases hc) (by rw [hdec.2.1]; exact h)
    rw [hdec.2.1] at this
    exact this
  obtain ⟨ts, et, hs⟩ := pathText_tokens hp
  obtain ⟨r, er, hr⟩ := getPath_locate hs doc
  rw [locate_names] at hr
  have hloc : r.bind doc.at = (infoChannels doc)[ch]? := by
    rw [hr, infoChannels]
    cases resolve doc (namesPath infoParts) with
    | none => rfl
    | some m => rfl
  rw [retrieveAdditional, getChildNode, et]
  have hat : doc.at [] = some doc := rfl
  rw [hat]
  dsimp only
  rw [er, ← hloc]
  cases r with
  | none => rfl
  | some q =>
    dsimp only
    rw [List.nil_append, Option.bind_some]
    cases doc.at q <;> rfl

/-! ## The new nodes -/

theorem removeAllNamed_eq (x : Str) (nm : Str) (as : List (Str × Str)) : ∀ (k : Nat) (cs : List Node), cs.length < k →
    removeAllNamed x k (.element nm as cs) = .element nm as (cs.filter (fun c => !isNamed x c)) := by
  intro k
  induction k with
  | zero => intro cs h; omega
  | succ k ih =>
    intro cs h
    rw [removeAllNamed, removeChild]
    cases ha : cs.any (isNamed x) with
    | false =>
      have hn : ∀ c ∈ cs, isNamed x c = false := by
        intro c hc
        cases hx : isNamed x c with
        | false => rfl
        | true => rw [List.any_eq_true.2 ⟨c, hc, hx⟩] at ha; cases ha
      dsimp only
      rw [List.eraseP_of_forall_not (by intro c hc; rw [hn c hc]; simp), List.filter_eq_self.2 (by intro c hc; rw [hn c hc]; rfl)]
    | true =>
      dsimp only
      obtain ⟨c, hc, hx⟩ := List.any_eq_true.1 ha
      have hl := List.length_eraseP_of_mem hc hx
      have hpos := List.length_pos_of_mem hc
      rw [ih _ (by omega)]
      congr 1
      clear ih hl h ha hpos
      induction cs with
      | nil => rfl
      | cons d cs ih2 =>
        rw [List.eraseP_cons]
        by_cases hd : isNamed x d = true
        · rw [hd]; simp [hd]
        · have hd' : isNamed x d = false := by simpa using hd
          rw [hd']
          simp only [cond_false]
          rw [List.filter_cons_of_pos (by rw [hd']; rfl), List.filter_cons_of_pos (by rw [hd']; rfl)]
          rcases List.mem_cons.1 hc with rfl | hc
          · rw [hx] at hd'; cases hd'
          · rw [ih2 hc]

/-- The attributes of a new node. -/
def newAttrs (a : Additional) : List (Str × Str) := (a.id.map (fun s => ("Id".toList, s))).toList ++ (a.name.map (fun s => ("Name".toList, s))).toList

theorem id_name : "Id".toList ≠ "Name".toList := by decide +kernel

theorem channelNode_eq (a : Additional) : channelNode a = .element "Channel".toList (newAttrs a) [] := by
  unfold channelNode newAttrs
  cases a.id with
  | none =>
    cases a.name with
    | none => rfl
    | some n => rfl
  | some i =>
    cases a.name with
    | none => rfl
    | some n =>
      show Node.element "Channel".toList (setAttr "Name".toList n [("Id".toList, i)]) [] = _
      rw [setAttr, if_neg id_name]
      rfl

/-- The text of the pixel type. -/
def typeText (a : Additional) : Str := (a.pixelType.bind pixelTypeText).getD []

/-- The node of a channel. -/
def chanNode (info : List Node) (s : Settings ℚ) (coerce : Int → Additional → Additional) (ch : Nat) : Node :=
  match s.get ch with
  | none => .element "Channel".toList [] []
  | some v => .element "Channel".toList (newAttrs (coerce ch (infoAttributes info[ch]?))) ((fieldsOf v (typeText (coerce ch (infoAttributes info[ch]?)))).map leafNode)

/-- All channels of the settings are consistent. -/
def AllConsistent (s : Settings ℚ) : Prop := ∀ (ch : Nat) v, s.get ch = some v → ConsistentView v

theorem newChannel_eq {s : Settings ℚ} (hs : AllConsistent s) (coerce : Int → Additional → Additional) (doc : Node) {ch : Nat} (h : ch < 4294967296) :
    newChannel doc s coerce ch = (chanNode (infoChannels doc) s coerce ch, .ok ()) := by
  unfold newChannel chanNode
  cases hv : s.get ch with
  | none => rfl
  | some v =>
    dsimp only
    rw [retrieve_eq doc h]
    dsimp only
    rw [channelNode_eq, writeChannelSettings_new (hs ch v hv)]
    rfl

theorem chanNode_named (info : List Node) (s : Settings ℚ) (coerce : Int → Additional → Additional) (ch : Nat) :
    isNamed "Channel".toList (chanNode info s coerce ch) = true := by
  unfold chanNode
  cases s.get ch <;> simp [isNamed, Node.isElement, Node.name]

theorem writeChannels_eq {s : Settings ℚ} (hs : AllConsistent s) (coerce : Int → Additional → Additional) {D n0 : Node} {p : List Nat} (hD : D.at p = some n0)
    {info : List Node} (nm : Str) (as : List (Str × Str)) (hi : ∀ cs, infoChannels (D.update (fun _ => .element nm as cs) p) = info) :
    ∀ (k ch : Nat) (cs : List Node), ch + k ≤ 4294967296 →
      writeChannels s coerce p ch k (D.update (fun _ => .element nm as cs) p) =
        (D.update (fun _ => .element nm as (cs ++ (List.range' ch k).map (chanNode info s coerce))) p, .ok ()) := by
  intro k
  induction k with
  | zero => intro ch cs _; simp [writeChannels]
  | succ k ih =>
    intro ch cs hk
    rw [writeChannels]
    rw [newChannel_eq hs coerce _ (by omega), hi]
    dsimp only
    rw [update_update _ _ p D n0 hD]
    have := ih (ch + 1) (cs ++ [chanNode info s coerce ch]) (by omega)
    simp only [Node.setChildren, Node.children]
    rw [this]
    simp [List.range'_succ]

/-- The node with the channels after writing. -/
def newChannels (doc : Node) (s : Settings ℚ) (coerce : Int → Additional → Additional) (count : Int) (n0 : Node) : Node :=
  n0.setChildren (n0.children.filter (fun c => !isNamed "Channel".toList c) ++ (List.range count.toNat).map (chanNode (infoChannels doc) s coerce))

theorem writeDisplay_spec {s : Settings ℚ} (hs : AllConsistent s) {count : Int} (hc : count ≤ 4294967296) (coerce : Int → Additional → Additional) {doc : Node} (he : doc.isElement = true) :
    ∃ D p n0, getOrCreateChildNode doc [] "Metadata/DisplaySetting/Channels".toList = (D, .ok p) ∧ D.at p = some n0 ∧ n0.isElement = true ∧ Target doc (namesPath displayParts) n0 ∧
      writeDisplay s count coerce doc = (D.update (fun _ => newChannels doc s coerce count n0) p, .ok ()) ∧
      resolve (D.update (fun _ => newChannels doc s coerce count n0) p) (namesPath displayParts) = some (newChannels doc s coerce count n0) ∧
      (∀ q, Diverge (namesPath displayParts) q → resolve (D.update (fun _ => newChannels doc s coerce count n0) p) q = resolve doc q) := by
  obtain ⟨ts, et, hst⟩ := pathText_tokens (slashes_path displayParts_names.1 displayParts_names.2)
  obtain ⟨p, n0, h1, h2, h3, h4, h5, h6, h7⟩ := create_update hst (noIndex_names _) doc he
  have hg : getOrCreateChildNode doc [] "Metadata/DisplaySetting/Channels".toList = ((getOrCreatePath doc ts).1, .ok p) := by
    rw [displayParts_text, getOrCreateChildNode, et]
    show (_, _) = _
    rw [h1]
    rfl
  obtain ⟨nm, as, cs, rfl⟩ : ∃ nm as cs, n0 = .element nm as cs := by
    cases n0 with
    | element nm as cs => exact ⟨nm, as, cs, rfl⟩
    | text _ _ => cases h4
  have hlast : ∀ cs', LastOk (namesPath displayParts) (.element nm as cs') := fun cs' => lastOk_of_keeps h6 rfl rfl rfl (fun _ _ _ _ => rfl)
  have hinfo : ∀ cs', infoChannels ((getOrCreatePath doc ts).1.update (fun _ => .element nm as cs') p) = infoChannels doc := by
    intro cs'
    rw [infoChannels, infoChannels, (h7 _ (hlast cs')).2 _ parts_diverge]
  refine ⟨(getOrCreatePath doc ts).1, p, .element nm as cs, hg, h3, rfl, h5, ?_, (h7 _ (hlast _)).1, (h7 _ (hlast _)).2⟩
  rw [writeDisplay, hg]
  dsimp only
  have hrem : (getOrCreatePath doc ts).1.update (fun n => removeAllNamed "Channel".toList (n.children.length + 1) n) p =
      (getOrCreatePath doc ts).1.update (fun _ => .element nm as (cs.filter (fun c => !isNamed "Channel".toList c))) p := by
    have ha := update_update (fun _ => .element nm as cs) (fun n => removeAllNamed "Channel".toList (n.children.length + 1) n) p _ _ h3
    rw [update_const p _ _ h3] at ha
    rw [ha]
    have : removeAllNamed "Channel".toList ((Node.element nm as cs).children.length + 1) (.element nm as cs) = .element nm as (cs.filter (fun c => !isNamed "Channel".toList c)) :=
      removeAllNamed_eq _ _ _ _ _ (Nat.lt_succ_self _)
    rw [this]
  rw [hrem, writeChannels_eq hs coerce h3 nm as hinfo count.toNat 0 _ (by omega), ← List.range_eq_range']
  rfl

/-! ## Reading -/

/-- What is read for a channel. -/
def readView (s : Settings ℚ) (ch : Nat) : ChannelView Num :=
  match s.get ch with
  | none => defaultChannel
  | some v => (readPod v).view

/-- All control points of the settings are of type `double`. -/
def AllDouble (s : Settings ℚ) : Prop := ∀ (ch : Nat) v, s.get ch = some v → DoublePoints v

theorem readChan {s : Settings ℚ} (hs : AllConsistent s) (hd : AllDouble s) (info : List Node) (coerce : Int → Additional → Additional) (ch : Nat) :
    (∃ p, readChannelSettings (chanNode info s coerce ch) = .ok p ∧ p.view = readView s ch) ∧
    ∃ p, readChannelSettings (reload (chanNode info s coerce ch)) = .ok p ∧ p.view = readView s ch := by
  unfold chanNode readView
  cases hv : s.get ch with
  | none =>
    refine ⟨readChannel_empty _ _, ?_⟩
    rw [reload_element, reloadAll]
    exact readChannel_empty _ _
  | some v =>
    dsimp only
    refine ⟨⟨_, readChannel_new (hs ch v hv) (hd ch v hv) _ _ _, rfl⟩, _, ?_, rfl⟩
    rw [read_congr (reload_leaves _ _ _ (fieldsOf_plain v (pt := typeText _) (pixelTypeText_plain _)))]
    exact readChannel_new (hs ch v hv) (hd ch v hv) _ _ _

theorem readChannels_eq {f : Nat → Node} {g : Nat → ChannelView Num} (h : ∀ c, ∃ p, readChannelSettings (f c) = .ok p ∧ p.view = g c) :
    ∀ (k ch : Nat), readChannels ch ((List.range' ch k).map f) = .ok ((List.range' ch k).map (fun c : Nat => ((c : Int), g c))) := by
  intro k
  induction k with
  | zero => intro ch; rfl
  | succ k ih =>
    intro ch
    obtain ⟨p, h1, h2⟩ := h ch
    rw [List.range'_succ, List.map_cons, List.map_cons, readChannels, h1]
    have := ih (ch + 1)
    rw [Nat.cast_add] at this
    rw [show (ch : Int) + 1 = (ch : Int) + ((1 : Nat) : Int) from rfl, this]
    dsimp only
    rw [h2]

theorem filter_reload (x : Str) : ∀ cs : List Node, (reloadAll cs).filter (isNamed x) = (cs.filter (isNamed x)).map reload := by
  intro cs
  induction cs with
  | nil => rfl
  | cons c cs ih =>
    rw [reloadAll_cons]
    cases c with
    | element n as ds =>
      dsimp only
      by_cases hx : isNamed x (.element n as ds) = true
      · rw [List.filter_cons_of_pos hx, List.filter_cons_of_pos (by rw [reload_named]; exact hx), ih]; rfl
      · rw [List.filter_cons_of_neg hx, List.filter_cons_of_neg (by rw [reload_named]; exact hx), ih]
    | text b v =>
      have hn : isNamed x (.text b v) = false := rfl
      rw [List.filter_cons_of_neg (by rw [hn]; simp)]
      cases b with
      | true =>
        dsimp only
        rw [List.filter_cons_of_neg (by rw [reload_named, hn]; simp), ih]
      | false =>
        dsimp only
        split
        · exact ih
        · rw [List.filter_cons_of_neg (by rw [show isNamed x (.text false (eol v)) = false from rfl]; simp), ih]

theorem newChannels_filter (doc : Node) (s : Settings ℚ) (coerce : Int → Additional → Additional) (count : Int) {n0 : Node} (h0 : n0.isElement = true) :
    (newChannels doc s coerce count n0).children.filter (isNamed "Channel".toList) = (List.range count.toNat).map (chanNode (infoChannels doc) s coerce) ∧
    (newChannels doc s coerce count n0).children.filter (fun c => !isNamed "Channel".toList c) = n0.children.filter (fun c => !isNamed "Channel".toList c) := by
  cases n0 with
  | text _ _ => cases h0
  | element nm as cs =>
    unfold newChannels
    simp only [Node.setChildren, Node.children]
    rw [List.filter_append, List.filter_append, List.filter_filter, List.filter_filter]
    constructor
    · rw [List.filter_eq_nil_iff.2 (by intro c _; simp), List.nil_append, List.filter_eq_self.2]
      intro c hc
      obtain ⟨k, _, rfl⟩ := List.mem_map.1 hc
      exact chanNode_named _ _ _ _
    · have hnil : ((List.range count.toNat).map (chanNode (infoChannels doc) s coerce)).filter (fun c => !isNamed "Channel".toList c) = [] := by
        rw [List.filter_eq_nil_iff]
        intro c hc
        obtain ⟨k, _, rfl⟩ := List.mem_map.1 hc
        rw [chanNode_named]; simp
      rw [hnil, List.append_nil]
      congr 1
      funext c
      cases isNamed "Channel".toList c <;> rfl

theorem getDisplay_eq (doc : Node) : getDisplay doc = match resolve doc (namesPath displayParts) with
    | none => .ok none
    | some chs => match readChannels 0 (chs.children.filter (isNamed "Channel".toList)) with
      | .ok s => .ok (some s)
      | _ => .undefined := by
  have hsplit : namesPath displayParts = namesPath ["Metadata".toList, "DisplaySetting".toList] ++ [.first "Channels".toList] := rfl
  rw [getDisplay, findPath_eq, hsplit, resolve_append]
  cases resolve doc (namesPath ["Metadata".toList, "DisplaySetting".toList]) with
  | none => rfl
  | some n =>
    dsimp only
    rw [createFromXml, Option.bind_some, resolve_one]
    cases childNamed n "Channels".toList <;> rfl

theorem getDisplay_written {s : Settings ℚ} (hs : AllConsistent s) (hd : AllDouble s) {count : Int} (coerce : Int → Additional → Additional) {doc doc' n0 : Node} (h0 : n0.isElement = true)
    (hr : resolve doc' (namesPath displayParts) = some (newChannels doc s coerce count n0)) :
    getDisplay doc' = .ok (some ((List.range count.toNat).map (fun c : Nat => ((c : Int), readView s c)))) ∧
    getDisplay (reload doc') = .ok (some ((List.range count.toNat).map (fun c : Nat => ((c : Int), readView s c)))) := by
  constructor
  · rw [getDisplay_eq, hr]
    dsimp only
    rw [(newChannels_filter doc s coerce count h0).1, List.range_eq_range']
    have := readChannels_eq (fun c => (readChan hs hd (infoChannels doc) coerce c).1) count.toNat 0
    rw [Nat.cast_zero] at this
    rw [this]
  · rw [getDisplay_eq, resolve_reload, hr]
    dsimp only [Option.map_some]
    rw [reload_children, filter_reload, (newChannels_filter doc s coerce count h0).1, List.range_eq_range', List.map_map]
    have := readChannels_eq (f := reload ∘ chanNode (infoChannels doc) s coerce) (fun c => (readChan hs hd (infoChannels doc) coerce c).2) count.toNat 0
    rw [Nat.cast_zero] at this
    rw [this]

end Verif.Xml
