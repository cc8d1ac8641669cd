import Verif.Props.Accessor

/-!
# C46 The pyramid-layer tile accessor
-/

namespace Verif
open Spec Blit Accessor

/-! ## Helpers -/

theorem sizeOfPixelLoop_eq (factor : Nat) : ∀ (n f : Nat), f ≤ 2147483647 →
    sizeOfPixelLoop factor n f = if f * factor ^ n ≤ 2147483647 then some (f * factor ^ n) else none := by
  intro n
  induction n with
  | zero => intro f hf; simp [sizeOfPixelLoop, hf]
  | succ n ih =>
    intro f hf
    unfold sizeOfPixelLoop
    have he : f * factor ^ (n + 1) = f * factor * factor ^ n := by rw [Nat.pow_succ]; ac_rfl
    by_cases h : f * factor > 2147483647
    · rw [if_pos h]
      have h0 : 0 < factor := by
        rcases Nat.eq_zero_or_pos factor with h1 | h1
        · rw [h1] at h; simp at h
        · exact h1
      have h1 : f * factor * 1 ≤ f * factor * factor ^ n := Nat.mul_le_mul_left _ (Nat.pow_pos h0)
      rw [if_neg (by omega)]
    · rw [if_neg h, ih _ (by omega), he]

theorem layerLoop_iff (factor : Nat) (m : Int) : ∀ (rounds f layer L : Nat), f ≤ 2147483647 →
    (layerLoop factor m rounds f layer = some L ↔
      ∃ n < rounds, L = layer + n ∧ m ≤ ((f * factor ^ n : Nat) : Int) ∧ (∀ l < n, ((f * factor ^ l : Nat) : Int) < m) ∧
        ∀ l ≤ n, f * factor ^ l ≤ 2147483647) := by
  intro rounds
  induction rounds with
  | zero => intro f layer L _; simp [layerLoop]
  | succ r ih =>
    intro f layer L hf
    unfold layerLoop
    by_cases h : (f : Int) ≥ m
    · rw [if_pos h]
      constructor
      · intro hL
        injection hL with hL
        refine ⟨0, by omega, by omega, by simpa using h, by intro l hl; omega, ?_⟩
        intro l hl
        have : l = 0 := by omega
        subst this; simpa using hf
      · rintro ⟨n, _, h2, _, h4, _⟩
        rcases Nat.eq_zero_or_pos n with h0 | h0
        · subst h0; rw [h2]; rfl
        · have := h4 0 h0
          simp only [Nat.pow_zero, Nat.mul_one] at this
          omega
    · rw [if_neg h]
      have hs : ∀ l, f * factor ^ (l + 1) = f * factor * factor ^ l := by intro l; rw [Nat.pow_succ]; ac_rfl
      by_cases h5 : f * factor > 2147483647
      · rw [if_pos h5]
        constructor
        · intro h; cases h
        · rintro ⟨n, _, _, h3, _, h6⟩
          rcases Nat.eq_zero_or_pos n with h0 | h0
          · subst h0; simp only [Nat.pow_zero, Nat.mul_one] at h3; omega
          · have := h6 1 h0
            rw [Nat.pow_one] at this
            omega
      · rw [if_neg h5, ih _ _ _ (by omega)]
        constructor
        · rintro ⟨n, h1, h2, h3, h4, h6⟩
          refine ⟨n + 1, by omega, by omega, by rw [hs]; exact h3, ?_, ?_⟩
          · intro l hl
            cases l with
            | zero => simp only [Nat.pow_zero, Nat.mul_one]; omega
            | succ l => rw [hs]; exact h4 l (by omega)
          · intro l hl
            cases l with
            | zero => simpa using hf
            | succ l => rw [hs]; exact h6 l (by omega)
        · rintro ⟨n, h1, h2, h3, h4, h6⟩
          cases n with
          | zero => simp only [Nat.pow_zero, Nat.mul_one] at h3; omega
          | succ n =>
            refine ⟨n, by omega, by omega, by rw [← hs]; exact h3, ?_, ?_⟩
            · intro l hl; rw [← hs]; exact h4 (l + 1) (by omega)
            · intro l hl; rw [← hs]; exact h6 (l + 1) (by omega)

theorem roundQuotient_iff (a : Int) (b : Nat) (hb : 0 < b) (r : Int) : Nearest a b r ↔ roundQuotient a b = r := by
  have hb2 : (0 : Int) < 2 * (b : Int) := by omega
  unfold Nearest roundQuotient
  by_cases h : 0 ≤ a
  · rw [if_pos h, if_pos h]
    have e1 : (2 * r - 1) * (b : Int) = r * (2 * b) - b := by rw [Int.sub_mul]; rw [Int.one_mul]; rw [Int.mul_comm 2 r, Int.mul_assoc]
    have e2 : (2 * r + 1) * (b : Int) = r * (2 * b) + b := by rw [Int.add_mul]; rw [Int.one_mul]; rw [Int.mul_comm 2 r, Int.mul_assoc]
    have e3 : (r + 1) * (2 * (b : Int)) = r * (2 * b) + 2 * b := by rw [Int.add_mul, Int.one_mul]
    constructor
    · rintro ⟨h1, h2⟩
      have k1 : r ≤ (2 * a + b) / (2 * b) := (Int.le_ediv_iff_mul_le hb2).mpr (by omega)
      have k2 : (2 * a + b) / (2 * b) < r + 1 := (Int.ediv_lt_iff_lt_mul hb2).mpr (by omega)
      omega
    · intro hr
      have k1 : r ≤ (2 * a + b) / (2 * b) := by omega
      have k2 : (2 * a + b) / (2 * b) < r + 1 := by omega
      rw [Int.le_ediv_iff_mul_le hb2] at k1
      rw [Int.ediv_lt_iff_lt_mul hb2] at k2
      omega
  · rw [if_neg h, if_neg h]
    have e1 : (2 * r - 1) * (b : Int) = r * (2 * b) - b := by rw [Int.sub_mul]; rw [Int.one_mul]; rw [Int.mul_comm 2 r, Int.mul_assoc]
    have e2 : (2 * r + 1) * (b : Int) = r * (2 * b) + b := by rw [Int.add_mul]; rw [Int.one_mul]; rw [Int.mul_comm 2 r, Int.mul_assoc]
    have e3 : (-r + 1) * (2 * (b : Int)) = -(r * (2 * b)) + 2 * b := by rw [Int.add_mul, Int.one_mul, Int.neg_mul]
    have e4 : -r * (2 * (b : Int)) = -(r * (2 * b)) := by rw [Int.neg_mul]
    constructor
    · rintro ⟨h1, h2⟩
      have k1 : -r ≤ (2 * (-a) + b) / (2 * b) := (Int.le_ediv_iff_mul_le hb2).mpr (by omega)
      have k2 : (2 * (-a) + b) / (2 * b) < -r + 1 := (Int.ediv_lt_iff_lt_mul hb2).mpr (by omega)
      omega
    · intro hr
      have k1 : -r ≤ (2 * (-a) + b) / (2 * b) := by omega
      have k2 : (2 * (-a) + b) / (2 * b) < -r + 1 := by omega
      rw [Int.le_ediv_iff_mul_le hb2] at k1
      rw [Int.ediv_lt_iff_lt_mul hb2] at k2
      omega

/-- The stored size of the sub-block is that of a non-empty bitmap. -/
def StoredOk (e : Entry) : Prop :=
  0 < e.storedWidth ∧ e.storedWidth ≤ 2147483647 ∧ 0 < e.storedHeight ∧ e.storedHeight ≤ 2147483647

theorem toUInt32_of {v : Int} (h1 : 0 ≤ v) (h2 : v ≤ 2147483647) : toUInt32 v = v.toNat := by
  unfold toUInt32
  congr 1
  exact Int.emod_eq_of_lt h1 (by omega)

theorem minFactorOf_iff (e : Entry) (h : StoredOk e) (r : Int) : Minification e r ↔ minFactorOf e = some r := by
  obtain ⟨h1, h2, h3, h4⟩ := h
  unfold Minification minFactorOf
  rw [toUInt32_of (by omega) h2, toUInt32_of (by omega) h4]
  by_cases hc : e.storedWidth > e.storedHeight
  · rw [if_pos hc, if_pos (by omega), roundQuotient_iff _ _ (by omega), Option.some.injEq]
  · rw [if_neg hc, if_neg (by omega), if_neg (by omega), roundQuotient_iff _ _ (by omega), Option.some.injEq]

theorem pow_le_of_le (factor n l : Nat) (hl : l ≤ n) (h : factor ^ n ≤ 2147483647) : factor ^ l ≤ 2147483647 := by
  rcases Nat.eq_zero_or_pos factor with h0 | h0
  · subst h0
    rcases Nat.eq_zero_or_pos l with h1 | h1
    · subst h1; simp
    · rw [Nat.zero_pow h1]; omega
  · exact Nat.le_trans (Nat.pow_le_pow_right h0 hl) h

/-! ## C46 -/

/-- **C46 (which layer).** For every sub-block with a non-empty stored size and every minification factor: the layer number
computed for it is `n` iff `n` is the least number such that `factor^n` reaches the sub-block's minification (and that power is an
`int`); in all other cases - no such power, or overflow - the computation has undefined behaviour or does not end. -/
theorem C46_layer_number (e : Entry) (h : StoredOk e) (factor n : Nat) :
    pyramidLayerNo e factor = some n ↔ OnLayer factor n e ∧ factor ^ n ≤ 2147483647 := by
  unfold pyramidLayerNo OnLayer
  rw [Option.bind_eq_some_iff]
  constructor
  · rintro ⟨m, h1, h2⟩
    rw [layerLoop_iff _ _ _ _ _ _ (by omega)] at h2
    obtain ⟨n', _, g2, g3, g4, g5⟩ := h2
    simp only [Nat.one_mul, Nat.zero_add] at g2 g3 g4 g5
    subst g2
    exact ⟨⟨m, (minFactorOf_iff e h m).mpr h1, g3, g4⟩, g5 _ (Nat.le_refl _)⟩
  · rintro ⟨⟨m, h1, h2, h3⟩, h4⟩
    refine ⟨m, (minFactorOf_iff e h m).mp h1, ?_⟩
    rw [layerLoop_iff _ _ _ _ _ _ (by omega)]
    refine ⟨n, ?_, by omega, by simpa using h2, by simpa using h3, ?_⟩
    · rcases Nat.lt_or_ge factor 2 with hf | hf
      · rcases Nat.eq_zero_or_pos n with h0 | h0
        · omega
        · exfalso
          have h5 := h3 0 h0
          rw [Nat.pow_zero] at h5
          have h6 : factor ^ n ≤ 1 := by
            have : factor ≤ 1 := by omega
            calc factor ^ n ≤ 1 ^ n := Nat.pow_le_pow_left this n
              _ = 1 := Nat.one_pow n
          omega
      · have h7 : 2 ^ n ≤ factor ^ n := Nat.pow_le_pow_left hf n
        have h8 : n < 2 ^ n := Nat.lt_two_pow_self
        omega
    · intro l hl
      rw [Nat.one_mul]
      exact pow_le_of_le factor n l hl h4

/-- **C46 (every sub-block has a layer).** With a minification factor of at least 2, the layer number is computed - the loop ends
without overflow - for every sub-block whose minification times the factor is an `int`. -/
theorem C46_layer_exists (e : Entry) (h : StoredOk e) (factor : Nat) (hf : 2 ≤ factor) (r : Int) (hr : Minification e r)
    (hb : r * factor ≤ 2147483647) : ∃ n, pyramidLayerNo e factor = some n ∧ OnLayer factor n e := by
  have hex : ∃ n, r ≤ ((factor ^ n : Nat) : Int) := by
    refine ⟨r.toNat, ?_⟩
    have h7 : 2 ^ r.toNat ≤ factor ^ r.toNat := Nat.pow_le_pow_left hf _
    have h8 : r.toNat < 2 ^ r.toNat := Nat.lt_two_pow_self
    omega
  have h1 := Nat.find_spec hex
  have h2 : ∀ l < Nat.find hex, ((factor ^ l : Nat) : Int) < r := by
    intro l hl
    have := Nat.find_min hex hl
    omega
  generalize Nat.find hex = n at h1 h2
  have h3 : OnLayer factor n e := ⟨r, hr, h1, h2⟩
  refine ⟨n, (C46_layer_number e h factor n).mpr ⟨h3, ?_⟩, h3⟩
  cases n with
  | zero => simp
  | succ n =>
    have h4 := h2 n (by omega)
    have h5 : ((factor ^ n : Nat) : Int) * factor ≤ r * factor := Int.mul_le_mul_of_nonneg_right (by omega) (by omega)
    have h6 : ((factor ^ (n + 1) : Nat) : Int) = ((factor ^ n : Nat) : Int) * factor := by rw [Nat.pow_succ]; simp
    omega

theorem exampleLayer : StoredOk ⟨fun _ => none, 0, 0, 0, 1000, 800, 250, 200, 0, 0, 0, 0⟩ ∧
    Minification ⟨fun _ => none, 0, 0, 0, 1000, 800, 250, 200, 0, 0, 0, 0⟩ 4 ∧ (4 : Int) * (2 : Nat) ≤ 2147483647 := by
  simp [StoredOk, Minification, Nearest]

/-- A sub-block of logical size 1000x800 stored as 250x200 is on layer 2 for the factor 2, and on layer 2 for the factor 3. -/
example : pyramidLayerNo ⟨fun _ => none, 0, 0, 0, 1000, 800, 250, 200, 0, 0, 0, 0⟩ 2 = some 2 ∧
    pyramidLayerNo ⟨fun _ => none, 0, 0, 0, 1000, 800, 250, 200, 0, 0, 0, 0⟩ 3 = some 2 := by decide +kernel

/-! ### Selection -/

theorem scene_iff (scene : Option (Int → Bool)) (e : Entry) :
    sceneRejects scene e = false ↔ PassesScene scene e := by
  unfold PassesScene sceneRejects
  cases scene with
  | none => simp
  | some c =>
    cases e.coordinate .S with
    | none => simp
    | some s => simp

open Classical in
theorem planeSubBlocks_eq (items : List Item) (plane : Coord) (scene : Option (Int → Bool)) (roi : IntRect) :
    planeSubBlocks items plane scene roi =
      items.filter (fun p => Matches (some plane) (some roi) false p.2 ∧ PassesScene scene p.2) := by
  unfold planeSubBlocks
  rw [C19_subset_exact]
  have hf : (fun (st : List Item) (i : Int) (e : Entry) =>
      if sceneRejects scene e = true then (true, st)
      else if roi.doIntersect e.rect = true then (true, st ++ [(i, e)]) else (true, st)) =
      (fun (st : List Item) (i : Int) (e : Entry) =>
        if (decide (PassesScene scene e) && roi.doIntersect e.rect) = true then (true, st ++ [(i, e)]) else (true, st)) := by
    funext st i e
    by_cases hp : PassesScene scene e
    · rw [(scene_iff scene e).mpr hp]
      simp [hp]
    · have : sceneRejects scene e = true := by
        rw [← scene_iff] at hp
        simpa using hp
      rw [this]
      simp [hp]
  rw [hf, present_collect (fun _ e => decide (PassesScene scene e) && roi.doIntersect e.rect), List.nil_append, List.filter_filter]
  apply List.filter_congr
  intro p _
  have hi : roi.doIntersect p.2.rect = true ↔ ∃ px py, roi.Has px py ∧ IntRect.Has ⟨p.2.x, p.2.y, p.2.width, p.2.height⟩ px py :=
    doIntersect_iff_shared roi p.2.rect
  rw [Bool.eq_iff_iff]
  simp only [Bool.and_eq_true, decide_eq_true_eq, hi]
  unfold Matches
  simp only [Option.some.injEq, forall_eq', reduceCtorEq, false_imp_iff, implies_true, and_true, true_and, Bool.false_eq_true]
  constructor
  · rintro ⟨⟨a, b⟩, c⟩; exact ⟨⟨c, b⟩, a⟩
  · rintro ⟨⟨a, b⟩, c⟩; exact ⟨⟨c, b⟩, a⟩

theorem mapM_some {α β : Type} (g : α → Option β) (d : α → β) : ∀ (l : List α), (∀ p ∈ l, g p = some (d p)) →
    l.mapM g = some (l.map d) := by
  intro l
  induction l with
  | nil => intro _; rfl
  | cons a l ih =>
    intro h
    rw [List.mapM_cons, h a (by simp), ih (fun p hp => h p (by simp [hp]))]
    rfl

theorem mapM_none {α β : Type} (g : α → Option β) : ∀ (l : List α), (∃ p ∈ l, g p = none) → l.mapM g = none := by
  intro l
  induction l with
  | nil => rintro ⟨p, hp, _⟩; cases hp
  | cons a l ih =>
    rintro ⟨p, hp, hn⟩
    rw [List.mapM_cons]
    rcases List.mem_cons.mp hp with rfl | hp
    · rw [hn]; rfl
    · rw [ih ⟨p, hp, hn⟩]
      cases g a <;> rfl

theorem layerOf_eq (factor no : Nat) (l : List Item) (h : ∀ p ∈ l, ∃ n, pyramidLayerNo p.2 factor = some n) :
    layerOf factor no l = some (if l.filter (fun p => pyramidLayerNo p.2 factor = some no) = [] then none
      else some (l.filter (fun p => pyramidLayerNo p.2 factor = some no))) := by
  unfold layerOf
  rw [mapM_some _ (fun p => ((pyramidLayerNo p.2 factor).getD 0, p)) l (by
    intro p hp
    obtain ⟨n, hn⟩ := h p hp
    rw [hn]; rfl)]
  dsimp only
  have he : ((l.map (fun p => ((pyramidLayerNo p.2 factor).getD 0, p))).filter (fun q => q.1 = no)).map (·.2) =
      l.filter (fun p => pyramidLayerNo p.2 factor = some no) := by
    rw [List.filter_map, List.map_map]
    have : ((fun q : Nat × Item => q.2) ∘ fun p : Item => ((pyramidLayerNo p.2 factor).getD 0, p)) = id := rfl
    rw [this, List.map_id]
    apply List.filter_congr
    intro p hp
    obtain ⟨n, hn⟩ := h p hp
    simp [hn]
  rw [he]
  split
  · rename_i heq
    rw [if_pos heq]
  · rename_i hne
    rw [if_neg hne]

theorem layerOf_none (factor no : Nat) (l : List Item) (h : ∃ p ∈ l, pyramidLayerNo p.2 factor = none) :
    layerOf factor no l = none := by
  unfold layerOf
  obtain ⟨p, hp, hn⟩ := h
  rw [mapM_none _ l ⟨p, hp, by rw [hn]; rfl⟩]

/-! ### Requests -/

/-- The size of a pixel of the requested layer, in pixels of layer 0. -/
def pixelSize (info : LayerRequest) : Nat := info.factor.toNat ^ info.layerNo.toNat

/-- The region of layer 0 covered by the resulting bitmap. -/
def coveredRegion (info : LayerRequest) (roi : IntRect) : IntRect :=
  ⟨roi.x, roi.y, roi.w / pixelSize info * pixelSize info, roi.h / pixelSize info * pixelSize info⟩

/-- The request makes sense: a pixel of the requested layer has a size, as an `int`, and the ROI contains at least one. -/
def RequestOk (info : LayerRequest) (roi : IntRect) : Prop :=
  0 < pixelSize info ∧ pixelSize info ≤ 2147483647 ∧ pixelSize info ≤ roi.w ∧ roi.w ≤ 2147483647 ∧
    pixelSize info ≤ roi.h ∧ roi.h ≤ 2147483647

/-- Sub-block `p` as a tile of the resulting bitmap. -/
def tileOnLayer (pix : Pictures) (info : LayerRequest) (roi : IntRect) (p : Item) : Tile :=
  ⟨(p.2.x - roi.x).tdiv (pixelSize info), (p.2.y - roi.y).tdiv (pixelSize info), (pix p.1).1, (pix p.1).2⟩

/-- The sub-blocks to consider: in the plane, passing the scene filter, and sharing a pixel with the region. -/
def Selected (items : List Item) (plane : Coord) (scene : Option (Int → Bool)) (region : IntRect) (p : Item) : Prop :=
  p ∈ items ∧ Matches (some plane) (some region) false p.2 ∧ PassesScene scene p.2

theorem mul_div_le_int (a : Int) (f : Nat) (ha : 0 ≤ a) : a / f * f ≤ a := by
  have := Int.ediv_mul_le a (b := (f : Int))
  rcases Nat.eq_zero_or_pos f with h | h
  · subst h; simp; exact ha
  · exact Int.ediv_mul_le a (by omega)

/-- The beginning of `Get` for a sensible request. -/
theorem pyramidGet_start (sort : List Item → List Item) (hsort : SortsBy mKey sort) (k : Kind) (items : List Item) (bounds : Bounds) (plane : Coord)
    (scene : Option (Int → Bool)) (sortByM : Bool) (info : LayerRequest) (pix : Pictures) (create : Nat → Nat → Bitmap)
    (roi : IntRect) (h : RequestOk info roi) (hplane : checkPlane bounds plane = none)
    (hc : ∀ w h, (create w h).w = w ∧ (create w h).h = h) :
    ∃ L : List Item, (∀ p, p ∈ L ↔ Selected items plane scene (coveredRegion info roi) p) ∧
      (sortByM = true → L.Pairwise (fun a b => mKey a ≤ mKey b)) ∧
      pyramidGet sort k items bounds plane scene sortByM info pix create roi =
        if L.isEmpty then .picture (create (roi.w / pixelSize info).toNat (roi.h / pixelSize info).toNat)
        else
          match layerOf info.factor.toNat info.layerNo.toNat L with
          | none => .undefined
          | some none => .outOfRange
          | some (some tiles) =>
            match composeTiles k 0 0 (tiles.map (tileOnLayer pix info roi))
              (create (roi.w / pixelSize info).toNat (roi.h / pixelSize info).toNat) with
            | none => .undefined
            | some out => .picture out := by
  classical
  obtain ⟨h1, h2, h3, h4, h5, h6⟩ := h
  have hsz : sizeOfPixel info = some (pixelSize info) := by
    unfold sizeOfPixel
    rw [sizeOfPixelLoop_eq _ _ _ (by omega), Nat.one_mul]
    exact if_pos h2
  have hd : ∀ a : Int, (pixelSize info : Int) ≤ a → a ≤ 2147483647 →
      toUInt32 (a.tdiv (pixelSize info)) = (a / (pixelSize info : Int)).toNat ∧ 0 < a / (pixelSize info : Int) ∧
      ((a / (pixelSize info : Int)).toNat * pixelSize info : Nat) = a / (pixelSize info : Int) * (pixelSize info : Int) ∧
      a / (pixelSize info : Int) * (pixelSize info : Int) ≤ 2147483647 := by
    intro a ha hb
    have e1 : a.tdiv (pixelSize info) = a / (pixelSize info : Int) := Int.tdiv_eq_ediv_of_nonneg (by omega)
    have e2 : 0 < a / (pixelSize info : Int) := by
      have := (Int.le_ediv_iff_mul_le (c := (pixelSize info : Int)) (by omega) (a := 1) (b := a)).mpr (by omega)
      omega
    have e3 := mul_div_le_int a (pixelSize info) (by omega)
    have e4 : a / (pixelSize info : Int) ≤ a := Int.ediv_le_self _ (by omega)
    refine ⟨by rw [e1, toUInt32_of (by omega) (by omega)], e2, ?_, by omega⟩
    rw [Int.natCast_mul, Int.toNat_of_nonneg (by omega)]
  obtain ⟨w1, w2, w3, w4⟩ := hd roi.w h3 h4
  obtain ⟨v1, v2, v3, v4⟩ := hd roi.h h5 h6
  refine ⟨if sortByM then sort (planeSubBlocks items plane scene (coveredRegion info roi))
    else planeSubBlocks items plane scene (coveredRegion info roi), ?_, ?_, ?_⟩
  · intro p
    have : p ∈ (if sortByM then sort (planeSubBlocks items plane scene (coveredRegion info roi))
        else planeSubBlocks items plane scene (coveredRegion info roi)) ↔
        p ∈ planeSubBlocks items plane scene (coveredRegion info roi) := by
      split
      · exact (hsort _).1.mem_iff
      · exact Iff.rfl
    rw [this, planeSubBlocks_eq, List.mem_filter, decide_eq_true_eq]
    rfl
  · intro hb
    rw [if_pos hb]
    exact (hsort _).2
  · unfold pyramidGet
    rw [hsz]
    dsimp only
    rw [if_neg (by omega), w1, v1, if_neg (by omega)]
    unfold pyramidInternalGet
    rw [hplane]
    dsimp only
    rw [(hc _ _).1, (hc _ _).2, if_neg (by omega), w3, v3]
    have h0 : ¬ pixelSize info = 0 := by omega
    simp only [h0, if_false]
    rfl

/-- **C46 (partial: the requested layer must have a tile in the region, or no layer may have one there; sub-blocks must have a
computable layer; no tile borders).** For every repository, plane, scene filter, requested layer and ROI of at least one pixel of
that layer, sorted by m-index: the accessor returns a bitmap of the ROI's size divided by the pixel size, in which every pixel has
the value of a sub-block of exactly the requested layer that covers it and above which there is no other one covering it, or the
background if there is none. Full statement: the same without the first restriction - violated, see `C46_empty_layer_throws`. -/
theorem C46_layer_picture_partial (sort : List Item → List Item) (hsort : SortsBy mKey sort) (k : Kind) (items : List Item)
    (bounds : Bounds) (plane : Coord) (scene : Option (Int → Bool)) (info : LayerRequest) (pix : Pictures)
    (create : Nat → Nat → Bitmap) (roi : IntRect) (hreq : RequestOk info roi) (hplane : checkPlane bounds plane = none)
    (hcreate : ∀ w h, (create w h).w = w ∧ (create w h).h = h ∧ (create w h).WF k.db)
    (hitems : ∀ p, Selected items plane scene (coveredRegion info roi) p → -2147483648 ≤ p.2.mIndex ∧ StoredOk p.2 ∧
      (∃ n, OnLayer info.factor.toNat n p.2 ∧ info.factor.toNat ^ n ≤ 2147483647) ∧ TileOk k (tileOnLayer pix info roi p))
    (hlayer : (∃ p, Selected items plane scene (coveredRegion info roi) p ∧ OnLayer info.factor.toNat info.layerNo.toNat p.2) ∨
      ∀ p, ¬ Selected items plane scene (coveredRegion info roi) p) :
    ∃ out, pyramidGet sort k items bounds plane scene true info pix create roi = .picture out ∧
      (out.w : Int) = roi.w / pixelSize info ∧ (out.h : Int) = roi.h / pixelSize info ∧
      ∀ x y j, x < out.w → y < out.h → j < k.db →
        Painted k (fun p => Selected items plane scene (coveredRegion info roi) p ∧
            OnLayer info.factor.toNat info.layerNo.toNat p.2) (tileOnLayer pix info roi) x y j
          ((create out.w out.h).byteAt k.db x y j) (out.byteAt k.db x y j) := by
  obtain ⟨L, hL, hpw, he⟩ := pyramidGet_start sort hsort k items bounds plane scene true info pix create roi hreq hplane
    (fun w h => ⟨(hcreate w h).1, (hcreate w h).2.1⟩)
  have hpw := hpw rfl
  have hpow : info.factor.toNat ^ info.layerNo.toNat ≤ 2147483647 := hreq.2.1
  have hw0 : 0 ≤ roi.w / (pixelSize info : Int) := Int.ediv_nonneg (by have := hreq.2.2.1; omega) (by omega)
  have hh0 : 0 ≤ roi.h / (pixelSize info : Int) := Int.ediv_nonneg (by have := hreq.2.2.2.2.1; omega) (by omega)
  obtain ⟨c1, c2, c3⟩ := hcreate (roi.w / pixelSize info).toNat (roi.h / pixelSize info).toNat
  have key : ∀ p, Selected items plane scene (coveredRegion info roi) p → (pyramidLayerNo p.2 info.factor.toNat = some info.layerNo.toNat ↔
      OnLayer info.factor.toNat info.layerNo.toNat p.2) := by
    intro p hp
    rw [C46_layer_number p.2 (hitems p hp).2.1]
    exact ⟨fun h => h.1, fun h => ⟨h, hpow⟩⟩
  rw [he]
  by_cases hemp : L = []
  · refine ⟨create (roi.w / pixelSize info).toNat (roi.h / pixelSize info).toNat, ?_, ?_, ?_, ?_⟩
    · rw [hemp]; rfl
    · rw [c1, Int.toNat_of_nonneg hw0]
    · rw [c2, Int.toNat_of_nonneg hh0]
    · intro x y j _ _ _
      left
      refine ⟨?_, by rw [c1, c2]⟩
      rintro p ⟨hp, _⟩
      rw [← hL, hemp] at hp
      cases hp
  · have hne : L.isEmpty = false := by cases L with | nil => exact absurd rfl hemp | cons a l => rfl
    rw [hne, if_neg (by simp)]
    have hcomp : ∀ p ∈ L, ∃ n, pyramidLayerNo p.2 info.factor.toNat = some n := by
      intro p hp
      have hi := (hL p).mp hp
      obtain ⟨n, h1, h2⟩ := (hitems p hi).2.2.1
      exact ⟨n, (C46_layer_number p.2 (hitems p hi).2.1 _ _).mpr ⟨h1, h2⟩⟩
    rw [layerOf_eq _ _ L hcomp]
    have hTmem : ∀ p, p ∈ L.filter (fun p => pyramidLayerNo p.2 info.factor.toNat = some info.layerNo.toNat) ↔
        Selected items plane scene (coveredRegion info roi) p ∧ OnLayer info.factor.toNat info.layerNo.toNat p.2 := by
      intro p
      rw [List.mem_filter, decide_eq_true_eq, hL]
      constructor
      · rintro ⟨h1, h2⟩; exact ⟨h1, (key p h1).mp h2⟩
      · rintro ⟨h1, h2⟩; exact ⟨h1, (key p h1).mpr h2⟩
    have hTpw : (L.filter (fun p => pyramidLayerNo p.2 info.factor.toNat = some info.layerNo.toNat)).Pairwise
        (fun a b => mKey a ≤ mKey b) := hpw.sublist List.filter_sublist
    generalize L.filter (fun p => pyramidLayerNo p.2 info.factor.toNat = some info.layerNo.toNat) = T at hTmem hTpw
    have hT : T ≠ [] := by
      rcases hlayer with ⟨p, h1, h2⟩ | h1
      · exact List.ne_nil_of_mem ((hTmem p).mpr ⟨h1, h2⟩)
      · obtain ⟨p, hp⟩ := List.exists_mem_of_ne_nil L hemp
        exact absurd ((hL p).mp hp) (h1 p)
    rw [if_neg hT]
    dsimp only
    have hok : ∀ t ∈ T.map (tileOnLayer pix info roi), TileOk k t := by
      intro t ht
      obtain ⟨p, hp, rfl⟩ := List.mem_map.mp ht
      exact (hitems p ((hTmem p).mp hp).1).2.2.2
    obtain ⟨out, q1, q2, q3, _, _, q6, _⟩ := composeTiles_ok k 0 0 _ _ c3 hok
    rw [q1]
    refine ⟨out, rfl, ?_, ?_, ?_⟩
    · rw [q2, c1, Int.toNat_of_nonneg hw0]
    · rw [q3, c2, Int.toNat_of_nonneg hh0]
    · intro x y j hx hy hj
      rw [q6 x y j (by omega) (by omega) hj, q2, q3, c1, c2, Int.zero_add, Int.zero_add]
      exact sorted_painted k _ _ T _ _ j _ hTpw (fun p hp => (hTmem p).mp hp) (fun p hp _ => (hTmem p).mpr hp)
        (fun p hp => (hitems p ((hTmem p).mp hp).1).1)

/-- **C46 violated:** whenever some sub-block lies in the region, but none of the requested layer does, the accessor throws
`std::out_of_range` instead of returning the background - for every repository, plane and request. -/
theorem C46_empty_layer_throws (sort : List Item → List Item) (hsort : SortsBy mKey sort) (k : Kind) (items : List Item)
    (bounds : Bounds) (plane : Coord) (scene : Option (Int → Bool)) (sortByM : Bool) (info : LayerRequest) (pix : Pictures)
    (create : Nat → Nat → Bitmap) (roi : IntRect) (hreq : RequestOk info roi) (hplane : checkPlane bounds plane = none)
    (hcreate : ∀ w h, (create w h).w = w ∧ (create w h).h = h)
    (hitems : ∀ p, Selected items plane scene (coveredRegion info roi) p → StoredOk p.2 ∧ ∃ n, OnLayer info.factor.toNat n p.2 ∧ info.factor.toNat ^ n ≤ 2147483647)
    (hsome : ∃ p, Selected items plane scene (coveredRegion info roi) p)
    (hnone : ∀ p, Selected items plane scene (coveredRegion info roi) p → ¬ OnLayer info.factor.toNat info.layerNo.toNat p.2) :
    pyramidGet sort k items bounds plane scene sortByM info pix create roi = .outOfRange := by
  obtain ⟨L, hL, _, he⟩ := pyramidGet_start sort hsort k items bounds plane scene sortByM info pix create roi hreq hplane hcreate
  rw [he]
  obtain ⟨p0, hp0⟩ := hsome
  have hmem0 := (hL p0).mpr hp0
  have hne : L.isEmpty = false := by cases L with | nil => cases hmem0 | cons a l => rfl
  rw [hne, if_neg (by simp), layerOf_eq _ _ L (by
    intro p hp
    have hi := (hL p).mp hp
    obtain ⟨h0, n, h1, h2⟩ := hitems p hi
    exact ⟨n, (C46_layer_number p.2 h0 _ _).mpr ⟨h1, h2⟩⟩)]
  have hT : L.filter (fun p => pyramidLayerNo p.2 info.factor.toNat = some info.layerNo.toNat) = [] := by
    rw [List.filter_eq_nil_iff]
    intro p hp
    rw [decide_eq_true_eq]
    intro h
    have hs := (hL p).mp hp
    exact hnone p hs ((C46_layer_number p.2 (hitems p hs).1 _ _).mp h).1
  rw [if_pos hT]

/-- **C46 violated:** with the minification factor 0 or 1, one sub-block with a minification of 2 or more in the region is enough
for the computation of layer numbers never to end (until the layer counter overflows) - whichever layer is requested. -/
theorem C46_factor_too_small (sort : List Item → List Item) (hsort : SortsBy mKey sort) (k : Kind) (items : List Item)
    (bounds : Bounds) (plane : Coord) (scene : Option (Int → Bool)) (sortByM : Bool) (info : LayerRequest) (pix : Pictures)
    (create : Nat → Nat → Bitmap) (roi : IntRect) (hreq : RequestOk info roi) (hplane : checkPlane bounds plane = none)
    (hcreate : ∀ w h, (create w h).w = w ∧ (create w h).h = h) (hf : info.factor.toNat ≤ 1)
    (hsome : ∃ p r, Selected items plane scene (coveredRegion info roi) p ∧ StoredOk p.2 ∧ Minification p.2 r ∧ 2 ≤ r) :
    pyramidGet sort k items bounds plane scene sortByM info pix create roi = .undefined := by
  obtain ⟨L, hL, _, he⟩ := pyramidGet_start sort hsort k items bounds plane scene sortByM info pix create roi hreq hplane hcreate
  rw [he]
  obtain ⟨p0, r, hp0, hst, hmin, hr⟩ := hsome
  have hmem0 := (hL p0).mpr hp0
  have hne : L.isEmpty = false := by cases L with | nil => cases hmem0 | cons a l => rfl
  rw [hne, if_neg (by simp), layerOf_none _ _ L ⟨p0, hmem0, ?_⟩]
  cases h : pyramidLayerNo p0.2 info.factor.toNat with
  | none => rfl
  | some n =>
    exfalso
    obtain ⟨⟨r', h1, h2, _⟩, _⟩ := (C46_layer_number p0.2 hst _ _).mp h
    have h3 : r' = r := by
      rw [minFactorOf_iff _ hst] at h1 hmin
      rw [h1] at hmin
      exact Option.some.inj hmin
    have h6 : info.factor.toNat ^ n ≤ 1 := by
      calc info.factor.toNat ^ n ≤ 1 ^ n := Nat.pow_le_pow_left hf n
        _ = 1 := Nat.one_pow n
    omega

/-- **C46 violated:** with the minification factor 0, every request for a layer other than 0 divides by zero. -/
theorem C46_factor_zero (sort : List Item → List Item) (k : Kind) (items : List Item)
    (bounds : Bounds) (plane : Coord) (scene : Option (Int → Bool)) (sortByM : Bool) (info : LayerRequest) (pix : Pictures)
    (create : Nat → Nat → Bitmap) (roi : IntRect) (hf : info.factor = 0) (hl : info.layerNo ≠ 0) :
    pyramidGet sort k items bounds plane scene sortByM info pix create roi = .undefined := by
  have hn : 0 < info.layerNo.toNat := by
    rcases Nat.eq_zero_or_pos info.layerNo.toNat with h | h
    · exact absurd (UInt8.toNat_inj.mp h) hl
    · exact h
  have h0 : sizeOfPixel info = some 0 := by
    unfold sizeOfPixel
    rw [sizeOfPixelLoop_eq _ _ _ (by omega), hf]
    rw [show (0 : UInt8).toNat = 0 from rfl, Nat.zero_pow hn]
    rfl
  unfold pyramidGet
  rw [h0]
  rfl

/-- **C46 (too small a ROI).** A ROI narrower or lower than one pixel of the requested layer is refused with an exception. -/
theorem C46_roi_too_small (sort : List Item → List Item) (k : Kind) (items : List Item)
    (bounds : Bounds) (plane : Coord) (scene : Option (Int → Bool)) (sortByM : Bool) (info : LayerRequest) (pix : Pictures)
    (create : Nat → Nat → Bitmap) (roi : IntRect) (hp : 0 < pixelSize info ∧ pixelSize info ≤ 2147483647)
    (hw : 0 ≤ roi.w) (hh : 0 ≤ roi.h) (hsmall : roi.w < pixelSize info ∨ roi.h < pixelSize info) :
    pyramidGet sort k items bounds plane scene sortByM info pix create roi = .emptyBitmap := by
  have hsz : sizeOfPixel info = some (pixelSize info) := by
    unfold sizeOfPixel
    rw [sizeOfPixelLoop_eq _ _ _ (by omega), Nat.one_mul]
    exact if_pos hp.2
  unfold pyramidGet
  rw [hsz]
  dsimp only
  rw [if_neg (by omega), if_pos]
  rcases hsmall with h | h
  · left
    rw [Int.tdiv_eq_ediv_of_nonneg hw, Int.ediv_eq_zero_of_lt hw h]
    rfl
  · right
    rw [Int.tdiv_eq_ediv_of_nonneg hh, Int.ediv_eq_zero_of_lt hh h]
    rfl

/-! ### Instances of the hypotheses -/

/-- A plane with a 4x4 sub-block on layer 0 and its 2x2 version on layer 1 (factor 2). -/
def pyramidItem0 : Item := (0, ⟨fun d => if d = .C then some 0 else none, 0, 0, 0, 4, 4, 4, 4, 0, 0, 0, 0⟩)
/-- The 2x2 version. -/
def pyramidItem1 : Item := (1, ⟨fun d => if d = .C then some 0 else none, -2147483648, 0, 0, 4, 4, 2, 2, 0, 0, 0, 0⟩)
/-- Both. -/
def pyramidItems : List Item := [pyramidItem0, pyramidItem1]

theorem pyramidItems_layers : OnLayer 2 0 pyramidItem0.2 ∧ OnLayer 2 1 pyramidItem1.2 := by
  refine ⟨⟨1, ?_, by simp, by intro l hl; omega⟩, ⟨2, ?_, by simp, ?_⟩⟩
  · simp [pyramidItem0, pyramidItem1, Minification, Nearest]
  · simp [pyramidItem0, pyramidItem1, Minification, Nearest]
  · intro l hl
    have : l = 0 := by omega
    subst this; simp

theorem pyramidItems_selected : ∀ p ∈ pyramidItems,
    Selected pyramidItems (fun d => if d = .C then some 0 else none) none ⟨0, 0, 4, 4⟩ p := by
  intro p hp
  refine ⟨hp, ?_, ?_⟩
  · simp only [pyramidItems, List.mem_cons, List.not_mem_nil, or_false] at hp
    rcases hp with rfl | rfl <;>
    · simp only [Matches, Option.some.injEq, forall_eq', Bool.false_eq_true, false_imp_iff, and_true]
      exact ⟨fun _ _ h => h, 0, 0, by simp [IntRect.Has], by simp [IntRect.Has, pyramidItem0, pyramidItem1]⟩
  · intro c hc; cases hc

/-- Instance of the hypotheses of `C46_layer_picture_partial`: layer 1 of the example. -/
example : RequestOk ⟨2, 1⟩ ⟨0, 0, 4, 4⟩ ∧
    (∀ p ∈ pyramidItems, -2147483648 ≤ p.2.mIndex ∧ StoredOk p.2 ∧ (∃ n, OnLayer (2 : UInt8).toNat n p.2 ∧ (2 : UInt8).toNat ^ n ≤ 2147483647) ∧
      TileOk (.same 1) (tileOnLayer (fun i => if i = 0 then (⟨4, 4, 4, ⟨16, fun _ => 1⟩⟩, none) else (⟨2, 2, 2, ⟨4, fun _ => 2⟩⟩, none)) ⟨2, 1⟩ ⟨0, 0, 4, 4⟩ p)) ∧
    ∃ p, Selected pyramidItems (fun d => if d = .C then some 0 else none) none (coveredRegion ⟨2, 1⟩ ⟨0, 0, 4, 4⟩) p ∧
      OnLayer (2 : UInt8).toNat (1 : UInt8).toNat p.2 := by
  refine ⟨by simp [RequestOk, pixelSize], ?_, ?_⟩
  · intro p hp
    obtain ⟨h0, h1⟩ := pyramidItems_layers
    simp only [pyramidItems, List.mem_cons, List.not_mem_nil, or_false] at hp
    rcases hp with rfl | rfl
    · exact ⟨by simp [pyramidItem0, pyramidItem1], by simp [pyramidItem0, pyramidItem1, StoredOk], ⟨0, h0, by simp⟩, by simp [pyramidItem0, pyramidItem1, TileOk, tileOnLayer, Bitmap.WF, Kind.sb, Kind.NoOverread]⟩
    · exact ⟨by simp [pyramidItem0, pyramidItem1], by simp [pyramidItem0, pyramidItem1, StoredOk], ⟨1, h1, by simp⟩, by simp [pyramidItem0, pyramidItem1, TileOk, tileOnLayer, Bitmap.WF, Kind.sb, Kind.NoOverread]⟩
  · exact ⟨pyramidItem1, pyramidItems_selected _ (by simp [pyramidItems]), pyramidItems_layers.2⟩

/-- Instance of the hypotheses of `C46_empty_layer_throws`: layer 2 of the example has no sub-block, although the request is fine. -/
example : RequestOk ⟨2, 2⟩ ⟨0, 0, 4, 4⟩ ∧
    (∃ p, Selected pyramidItems (fun d => if d = .C then some 0 else none) none (coveredRegion ⟨2, 2⟩ ⟨0, 0, 4, 4⟩) p) ∧
    ∀ p ∈ pyramidItems, ¬ OnLayer (2 : UInt8).toNat (2 : UInt8).toNat p.2 := by
  refine ⟨by simp [RequestOk, pixelSize], ⟨pyramidItem1, pyramidItems_selected _ (by simp [pyramidItems])⟩, ?_⟩
  rintro p hp ⟨r, h1, _, h3⟩
  have h4 := h3 1 (by decide)
  simp only [pyramidItems, List.mem_cons, List.not_mem_nil, or_false] at hp
  rcases hp with rfl | rfl <;> simp [pyramidItem0, pyramidItem1, Minification, Nearest] at h1 h4 <;> omega

/-- Instance of the hypotheses of `C46_factor_too_small`: the same sub-blocks with the factor 1. -/
example : RequestOk ⟨1, 0⟩ ⟨0, 0, 4, 4⟩ ∧
    ∃ p r, Selected pyramidItems (fun d => if d = .C then some 0 else none) none (coveredRegion ⟨1, 0⟩ ⟨0, 0, 4, 4⟩) p ∧
      StoredOk p.2 ∧ Minification p.2 r ∧ 2 ≤ r := by
  refine ⟨by simp [RequestOk, pixelSize], pyramidItem1, 2, pyramidItems_selected _ (by simp [pyramidItems]), ?_, ?_, by omega⟩
  · simp [pyramidItem1, StoredOk]
  · simp [pyramidItem0, pyramidItem1, Minification, Nearest]

end Verif
