import Verif.Model.SubBlock
import Verif.Spec.Rect
import Verif.Spec.Coord

/-! # What statistics, subsets, duplicates and bounds are supposed to mean -/

namespace Verif.Spec

/-- `r` is the smallest rectangle enclosing the logical rectangles of all `es`: no edge lies inside of an
entry's rectangle and each edge touches one. -/
def IsBox (r : IntRect) (es : List Entry) : Prop :=
  (∀ e ∈ es, r.x ≤ e.x ∧ r.y ≤ e.y ∧ e.x + e.width ≤ r.x + r.w ∧ e.y + e.height ≤ r.y + r.h) ∧
  (∃ e ∈ es, e.x = r.x) ∧ (∃ e ∈ es, e.y = r.y) ∧
  (∃ e ∈ es, e.x + e.width = r.x + r.w) ∧ (∃ e ∈ es, e.y + e.height = r.y + r.h)

/-- The reported bounding box: invalid if there is nothing, otherwise the smallest enclosing rectangle. -/
def BoxOf (r : IntRect) (es : List Entry) : Prop :=
  (es = [] → r.isValid = false) ∧ (es ≠ [] → IsBox r es)

/-- On layer 0: the physical size equals the logical size. -/
def OnLayer0 (e : Entry) : Prop := e.width = e.storedWidth ∧ e.height = e.storedHeight

instance (e : Entry) : Decidable (OnLayer0 e) := by unfold OnLayer0; infer_instance

/-- The sub-block has an m-index. -/
def HasM (e : Entry) : Prop := e.mIndex ≠ intMin

instance (e : Entry) : Decidable (HasM e) := by unfold HasM; infer_instance

/-- `lo` and `hi` are the smallest and largest value in `l`. -/
def MinMax (l : List Int) (lo hi : Int) : Prop := lo ∈ l ∧ hi ∈ l ∧ ∀ v ∈ l, lo ≤ v ∧ v ≤ hi

/-- The values of dimension `d` occurring in the entries. -/
def values (es : List Entry) (d : Dim) : List Int := es.filterMap (fun e => e.coordinate d)

/-- The entries of scene `k`. -/
def ofScene (es : List Entry) (k : Int) : List Entry := es.filter (fun e => e.coordinate .S = some k)

/-- The entries on layer 0. -/
def layer0 (es : List Entry) : List Entry := es.filter (fun e => OnLayer0 e)

/-- The m-indices occurring. -/
def mIndices (es : List Entry) : List Int := (es.filter (fun e => HasM e)).map (·.mIndex)

/-- The sub-block is in the requested plane, region and (if requested) on layer 0. -/
def Matches (plane : Option Coord) (roi : Option IntRect) (onlyLayer0 : Bool) (e : Entry) : Prop :=
  (∀ c, plane = some c → ∀ d v, c d = some v → e.coordinate d = some v) ∧
  (∀ r, roi = some r → ∃ px py, r.Has px py ∧ IntRect.Has ⟨e.x, e.y, e.width, e.height⟩ px py) ∧
  (onlyLayer0 = true → OnLayer0 e)

/-- Presenting (index, item) pairs to a callback until it answers `false`; the callback's final state. -/
def presentItems {σ α : Type} (f : σ → Int → α → Bool × σ) : List (Int × α) → σ → σ
  | [], st => st
  | (i, a) :: as, st => if (f st i a).1 = true then presentItems f as (f st i a).2 else (f st i a).2

/-- Same zoom, same coordinate and same m-index (or, if both have none, same position). -/
def SameSlot (a b : Entry) : Prop :=
  zoom a = zoom b ∧ (∀ d, a.coordinate d = b.coordinate d) ∧
  ((HasM a ∧ HasM b ∧ a.mIndex = b.mIndex) ∨ (¬ HasM a ∧ ¬ HasM b ∧ a.x = b.x ∧ a.y = b.y))

/-- Identical coordinate and m-index, both on layer 0. -/
def SameTile (a b : Entry) : Prop :=
  (∀ d, a.coordinate d = b.coordinate d) ∧ HasM a ∧ HasM b ∧ a.mIndex = b.mIndex ∧ OnLayer0 a ∧ OnLayer0 b

/-- The statistics describe exactly the sub-blocks `es`. -/
structure StatsExact (s : Stats) (es : List Entry) : Prop where
  count : s.count = es.length
  box : BoxOf s.bbox es
  boxLayer0 : BoxOf s.bbox0 (layer0 es)
  /-- a dimension is reported iff it occurs, with the smallest and largest value occurring -/
  dimPresent : ∀ d, s.dimBounds d = none ↔ values es d = []
  dimRange : ∀ d start size, s.dimBounds d = some (start, size) → MinMax (values es d) start (start + size - 1)
  mRange : mIndices es ≠ [] → MinMax (mIndices es) s.minM s.maxM
  mNone : mIndices es = [] → s.minM = intMax ∧ s.maxM = intMin
  /-- a scene is listed iff it occurs, with the boxes of its sub-blocks -/
  scenePresent : ∀ k, mapFind s.scenes k = none ↔ ofScene es k = []
  sceneBox : ∀ k b b0, mapFind s.scenes k = some (b, b0) → BoxOf b (ofScene es k) ∧ BoxOf b0 (layer0 (ofScene es k))

/-- Entries of scene `k`; entries without scene are filed under `INT_MAX`. -/
def ofSceneKey (es : List Entry) (k : Int) : List Entry :=
  es.filter (fun e => match e.coordinate .S with | some s => s = k | none => k = intMax)

/-- Pyramid statistics are exact: a scene is listed iff it occurs; in it each layer is listed once, with the number of
the scene's sub-blocks on that layer; and the counts add up to the number of its sub-blocks. -/
def PyramidExact (p : PyrStats) (es : List Entry) : Prop :=
  (∀ k, mapFind p k = none ↔ ofSceneKey es k = []) ∧
  ∀ k v, mapFind p k = some v →
    (v.map (·.1)).Nodup ∧
    (∀ l n, (l, n) ∈ v ↔ 0 < n ∧ n = ((ofSceneKey es k).filter (fun e => layerInfo e = l)).length) ∧
    (v.map (·.2)).sum = (ofSceneKey es k).length

/-- Operations on the reader-writer's directory. -/
inductive RWOp where
  /-- unconditional insertion (while parsing the directory of an opened file) -/
  | add (e : Entry)
  /-- insertion by `SyncAddSubBlock` -/
  | tryAdd (e : Entry)
  | modify (k : Int) (e : Entry)
  | remove (k : Int)
  | get (k : Int)
  | statistics
  | pyramidStatistics

/-- Their observable results. -/
inductive RWOut where
  | key (k : Int)
  | rejected
  | done
  | found (e : Entry)
  | notFound
  | stats (s : Stats)
  | pyr (p : PyrStats)

/-- Performing one operation. -/
def rwStep (d : RWDir) : RWOp → RWDir × RWOut
  | .add e => ((d.add e).1, .key (d.add e).2)
  | .tryAdd e => match d.tryAdd e with
    | (d', some k) => (d', .key k)
    | (d', none) => (d', .rejected)
  | .modify k e => match d.tryModify k e with
    | (d', true) => (d', .done)
    | (d', false) => (d', .notFound)
  | .remove k => match d.tryRemove k with
    | (d', some e) => (d', .found e)
    | (d', none) => (d', .notFound)
  | .get k => match d.tryGet k with
    | some e => (d, .found e)
    | none => (d, .notFound)
  | .statistics => ((d.getStatistics).1, .stats (d.getStatistics).2)
  | .pyramidStatistics => ((d.getPyramidStatistics).1, .pyr (d.getPyramidStatistics).2)

/-- Performing a list of operations, collecting the results. -/
def rwRun (d : RWDir) : List RWOp → RWDir × List (RWOp × RWOut)
  | [] => (d, [])
  | op :: ops =>
    let r := rwStep d op
    let rest := rwRun r.1 ops
    (rest.1, (op, r.2) :: rest.2)

/-- One step of a finite map with fresh keys: `m` current contents, `used` the keys ever handed out. -/
inductive KeyStep : (Int → Option Entry) → (Int → Prop) → RWOp → RWOut → (Int → Option Entry) → (Int → Prop) → Prop
  | add (m used e k) : ¬ used k →
      KeyStep m used (.add e) (.key k) (fun j => if j = k then some e else m j) (fun j => j = k ∨ used j)
  | tryAdd (m used e k) : ¬ used k → (¬ ∃ j e', m j = some e' ∧ SameTile e' e) →
      KeyStep m used (.tryAdd e) (.key k) (fun j => if j = k then some e else m j) (fun j => j = k ∨ used j)
  | reject (m used e) : (∃ j e', m j = some e' ∧ SameTile e' e) → KeyStep m used (.tryAdd e) .rejected m used
  | modify (m used e k) : (m k).isSome → KeyStep m used (.modify k e) .done (fun j => if j = k then some e else m j) used
  | modifyNone (m used e k) : m k = none → KeyStep m used (.modify k e) .notFound m used
  | remove (m used k e) : m k = some e → KeyStep m used (.remove k) (.found e) (fun j => if j = k then none else m j) used
  | removeNone (m used k) : m k = none → KeyStep m used (.remove k) .notFound m used
  | get (m used k e) : m k = some e → KeyStep m used (.get k) (.found e) m used
  | getNone (m used k) : m k = none → KeyStep m used (.get k) .notFound m used
  | statistics (m used s) : KeyStep m used .statistics (.stats s) m used
  | pyramid (m used p) : KeyStep m used .pyramidStatistics (.pyr p) m used

/-- A history of steps from the empty map. -/
inductive KeyRun : List (RWOp × RWOut) → (Int → Option Entry) → (Int → Prop) → Prop
  | nil : KeyRun [] (fun _ => none) (fun _ => False)
  | snoc (h m used op out m' used') : KeyRun h m used → KeyStep m used op out m' used' →
      KeyRun (h ++ [(op, out)]) m' used'

/-- What the entries must satisfy: non-negative sizes, an `int` m-index, and at least one dimension if there is an
m-index. -/
def EntryOk (e : Entry) : Prop :=
  (0 ≤ e.width ∧ 0 ≤ e.height) ∧ (e.mIndex ≤ intMax ∧ intMin ≤ e.mIndex) ∧ (HasM e → ∃ d, (e.coordinate d).isSome)

end Verif.Spec
