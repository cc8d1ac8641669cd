import Verif.Model.SubBlock

/-!
# The order of the layers in the pyramid statistics

Models `CSbBlkStatisticsUpdater::SortPyramidStatistics` and `Consolidate`, CziSubBlockDirectory.cpp:165-187 and 324-367.
-/

namespace Verif

/-- The minification of a layer as the comparison computes it, CziSubBlockDirectory.cpp:351-361: the factor, multiplied `pyramidLayerNo - 1` times by
itself, in `int`. (It does not overflow for the layers that are recorded: the largest are 2^10 and 3^7.) -/
def layerScale (l : LayerInfo) : Nat := (List.range (l.2 - 1)).foldl (fun acc _ => acc * l.1) l.1

/-- The comparison given to `std::sort`, CziSubBlockDirectory.cpp:328-364: "goes before". -/
def layerBefore (a b : LayerInfo) : Bool :=
  if a = (0, 0) then true
  else if a = (255, 255) then false
  else if b = (0, 0) then false
  else if b = (255, 255) then true
  else decide (layerScale a < layerScale b)

/-- `SortPyramidStatistics`, CziSubBlockDirectory.cpp:324-367, with `sort` for `std::sort` with the comparison above. -/
def sortLayers (sort : List (LayerInfo × Nat) → List (LayerInfo × Nat)) (p : PyrStats) : PyrStats := p.map (fun x => (x.1, sort x.2))

/-- What happens to the pyramid statistics: a sub-block is added, or somebody asks for them. -/
inductive PyrOp where
  | add (e : Entry)
  | ask

/-- `UpdateStatistics` and `GetPyramidStatistics` with `Consolidate`, CziSubBlockDirectory.cpp:135-187: asking sorts the stored statistics in place.
(`Consolidate` leaves the flag set, so it sorts every time; sorting what is sorted changes nothing.) -/
def pyrStep (sort : List (LayerInfo × Nat) → List (LayerInfo × Nat)) (p : PyrStats) : PyrOp → PyrStats
  | .add e => p.update e
  | .ask => sortLayers sort p

end Verif
