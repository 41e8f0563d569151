/-
Model of the extraction node: `extraction/app/feature_extraction.cpp` 92-171, with
`lib/include/lidar_feature_library/algorithm.hpp` 39-62 and
`extraction/include/lidar_feature_extraction/label.hpp` 166-179.
-/
import Verif.Model.Convolution
import Verif.Model.Filters
import Verif.Model.Ring
import Verif.Model.Color

set_option autoImplicit false

namespace Verif.Extraction

variable {P K : Type}

/-- `lib/.../algorithm.hpp` 50-62 `GetIndicesByValue`. -/
def getIndicesByValue (labels : List PointLabel) (label : PointLabel) : List ℕ :=
  (List.range labels.length).filter fun i => decide (labels[i]? = some label)

/-- `lib/.../algorithm.hpp` 39-48 `GetByIndices`; `array` is the `at` of the collection. -/
def getByIndices {α : Type} (indices : List ℕ) (array : ℤ → Res α) : Res (List α) :=
  indices.mapM fun (i : ℕ) => array i

/-- `label.hpp` 166-179 `AppendXYZIR`: an output point is an input point (coordinates and ring)
whose intensity is the curvature. -/
def appendXYZIR (output : List (P × K)) (points : List P) (curvature : List K) :
    Res (List (P × K)) :=
  if points.length ≠ curvature.length then .error .assertFail
  else .ok (output ++ points.zip curvature)

/-- `hyper_parameter.hpp` 32-65. `neighbor_degree_threshold` is part of the `Geometry`. -/
structure HyperParameters (K : Type) where
  padding : ℤ
  distanceDiffThreshold : K
  parallelBeamMinRangeRatio : K
  edgeThreshold : K
  surfaceThreshold : K
  minRange : K
  maxRange : K
  nBlocks : ℤ

/-- `hyper_parameter.hpp` 45-53: the assertions of the constructor. -/
def HyperParameters.Valid [Zero K] [LT K] (h : HyperParameters K) : Prop :=
  0 < h.padding ∧ 0 < h.distanceDiffThreshold ∧ 0 < h.parallelBeamMinRangeRatio ∧
  0 < h.edgeThreshold ∧ 0 < h.surfaceThreshold ∧ 0 < h.minRange ∧ 0 < h.maxRange ∧ 0 < h.nBlocks

/-- The operations on points the extraction uses: `XYNorm`, `IsNeighborXY` with the node's
threshold, the angle comparator, the ring field. Instantiated in `Verif/Model/Geometry.lean`. -/
structure Geometry (P K : Type) where
  norm : P → K
  isNb : P → P → Res Bool
  less : P → P → Bool
  ringOf : P → ℤ

/-- What the C++ standard leaves open: the rounding of the block arithmetic, the tie order of the
two uses of `std::sort`, the iteration order of the hash map. -/
structure Platform (K : Type) where
  rnd : ℚ → ℚ
  argsort : List K → List ℕ
  sort : (ℕ → ℕ → Bool) → List ℕ → List ℕ
  order : Rings → Rings

/-- The three clouds under construction (`feature_extraction.cpp` 110-112). -/
structure Clouds (P K : Type) where
  edge : List (P × K)
  surface : List (P × K)
  colored : List (P × RGB)

section
variable [Field K] [LinearOrder K]

/-- `feature_extraction.cpp` 127-140: labels and curvature of one ring. -/
def ringLabels (plat : Platform K) (hp : HyperParameters K) (nb : NeighborCheckXY P)
    (range : Range P K) : Res (List PointLabel × List K) := do
  let labels := initLabels nb.ref.indices.length
  let ranges ← range.interval 0 range.size
  let curvature ← calcCurvature ranges hp.padding
  let indexRange ← PaddedIndexRange.make range.size hp.nBlocks hp.padding
  let labels ← assignLabel plat.rnd plat.argsort hp.padding hp.edgeThreshold hp.padding
    hp.surfaceThreshold labels curvature nb indexRange
  let labels ← labelOccludedPoints labels nb range hp.padding.toNat hp.distanceDiffThreshold
  let labels ← labelOutOfRange labels range hp.minRange hp.maxRange
  let labels ← labelParallelBeamPoints labels range hp.parallelBeamMinRangeRatio
  if (curvature.length : ℤ) ≠ nb.ref.size then .error .assertFail
  else pure (labels, curvature)

/-- `feature_extraction.cpp` 127-153: the body of the `try` for one ring. Appending to the clouds
happens after everything that can throw `invalid_argument` (`ColorPointsByLabel` cannot, see
`labelToColor`), so on `invalid_argument` the clouds are as before. -/
def ringBody (plat : Platform K) (hp : HyperParameters K) (nb : NeighborCheckXY P)
    (range : Range P K) (out : Clouds P K) : Res (Clouds P K) := do
  let (labels, curvature) ← ringLabels plat hp nb range
  let edgeIndices := getIndicesByValue labels .edge
  let edgePoints ← getByIndices edgeIndices nb.ref.at
  let edgeCurvature ← getByIndices edgeIndices (atI curvature)
  let surfaceIndices := getIndicesByValue labels .surface
  let surfacePoints ← getByIndices surfaceIndices nb.ref.at
  let surfaceCurvature ← getByIndices surfaceIndices (atI curvature)
  let edge ← appendXYZIR out.edge edgePoints edgeCurvature
  let surface ← appendXYZIR out.surface surfacePoints surfaceCurvature
  let colored ← colorPointsByLabel nb.ref labels
  pure ⟨edge, surface, out.colored ++ colored⟩

/-- `feature_extraction.cpp` 120-157: one iteration of the ring loop. The constructor of
`NeighborCheckXY` is outside the `try`; only `invalid_argument` is caught. -/
def processRing (plat : Platform K) (hp : HyperParameters K) (geo : Geometry P K) (cloud : List P)
    (out : Clouds P K) (ring : ℤ × List ℕ) : Res (Clouds P K) := do
  let ref : MappedPoints P := ⟨cloud, ring.2⟩
  let nb ← NeighborCheckXY.make ref geo.isNb
  match ringBody plat hp nb ⟨ref, geo.norm⟩ out with
  | .error .invalidArgument => .ok out
  | r => r

/-- `feature_extraction.cpp` 110-157: from the input cloud to the three clouds. -/
def extractClouds (plat : Platform K) (hp : HyperParameters K) (geo : Geometry P K)
    (cloud : List P) : Res (Clouds P K) := do
  let rings ← extractAngleSortedRings plat.sort geo.less geo.ringOf cloud
  let rings := removeSparseRings rings (hp.padding + 1)
  (plat.order rings).foldlM (processRing plat hp geo cloud) ⟨[], [], []⟩

/-- A published cloud message: time stamp (nanoseconds), frame, points. -/
structure CloudMsg (α : Type) where
  stamp : ℤ
  frame : String
  points : List α

/-- Everything the callback does to the outside: whether it asked for a shutdown, and the messages
published on `colored_scan`, `scan_edge`, `scan_surface`. -/
structure CallbackEffect (P : Type) where
  shutdown : Bool
  colored : CloudMsg (P × RGB)
  edge : CloudMsg P
  surface : CloudMsg P

/-- `feature_extraction.cpp` 92-171 `Callback`. A cloud that is not dense or has no ring field
asks for a shutdown but is processed all the same (96-108). `ToPointXYZ` drops the curvature.
Simplification: conversion from and to ROS messages keeps the points as they are; logging is
ignored. -/
def callback (plat : Platform K) (hp : HyperParameters K) (geo : Geometry P K) (stamp : ℤ)
    (isDense ringAvailable : Bool) (cloud : List P) : Res (CallbackEffect P) := do
  let out ← extractClouds plat hp geo cloud
  let frame := "lidar_feature_base_link"
  pure ⟨!isDense || !ringAvailable, ⟨stamp, frame, out.colored⟩, ⟨stamp, frame, out.edge.map Prod.fst⟩,
    ⟨stamp, frame, out.surface.map Prod.fst⟩⟩

end

end Verif.Extraction
