/-
Model of `extraction/include/lidar_feature_extraction/point_label.hpp` and `fill.hpp`.
-/
import Verif.Basic

set_option autoImplicit false

namespace Verif.Extraction

/-- `point_label.hpp` 32-42. -/
inductive PointLabel where
  | default
  | edge
  | edgeNeighbor
  | surface
  | surfaceNeighbor
  | outOfRange
  | occluded
  | parallelBeam
  deriving DecidableEq, Repr

/-- `neighbor.hpp` 50-62: what the fill functions see of a `NeighborCheckBase` object, its `size()`
and its call operator (which may throw). -/
structure NeighborCheck where
  size : ℤ
  test : ℤ → ℤ → Res Bool

/-- `fill.hpp` 60-67: the loop of `FillFromLeft`; the first argument is the number of remaining
iterations `end_index - 1 - i`. -/
def fillLeftLoop (nb : NeighborCheck) (label : PointLabel) :
    ℕ → ℤ → ℤ → List PointLabel → Res (List PointLabel)
  | 0, _, e, labels => setI labels (e - 1) label
  | k + 1, i, e, labels => do
    let labels ← setI labels i label
    let ok ← nb.test i (i + 1)
    if !ok then
      pure labels
    else
      fillLeftLoop nb label k (i + 1) e labels

/-- `fill.hpp` 40-68 `FillFromLeft`. -/
def fillFromLeft (labels : List PointLabel) (nb : NeighborCheck) (b e : ℤ) (label : PointLabel) :
    Res (List PointLabel) :=
  if (labels.length : ℤ) ≠ nb.size then .error .assertFail
  else if e > labels.length then .error .invalidArgument
  else if b < 0 then .error .invalidArgument
  else fillLeftLoop nb label (e - 1 - b).toNat b e labels

/-- `fill.hpp` 91-98: the loop of `FillFromRight`; the first argument is the number of remaining
iterations `i - (begin_index + 1)`. -/
def fillRightLoop (nb : NeighborCheck) (label : PointLabel) :
    ℕ → ℤ → ℤ → List PointLabel → Res (List PointLabel)
  | 0, _, b, labels => setI labels (b + 1) label
  | k + 1, i, b, labels => do
    let labels ← setI labels i label
    let ok ← nb.test i (i - 1)
    if !ok then
      pure labels
    else
      fillRightLoop nb label k (i - 1) b labels

/-- `fill.hpp` 70-99 `FillFromRight`. -/
def fillFromRight (labels : List PointLabel) (nb : NeighborCheck) (b e : ℤ) (label : PointLabel) :
    Res (List PointLabel) :=
  if (labels.length : ℤ) ≠ nb.size then .error .assertFail
  else if e ≥ labels.length then .error .invalidArgument
  else if b < -1 then .error .invalidArgument
  else fillRightLoop nb label (e - (b + 1)).toNat e b labels

/-- `fill.hpp` 101-117 `FillNeighbors`. -/
def fillNeighbors (labels : List PointLabel) (nb : NeighborCheck) (index padding : ℤ)
    (label : PointLabel) : Res (List PointLabel) :=
  if (labels.length : ℤ) ≠ nb.size then .error .assertFail
  else do
    let labels' ← fillFromRight labels nb (max (-1) (index - padding - 1)) index label
    fillFromLeft labels' nb index (min (index + 1 + padding) labels.length) label

end Verif.Extraction
