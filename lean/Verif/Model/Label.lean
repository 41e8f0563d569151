/-
Model of `extraction/include/lidar_feature_extraction/label.hpp` 56-164 and `algorithm.hpp` 65-71.
-/
import Verif.Model.Neighbor
import Verif.Model.IndexRange

set_option autoImplicit false

namespace Verif.Extraction

variable {P K : Type} [LE K] [DecidableLE K]

/-- `label.hpp` 56-59 `InitLabels`. -/
def initLabels (size : ℕ) : List PointLabel := List.replicate size .default

/-- `label.hpp` 88-93: the body of the loop of `EdgeLabel::Assign` for one index. -/
def edgeStep (padding : ℤ) (threshold : K) (curvature : List K) (nb : NeighborCheck)
    (labels : List PointLabel) (index : ℕ) : Res (List PointLabel) := do
  let l ← atI labels index
  if l ≠ .default then
    pure labels
  else
    let c ← atI curvature index
    if ¬ (threshold ≤ c) then
      pure labels
    else
      let labels ← fillNeighbors labels nb index padding .edgeNeighbor
      setI labels index .edge

/-- `label.hpp` 72-95 `EdgeLabel::Assign`. `argsort` stands for `Argsort` (`algorithm.hpp` 65-71):
`std::sort` may order ties in any way, so it is a parameter, constrained in the theorems only by
what the standard promises. -/
def edgeAssign (argsort : List K → List ℕ) (padding : ℤ) (threshold : K)
    (labels : List PointLabel) (curvature : List K) (nb : NeighborCheck) :
    Res (List PointLabel) :=
  if curvature.length ≠ labels.length then .error .assertFail
  else if nb.size ≠ (labels.length : ℤ) then .error .assertFail
  else (argsort curvature).reverse.foldlM (edgeStep padding threshold curvature nb) labels

/-- `label.hpp` 127-132: the body of the loop of `SurfaceLabel::Assign` for one index. -/
def surfaceStep (padding : ℤ) (threshold : K) (curvature : List K) (nb : NeighborCheck)
    (labels : List PointLabel) (index : ℕ) : Res (List PointLabel) := do
  let l ← atI labels index
  if l ≠ .default then
    pure labels
  else
    let c ← atI curvature index
    if ¬ (c ≤ threshold) then
      pure labels
    else
      let labels ← fillNeighbors labels nb index padding .surfaceNeighbor
      setI labels index .surface

/-- `label.hpp` 113-134 `SurfaceLabel::Assign`. The assertion there is `assert(is_neighbor.size())`,
i.e. the size is not zero. -/
def surfaceAssign (argsort : List K → List ℕ) (padding : ℤ) (threshold : K)
    (labels : List PointLabel) (curvature : List K) (nb : NeighborCheck) :
    Res (List PointLabel) :=
  if nb.size = 0 then .error .assertFail
  else (argsort curvature).foldlM (surfaceStep padding threshold curvature nb) labels

/-- `label.hpp` 154-162: one block of `AssignLabel`. The spans (`span.hpp` 64-113) must be valid
sub-ranges, otherwise undefined behaviour; writing through the label span changes the labels of
the ring in `[b, e)`. -/
def assignBlock (argsort : List K → List ℕ) (edgePadding : ℤ) (edgeThreshold : K)
    (surfacePadding : ℤ) (surfaceThreshold : K) (labels : List PointLabel) (curvature : List K)
    (nb : NeighborCheckXY P) (b e : ℤ) : Res (List PointLabel) :=
  if 0 ≤ b ∧ b ≤ e ∧ e ≤ labels.length ∧ e ≤ curvature.length then do
    let view := (labels.drop b.toNat).take (e - b).toNat
    let cview := (curvature.drop b.toNat).take (e - b).toNat
    let sliced ← nb.slice b e
    let view ← edgeAssign argsort edgePadding edgeThreshold view cview sliced.base
    let view ← surfaceAssign argsort surfacePadding surfaceThreshold view cview sliced.base
    pure (labels.take b.toNat ++ view ++ labels.drop e.toNat)
  else .error .undefinedBehaviour

/-- `label.hpp` 141-164 `AssignLabel`. `rnd` is the rounding of the block-boundary computation. -/
def assignLabel (rnd : ℚ → ℚ) (argsort : List K → List ℕ) (edgePadding : ℤ) (edgeThreshold : K)
    (surfacePadding : ℤ) (surfaceThreshold : K) (labels : List PointLabel) (curvature : List K)
    (nb : NeighborCheckXY P) (range : IndexRange) : Res (List PointLabel) :=
  if curvature.length ≠ labels.length then .error .assertFail
  else if nb.size ≠ (labels.length : ℤ) then .error .assertFail
  else (List.range range.nBlocks.toNat).foldlM (fun labels (j : ℕ) => do
    let b ← range.beginWith rnd j
    let e ← range.endWith rnd j
    assignBlock argsort edgePadding edgeThreshold surfacePadding surfaceThreshold
      labels curvature nb b e) labels

end Verif.Extraction
