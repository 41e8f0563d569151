/-
The extraction in floating-point arithmetic: the same functions as in `Model/Convolution.lean`,
`Model/Filters.lean`, `Model/Geometry.lean`, `Model/Ring.lean` and `Model/Callback.lean`, where the
result of every operation passes through a rounding function, `dbl` for `double` and `flt` for
`float`. Simplifications: no overflow and no underflow, and the compiler does not contract a product
and a sum to one operation.
-/
import Verif.Model.Geometry

set_option autoImplicit false

namespace Verif.Extraction

/-- The arithmetic of the machine: the rounding of results to `double` and to `float`, and
`std::acos` on `[-1, 1]`. -/
structure Arith where
  dbl : ℝ → ℝ
  flt : ℝ → ℝ
  acos : ℝ → ℝ

namespace Rounded

variable {P : Type} (A : Arith)

/-- `math.hpp` 43-53 `InnerProduct`: `sum += (*first1) * (*first2)`, two operations in `double`. -/
noncomputable def innerProductLoop (sum : ℝ) : List ℝ → List ℝ → Res ℝ
  | [], _ => .ok sum
  | a :: as, b :: bs => innerProductLoop (A.dbl (sum + A.dbl (a * b))) as bs
  | _ :: _, [] => .error .undefinedBehaviour

/-- `math.hpp` 43-53: the loop starts with `sum = 0.`. -/
noncomputable def innerProduct (xs ys : List ℝ) : Res ℝ := innerProductLoop A 0 xs ys

/-- `extraction/src/convolution.cpp` 35-66 `Convolution1D`. -/
noncomputable def convolution1D (input weight : List ℝ) : Res (List ℝ) :=
  if input.length < weight.length then .error .invalidArgument
  else if weight.length % 2 ≠ 1 then .error .assertFail
  else do
    let padding := (weight.length - 1) / 2
    let convolutionSize := input.length - padding * 2
    let result := List.replicate input.length (0 : ℝ)
    let result ← (List.range padding).foldlM (fun r i => do
      let x ← pure 0
      setU r (0 + i) x) result
    let result ← (List.range convolutionSize).foldlM (fun r i => do
      let x ← innerProduct A ((input.drop i).take weight.length) weight
      setU r (padding + i) x) result
    (List.range padding).foldlM (fun r i => do
      let x ← pure 0
      setU r (convolutionSize + padding + i) x) result

/-- `extraction/src/curvature.cpp` 44-50 `CalcCurvature`. The weights (36-42) are small integers and
so exact. -/
noncomputable def calcCurvature (range : List ℝ) (padding : ℤ) : Res (List ℝ) := do
  let weight ← makeWeight padding
  let weighted ← convolution1D A range weight
  pure (weighted.map fun v => A.dbl (v * v))

/-- `math.hpp` 36-39 `XYNorm`; `std::sqrt` rounds once. -/
noncomputable def xyNorm (x y : ℝ) : ℝ := A.dbl (Real.sqrt (A.dbl (A.dbl (x * x) + A.dbl (y * y))))

/-- `math.cpp` 34-46 `CalcRadian`; `none` is NaN, which `std::acos` returns for an argument outside
`[-1, 1]`. If exactly one norm is zero, the quotient is `0 / 0`. -/
noncomputable def calcRadian (x1 y1 x2 y2 : ℝ) : Res (Option ℝ) :=
  let dot := A.dbl (A.dbl (x1 * x2) + A.dbl (y1 * y2))
  let norm1 := xyNorm A x1 y1
  let norm2 := xyNorm A x2 y2
  if norm1 = 0 ∧ norm2 = 0 then .error .invalidArgument
  else if A.dbl (norm1 * norm2) = 0 then .ok none
  else
    let cosAngle := A.dbl (dot / A.dbl (norm1 * norm2))
    if cosAngle < -1 ∨ 1 < cosAngle then .ok none else .ok (some (A.acos cosAngle))

/-- `neighbor.hpp` 44-48 `IsNeighborXY`: every comparison with NaN is false. -/
noncomputable def isNeighborXY (threshold : ℝ) (p1 p2 : PointXYZIR ℝ) : Res Bool := do
  match ← calcRadian A p1.x p1.y p2.x p2.y with
  | none => pure false
  | some a => pure (decide (a < threshold))

/-- `lib/include/lidar_feature_library/degree_to_radian.hpp` 34-37; `M_PI` is `π` rounded to
`double`. -/
noncomputable def degreeToRadian (degree : ℝ) : ℝ := A.dbl (A.dbl (degree * A.dbl Real.pi) / 180)

/-- `ring.hpp` 54-99 `AHasSmallerPolarAngleThanB`. The fields of a point are `float`s, so the products
and their sum or difference are computed in `float`; storing them in a `double` changes nothing. -/
noncomputable def lessAngle (a b : PointXYZIR ℝ) : Bool :=
  if a.x = b.x ∧ a.y = b.y then false
  else
    let lena := A.flt (A.flt (a.x * a.x) + A.flt (a.y * a.y))
    let lenb := A.flt (A.flt (b.x * b.x) + A.flt (b.y * b.y))
    if lena = 0 then
      if b.y = 0 then decide (b.x < 0) else decide (b.y > 0)
    else if lenb = 0 then decide (a.y < 0)
    else if a.y = 0 then decide (a.x ≥ 0) && decide (b.y ≥ 0)
    else if b.y = 0 then !(decide (b.x ≥ 0) && decide (a.y ≥ 0))
    else if A.flt (a.y * b.y) > 0 then
      decide (A.flt (A.flt (a.x * b.y) - A.flt (a.y * b.x)) > 0)
    else decide (a.y < 0)

/-- The geometry of the node for the given `neighbor_degree_threshold`. -/
noncomputable def nodeGeometry (degreeThreshold : ℝ) : Geometry (PointXYZIR ℝ) ℝ where
  norm p := xyNorm A p.x p.y
  isNb := isNeighborXY A (degreeToRadian A degreeThreshold)
  less := lessAngle A
  ringOf p := p.ring

/-- `occlusion.hpp` 46-55: one iteration of `FromLeft`. -/
noncomputable def fromLeftStep (nb : NeighborCheckXY P) (range : Range P ℝ) (padding : ℕ)
    (threshold : ℝ) (labels : List PointLabel) (i : ℕ) : Res (List PointLabel) := do
  let ok ← nb.call i (i + 1)
  if !ok then
    pure labels
  else
    let range0 ← range.call i
    let range1 ← range.call (i + 1)
    if range1 > A.dbl (range0 + threshold) then
      fillFromLeft labels nb.base (i + 1) (i + padding + 2) .occluded
    else
      pure labels

/-- `occlusion.hpp` 37-57 `FromLeft`. -/
noncomputable def fromLeft (labels : List PointLabel) (nb : NeighborCheckXY P) (range : Range P ℝ)
    (padding : ℕ) (threshold : ℝ) : Res (List PointLabel) :=
  (List.range (min (fromLeftLimit labels.length padding) (labels.length + 1))).foldlM
    (fromLeftStep A nb range padding threshold) labels

/-- `occlusion.hpp` 68-77: one iteration of `FromRight`. -/
noncomputable def fromRightStep (nb : NeighborCheckXY P) (range : Range P ℝ) (padding : ℕ)
    (threshold : ℝ) (labels : List PointLabel) (i : ℕ) : Res (List PointLabel) := do
  let ok ← nb.call i (i - 1)
  if !ok then
    pure labels
  else
    let range1 ← range.call (i - 1)
    let range0 ← range.call i
    if range1 > A.dbl (range0 + threshold) then
      fillFromRight labels nb.base (i - padding - 2) (i - 1) .occluded
    else
      pure labels

/-- `occlusion.hpp` 59-79 `FromRight`. -/
noncomputable def fromRight (labels : List PointLabel) (nb : NeighborCheckXY P) (range : Range P ℝ)
    (padding : ℕ) (threshold : ℝ) : Res (List PointLabel) :=
  if labels.length = 0 then .error .outOfRange
  else (List.range (labels.length - 1 - padding)).foldlM
    (fun l k => fromRightStep A nb range padding threshold l (labels.length - 1 - k)) labels

/-- `occlusion.hpp` 81-91 `LabelOccludedPoints`. -/
noncomputable def labelOccludedPoints (labels : List PointLabel) (nb : NeighborCheckXY P)
    (range : Range P ℝ) (padding : ℕ) (threshold : ℝ) : Res (List PointLabel) := do
  let labels ← fromLeft A labels nb range padding threshold
  fromRight A labels nb range padding threshold

/-- The comparison of `parallel_beam.hpp` 44-47: difference and quotient are `double`s, the ratio is
stored in a `float`. -/
noncomputable def ratioGreater (r0 r1 threshold : ℝ) : Bool :=
  if r1 = 0 then decide (A.dbl (r0 - r1) ≠ 0)
  else decide (A.flt (A.dbl (|A.dbl (r0 - r1)| / r1)) > threshold)

/-- `parallel_beam.hpp` 36-51 `LabelParallelBeamPoints`. -/
noncomputable def labelParallelBeamPoints (labels : List PointLabel) (range : Range P ℝ)
    (threshold : ℝ) : Res (List PointLabel) := do
  let ranges ← range.interval 0 labels.length
  if labels.length = 0 then .error .outOfRange
  else (List.range (labels.length - 2)).foldlM (fun labels (k : ℕ) => do
    let i : ℤ := k + 1
    let r0 ← atI ranges (i - 1)
    let r1 ← atI ranges i
    let r2 ← atI ranges (i + 1)
    if ratioGreater A r0 r1 threshold && ratioGreater A r2 r1 threshold then
      setI labels i .parallelBeam
    else
      pure labels) labels

/-- `feature_extraction.cpp` 127-140: labels and curvature of one ring. `LabelOutOfRange`
(`out_of_range.hpp` 36-48) and `AssignLabel` only compare. -/
noncomputable def ringLabels (plat : Platform ℝ) (hp : HyperParameters ℝ) (nb : NeighborCheckXY P)
    (range : Range P ℝ) : Res (List PointLabel × List ℝ) := do
  let labels := initLabels nb.ref.indices.length
  let ranges ← range.interval 0 range.size
  let curvature ← calcCurvature A ranges hp.padding
  let indexRange ← PaddedIndexRange.make range.size hp.nBlocks hp.padding
  let labels ← assignLabel plat.rnd plat.argsort hp.padding hp.edgeThreshold hp.padding
    hp.surfaceThreshold labels curvature nb indexRange
  let labels ← labelOccludedPoints A labels nb range hp.padding.toNat hp.distanceDiffThreshold
  let labels ← labelOutOfRange labels range hp.minRange hp.maxRange
  let labels ← labelParallelBeamPoints A labels range hp.parallelBeamMinRangeRatio
  if (curvature.length : ℤ) ≠ nb.ref.size then .error .assertFail
  else pure (labels, curvature)

/-- `feature_extraction.cpp` 127-153: the body of the `try` for one ring. -/
noncomputable def ringBody (plat : Platform ℝ) (hp : HyperParameters ℝ) (nb : NeighborCheckXY P)
    (range : Range P ℝ) (out : Clouds P ℝ) : Res (Clouds P ℝ) := do
  let (labels, curvature) ← ringLabels A plat hp nb range
  let edgeIndices := getIndicesByValue labels .edge
  let edgePoints ← getByIndices edgeIndices nb.ref.at
  let edgeCurvature ← getByIndices edgeIndices (atI curvature)
  let surfaceIndices := getIndicesByValue labels .surface
  let surfacePoints ← getByIndices surfaceIndices nb.ref.at
  let surfaceCurvature ← getByIndices surfaceIndices (atI curvature)
  let edge ← appendXYZIR out.edge edgePoints edgeCurvature
  let surface ← appendXYZIR out.surface surfacePoints surfaceCurvature
  let colored ← colorPointsByLabel nb.ref labels
  pure ⟨edge, surface, out.colored ++ colored⟩

/-- `feature_extraction.cpp` 120-157: one iteration of the ring loop. -/
noncomputable def processRing (plat : Platform ℝ) (hp : HyperParameters ℝ) (geo : Geometry P ℝ)
    (cloud : List P) (out : Clouds P ℝ) (ring : ℤ × List ℕ) : Res (Clouds P ℝ) := do
  let ref : MappedPoints P := ⟨cloud, ring.2⟩
  let nb ← NeighborCheckXY.make ref geo.isNb
  match ringBody A plat hp nb ⟨ref, geo.norm⟩ out with
  | .error .invalidArgument => .ok out
  | r => r

/-- `feature_extraction.cpp` 110-157: from the input cloud to the three clouds. -/
noncomputable def extractClouds (plat : Platform ℝ) (hp : HyperParameters ℝ) (geo : Geometry P ℝ)
    (cloud : List P) : Res (Clouds P ℝ) := do
  let rings ← extractAngleSortedRings plat.sort geo.less geo.ringOf cloud
  let rings := removeSparseRings rings (hp.padding + 1)
  (plat.order rings).foldlM (processRing A plat hp geo cloud) ⟨[], [], []⟩

/-- `feature_extraction.cpp` 92-171 `Callback`. -/
noncomputable def callback (plat : Platform ℝ) (hp : HyperParameters ℝ) (degreeThreshold : ℝ)
    (stamp : ℤ) (isDense ringAvailable : Bool) (cloud : List (PointXYZIR ℝ)) :
    Res (CallbackEffect (PointXYZIR ℝ)) := do
  let out ← extractClouds A plat hp (nodeGeometry A degreeThreshold) cloud
  let frame := "lidar_feature_base_link"
  pure ⟨!isDense || !ringAvailable, ⟨stamp, frame, out.colored⟩, ⟨stamp, frame, out.edge.map Prod.fst⟩,
    ⟨stamp, frame, out.surface.map Prod.fst⟩⟩

end Rounded

end Verif.Extraction
