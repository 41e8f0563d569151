/-
Model of `extraction/include/lidar_feature_extraction/math.hpp` 36-39, `extraction/src/math.cpp`
34-46 and `neighbor.hpp` 44-48 over the real numbers.
-/
import Verif.Model.Callback
import Mathlib.Analysis.SpecialFunctions.Trigonometric.Inverse
import Mathlib.Analysis.SpecialFunctions.Sqrt

set_option autoImplicit false

namespace Verif.Extraction

/-- `math.hpp` 36-39 `XYNorm`. Simplification: exact real arithmetic. -/
noncomputable def xyNorm (x y : ℝ) : ℝ := Real.sqrt (x * x + y * y)

/-- `math.cpp` 34-46 `CalcRadian`; `none` is NaN. If exactly one norm is zero, the quotient is
`0 / 0`. Simplification: exact real arithmetic, so the argument of `acos` lies in `[-1, 1]`. -/
noncomputable def calcRadian (x1 y1 x2 y2 : ℝ) : Res (Option ℝ) :=
  let dot := x1 * x2 + y1 * y2
  let norm1 := xyNorm x1 y1
  let norm2 := xyNorm x2 y2
  if norm1 = 0 ∧ norm2 = 0 then .error .invalidArgument
  else if norm1 * norm2 = 0 then .ok none
  else .ok (some (Real.arccos (dot / (norm1 * norm2))))

/-- `neighbor.hpp` 44-48 `IsNeighborXY`: every comparison with NaN is false. -/
noncomputable def isNeighborXY (threshold : ℝ) (p1 p2 : PointXYZIR ℝ) : Res Bool := do
  match ← calcRadian p1.x p1.y p2.x p2.y with
  | none => pure false
  | some a => pure (decide (a < threshold))

/-- `lib/include/lidar_feature_library/degree_to_radian.hpp` 34-37. -/
noncomputable def degreeToRadian (degree : ℝ) : ℝ := degree * Real.pi / 180

/-- The geometry of the node for the given `neighbor_degree_threshold`. -/
noncomputable def nodeGeometry (degreeThreshold : ℝ) : Geometry (PointXYZIR ℝ) ℝ where
  norm p := xyNorm p.x p.y
  isNb := isNeighborXY (degreeToRadian degreeThreshold)
  less := lessAngle
  ringOf p := p.ring

end Verif.Extraction
