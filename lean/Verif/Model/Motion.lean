/-
Model of `ekf_localizer/src/state_transition.cpp` and of the variances of
`ekf_localizer/include/ekf_localizer/ekf_localizer.hpp` 105-139, over the reals.
-/
import Verif.Basic
import Mathlib.Analysis.SpecialFunctions.Complex.Arg
import Mathlib.Data.Matrix.Mul
import Mathlib.Data.Fin.VecNotation

set_option autoImplicit false

namespace Verif.Ekf

/-- `std::atan2(y, x)`: the argument of `x + i y`, in `(-π, π]`; exact, and without signed zeros. -/
noncomputable def atan2 (y x : ℝ) : ℝ := Complex.arg ⟨x, y⟩

/-- `state_transition.cpp` 20-25. -/
noncomputable def normalizeYaw (yaw : ℝ) : ℝ := atan2 (Real.sin yaw) (Real.cos yaw)

/-- `state_transition.cpp` 27-45; the indices are `X = 0, Y = 1, YAW = 2, YAWB = 3, VX = 4, WZ = 5`
of `state_index.hpp`. -/
noncomputable def predictNextState (X : Fin 6 → ℝ) (dt : ℝ) : Fin 6 → ℝ :=
  let x := X 0
  let y := X 1
  let biasedYaw := X 2
  let yawBias := X 3
  let yaw := biasedYaw + yawBias
  let vx := X 4
  let wz := X 5
  ![x + vx * Real.cos yaw * dt, y + vx * Real.sin yaw * dt, normalizeYaw (biasedYaw + wz * dt),
    yawBias, vx, wz]

/-- `state_transition.cpp` 48-64. -/
noncomputable def createStateTransitionMatrix (X : Fin 6 → ℝ) (dt : ℝ) : Matrix (Fin 6) (Fin 6) ℝ :=
  let biasedYaw := X 2
  let yawBias := X 3
  let yaw := biasedYaw + yawBias
  let vx := X 4
  !![1, 0, -vx * Real.sin yaw * dt, -vx * Real.sin yaw * dt, Real.cos yaw * dt, 0;
     0, 1, vx * Real.cos yaw * dt, vx * Real.cos yaw * dt, Real.sin yaw * dt, 0;
     0, 0, 1, 0, 0, dt;
     0, 0, 0, 1, 0, 0;
     0, 0, 0, 0, 1, 0;
     0, 0, 0, 0, 0, 1]

/-- `state_transition.cpp` 66-71. -/
def processNoiseCovariance (v : Fin 4 → ℝ) : Matrix (Fin 6) (Fin 6) ℝ :=
  Matrix.diagonal ![0, 0, v 0, v 1, v 2, v 3]

/-- `ekf_localizer.hpp` 105-108. -/
def timeScaledVariance (stddev dt : ℝ) : ℝ := stddev * stddev * dt * dt

/-- `ekf_localizer.hpp` 110-139: the members of `DefaultVariance`. -/
structure DefaultVariance where
  yaw : ℝ
  yawBias : ℝ
  vx : ℝ
  wz : ℝ

/-- `ekf_localizer.hpp` 125-132. -/
def DefaultVariance.timeScaledVariances (v : DefaultVariance) (dt : ℝ) : Fin 4 → ℝ :=
  ![timeScaledVariance v.yaw dt, timeScaledVariance v.yawBias dt, timeScaledVariance v.vx dt,
    timeScaledVariance v.wz dt]

end Verif.Ekf
