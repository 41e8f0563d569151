/-
Model of `ekf_localizer/src/pose_measurement.cpp`, `twist_measurement.cpp`, `mahalanobis.cpp`,
`covariance.cpp` and `check.cpp`, over the reals.

Numbers read from a message that may be NaN or infinite are `Option ℝ`, `none` standing for NaN and
the infinities. Covariances of messages are taken to be finite. `tf2::getYaw` is a parameter. The
warnings are not modelled; they have no effect on the state.
-/
import Verif.Model.Queue
import Verif.Model.Interval
import Verif.Model.Kalman
import Verif.Model.Motion
import Mathlib.Algebra.Order.Archimedean.Real.Basic

set_option autoImplicit false

namespace Verif.Ekf

open Matrix Verif.Kalman

/-- `geometry_msgs::msg::Quaternion`. -/
structure Quat where
  w : ℝ
  x : ℝ
  y : ℝ
  z : ℝ

/-- The used parts of `geometry_msgs::msg::PoseWithCovarianceStamped`; the stamp in nanoseconds. -/
structure PoseMsg where
  frame : List Char
  stamp : ℤ
  px : Option ℝ
  py : Option ℝ
  pz : Option ℝ
  ori : Quat
  cov : Fin 36 → ℝ

/-- The used parts of `geometry_msgs::msg::TwistWithCovarianceStamped`. -/
structure TwistMsg where
  frame : List Char
  stamp : ℤ
  vx : Option ℝ
  wz : Option ℝ
  cov : Fin 36 → ℝ

/-- The `tf2` functions used: `tf2::getYaw` and the roll and pitch of `tf2::Matrix3x3::getRPY`
(`ekf_localizer.cpp` 47-55). `none` is a result that is not finite. -/
structure Tf2 where
  getYaw : Quat → Option ℝ
  getRoll : Quat → Option ℝ
  getPitch : Quat → Option ℝ

/-- `pose_measurement.cpp` 28-31. -/
def getPoseState (x : Fin 6 → ℝ) : Fin 3 → ℝ := fun i => x ⟨i.val, by omega⟩

/-- `pose_measurement.cpp` 33-36. -/
def poseCovariance (P : Matrix (Fin 6) (Fin 6) ℝ) : Matrix (Fin 3) (Fin 3) ℝ :=
  fun i j => P ⟨i.val, by omega⟩ ⟨j.val, by omega⟩

/-- `pose_measurement.cpp` 38-45. -/
def poseMeasurementMatrix : Matrix (Fin 3) (Fin 6) ℝ :=
  !![1, 0, 0, 0, 0, 0; 0, 1, 0, 0, 0, 0; 0, 0, 1, 0, 0, 0]

/-- Conversion of an `int` to `size_t`, as in the calls of the two functions below with
`smoothing_steps_`. -/
def toSizeT (i : ℤ) : ℕ := (i % 18446744073709551616).toNat

/-- `pose_measurement.cpp` 47-56. -/
def poseMeasurementCovariance (c : Fin 36 → ℝ) (smoothing : ℕ) : Matrix (Fin 3) (Fin 3) ℝ :=
  (smoothing : ℝ) • !![c 0, c 1, c 5; c 6, c 7, c 11; c 30, c 31, c 35]

/-- `pose_measurement.cpp` 58-62; `std::sin` and `std::cos` of a NaN or infinity are NaN, and so is
`std::atan2` of them. -/
noncomputable def poseMeasurementVector (tf : Tf2) (m : PoseMsg) : Fin 3 → Option ℝ :=
  ![m.px, m.py, (tf.getYaw m.ori).map normalizeYaw]

/-- `twist_measurement.cpp` 27-30. -/
def getTwistState (x : Fin 6 → ℝ) : Fin 2 → ℝ := ![x 4, x 5]

/-- `twist_measurement.cpp` 32-35. -/
def twistCovariance (P : Matrix (Fin 6) (Fin 6) ℝ) : Matrix (Fin 2) (Fin 2) ℝ :=
  fun i j => P ⟨4 + i.val, by omega⟩ ⟨4 + j.val, by omega⟩

/-- `twist_measurement.cpp` 37-43. -/
def twistMeasurementMatrix : Matrix (Fin 2) (Fin 6) ℝ :=
  !![0, 0, 0, 0, 1, 0; 0, 0, 0, 0, 0, 1]

/-- `twist_measurement.cpp` 45-53. -/
def twistMeasurementCovariance (c : Fin 36 → ℝ) (smoothing : ℕ) : Matrix (Fin 2) (Fin 2) ℝ :=
  (smoothing : ℝ) • !![c 0, c 5; c 30, c 35]

/-- `twist_measurement.cpp` 55-58. -/
def twistMeasurementVector (m : TwistMsg) : Fin 2 → Option ℝ := ![m.vx, m.wz]

/-- `covariance.cpp` 22-42. -/
def ekfCovarianceToPoseMessageCovariance (P : Matrix (Fin 6) (Fin 6) ℝ) : Fin 36 → ℝ :=
  ![P 0 0, P 0 1, 0, 0, 0, P 0 2,
    P 1 0, P 1 1, 0, 0, 0, P 1 2,
    0, 0, 0, 0, 0, 0,
    0, 0, 0, 0, 0, 0,
    0, 0, 0, 0, 0, 0,
    P 2 0, P 2 1, 0, 0, 0, P 2 2]

/-- `covariance.cpp` 44-59. -/
def ekfCovarianceToTwistMessageCovariance (P : Matrix (Fin 6) (Fin 6) ℝ) : Fin 36 → ℝ :=
  ![P 4 4, 0, 0, 0, 0, P 4 5,
    0, 0, 0, 0, 0, 0,
    0, 0, 0, 0, 0, 0,
    0, 0, 0, 0, 0, 0,
    0, 0, 0, 0, 0, 0,
    P 5 4, 0, 0, 0, 0, P 5 5]

/-- `mahalanobis.cpp` 19-26; `none` is the result for a singular `C`, whose Eigen inverse has NaN or
infinite entries. -/
noncomputable def squaredMahalanobis {n : ℕ} (x y : Fin n → ℝ) (C : Matrix (Fin n) (Fin n) ℝ) :
    Option ℝ :=
  if C.det = 0 then none else some ((x - y) ⬝ᵥ (C⁻¹ *ᵥ (x - y)))

/-- `mahalanobis.cpp` 28-33. Whether the gate accepts for a singular covariance depends on the kind
of NaN or infinity; `sing` is that answer. -/
noncomputable def mahalanobisGate {n : ℕ} (sing : Bool) (distMax : ℝ) (x y : Fin n → ℝ)
    (C : Matrix (Fin n) (Fin n) ℝ) : Bool :=
  match squaredMahalanobis x y C with
  | none => sing
  | some s => decide (s ≤ distMax * distMax)

/-- `check.cpp` 92-100 applied to a measurement: all entries finite. -/
def allFinite {n : ℕ} (y : Fin n → Option ℝ) : Option (Fin n → ℝ) :=
  if h : ∀ i, (y i).isSome then some fun i => (y i).get (h i) else none

/-- The body of the loops `pose_measurement.cpp` 82-113 and `twist_measurement.cpp` 78-109, which
are the same but for the functions passed here. `sing` answers the gate for singular covariances.
`CheckFrameId` and `CheckDelayTime` only warn. -/
noncomputable def processMeasurement {N h : ℕ} (hN : 0 < N) (sing : Bool)
    (stateOf : (Fin 6 → ℝ) → (Fin h → ℝ))
    (covOf : Matrix (Fin 6) (Fin 6) ℝ → Matrix (Fin h) (Fin h) ℝ) (C : Matrix (Fin h) (Fin 6) ℝ)
    (gateDist : ℝ) (now : ℤ) (dt : ℝ) (stamp : ℤ) (y : Fin h → Option ℝ)
    (R : Matrix (Fin h) (Fin h) ℝ) (f : TimeDelayKalmanFilter ℝ N 6) :
    Res (TimeDelayKalmanFilter ℝ N 6) := do
  let delayStep ← computeDelayStep (computeDelayTime now stamp : ℝ) dt
  if !checkDelayStep delayStep N then
    pure f
  else
    match allFinite y with
    | none => pure f
    | some y => do
      let x ← f.getX delayStep
      if !mahalanobisGate sing gateDist (stateOf x) y (covOf (f.getLatestP hN)) then
        pure f
      else
        match f.update y C R delayStep with
        | .ok f' => pure f'
        | .error .invalidArgument => pure f
        | .error e => .error e

/-- One iteration of `PoseMeasurement::Update`. -/
noncomputable def processPose {N : ℕ} (hN : 0 < N) (tf : Tf2) (sing : PoseMsg → Bool)
    (gateDist : ℝ) (smoothing : ℤ) (now : ℤ) (dt : ℝ) (m : PoseMsg)
    (f : TimeDelayKalmanFilter ℝ N 6) : Res (TimeDelayKalmanFilter ℝ N 6) :=
  processMeasurement hN (sing m) getPoseState poseCovariance poseMeasurementMatrix gateDist now dt
    m.stamp (poseMeasurementVector tf m) (poseMeasurementCovariance m.cov (toSizeT smoothing)) f

/-- One iteration of `TwistMeasurement::Update`. -/
noncomputable def processTwist {N : ℕ} (hN : 0 < N) (sing : TwistMsg → Bool)
    (gateDist : ℝ) (smoothing : ℤ) (now : ℤ) (dt : ℝ) (m : TwistMsg)
    (f : TimeDelayKalmanFilter ℝ N 6) : Res (TimeDelayKalmanFilter ℝ N 6) :=
  processMeasurement hN (sing m) getTwistState twistCovariance twistMeasurementMatrix gateDist now dt
    m.stamp (twistMeasurementVector m) (twistMeasurementCovariance m.cov (toSizeT smoothing)) f

/-- The loops `pose_measurement.cpp` 81-114 and `twist_measurement.cpp` 77-110: pop and process while
`i < messages_.size()`. The first argument bounds the number of iterations as in
`AgedQueue.tickLoop`. -/
def updateLoop {α F : Type} (process : α → F → Res F) :
    ℕ → ℕ → AgedQueue α → F → Res (F × AgedQueue α)
  | 0, _, q, f => .ok (f, q)
  | fuel + 1, i, q, f =>
    if i < q.size then do
      let (m, q') ← q.pop
      let f' ← process m f
      updateLoop process fuel (i + 1) q' f'
    else .ok (f, q)

/-- `Update` of a measurement: the filter and the queue afterwards. -/
def updateAll {α F : Type} (process : α → F → Res F) (q : AgedQueue α) (f : F) :
    Res (F × AgedQueue α) := updateLoop process q.size 0 q f

end Verif.Ekf
