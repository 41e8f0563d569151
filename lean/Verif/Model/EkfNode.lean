/-
Model of the node `EKFLocalizer`: `ekf_localizer/src/ekf_localizer.cpp`,
`ekf_localizer/src/tf.cpp`, `ekf_localizer/src/string.cpp`.

The four callbacks run to completion one after the other (single-threaded executor). `N` is the
parameter `extend_state_step`, taken to be positive. Logging is not modelled.
-/
import Verif.Model.Measurement
import Verif.Model.Filter1D

set_option autoImplicit false

namespace Verif.Ekf

open Matrix Verif.Kalman

/-- `string.cpp` 18-25 (`EraseBeginSlash`); `front()` of an empty string is undefined. -/
def eraseBeginSlash : List Char → Res (List Char)
  | [] => .error .undefinedBehaviour
  | c :: cs => .ok (if c = '/' then cs else c :: cs)

/-- The used parts of `geometry_msgs::msg::TransformStamped`; taken to be finite. -/
structure Transform where
  tx : ℝ
  ty : ℝ
  tz : ℝ
  rot : Quat

/-- `tf.cpp` 28-37: the loop from try `i` on, `fuel` tries left. `tries i` is the outcome of the
`i`-th call of `tf_buffer_->lookupTransform`, `none` a `tf2::TransformException`. The sleeps are not
modelled. -/
def lookupLoop {T : Type} (tries : ℕ → Option T) : ℕ → ℕ → Option T
  | 0, _ => none
  | fuel + 1, i =>
    match tries i with
    | some t => some t
    | none => lookupLoop tries fuel (i + 1)

/-- `tf.cpp` 22-38. -/
def lookupTransform {T : Type} (tries : ℕ → Option T) : Option T := lookupLoop tries 50 0

/-- `ekf_localizer.hpp` 159-170 but for `extend_state_step_`. -/
structure EkfParams where
  defaultFrequency : ℝ
  poseFrame : List Char
  poseSmoothing : ℤ
  poseGate : ℝ
  twistGate : ℝ
  twistSmoothing : ℤ
  yawCov : ℝ
  enableYawBias : Bool
  yawBiasCov : ℝ
  vxCov : ℝ
  wzCov : ℝ

/-- `ekf_localizer.cpp` 96-102. -/
def initYawBias (enable : Bool) (initial : ℝ) : ℝ := if enable then initial else 0

/-- `ekf_localizer.cpp` 136-137. -/
def EkfParams.variance (p : EkfParams) : DefaultVariance :=
  ⟨p.yawCov, initYawBias p.enableYawBias p.yawBiasCov, p.vxCov, p.wzCov⟩

/-- `ekf_localizer.cpp` 104-107. -/
def initState (x y yaw : ℝ) : Fin 6 → ℝ := ![x, y, yaw, 0, 0, 0]

/-- `ekf_localizer.cpp` 109-114; `GetEigenCovariance` (`lib/src/eigen.cpp` 33-42) reads the array row
by row. -/
noncomputable def initCovariance (c : Fin 36 → ℝ) : Matrix (Fin 6) (Fin 6) ℝ :=
  Matrix.diagonal ![c 0, c 7, c 35, 1 / 10000, 1 / 100, 1 / 100]

/-- The members of the node that change (`ekf_localizer.hpp` 198-212). -/
structure NodeState (N : ℕ) where
  ekf : Option (TimeDelayKalmanFilter ℝ N 6)
  interval : UpdateInterval ℝ
  poseQ : AgedQueue PoseMsg
  twistQ : AgedQueue TwistMsg
  z : Simple1DFilter
  roll : Simple1DFilter
  pitch : Simple1DFilter

/-- The constructor, `ekf_localizer.cpp` 116-153. -/
noncomputable def NodeState.make (N : ℕ) (p : EkfParams) : NodeState N :=
  ⟨none, UpdateInterval.make p.defaultFrequency, AgedQueue.make p.poseSmoothing,
    AgedQueue.make p.twistSmoothing, Simple1DFilter.make 1, Simple1DFilter.make (1 / 10),
    Simple1DFilter.make (1 / 10)⟩

/-- What reaches the node. -/
inductive Event where
  /-- A message on `initialpose`, and the outcomes of the transform lookups (by parent and child
  frame and try) during the callback. -/
  | initialPose (m : PoseMsg) (tries : List Char → List Char → ℕ → Option Transform)
  /-- A message on `in_pose_with_covariance`. -/
  | pose (m : PoseMsg)
  /-- A message on `in_twist_with_covariance`. -/
  | twist (m : TwistMsg)
  /-- The timer. The five clock readings, in nanoseconds, of `ekf_localizer.cpp` 184, 206, 207, 228,
  231, and the answers of the gates for singular covariances. -/
  | timer (tInterval tPose tTwist tTf tOdom : ℤ) (singPose : PoseMsg → Bool)
      (singTwist : TwistMsg → Bool)

/-- The arguments of `MakePoseFromXYZRPY` (`ekf_localizer.cpp` 222), which determine the published
pose. -/
structure Estimate where
  x : ℝ
  y : ℝ
  z : Option ℝ
  roll : Option ℝ
  pitch : Option ℝ
  yaw : ℝ

/-- What the node publishes: a transform (`ekf_localizer.cpp` 227-228) or an odometry message
(67-94). -/
inductive Output where
  | transform (stamp : ℤ) (frame child : List Char) (pose : Estimate)
  | odometry (stamp : ℤ) (frame child : List Char) (pose : Estimate) (poseCov : Fin 36 → ℝ)
      (vx wz : ℝ) (twistCov : Fin 36 → ℝ)

/-- `std::sqrt` of a finite number: NaN for negative ones. -/
noncomputable def sqrtOpt (a : ℝ) : Option ℝ := if a < 0 then none else some (Real.sqrt a)

/-- `ekf_localizer.cpp` 275-289; `covariance(i, i)` is entry `7 i` of the array. -/
noncomputable def updateSimple1DFilters {N : ℕ} (tf : Tf2) (s : NodeState N) (m : PoseMsg) :
    NodeState N :=
  { s with
    z := s.z.update m.pz (sqrtOpt (m.cov 14)) m.stamp
    roll := s.roll.update (tf.getRoll m.ori) (sqrtOpt (m.cov 21)) m.stamp
    pitch := s.pitch.update (tf.getPitch m.ori) (sqrtOpt (m.cov 28)) m.stamp }

/-- `ekf_localizer.cpp` 235-261. A missing transform is only logged (240-245) and then dereferenced
(248). Initial poses with NaN for x, y or yaw are in `Model/EkfNaN`, infinite ones not modelled. -/
noncomputable def initialPoseCallback {N : ℕ} (tf : Tf2) (p : EkfParams) (s : NodeState N)
    (m : PoseMsg) (tries : List Char → List Char → ℕ → Option Transform) : Res (NodeState N) := do
  let parent ← eraseBeginSlash p.poseFrame
  let child ← eraseBeginSlash m.frame
  match lookupTransform (tries parent child) with
  | none => .error .undefinedBehaviour
  | some t =>
    match m.px, m.py, tf.getYaw m.ori, tf.getYaw t.rot with
    | some px, some py, some initialYaw, some yaw =>
      let x := initState (px + t.tx) (py + t.ty) (initialYaw + yaw)
      let P := initCovariance m.cov
      let s := { s with ekf := some (TimeDelayKalmanFilter.make x P N) }
      let s := updateSimple1DFilters tf s m
      pure { s with poseQ := s.poseQ.clear, twistQ := s.twistQ.clear }
    | _, _, _, _ => .error .notModelled

/-- The prediction of `ekf_localizer.cpp` 199-204. -/
noncomputable def predictStep {N : ℕ} (hN : 0 < N) (p : EkfParams) (dt : ℝ)
    (f : TimeDelayKalmanFilter ℝ N 6) : TimeDelayKalmanFilter ℝ N 6 :=
  let x := f.getLatestX hN
  f.predict hN (predictNextState x dt) (createStateTransitionMatrix x dt)
    (processNoiseCovariance (p.variance.timeScaledVariances dt))

/-- `ekf_localizer.cpp` 209-232: what is published for a filter. -/
def publish {N : ℕ} (hN : 0 < N) (p : EkfParams) (s : NodeState N) (f : TimeDelayKalmanFilter ℝ N 6)
    (tTf tOdom : ℤ) : List Output :=
  let x := f.getLatestX hN
  let pose : Estimate :=
    ⟨x 0, x 1, s.z.getX, s.roll.getX, s.pitch.getX, x 2 + x 3⟩
  [.transform tTf p.poseFrame "base_link".toList pose,
   .odometry tOdom p.poseFrame "base_link".toList pose
     (ekfCovarianceToPoseMessageCovariance (f.getLatestP hN)) (x 4) (x 5)
     (ekfCovarianceToTwistMessageCovariance (f.getLatestP hN))]

/-- `ekf_localizer.cpp` 176-233. -/
noncomputable def timerCallback {N : ℕ} (hN : 0 < N) (tf : Tf2) (p : EkfParams) (s : NodeState N)
    (tInterval tPose tTwist tTf tOdom : ℤ) (singPose : PoseMsg → Bool)
    (singTwist : TwistMsg → Bool) : Res (NodeState N × List Output) :=
  match s.ekf with
  | none => .ok (s, [])
  | some f =>
    match s.interval.compute ((tInterval : ℝ) / 1000000000) with
    | (.error .invalidArgument, iv) => .ok ({ s with interval := iv }, [])
    | (.error e, _) => .error e
    | (.ok dt, iv) => do
      let f := predictStep hN p dt f
      let (f, poseQ) ← updateAll
        (processPose hN tf singPose p.poseGate p.poseSmoothing tPose dt) s.poseQ f
      let (f, twistQ) ← updateAll
        (processTwist hN singTwist p.twistGate p.twistSmoothing tTwist dt) s.twistQ f
      pure ({ s with ekf := some f, interval := iv, poseQ := poseQ, twistQ := twistQ },
        publish hN p s f tTf tOdom)

/-- One callback. -/
noncomputable def step {N : ℕ} (hN : 0 < N) (tf : Tf2) (p : EkfParams) (s : NodeState N) :
    Event → Res (NodeState N × List Output)
  | .initialPose m tries => do
    let s ← initialPoseCallback tf p s m tries
    pure (s, [])
  | .pose m => .ok (updateSimple1DFilters tf { s with poseQ := s.poseQ.push m } m, [])
  | .twist m => .ok ({ s with twistQ := s.twistQ.push m }, [])
  | .timer t1 t2 t3 t4 t5 sp st => timerCallback hN tf p s t1 t2 t3 t4 t5 sp st

/-- A sequence of callbacks: the node afterwards and everything published, in order. -/
noncomputable def run {N : ℕ} (hN : 0 < N) (tf : Tf2) (p : EkfParams) :
    NodeState N → List Event → Res (NodeState N × List Output)
  | s, [] => .ok (s, [])
  | s, e :: es => do
    let (s, o) ← step hN tf p s e
    let (s, os) ← run hN tf p s es
    pure (s, o ++ os)

end Verif.Ekf
