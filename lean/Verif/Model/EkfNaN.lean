/-
The filter and the node of `ekf_localizer` on numbers that may be NaN: `state_transition.cpp`,
`kalman_filter.hpp`, `time_delay_kalman_filter.cpp`, `mahalanobis.cpp`, `pose_measurement.cpp`,
`twist_measurement.cpp`, `covariance.cpp` and `ekf_localizer.cpp` again. `Model/Kalman`, `Model/Motion`,
`Model/Measurement` and `Model/EkfNode` are the same code on numbers proper.

`none` is NaN; numbers are exact and there are no infinities, but that the inverse of a singular
matrix of numbers, which has infinite or NaN entries, has `none` for both. Products of matrices
multiply zeros too, as Eigen's do, so that `0 * NaN` is NaN.
-/
import Verif.Model.EkfNode
import Verif.Model.NotANumber

set_option autoImplicit false

namespace Verif.EkfNaN

open Verif.Kalman Verif.Ekf
open Verif.Extraction.NaN (Number)

/-- IEEE 754: an operation on NaN is NaN. -/
def add (a b : Number) : Number := do return (← a) + (← b)

/-- As `add`. -/
def sub (a b : Number) : Number := do return (← a) - (← b)

/-- As `add`. -/
def mul (a b : Number) : Number := do return (← a) * (← b)

/-- The vectors of Eigen. -/
abbrev Vec (n : ℕ) := Fin n → Number

/-- The matrices of Eigen, by row and column. -/
abbrev Mat (m n : ℕ) := Fin m → Fin n → Number

variable {k m n : ℕ}

/-- A sum, in whatever order: NaN if a summand is. -/
def sum (v : Vec n) : Number :=
  if h : ∀ i, (v i).isSome then some (∑ i, (v i).get (h i)) else none

/-- A matrix times a vector. -/
def mulVec (A : Mat m n) (x : Vec n) : Vec m := fun i => sum fun j => mul (A i j) (x j)

/-- A matrix times a matrix. -/
def mulMat (A : Mat m n) (B : Mat n k) : Mat m k := fun i l => sum fun j => mul (A i j) (B j l)

/-- The transpose. -/
def transpose (A : Mat m n) : Mat n m := fun i j => A j i

/-- The sum of two matrices. -/
def addMat (A B : Mat m n) : Mat m n := fun i j => add (A i j) (B i j)

/-- The difference of two matrices. -/
def subMat (A B : Mat m n) : Mat m n := fun i j => sub (A i j) (B i j)

/-- The sum of two vectors. -/
def addVec (x y : Vec n) : Vec n := fun i => add (x i) (y i)

/-- The difference of two vectors. -/
def subVec (x y : Vec n) : Vec n := fun i => sub (x i) (y i)

/-- A vector of numbers proper. -/
def ofVec (x : Fin n → ℝ) : Vec n := fun i => some (x i)

/-- A matrix of numbers proper. -/
def ofMat (A : Matrix (Fin m) (Fin n) ℝ) : Mat m n := fun i j => some (A i j)

/-- Eigen's `inverse` of a dynamic matrix (by LU factors with row exchanges). It is the inverse of a
regular matrix of numbers; a singular one leads to a division by zero. A NaN stays in its row of the
factors, because it is only subtracted from, or divided by a pivot, and from there it gets into every
column that is solved for. -/
structure Inverse where
  inv : (n : ℕ) → Mat n n → Mat n n
  regular : ∀ (n : ℕ) (M : Matrix (Fin n) (Fin n) ℝ), M.det ≠ 0 → inv n (ofMat M) = ofMat M⁻¹
  singular : ∀ (n : ℕ) (M : Matrix (Fin n) (Fin n) ℝ), M.det = 0 → ∃ i j, inv n (ofMat M) i j = none
  nan : ∀ (n : ℕ) (M : Mat n n) (i j : Fin n), M i j = none → ∀ l, ∃ r, inv n M r l = none

/-- `state_transition.cpp` 27-45; `std::sin`, `std::cos` and `std::atan2` of NaN are NaN. -/
noncomputable def predictNextState (X : Vec 6) (dt : ℝ) : Vec 6 :=
  let yaw := add (X 2) (X 3)
  ![add (X 0) (mul (mul (X 4) (yaw.map Real.cos)) (some dt)),
    add (X 1) (mul (mul (X 4) (yaw.map Real.sin)) (some dt)),
    (add (X 2) (mul (X 5) (some dt))).map normalizeYaw, X 3, X 4, X 5]

/-- `state_transition.cpp` 48-64. -/
noncomputable def createStateTransitionMatrix (X : Vec 6) (dt : ℝ) : Mat 6 6 :=
  let yaw := add (X 2) (X 3)
  let vx := X 4
  let o : Number := some 0
  let e : Number := some 1
  let a := mul (mul (vx.map Neg.neg) (yaw.map Real.sin)) (some dt)
  let b := mul (mul vx (yaw.map Real.cos)) (some dt)
  ![![e, o, a, a, mul (yaw.map Real.cos) (some dt), o],
    ![o, e, b, b, mul (yaw.map Real.sin) (some dt), o],
    ![o, o, e, o, o, some dt],
    ![o, o, o, e, o, o],
    ![o, o, o, o, e, o],
    ![o, o, o, o, o, e]]

/-- `time_delay_kalman_filter.cpp` 19-28. -/
def initX (x0 : Vec 6) (N : ℕ) : Vec (N * 6) := fun i => x0 ⟨i.val % 6, Nat.mod_lt _ (by omega)⟩

/-- `time_delay_kalman_filter.cpp` 30-40. -/
def initP (P0 : Mat 6 6) (N : ℕ) : Mat (N * 6) (N * 6) := fun i j =>
  if i.val / 6 = j.val / 6 then
    P0 ⟨i.val % 6, Nat.mod_lt _ (by omega)⟩ ⟨j.val % 6, Nat.mod_lt _ (by omega)⟩
  else some 0

/-- `time_delay_kalman_filter.cpp` 42-52. -/
def updateX {a b : ℕ} (x : Vec a) (xNext : Vec b) : Vec a := fun i =>
  if hi : i.val < b then xNext ⟨i.val, hi⟩ else x ⟨i.val - b, by omega⟩

/-- `time_delay_kalman_filter.cpp` 54-93. -/
def updateP {a b : ℕ} (hb : b ≤ a) (P : Mat a a) (A Q : Mat b b) : Mat a a :=
  let emb : Fin b → Fin a := fun k => ⟨k.val, by omega⟩
  let embc : Fin (a - b) → Fin a := fun k => ⟨k.val, by omega⟩
  let BB : Mat b b := fun i j => P (emb i) (emb j)
  let BC : Mat b (a - b) := fun i j => P (emb i) (embc j)
  let CB : Mat (a - b) b := fun i j => P (embc i) (emb j)
  let CC : Mat (a - b) (a - b) := fun i j => P (embc i) (embc j)
  let TL := addMat (mulMat (mulMat A BB) (transpose A)) Q
  let TR := mulMat A BC
  let BL := mulMat CB (transpose A)
  fun i j =>
    if hi : i.val < b then
      if hj : j.val < b then TL ⟨i.val, hi⟩ ⟨j.val, hj⟩ else TR ⟨i.val, hi⟩ ⟨j.val - b, by omega⟩
    else
      if hj : j.val < b then BL ⟨i.val - b, by omega⟩ ⟨j.val, hj⟩
      else CC ⟨i.val - b, by omega⟩ ⟨j.val - b, by omega⟩

/-- `time_delay_kalman_filter.cpp` 95-104. -/
def makeMeasurementMatrix {h : ℕ} (C : Mat h 6) (N δ : ℕ) : Mat h (N * 6) := fun r c =>
  if hc : 6 * δ ≤ c.val ∧ c.val < 6 * δ + 6 then C r ⟨c.val - 6 * δ, by omega⟩ else some 0

/-- `time_delay_kalman_filter.hpp` 90-93, six state variables. -/
structure Filter (N : ℕ) where
  x : Vec (N * 6)
  P : Mat (N * 6) (N * 6)

variable {N : ℕ}

/-- `time_delay_kalman_filter.cpp` 140-146. -/
def Filter.make (x : Vec 6) (P : Mat 6 6) (N : ℕ) : Filter N := ⟨initX x N, initP P N⟩

/-- `time_delay_kalman_filter.cpp` 148-151. -/
def Filter.getLatestX (hN : 0 < N) (f : Filter N) : Vec 6 :=
  fun k => f.x ⟨k.val, lt_of_seqN hN k.isLt⟩

/-- `time_delay_kalman_filter.cpp` 153-156. -/
def Filter.getLatestP (hN : 0 < N) (f : Filter N) : Mat 6 6 :=
  fun k l => f.P ⟨k.val, lt_of_seqN hN k.isLt⟩ ⟨l.val, lt_of_seqN hN l.isLt⟩

/-- `time_delay_kalman_filter.cpp` 106-113, 158-164. -/
def Filter.predict (hN : 0 < N) (f : Filter N) (xNext : Vec 6) (A Q : Mat 6 6) : Filter N :=
  ⟨updateX f.x xNext, updateP (Nat.le_mul_of_pos_left 6 hN) f.P A Q⟩

/-- `time_delay_kalman_filter.cpp` 166-169. -/
def Filter.getX (f : Filter N) (δ : ℤ) : Res (Vec 6) :=
  if hδ : 0 ≤ δ ∧ δ < N then
    .ok fun k => f.x ⟨δ.toNat * 6 + k.val, by have := k.isLt; omega⟩
  else .error .assertFail

/-- `kalman_filter.hpp` 45-50. -/
def calcKalmanGain {h : ℕ} (lib : Inverse) (P : Mat n n) (C : Mat h n) (R : Mat h h) : Mat n h :=
  let PCT := mulMat P (transpose C)
  mulMat PCT (lib.inv h (addMat R (mulMat C PCT)))

/-- `kalman_filter.hpp` 52-57. -/
def updateState {h : ℕ} (x : Vec n) (y : Vec h) (C : Mat h n) (G : Mat n h) : Vec n :=
  addVec x (mulVec G (subVec y (mulVec C x)))

/-- `kalman_filter.hpp` 59-63. -/
def updateCovariance {h : ℕ} (P : Mat n n) (C : Mat h n) (G : Mat n h) : Mat n n :=
  subMat P (mulMat (mulMat G C) P)

/-- `HasNan(K) || HasInf(K)`, negated. -/
def allNumbers (A : Mat m n) : Bool := decide (∀ i j, (A i j).isSome)

/-- `time_delay_kalman_filter.cpp` 115-138, 171-176. -/
def Filter.update {h : ℕ} (lib : Inverse) (f : Filter N) (y : Vec h) (C : Mat h 6) (R : Mat h h)
    (δ : ℤ) : Res (Filter N) :=
  if δ ≥ N then .error .invalidArgument
  else if δ < 0 then .error .assertFail
  else
    let D := makeMeasurementMatrix C N δ.toNat
    let G := calcKalmanGain lib f.P D R
    if allNumbers G then .ok ⟨updateState f.x y D G, updateCovariance f.P D G⟩
    else .error .invalidArgument

/-- `mahalanobis.cpp` 19-26. -/
def squaredMahalanobis (lib : Inverse) (x y : Vec n) (C : Mat n n) : Number :=
  let d := subVec x y
  sum fun i => mul (d i) (mulVec (lib.inv n C) d i)

/-- `mahalanobis.cpp` 28-33: a comparison with NaN is false. For vectors and a covariance of numbers
`none` comes from a singular covariance, and `sing` is then the answer, as in `Ekf.mahalanobisGate`. -/
noncomputable def mahalanobisGate (lib : Inverse) (sing : Bool) (distMax : ℝ) (x y : Vec n)
    (C : Mat n n) : Bool :=
  match squaredMahalanobis lib x y C with
  | some s => decide (s ≤ distMax * distMax)
  | none => sing && allNumbers C && decide (∀ i, (subVec x y i).isSome)

/-- `pose_measurement.cpp` 28-31. -/
def getPoseState (x : Vec 6) : Vec 3 := fun i => x ⟨i.val, by omega⟩

/-- `pose_measurement.cpp` 33-36. -/
def poseCovariance (P : Mat 6 6) : Mat 3 3 := fun i j => P ⟨i.val, by omega⟩ ⟨j.val, by omega⟩

/-- `pose_measurement.cpp` 47-56. -/
def poseMeasurementCovariance (c : Fin 36 → Number) (smoothing : ℕ) : Mat 3 3 :=
  fun i j => mul (![![c 0, c 1, c 5], ![c 6, c 7, c 11], ![c 30, c 31, c 35]] i j)
    (some (smoothing : ℝ))

/-- `twist_measurement.cpp` 27-30. -/
def getTwistState (x : Vec 6) : Vec 2 := ![x 4, x 5]

/-- `twist_measurement.cpp` 32-35. -/
def twistCovariance (P : Mat 6 6) : Mat 2 2 :=
  fun i j => P ⟨4 + i.val, by omega⟩ ⟨4 + j.val, by omega⟩

/-- `twist_measurement.cpp` 45-53. -/
def twistMeasurementCovariance (c : Fin 36 → Number) (smoothing : ℕ) : Mat 2 2 :=
  fun i j => mul (![![c 0, c 5], ![c 30, c 35]] i j) (some (smoothing : ℝ))

/-- The used parts of `geometry_msgs::msg::PoseWithCovarianceStamped`. An orientation with NaN is one
for which the functions of `Tf2` give `none`. -/
structure PoseMsg where
  frame : List Char
  stamp : ℤ
  px : Number
  py : Number
  pz : Number
  ori : Quat
  cov : Fin 36 → Number

/-- The used parts of `geometry_msgs::msg::TwistWithCovarianceStamped`. -/
structure TwistMsg where
  frame : List Char
  stamp : ℤ
  vx : Number
  wz : Number
  cov : Fin 36 → Number

/-- `pose_measurement.cpp` 58-62. -/
noncomputable def poseMeasurementVector (tf : Tf2) (m : PoseMsg) : Vec 3 :=
  ![m.px, m.py, (tf.getYaw m.ori).map normalizeYaw]

/-- `twist_measurement.cpp` 55-58. -/
def twistMeasurementVector (m : TwistMsg) : Vec 2 := ![m.vx, m.wz]

/-- The body of the loops `pose_measurement.cpp` 82-113 and `twist_measurement.cpp` 78-109. -/
noncomputable def processMeasurement {h : ℕ} (lib : Inverse) (hN : 0 < N) (sing : Bool)
    (stateOf : Vec 6 → Vec h) (covOf : Mat 6 6 → Mat h h) (C : Mat h 6) (gateDist : ℝ) (now : ℤ)
    (dt : ℝ) (stamp : ℤ) (y : Vec h) (R : Mat h h) (f : Filter N) : Res (Filter N) := do
  let delayStep ← computeDelayStep (computeDelayTime now stamp : ℝ) dt
  if !checkDelayStep delayStep N then
    pure f
  else if ¬ ∀ i, (y i).isSome then
    pure f
  else do
    let x ← f.getX delayStep
    if !mahalanobisGate lib sing gateDist (stateOf x) y (covOf (f.getLatestP hN)) then
      pure f
    else
      match f.update lib y C R delayStep with
      | .ok f' => pure f'
      | .error .invalidArgument => pure f
      | .error e => .error e

/-- One iteration of `PoseMeasurement::Update`. -/
noncomputable def processPose (lib : Inverse) (hN : 0 < N) (tf : Tf2) (sing : PoseMsg → Bool)
    (gateDist : ℝ) (smoothing : ℤ) (now : ℤ) (dt : ℝ) (m : PoseMsg) (f : Filter N) :
    Res (Filter N) :=
  processMeasurement lib hN (sing m) getPoseState poseCovariance (ofMat poseMeasurementMatrix)
    gateDist now dt m.stamp (poseMeasurementVector tf m)
    (poseMeasurementCovariance m.cov (toSizeT smoothing)) f

/-- One iteration of `TwistMeasurement::Update`. -/
noncomputable def processTwist (lib : Inverse) (hN : 0 < N) (sing : TwistMsg → Bool) (gateDist : ℝ)
    (smoothing : ℤ) (now : ℤ) (dt : ℝ) (m : TwistMsg) (f : Filter N) : Res (Filter N) :=
  processMeasurement lib hN (sing m) getTwistState twistCovariance (ofMat twistMeasurementMatrix)
    gateDist now dt m.stamp (twistMeasurementVector m)
    (twistMeasurementCovariance m.cov (toSizeT smoothing)) f

/-- `covariance.cpp` 22-42. -/
def poseMessageCovariance (P : Mat 6 6) : Fin 36 → Number :=
  let o : Number := some 0
  ![P 0 0, P 0 1, o, o, o, P 0 2,
    P 1 0, P 1 1, o, o, o, P 1 2,
    o, o, o, o, o, o,
    o, o, o, o, o, o,
    o, o, o, o, o, o,
    P 2 0, P 2 1, o, o, o, P 2 2]

/-- `covariance.cpp` 44-59. -/
def twistMessageCovariance (P : Mat 6 6) : Fin 36 → Number :=
  let o : Number := some 0
  ![P 4 4, o, o, o, o, P 4 5,
    o, o, o, o, o, o,
    o, o, o, o, o, o,
    o, o, o, o, o, o,
    o, o, o, o, o, o,
    P 5 4, o, o, o, o, P 5 5]

/-- The members of the node that change (`ekf_localizer.hpp` 198-212). -/
structure NodeState (N : ℕ) where
  ekf : Option (Filter N)
  interval : UpdateInterval ℝ
  poseQ : AgedQueue PoseMsg
  twistQ : AgedQueue TwistMsg
  z : Simple1DFilter
  roll : Simple1DFilter
  pitch : Simple1DFilter

/-- The constructor, `ekf_localizer.cpp` 116-153. -/
noncomputable def NodeState.make (N : ℕ) (p : EkfParams) : NodeState N :=
  ⟨none, UpdateInterval.make p.defaultFrequency, AgedQueue.make p.poseSmoothing,
    AgedQueue.make p.twistSmoothing, Simple1DFilter.make 1, Simple1DFilter.make (1 / 10),
    Simple1DFilter.make (1 / 10)⟩

/-- What reaches the node, as `Ekf.Event`. -/
inductive Event where
  | initialPose (m : PoseMsg) (tries : List Char → List Char → ℕ → Option Transform)
  | pose (m : PoseMsg)
  | twist (m : TwistMsg)
  | timer (tInterval tPose tTwist tTf tOdom : ℤ) (singPose : PoseMsg → Bool)
      (singTwist : TwistMsg → Bool)

/-- The arguments of `MakePoseFromXYZRPY` (`ekf_localizer.cpp` 222). -/
structure Estimate where
  x : Number
  y : Number
  z : Number
  roll : Number
  pitch : Number
  yaw : Number

/-- What the node publishes, as `Ekf.Output`. -/
inductive Output where
  | transform (stamp : ℤ) (frame child : List Char) (pose : Estimate)
  | odometry (stamp : ℤ) (frame child : List Char) (pose : Estimate) (poseCov : Fin 36 → Number)
      (vx wz : Number) (twistCov : Fin 36 → Number)

/-- `std::sqrt`. -/
noncomputable def sqrt (a : Number) : Number := a.bind sqrtOpt

/-- `ekf_localizer.cpp` 275-289. -/
noncomputable def updateSimple1DFilters (tf : Tf2) (s : NodeState N) (m : PoseMsg) : NodeState N :=
  { s with
    z := s.z.update m.pz (sqrt (m.cov 14)) m.stamp
    roll := s.roll.update (tf.getRoll m.ori) (sqrt (m.cov 21)) m.stamp
    pitch := s.pitch.update (tf.getPitch m.ori) (sqrt (m.cov 28)) m.stamp }

/-- `ekf_localizer.cpp` 104-107. -/
def initState (x y yaw : Number) : Vec 6 := ![x, y, yaw, some 0, some 0, some 0]

/-- `ekf_localizer.cpp` 109-114: off the diagonal zero. -/
noncomputable def initCovariance (c : Fin 36 → Number) : Mat 6 6 := fun i j =>
  if i = j then
    ![c 0, c 7, c 35, some (1 / 10000), some (1 / 100), some (1 / 100)] i
  else some 0

/-- `ekf_localizer.cpp` 235-261: nothing of the message is checked. -/
noncomputable def initialPoseCallback (tf : Tf2) (p : EkfParams) (s : NodeState N)
    (m : PoseMsg) (tries : List Char → List Char → ℕ → Option Transform) : Res (NodeState N) := do
  let parent ← eraseBeginSlash p.poseFrame
  let child ← eraseBeginSlash m.frame
  match lookupTransform (tries parent child) with
  | none => .error .undefinedBehaviour
  | some t =>
    let x := initState (add m.px (some t.tx)) (add m.py (some t.ty))
      (add (tf.getYaw m.ori) (tf.getYaw t.rot))
    let s := { s with ekf := some (Filter.make x (initCovariance m.cov) N) }
    let s := updateSimple1DFilters tf s m
    pure { s with poseQ := s.poseQ.clear, twistQ := s.twistQ.clear }

/-- The prediction of `ekf_localizer.cpp` 199-204. -/
noncomputable def predictStep (hN : 0 < N) (p : EkfParams) (dt : ℝ) (f : Filter N) : Filter N :=
  let x := f.getLatestX hN
  f.predict hN (predictNextState x dt) (createStateTransitionMatrix x dt)
    (ofMat (processNoiseCovariance (p.variance.timeScaledVariances dt)))

/-- `ekf_localizer.cpp` 209-232. -/
def publish (hN : 0 < N) (p : EkfParams) (s : NodeState N) (f : Filter N) (tTf tOdom : ℤ) :
    List Output :=
  let x := f.getLatestX hN
  let pose : Estimate := ⟨x 0, x 1, s.z.getX, s.roll.getX, s.pitch.getX, add (x 2) (x 3)⟩
  [.transform tTf p.poseFrame "base_link".toList pose,
   .odometry tOdom p.poseFrame "base_link".toList pose (poseMessageCovariance (f.getLatestP hN))
     (x 4) (x 5) (twistMessageCovariance (f.getLatestP hN))]

/-- `ekf_localizer.cpp` 176-233. -/
noncomputable def timerCallback (lib : Inverse) (hN : 0 < N) (tf : Tf2) (p : EkfParams)
    (s : NodeState N) (tInterval tPose tTwist tTf tOdom : ℤ) (singPose : PoseMsg → Bool)
    (singTwist : TwistMsg → Bool) : Res (NodeState N × List Output) :=
  match s.ekf with
  | none => .ok (s, [])
  | some f =>
    match s.interval.compute ((tInterval : ℝ) / 1000000000) with
    | (.error .invalidArgument, iv) => .ok ({ s with interval := iv }, [])
    | (.error e, _) => .error e
    | (.ok dt, iv) => do
      let f := predictStep hN p dt f
      let (f, poseQ) ← updateAll
        (processPose lib hN tf singPose p.poseGate p.poseSmoothing tPose dt) s.poseQ f
      let (f, twistQ) ← updateAll
        (processTwist lib hN singTwist p.twistGate p.twistSmoothing tTwist dt) s.twistQ f
      pure ({ s with ekf := some f, interval := iv, poseQ := poseQ, twistQ := twistQ },
        publish hN p s f tTf tOdom)

/-- One callback. -/
noncomputable def step (lib : Inverse) (hN : 0 < N) (tf : Tf2) (p : EkfParams) (s : NodeState N) :
    Event → Res (NodeState N × List Output)
  | .initialPose m tries => do
    let s ← initialPoseCallback tf p s m tries
    pure (s, [])
  | .pose m => .ok (updateSimple1DFilters tf { s with poseQ := s.poseQ.push m } m, [])
  | .twist m => .ok ({ s with twistQ := s.twistQ.push m }, [])
  | .timer t1 t2 t3 t4 t5 sp st => timerCallback lib hN tf p s t1 t2 t3 t4 t5 sp st

/-- A sequence of callbacks: the node afterwards and everything published, in order. -/
noncomputable def run (lib : Inverse) (hN : 0 < N) (tf : Tf2) (p : EkfParams) :
    NodeState N → List Event → Res (NodeState N × List Output)
  | s, [] => .ok (s, [])
  | s, e :: es => do
    let (s, o) ← step lib hN tf p s e
    let (s, os) ← run lib hN tf p s es
    pure (s, o ++ os)

end Verif.EkfNaN
