/-
C86: the localiser refines a textbook extended Kalman filter over the stored states.

The reference below is written without the functions of the model: a belief (mean and covariance of
all stored states), prediction by the motion of `C37` and its derivative, Kalman's measurement update,
and scalar filters for height, roll and pitch. Only the queues (`C28`, `C29`), the transform lookup
(`C68`) and the frame names (`C42`) are taken over, as they have their own properties.
-/
import Verif.Props.C32
import Verif.Props.C36
import Verif.Props.C37
import Verif.Props.C39
import Verif.Props.C66
import Verif.Props.C69
import Mathlib.Algebra.Order.ToIntervalMod
import Mathlib.LinearAlgebra.Matrix.ToLin

set_option autoImplicit false

namespace Verif.Ekf

open Matrix Verif.Kalman

/-! ### The reference -/

/-- Mean and covariance of the current state (step 0) and the `n` states before; the components are
x, y, yaw, yaw bias, forward velocity, yaw rate. -/
structure Belief (n : ℕ) where
  mean : Fin (n + 1) × Fin 6 → ℝ
  cov : Matrix (Fin (n + 1) × Fin 6) (Fin (n + 1) × Fin 6) ℝ

/-- The current state. -/
def Belief.now {n : ℕ} (b : Belief n) : Fin 6 → ℝ := fun k => b.mean (0, k)

/-- Covariance of two components of the current state. -/
def Belief.nowCov {n : ℕ} (b : Belief n) (k l : Fin 6) : ℝ := b.cov (0, k) (0, l)

/-- All states at the given pose, standing still, independent of each other. -/
noncomputable def Belief.start (n : ℕ) (x y yaw varX varY varYaw : ℝ) : Belief n where
  mean a := ![x, y, yaw, 0, 0, 0] a.2
  cov := Matrix.of fun a b => if a = b then ![varX, varY, varYaw, 1 / 10000, 1 / 100, 1 / 100] a.2 else 0

/-- The representative of an angle in `(-π, π]`. -/
noncomputable def wrapAngle (θ : ℝ) : ℝ := toIocMod Real.two_pi_pos (-Real.pi) θ

/-- The state moved by `motion`, with the yaw wrapped. -/
noncomputable def moved (dt : ℝ) (x : Fin 6 → ℝ) : Fin 6 → ℝ := fun k =>
  if k = 2 then wrapAngle (motion dt x 2) else motion dt x k

/-- The derivative of the motion by the state, as a matrix. -/
noncomputable def motionJacobian (dt : ℝ) (x : Fin 6 → ℝ) : Matrix (Fin 6) (Fin 6) ℝ :=
  LinearMap.toMatrix' (fderiv ℝ (motion dt) x : (Fin 6 → ℝ) →ₗ[ℝ] (Fin 6 → ℝ))

/-- Standard deviations of the process noise per second. -/
structure Noise where
  yaw : ℝ
  bias : ℝ
  vx : ℝ
  wz : ℝ

/-- Process noise of a time step: none on the position. -/
noncomputable def Noise.cov (s : Noise) (dt : ℝ) : Matrix (Fin 6) (Fin 6) ℝ :=
  Matrix.of fun k l => if k ≠ l then 0 else
    match k with
    | 0 => 0
    | 1 => 0
    | 2 => (s.yaw * dt) ^ 2
    | 3 => (s.bias * dt) ^ 2
    | 4 => (s.vx * dt) ^ 2
    | 5 => (s.wz * dt) ^ 2

/-- Prediction: the current state moves, the others become one step older. -/
noncomputable def Belief.predict {n : ℕ} (b : Belief n) (s : Noise) (dt : ℝ) : Belief n where
  mean a := Fin.cases (motive := fun _ => ℝ) (moved dt b.now a.2)
    (fun i => b.mean (i.castSucc, a.2)) a.1
  cov := shiftMatrix (motionJacobian dt b.now) * b.cov * (shiftMatrix (motionJacobian dt b.now))ᵀ +
    newestNoise (s.cov dt)

/-- Kalman's update with the measurement `z = H x + noise`; none if the innovation covariance is
singular. -/
noncomputable def Belief.measure {n h : ℕ} (b : Belief n)
    (H : Matrix (Fin h) (Fin (n + 1) × Fin 6) ℝ) (R : Matrix (Fin h) (Fin h) ℝ) (z : Fin h → ℝ) :
    Option (Belief n) :=
  let S := R + H * b.cov * Hᵀ
  if S.det = 0 then none
  else some ⟨b.mean + (b.cov * Hᵀ * S⁻¹) *ᵥ (z - H *ᵥ b.mean),
    b.cov - b.cov * Hᵀ * S⁻¹ * H * b.cov⟩

/-- Observation of the components `sel` of the state `δ` steps back. -/
def observation {n h : ℕ} (δ : Fin (n + 1)) (sel : Fin h → Fin 6) :
    Matrix (Fin h) (Fin (n + 1) × Fin 6) ℝ := fun r a => if a = (δ, sel r) then 1 else 0

/-- The gate: squared distance of prediction and measurement, in units of the given covariance, at
most `gate²`. `sing` decides for singular covariances. -/
noncomputable def InGate {h : ℕ} (sing : Bool) (gate : ℝ) (x z : Fin h → ℝ)
    (C : Matrix (Fin h) (Fin h) ℝ) : Prop :=
  if C.det = 0 then sing = true else (x - z) ⬝ᵥ (C⁻¹ *ᵥ (x - z)) ≤ gate ^ 2

/-- How many time steps ago a message was stamped: the nearest integer, halves up; 0 for messages
from the future. -/
noncomputable def stepsAgo (now stamp : ℤ) (dt : ℝ) : ℤ :=
  ⌊max (((now - stamp : ℤ) : ℝ) / 10 ^ 9) 0 / dt + 1 / 2⌋

open Classical in
/-- What a message does: it is used as a measurement of the state at its time if it is finite, not
older than the history, inside the gate (judged by the covariance of the *current* state) and the
innovation covariance is invertible; otherwise it is ignored. -/
noncomputable def Belief.take {n h : ℕ} (b : Belief n) (sing : Bool) (gate : ℝ) (now : ℤ) (dt : ℝ)
    (stamp : ℤ) (sel : Fin h → Fin 6) (z : Fin h → Option ℝ) (R : Matrix (Fin h) (Fin h) ℝ) :
    Belief n :=
  if hs : 0 ≤ stepsAgo now stamp dt ∧ stepsAgo now stamp dt < n + 1 ∧ ∀ i, (z i).isSome then
    let δ : Fin (n + 1) := ⟨(stepsAgo now stamp dt).toNat, by omega⟩
    let zv : Fin h → ℝ := fun i => (z i).get (hs.2.2 i)
    if InGate sing gate (fun r => b.mean (δ, sel r)) zv
        (Matrix.of fun r s => b.nowCov (sel r) (sel s)) then
      (b.measure (observation δ sel) R zv).getD b
    else b
  else b

/-- A pose message measures x, y and yaw; its covariance is weighed down by the number of times it
is used. -/
noncomputable def Belief.takePose {n : ℕ} (tf : Tf2) (p : EkfParams) (sing : PoseMsg → Bool)
    (now : ℤ) (dt : ℝ) (b : Belief n) (m : PoseMsg) : Belief n :=
  b.take (sing m) p.poseGate now dt m.stamp ![0, 1, 2]
    ![m.px, m.py, (tf.getYaw m.ori).map wrapAngle]
    (Matrix.of fun r s => (toSizeT p.poseSmoothing : ℝ) * entry m.cov (![0, 1, 5] r) (![0, 1, 5] s))

/-- A twist message measures forward velocity and yaw rate. -/
noncomputable def Belief.takeTwist {n : ℕ} (p : EkfParams) (sing : TwistMsg → Bool)
    (now : ℤ) (dt : ℝ) (b : Belief n) (m : TwistMsg) : Belief n :=
  b.take (sing m) p.twistGate now dt m.stamp ![4, 5] ![m.vx, m.wz]
    (Matrix.of fun r s => (toSizeT p.twistSmoothing : ℝ) * entry m.cov (![0, 5] r) (![0, 5] s))

/-- A scalar filter: value and variance (`none` if not finite), and the time of the last
observation. -/
structure Scalar where
  value : Option ℝ
  var : Option ℝ
  time : ℤ

/-- A number that is a variance. -/
noncomputable def asVariance (r : ℝ) : Option ℝ := if r < 0 then none else some r

/-- Scalar Kalman filter with process noise `proc` per second: the first observation is adopted, a
later one is combined with the value, weighed by the variances. -/
noncomputable def Scalar.observe (proc : ℝ) (obs : Option ℝ) (r : Option ℝ) (time : ℤ) :
    Option Scalar → Scalar
  | none => ⟨obs, r, time⟩
  | some s =>
    match s.var, r with
    | some v, some r =>
      let v1 := v + (proc * (((time - s.time : ℤ) : ℝ) / 10 ^ 9)) ^ 2
      if v1 + r = 0 then ⟨none, none, time⟩
      else ⟨(s.value.bind fun x => obs.map fun o => (x * r + o * v1) / (v1 + r)),
        some (v1 * r / (v1 + r)), time⟩
    | _, _ => ⟨none, none, time⟩

/-- The reference localiser. -/
structure Reference (n : ℕ) where
  belief : Option (Belief n)
  lastTick : Option ℝ
  poses : AgedQueue PoseMsg
  twists : AgedQueue TwistMsg
  height : Option Scalar
  roll : Option Scalar
  pitch : Option Scalar

/-- The reference localiser at the start. -/
def Reference.init (n : ℕ) (p : EkfParams) : Reference n :=
  ⟨none, none, AgedQueue.make p.poseSmoothing, AgedQueue.make p.twistSmoothing, none, none, none⟩

/-- Height, roll and pitch of a pose message. -/
noncomputable def Reference.level {n : ℕ} (tf : Tf2) (r : Reference n) (m : PoseMsg) :
    Reference n :=
  { r with
    height := some (Scalar.observe 1 m.pz (asVariance (entry m.cov 2 2)) m.stamp r.height)
    roll := some (Scalar.observe (1 / 10) (tf.getRoll m.ori) (asVariance (entry m.cov 3 3)) m.stamp
      r.roll)
    pitch := some (Scalar.observe (1 / 10) (tf.getPitch m.ori) (asVariance (entry m.cov 4 4)) m.stamp
      r.pitch) }

/-- The time step of a tick at time `t` (seconds): the time since the last tick, at most 10 s; at the
first tick the reciprocal of the default frequency, taken to be at least 0.1 Hz; none if time went
backwards. -/
noncomputable def tickLength (freq : ℝ) (last : Option ℝ) (t : ℝ) : Option ℝ :=
  match last with
  | none => some (1 / max freq (1 / 10))
  | some l => if t < l then none else some (min (t - l) 10)

/-- The process noise; the yaw bias is constant if its estimation is disabled. -/
noncomputable def EkfParams.noise (p : EkfParams) : Noise :=
  ⟨p.yawCov, if p.enableYawBias then p.yawBiasCov else 0, p.vxCov, p.wzCov⟩

/-- The value of a scalar filter; 0 before the first observation. -/
def valueOf : Option Scalar → Option ℝ
  | none => some 0
  | some s => s.value

/-- Component of the state at a row of a pose covariance (x, y, z, roll, pitch, yaw). -/
def poseRow : Fin 6 → Option (Fin 6)
  | 0 => some 0
  | 1 => some 1
  | 5 => some 2
  | _ => none

/-- Component of the state at a row of a twist covariance. -/
def twistRow : Fin 6 → Option (Fin 6)
  | 0 => some 4
  | 5 => some 5
  | _ => none

/-- The 36 entries of a covariance, row by row; zero for what is not estimated. -/
noncomputable def Belief.rows {n : ℕ} (b : Belief n) (row : Fin 6 → Option (Fin 6)) : Fin 36 → ℝ :=
  fun e =>
    match row ⟨e.val / 6, by omega⟩, row ⟨e.val % 6, by omega⟩ with
    | some k, some l => b.nowCov k l
    | _, _ => 0

/-- What is published for a belief. -/
noncomputable def Reference.publish {n : ℕ} (p : EkfParams) (r : Reference n) (b : Belief n)
    (tTf tOdom : ℤ) : List Output :=
  let pose : Estimate :=
    { x := b.now 0, y := b.now 1, z := valueOf r.height, roll := valueOf r.roll,
      pitch := valueOf r.pitch, yaw := b.now 2 + b.now 3 }
  [.transform tTf p.poseFrame "base_link".toList pose,
   .odometry tOdom p.poseFrame "base_link".toList pose (b.rows poseRow) (b.now 4) (b.now 5)
     (b.rows twistRow)]

/-- One event of the reference localiser, with what is published. Nothing is said about events at
which the code fails (`C41`, `C31`): there the reference does nothing. -/
noncomputable def Reference.step {n : ℕ} (tf : Tf2) (p : EkfParams) (r : Reference n) :
    Event → Reference n × List Output
  | .initialPose m tries =>
    match eraseBeginSlash p.poseFrame, eraseBeginSlash m.frame with
    | .ok parent, .ok child =>
      match lookupTransform (tries parent child) with
      | some t =>
        match m.px, m.py, tf.getYaw m.ori, tf.getYaw t.rot with
        | some px, some py, some yaw, some turn =>
          let b := Belief.start n (px + t.tx) (py + t.ty) (yaw + turn) (entry m.cov 0 0)
            (entry m.cov 1 1) (entry m.cov 5 5)
          ({ r.level tf m with belief := some b, poses := r.poses.clear, twists := r.twists.clear },
            [])
        | _, _, _, _ => (r, [])
      | none => (r, [])
    | _, _ => (r, [])
  | .pose m => ({ r.level tf m with poses := r.poses.push m }, [])
  | .twist m => ({ r with twists := r.twists.push m }, [])
  | .timer t tPose tTwist tTf tOdom singPose singTwist =>
    match r.belief with
    | none => (r, [])
    | some b =>
      match tickLength p.defaultFrequency r.lastTick ((t : ℝ) / 10 ^ 9) with
      | none => (r, [])
      | some dt =>
        match r.poses.tick, r.twists.tick with
        | .ok (ps, poses), .ok (ts, twists) =>
          let b := b.predict p.noise dt
          let b := ps.foldl (Belief.takePose tf p singPose tPose dt) b
          let b := ts.foldl (Belief.takeTwist p singTwist tTwist dt) b
          ({ r with
              belief := some b
              lastTick := some ((t : ℝ) / 10 ^ 9)
              poses := poses
              twists := twists }, r.publish p b tTf tOdom)
        | _, _ => (r, [])

/-- A sequence of events. -/
noncomputable def Reference.run {n : ℕ} (tf : Tf2) (p : EkfParams) :
    Reference n → List Event → Reference n × List Output
  | r, [] => (r, [])
  | r, e :: es =>
    let (r, o) := r.step tf p e
    let (r, os) := Reference.run tf p r es
    (r, o ++ os)

/-! ### Simulation -/

/-- The belief a filter holds. -/
def beliefOf {n : ℕ} (f : TimeDelayKalmanFilter ℝ (n + 1) 6) : Belief n := ⟨augX f.x, aug f.P⟩

theorem beliefOf_now {n : ℕ} (f : TimeDelayKalmanFilter ℝ (n + 1) 6) :
    (beliefOf f).now = f.getLatestX n.succ_pos := by
  funext k
  simp only [Belief.now, beliefOf, augX, TimeDelayKalmanFilter.getLatestX]
  rw [emb_slot_zero]

theorem beliefOf_nowCov {n : ℕ} (f : TimeDelayKalmanFilter ℝ (n + 1) 6) (k l : Fin 6) :
    (beliefOf f).nowCov k l = f.getLatestP n.succ_pos k l := by
  simp only [Belief.nowCov, beliefOf, aug, TimeDelayKalmanFilter.getLatestP]
  rw [emb_slot_zero, emb_slot_zero]

theorem wrapAngle_eq (θ : ℝ) : wrapAngle θ = normalizeYaw θ := by
  have hm := toIocMod_mem_Ioc Real.two_pi_pos (-Real.pi) θ
  refine (C38_congruent θ).2 _ hm.1 ?_ ?_
  · have := hm.2; unfold wrapAngle; linarith
  · refine ⟨-toIocDiv Real.two_pi_pos (-Real.pi) θ, ?_⟩
    unfold wrapAngle
    rw [toIocMod]
    simp only [zsmul_eq_mul]
    push_cast
    ring

theorem moved_eq (dt : ℝ) (x : Fin 6 → ℝ) : moved dt x = predictNextState x dt := by
  funext k
  rw [C37_motion_model]
  simp only [moved, wrapAngle_eq]

theorem motionJacobian_eq (dt : ℝ) (x : Fin 6 → ℝ) :
    motionJacobian dt x = createStateTransitionMatrix x dt := by
  unfold motionJacobian
  rw [(C37_jacobian x dt).fderiv]
  exact LinearMap.toMatrix'_toLin' _

theorem noise_eq (p : EkfParams) (dt : ℝ) :
    p.noise.cov dt = processNoiseCovariance (p.variance.timeScaledVariances dt) := by
  ext k l
  simp only [Noise.cov, EkfParams.noise, processNoiseCovariance, EkfParams.variance,
    DefaultVariance.timeScaledVariances, timeScaledVariance, initYawBias, Matrix.of_apply]
  cases p.enableYawBias <;> fin_cases k <;> fin_cases l <;> simp <;> ring

theorem beliefOf_predict {n : ℕ} (p : EkfParams) (dt : ℝ) (f : TimeDelayKalmanFilter ℝ (n + 1) 6) :
    beliefOf (predictStep n.succ_pos p dt f) = (beliefOf f).predict p.noise dt := by
  unfold predictStep Belief.predict beliefOf
  rw [Belief.mk.injEq]
  constructor
  · funext ⟨i, k⟩
    have h0 := C32_state_nonlinear f (predictNextState (f.getLatestX n.succ_pos) dt)
      (createStateTransitionMatrix (f.getLatestX n.succ_pos) dt)
      (processNoiseCovariance (p.variance.timeScaledVariances dt))
    refine Fin.cases ?_ (fun j => ?_) i
    · simp only [Fin.cases_zero]
      have h1 := beliefOf_now (f.predict n.succ_pos (predictNextState (f.getLatestX n.succ_pos) dt)
        (createStateTransitionMatrix (f.getLatestX n.succ_pos) dt)
        (processNoiseCovariance (p.variance.timeScaledVariances dt)))
      rw [h0.1] at h1
      have h2 := congrFun h1 k
      have h3 := beliefOf_now f
      unfold beliefOf at h3
      rw [h3, moved_eq]
      exact h2
    · simp only [Fin.cases_succ]
      exact congrFun (h0.2 j) k
  · rw [C32_covariance, noise_eq, motionJacobian_eq]
    have h3 := beliefOf_now f
    unfold beliefOf at h3
    rw [h3]

/-! #### Measurements -/

theorem beliefOf_measure {n h : ℕ} (f : TimeDelayKalmanFilter ℝ (n + 1) 6) (y : Fin h → ℝ)
    (C : Matrix (Fin h) (Fin 6) ℝ) (R : Matrix (Fin h) (Fin h) ℝ) (δ : Fin (n + 1))
    (sel : Fin h → Fin 6) (hC : ∀ r k, C r k = if k = sel r then 1 else 0) :
    (∀ f', f.update y C R (δ.val : ℤ) = .ok f' →
      (beliefOf f).measure (observation δ sel) R y = some (beliefOf f')) ∧
    (∀ e, f.update y C R (δ.val : ℤ) = .error e →
      e = .invalidArgument ∧ (beliefOf f).measure (observation δ sel) R y = none) := by
  have hO : (observation δ sel : Matrix (Fin h) (Fin (n + 1) × Fin 6) ℝ) = delayedMeasurement C δ := by
    funext r ⟨i, k⟩
    simp only [observation, delayedMeasurement, hC, Prod.mk.injEq]
    by_cases h1 : i = δ <;> by_cases h2 : k = sel r <;> simp [h1, h2]
  constructor
  · intro f' hf'
    obtain ⟨h1, h2, h3⟩ := C33_augmented f f' y C R δ hf'
    simp only [Belief.measure, beliefOf, hO]
    rw [if_neg h1, ← h2, ← h3]
  · intro e he
    obtain ⟨h1, h2⟩ := C33_blocks f y C R δ
    by_cases hd : (R + C * blk f.P δ δ * Cᵀ).det = 0
    · refine ⟨by rw [h1 hd] at he; cases he; rfl, ?_⟩
      have hS : R + delayedMeasurement C δ * aug f.P * (delayedMeasurement C δ)ᵀ =
          R + C * blk f.P δ δ * Cᵀ := by
        congr 1
        ext r s
        rw [Matrix.mul_assoc, Matrix.mul_assoc, Matrix.mul_apply, Matrix.mul_apply,
          Fintype.sum_prod_type, Finset.sum_eq_single δ]
        · refine Finset.sum_congr rfl fun l _ => ?_
          rw [Matrix.mul_apply, Matrix.mul_apply, Fintype.sum_prod_type, Finset.sum_eq_single δ]
          · simp [delayedMeasurement, blk, aug]
          · intro j _ hj
            exact Finset.sum_eq_zero fun l _ => by simp [delayedMeasurement, hj]
          · simp
        · intro j _ hj
          exact Finset.sum_eq_zero fun l _ => by simp [delayedMeasurement, hj]
        · simp
      simp only [Belief.measure, beliefOf, hO]
      rw [hS, if_pos hd]
    · obtain ⟨f', hf', -⟩ := h2 hd
      rw [hf'] at he
      cases he

theorem stepsAgo_eq {now stamp : ℤ} {dt : ℝ} {s : ℤ}
    (h : computeDelayStep (computeDelayTime now stamp : ℝ) dt = .ok s) (hdt : 0 ≤ dt) :
    stepsAgo now stamp dt = s ∧ 0 ≤ s := by
  unfold computeDelayStep at h
  rw [if_neg (show ¬dt = 0 by rintro rfl; rw [if_pos rfl] at h; cases h)] at h
  simp only at h
  split_ifs at h with h1
  injection h with h
  have hq : 0 ≤ max (computeDelayTime now stamp : ℝ) 0 / dt := div_nonneg (le_max_right _ _) hdt
  rw [roundHalfAway, if_pos hq] at h
  have : stepsAgo now stamp dt = s := by
    rw [← h]
    unfold stepsAgo computeDelayTime
    norm_num
  exact ⟨this, by rw [← h]; exact Int.floor_nonneg.2 (by linarith)⟩

theorem inGate_iff {h : ℕ} (sing : Bool) (gate : ℝ) (x z : Fin h → ℝ) (C : Matrix (Fin h) (Fin h) ℝ) :
    mahalanobisGate sing gate x z C = true ↔ InGate sing gate x z C := by
  unfold mahalanobisGate squaredMahalanobis InGate
  by_cases hC : C.det = 0
  · simp [hC]
  · simp [hC, pow_two]

theorem beliefOf_take {n h : ℕ} (sing : Bool) (stateOf : (Fin 6 → ℝ) → (Fin h → ℝ))
    (covOf : Matrix (Fin 6) (Fin 6) ℝ → Matrix (Fin h) (Fin h) ℝ) (C : Matrix (Fin h) (Fin 6) ℝ)
    (gate : ℝ) (now : ℤ) (dt : ℝ) (hdt : 0 ≤ dt) (stamp : ℤ) (y : Fin h → Option ℝ)
    (R : Matrix (Fin h) (Fin h) ℝ) (f f' : TimeDelayKalmanFilter ℝ (n + 1) 6) (sel : Fin h → Fin 6)
    (hC : ∀ r k, C r k = if k = sel r then 1 else 0) (hst : ∀ x r, stateOf x r = x (sel r))
    (hcov : ∀ P r s, covOf P r s = P (sel r) (sel s))
    (hp : processMeasurement n.succ_pos sing stateOf covOf C gate now dt stamp y R f = .ok f') :
    beliefOf f' = (beliefOf f).take sing gate now dt stamp sel y R := by
  unfold processMeasurement at hp
  simp only [bind, Except.bind] at hp
  cases hd : computeDelayStep (computeDelayTime now stamp : ℝ) dt with
  | error e => rw [hd] at hp; cases hp
  | ok s =>
    rw [hd] at hp
    simp only at hp
    obtain ⟨hs, hs0⟩ := stepsAgo_eq hd hdt
    subst hs
    set s := stepsAgo now stamp dt with hsdef
    unfold Belief.take
    by_cases hc : s < ((n + 1 : ℕ) : ℤ)
    · rw [if_neg (by simp only [checkDelayStep, decide_eq_true hc]; decide)] at hp
      by_cases hy : ∀ i, (y i).isSome
      · rw [dif_pos ⟨hs0, by push_cast at hc; exact hc, hy⟩]
        simp only [allFinite, dif_pos hy] at hp
        have hlt : s.toNat < n + 1 := by omega
        have hx : f.getX s = .ok fun k => (beliefOf f).mean (⟨s.toNat, hlt⟩, k) := by
          unfold TimeDelayKalmanFilter.getX
          rw [dif_pos ⟨hs0, by exact_mod_cast hc⟩]
          congr 1
          funext k
          simp only [beliefOf, augX]
          congr 1
          apply Fin.ext
          simp only [slot_val]
          ring
        rw [hx] at hp
        simp only at hp
        have hcv : covOf (f.getLatestP n.succ_pos) =
            Matrix.of fun r s => (beliefOf f).nowCov (sel r) (sel s) := by
          ext r s
          rw [hcov, Matrix.of_apply, beliefOf_nowCov]
        have hxs : stateOf (fun k => (beliefOf f).mean (⟨s.toNat, hlt⟩, k)) =
            fun r => (beliefOf f).mean (⟨s.toNat, hlt⟩, sel r) := by
          funext r
          rw [hst]
        rw [hcv, hxs] at hp
        simp only
        by_cases hg : InGate sing gate (fun r => (beliefOf f).mean (⟨s.toNat, hlt⟩, sel r))
            (fun i => (y i).get (hy i)) (Matrix.of fun r s => (beliefOf f).nowCov (sel r) (sel s))
        · rw [if_pos hg]
          rw [if_neg (by simp [(inGate_iff _ _ _ _ _).2 hg])] at hp
          obtain ⟨m1, m2⟩ := beliefOf_measure f (fun i => (y i).get (hy i)) C R ⟨s.toNat, hlt⟩ sel hC
          have hsn : ((s.toNat : ℕ) : ℤ) = s := by omega
          simp only [hsn] at m1 m2
          cases hu : f.update (fun i => (y i).get (hy i)) C R s with
          | ok f1 =>
            rw [hu] at hp
            injection hp with hp
            rw [m1 f1 hu, ← hp]
            rfl
          | error e =>
            obtain ⟨rfl, hnone⟩ := m2 e hu
            rw [hu] at hp
            injection hp with hp
            rw [hnone, ← hp]
            rfl
        · rw [if_neg hg]
          have : mahalanobisGate sing gate (fun r => (beliefOf f).mean (⟨s.toNat, hlt⟩, sel r))
            (fun i => (y i).get (hy i)) (Matrix.of fun r s => (beliefOf f).nowCov (sel r) (sel s)) =
              false := by
            rw [← Bool.not_eq_true, inGate_iff]; exact hg
          rw [if_pos (by simp [this])] at hp
          injection hp with hp
          rw [hp]
      · rw [dif_neg (fun h => hy h.2.2)]
        simp only [allFinite, dif_neg hy] at hp
        injection hp with hp
        rw [hp]
    · rw [if_pos (by simp only [checkDelayStep, decide_eq_false hc]; rfl)] at hp
      injection hp with hp
      rw [dif_neg (by push_cast at hc; rintro ⟨-, h, -⟩; exact hc h), hp]

theorem beliefOf_pose {n : ℕ} (tf : Tf2) (p : EkfParams) (sing : PoseMsg → Bool) (now : ℤ) (dt : ℝ)
    (hdt : 0 ≤ dt) (m : PoseMsg) (f f' : TimeDelayKalmanFilter ℝ (n + 1) 6)
    (hp : processPose n.succ_pos tf sing p.poseGate p.poseSmoothing now dt m f = .ok f') :
    beliefOf f' = (beliefOf f).takePose tf p sing now dt m := by
  unfold processPose at hp
  rw [beliefOf_take _ _ _ _ _ _ _ hdt _ _ _ f f' ![0, 1, 2] ?_ ?_ ?_ hp]
  · unfold Belief.takePose
    have h1 : poseMeasurementVector tf m = ![m.px, m.py, (tf.getYaw m.ori).map wrapAngle] := by
      unfold poseMeasurementVector
      rw [show wrapAngle = normalizeYaw from funext wrapAngle_eq]
    have h2 : poseMeasurementCovariance m.cov (toSizeT p.poseSmoothing) = Matrix.of fun r s =>
        (toSizeT p.poseSmoothing : ℝ) * entry m.cov (![0, 1, 5] r) (![0, 1, 5] s) := by
      ext r s
      fin_cases r <;> fin_cases s <;> simp [poseMeasurementCovariance, entry]
    rw [h1, h2]
  · intro r k
    fin_cases r <;> fin_cases k <;> simp [poseMeasurementMatrix]
  · intro x r
    fin_cases r <;> rfl
  · intro P r s
    fin_cases r <;> fin_cases s <;> rfl

theorem beliefOf_twist {n : ℕ} (p : EkfParams) (sing : TwistMsg → Bool) (now : ℤ) (dt : ℝ)
    (hdt : 0 ≤ dt) (m : TwistMsg) (f f' : TimeDelayKalmanFilter ℝ (n + 1) 6)
    (hp : processTwist n.succ_pos sing p.twistGate p.twistSmoothing now dt m f = .ok f') :
    beliefOf f' = (beliefOf f).takeTwist p sing now dt m := by
  unfold processTwist at hp
  rw [beliefOf_take _ _ _ _ _ _ _ hdt _ _ _ f f' ![4, 5] ?_ ?_ ?_ hp]
  · unfold Belief.takeTwist
    have h2 : twistMeasurementCovariance m.cov (toSizeT p.twistSmoothing) = Matrix.of fun r s =>
        (toSizeT p.twistSmoothing : ℝ) * entry m.cov (![0, 5] r) (![0, 5] s) := by
      ext r s
      fin_cases r <;> fin_cases s <;> simp [twistMeasurementCovariance, entry]
    rw [h2]
    rfl
  · intro r k
    fin_cases r <;> fin_cases k <;> simp [twistMeasurementMatrix]
  · intro x r
    fin_cases r <;> rfl
  · intro P r s
    fin_cases r <;> fin_cases s <;> rfl

/-- A measurement loop is a tick of the queue and a fold. -/
theorem updateLoop_tick {α F B : Type} (process : α → F → Res F) (abs : F → B) (take : B → α → B)
    (hproc : ∀ m f f', process m f = .ok f' → abs f' = take (abs f) m) :
    ∀ (fuel i : ℕ) (q q' : AgedQueue α) (f f' : F), updateLoop process fuel i q f = .ok (f', q') →
      ∃ ms, AgedQueue.tickLoop fuel i q = .ok (ms, q') ∧ abs f' = ms.foldl take (abs f) := by
  intro fuel
  induction fuel with
  | zero =>
    intro i q q' f f' h
    simp only [updateLoop] at h
    injection h with h
    cases h
    exact ⟨[], rfl, rfl⟩
  | succ fuel ih =>
    intro i q q' f f' h
    rw [updateLoop] at h
    by_cases hi : i < q.size
    · rw [if_pos hi] at h
      cases hp : q.pop with
      | error e => rw [hp] at h; cases h
      | ok r =>
        obtain ⟨m, q1⟩ := r
        rw [hp] at h
        simp only [bind, Except.bind] at h
        cases hm : process m f with
        | error e => rw [hm] at h; cases h
        | ok f1 =>
          rw [hm] at h
          obtain ⟨ms, h1, h2⟩ := ih _ _ _ _ _ h
          refine ⟨m :: ms, ?_, ?_⟩
          · rw [AgedQueue.tickLoop, if_pos hi, hp]
            simp only [bind, Except.bind, h1, pure, Except.pure]
          · rw [h2, List.foldl_cons, hproc m f f1 hm]
    · rw [if_neg hi] at h
      injection h with h
      cases h
      exact ⟨[], by rw [AgedQueue.tickLoop, if_neg hi], rfl⟩

/-! #### Time steps -/

theorem compute_eq (freq : ℝ) (last : Option ℝ) (t : ℝ) :
    (tickLength freq last t = none → UpdateInterval.compute ⟨freq, last⟩ t =
      (.error .invalidArgument, ⟨freq, last⟩)) ∧
    ∀ dt, tickLength freq last t = some dt → 0 ≤ dt ∧
      UpdateInterval.compute ⟨freq, last⟩ t = (.ok dt, ⟨freq, some t⟩) := by
  cases last with
  | none =>
    refine ⟨fun h => (by cases h), fun dt h => ?_⟩
    simp only [tickLength, Option.some.injEq] at h
    have h1 : (0 : ℝ) < max freq (1 / 10) := lt_max_of_lt_right (by norm_num)
    refine ⟨by rw [← h]; positivity, ?_⟩
    simp only [UpdateInterval.compute, computeInterval, h]
  | some l =>
    simp only [tickLength, UpdateInterval.compute]
    by_cases hlt : t < l
    · simp [hlt]
    · rw [if_neg hlt, if_neg hlt]
      refine ⟨fun h => (by cases h), fun dt h => ?_⟩
      simp only [Option.some.injEq] at h
      have h0 : 0 ≤ t - l := by linarith [not_lt.1 hlt]
      refine ⟨by rw [← h]; exact le_min h0 (by norm_num), ?_⟩
      have : computeInterval (recipNonneg (t - l)) = dt := by
        rw [← h]
        unfold recipNonneg
        by_cases hz : t - l = 0
        · rw [if_pos hz, hz]; simp [computeInterval]
        · rw [if_neg hz]
          have hpos : 0 < t - l := lt_of_le_of_ne h0 (Ne.symm hz)
          simp only [computeInterval]
          rcases le_total (1 / (t - l)) (1 / 10) with hle | hle
          · rw [max_eq_right hle]
            rw [one_div_le_one_div hpos (by norm_num)] at hle
            rw [min_eq_right hle]; norm_num
          · rw [max_eq_left hle]
            rw [one_div_le_one_div (by norm_num) hpos] at hle
            rw [min_eq_left hle]; simp
      rw [this]

/-! #### Height, roll, pitch -/

/-- A one-dimensional filter of the node and its reference. -/
def Follows (proc : ℝ) (f : Simple1DFilter) : Option Scalar → Prop
  | none => f.proc = proc ∧ f.initialized = false ∧ f.x = some 0
  | some s => f.proc = proc ∧ f.initialized = true ∧ f.x = s.value ∧ f.latest = s.time ∧
      f.stddev.map (fun d => d ^ 2) = s.var

theorem follows_value {proc : ℝ} {f : Simple1DFilter} {o : Option Scalar} (h : Follows proc f o) :
    f.getX = valueOf o := by
  cases o with
  | none => exact h.2.2
  | some s => exact h.2.2.1

theorem follows_update {proc : ℝ} {f : Simple1DFilter} {o : Option Scalar} (h : Follows proc f o)
    (obs : Option ℝ) (r : ℝ) (t : ℤ) :
    Follows proc (f.update obs (sqrtOpt r) t) (some (Scalar.observe proc obs (asVariance r) t o)) := by
  have hvar : (sqrtOpt r).map (fun d => d ^ 2) = asVariance r := by
    unfold sqrtOpt asVariance
    split_ifs with hr
    · rfl
    · simp [Real.sq_sqrt (not_lt.1 hr)]
  cases o with
  | none =>
    obtain ⟨h1, h2, h3⟩ := h
    simp only [Simple1DFilter.update, h2, Bool.not_false, if_true, Simple1DFilter.init, Follows,
      Scalar.observe]
    exact ⟨h1, trivial, trivial, trivial, hvar⟩
  | some s =>
    obtain ⟨h1, h2, h3, h4, h5⟩ := h
    cases hs : f.stddev with
    | none =>
      have hsv : s.var = none := by rw [← h5, hs]; rfl
      simp only [Simple1DFilter.update, h2, hs, Bool.not_true, Bool.false_eq_true, if_false, Follows,
        Scalar.observe, hsv]
      exact ⟨h1, trivial, trivial, trivial, rfl⟩
    | some d =>
      have hsv : s.var = some (d ^ 2) := by rw [← h5, hs]; rfl
      cases ho : sqrtOpt r with
      | none =>
        rw [ho] at hvar
        rw [← hvar]
        simp only [Simple1DFilter.update, h2, hs, Bool.not_true, Bool.false_eq_true, if_false, Follows,
          Scalar.observe, hsv, Option.map_none]
        exact ⟨h1, trivial, trivial, trivial, trivial⟩
      | some o =>
        rw [ho] at hvar
        rw [← hvar]
        obtain ⟨c1, c2⟩ := update_closed f h2 d o obs t hs
        have hv : d ^ 2 + (proc * (((t - s.time : ℤ) : ℝ) / 10 ^ 9)) ^ 2 = predictedVariance f d t := by
          unfold predictedVariance
          rw [h1, h4]
          norm_num
        simp only [Scalar.observe, hsv, Option.map_some, hv]
        have hp := predicted_sq f d t
        set v := predictedVariance f d t with hvdef
        have hv0 : 0 ≤ v := by rw [hvdef]; unfold predictedVariance; positivity
        by_cases hz : v + o ^ 2 = 0
        · rw [c1 hz, if_pos hz]
          exact ⟨h1, rfl, rfl, rfl, rfl⟩
        · rw [c2 hz, if_neg hz]
          have hsum : 0 < v + o ^ 2 := lt_of_le_of_ne (by positivity) (Ne.symm hz)
          have hg1 : v / (v + o ^ 2) ≤ 1 := by rw [div_le_one hsum]; nlinarith [sq_nonneg o]
          refine ⟨h1, rfl, ?_, rfl, ?_⟩
          · simp only [h3]
            cases s.value with
            | none => rfl
            | some x =>
              cases obs with
              | none => rfl
              | some ob =>
                change some _ = some _
                congr 1
                field_simp
                ring
          · simp only [Option.map_some, Option.some.injEq]
            rw [mul_pow, Real.sq_sqrt (by linarith), pow_two (f.predicted d t), hp]
            field_simp
            ring

/-! #### The node -/

/-- The node and its reference. -/
structure Simulates {n : ℕ} (p : EkfParams) (s : NodeState (n + 1)) (r : Reference n) : Prop where
  belief : r.belief = s.ekf.map beliefOf
  interval : s.interval = ⟨p.defaultFrequency, r.lastTick⟩
  poses : r.poses = s.poseQ
  twists : r.twists = s.twistQ
  height : Follows 1 s.z r.height
  roll : Follows (1 / 10) s.roll r.roll
  pitch : Follows (1 / 10) s.pitch r.pitch

theorem beliefOf_start (n : ℕ) (x y yaw : ℝ) (c : Fin 36 → ℝ) :
    beliefOf (TimeDelayKalmanFilter.make (initState x y yaw) (initCovariance c) (n + 1)) =
      Belief.start n x y yaw (entry c 0 0) (entry c 1 1) (entry c 5 5) := by
  unfold beliefOf Belief.start
  rw [Belief.mk.injEq]
  constructor
  · funext ⟨i, k⟩
    simp only [augX, TimeDelayKalmanFilter.make, initX, initState]
    congr 1
    apply Fin.ext
    simp only [slot_val]
    rw [Nat.add_mul_mod_self_left]
    exact Nat.mod_eq_of_lt k.isLt
  · ext ⟨i, k⟩ ⟨j, l⟩
    simp only [aug, TimeDelayKalmanFilter.make, initP_slot, initCovariance, Prod.mk.injEq,
      Matrix.of_apply]
    have hd : ![c 0, c 7, c 35, 1 / 10000, 1 / 100, 1 / 100] k =
        ![entry c 0 0, entry c 1 1, entry c 5 5, 1 / 10000, 1 / 100, 1 / 100] k := by
      fin_cases k <;> rfl
    by_cases h1 : i = j
    · by_cases h2 : k = l
      · subst h2; simp only [h1, if_true, and_self, Matrix.diagonal_apply_eq, hd]
      · rw [if_pos h1, Matrix.diagonal_apply_ne _ h2, if_neg (fun h => h2 h.2)]
    · rw [if_neg h1, if_neg (fun h => h1 h.1)]

theorem rows_pose {n : ℕ} (f : TimeDelayKalmanFilter ℝ (n + 1) 6) :
    ekfCovarianceToPoseMessageCovariance (f.getLatestP n.succ_pos) = (beliefOf f).rows poseRow := by
  funext e
  unfold Belief.rows
  simp only [beliefOf_nowCov]
  fin_cases e <;> rfl

theorem rows_twist {n : ℕ} (f : TimeDelayKalmanFilter ℝ (n + 1) 6) :
    ekfCovarianceToTwistMessageCovariance (f.getLatestP n.succ_pos) = (beliefOf f).rows twistRow := by
  funext e
  unfold Belief.rows
  simp only [beliefOf_nowCov]
  fin_cases e <;> rfl

theorem publish_eq {n : ℕ} (p : EkfParams) (s : NodeState (n + 1)) (r : Reference n)
    (f : TimeDelayKalmanFilter ℝ (n + 1) 6) (tTf tOdom : ℤ) (hz : Follows 1 s.z r.height)
    (hr : Follows (1 / 10) s.roll r.roll) (hp : Follows (1 / 10) s.pitch r.pitch) :
    publish n.succ_pos p s f tTf tOdom = r.publish p (beliefOf f) tTf tOdom := by
  unfold publish Reference.publish
  simp only [beliefOf_now, rows_pose, rows_twist, follows_value hz, follows_value hr,
    follows_value hp]

/-- C86, one callback: if the code does not fail, node and reference stay in correspondence and
publish the same. -/
theorem step_simulates {n : ℕ} (tf : Tf2) (p : EkfParams) (s s' : NodeState (n + 1))
    (r : Reference n) (e : Event) (out : List Output) (hsim : Simulates p s r)
    (h : step n.succ_pos tf p s e = .ok (s', out)) :
    Simulates p s' (r.step tf p e).1 ∧ (r.step tf p e).2 = out := by
  obtain ⟨hb, hi, hp, ht, hz, hro, hpi⟩ := hsim
  cases e with
  | initialPose m tries =>
    have hcopy := h
    simp only [step, initialPoseCallback, bind, Except.bind] at h
    cases ha : eraseBeginSlash p.poseFrame with
    | error e => rw [ha] at h; cases h
    | ok a =>
      rw [ha] at h
      cases hb' : eraseBeginSlash m.frame with
      | error e => rw [hb'] at h; cases h
      | ok b =>
        rw [hb'] at h
        simp only at h
        cases hl : lookupTransform (tries a b) with
        | none => rw [hl] at h; cases h
        | some t =>
          rw [hl] at h
          simp only at h
          cases hx : m.px <;> cases hy : m.py <;> cases hq : tf.getYaw m.ori <;>
            cases ht1 : tf.getYaw t.rot <;> rw [hx, hy, hq, ht1] at h <;>
            first
              | (cases h; done)
              | skip
          rw [initialPose_ok n.succ_pos tf p s m tries a b ha hb' t hl _ _ _ _ hx hy hq ht1] at hcopy
          injection hcopy with hcopy
          rw [Prod.mk.injEq] at hcopy
          obtain ⟨rfl, rfl⟩ := hcopy
          simp only [Reference.step, ha, hb', hl, hx, hy, hq, ht1]
          refine ⟨⟨?_, hi, ?_, ?_, follows_update hz _ _ _, follows_update hro _ _ _,
            follows_update hpi _ _ _⟩, trivial⟩
          · simp only [resetState, updateSimple1DFilters, Option.map_some, beliefOf_start]
          · simp only [resetState, hp]
          · simp only [resetState, ht]
  | pose m =>
    injection h with h
    rw [Prod.mk.injEq] at h
    obtain ⟨rfl, rfl⟩ := h
    exact ⟨⟨hb, hi, by simp only [Reference.step, updateSimple1DFilters, hp], ht,
      follows_update hz _ _ _, follows_update hro _ _ _, follows_update hpi _ _ _⟩, rfl⟩
  | twist m =>
    injection h with h
    rw [Prod.mk.injEq] at h
    obtain ⟨rfl, rfl⟩ := h
    exact ⟨⟨hb, hi, hp, by simp only [Reference.step, ht], hz, hro, hpi⟩, rfl⟩
  | timer t1 t2 t3 t4 t5 sp st =>
    simp only [step, timerCallback] at h
    simp only [Reference.step]
    cases hekf : s.ekf with
    | none =>
      rw [hekf] at h hb
      injection h with h
      rw [Prod.mk.injEq] at h
      obtain ⟨rfl, rfl⟩ := h
      simp only [Option.map_none] at hb
      rw [hb]
      exact ⟨⟨by rw [hb, hekf]; rfl, hi, hp, ht, hz, hro, hpi⟩, rfl⟩
    | some f =>
      rw [hekf] at h hb
      simp only [Option.map_some] at hb
      rw [hb]
      simp only at h ⊢
      have h9 : ((t1 : ℝ) / 10 ^ 9) = (t1 : ℝ) / 1000000000 := by norm_num
      rw [h9]
      obtain ⟨k1, k2⟩ := compute_eq p.defaultFrequency r.lastTick ((t1 : ℝ) / 1000000000)
      rw [hi] at h
      cases hc : tickLength p.defaultFrequency r.lastTick ((t1 : ℝ) / 1000000000) with
      | none =>
        rw [k1 hc] at h
        injection h with h
        rw [Prod.mk.injEq] at h
        obtain ⟨rfl, rfl⟩ := h
        exact ⟨⟨by rw [hb]; rfl, rfl, hp, ht, hz, hro, hpi⟩, rfl⟩
      | some dt =>
        obtain ⟨hdt, k3⟩ := k2 dt hc
        rw [k3] at h
        simp only [bind, Except.bind] at h
        cases hu : updateAll (processPose n.succ_pos tf sp p.poseGate p.poseSmoothing t2 dt) s.poseQ
            (predictStep n.succ_pos p dt f) with
        | error e => rw [hu] at h; cases h
        | ok u =>
          obtain ⟨f1, q1⟩ := u
          rw [hu] at h
          simp only at h
          obtain ⟨ps, a1, a2⟩ := updateLoop_tick _ beliefOf (Belief.takePose tf p sp t2 dt)
            (fun m f f' => beliefOf_pose tf p sp t2 dt hdt m f f') _ _ _ _ _ _ hu
          cases hv : updateAll (processTwist n.succ_pos st p.twistGate p.twistSmoothing t3 dt)
              s.twistQ f1 with
          | error e => rw [hv] at h; cases h
          | ok v =>
            obtain ⟨f2, q2⟩ := v
            rw [hv] at h
            obtain ⟨ts, b1, b2⟩ := updateLoop_tick _ beliefOf (Belief.takeTwist p st t3 dt)
              (fun m f f' => beliefOf_twist p st t3 dt hdt m f f') _ _ _ _ _ _ hv
            injection h with h
            rw [Prod.mk.injEq] at h
            obtain ⟨rfl, rfl⟩ := h
            have a1' : r.poses.tick = .ok (ps, q1) := by rw [hp]; exact a1
            have b1' : r.twists.tick = .ok (ts, q2) := by rw [ht]; exact b1
            rw [a1', b1']
            simp only
            rw [← beliefOf_predict, ← a2, ← b2]
            exact ⟨⟨rfl, rfl, rfl, rfl, hz, hro, hpi⟩, (publish_eq p s r f2 t4 t5 hz hro hpi).symm⟩

/-- C86: for every sequence of callbacks at which the code does not fail, the node publishes exactly
what the reference localiser publishes. -/
theorem C86_refines {n : ℕ} (tf : Tf2) (p : EkfParams) (es : List Event) (s : NodeState (n + 1))
    (out : List Output) (h : run n.succ_pos tf p (NodeState.make (n + 1) p) es = .ok (s, out)) :
    ((Reference.init n p).run tf p es).2 = out := by
  have gen : ∀ (es : List Event) (s s' : NodeState (n + 1)) (r : Reference n) (out : List Output),
      Simulates p s r → run n.succ_pos tf p s es = .ok (s', out) → (r.run tf p es).2 = out := by
    intro es
    induction es with
    | nil =>
      intro s s' r out _ h
      injection h with h
      rw [Prod.mk.injEq] at h
      exact h.2
    | cons e es ih =>
      intro s s' r out hs h
      simp only [Ekf.run, bind, Except.bind] at h
      cases h1 : step n.succ_pos tf p s e with
      | error e => rw [h1] at h; cases h
      | ok v =>
        obtain ⟨s1, o1⟩ := v
        rw [h1] at h
        simp only at h
        cases h2 : Ekf.run n.succ_pos tf p s1 es with
        | error e => rw [h2] at h; cases h
        | ok w =>
          obtain ⟨s2, o2⟩ := w
          rw [h2] at h
          injection h with h
          rw [Prod.mk.injEq] at h
          obtain ⟨h3, h4⟩ := step_simulates tf p s s1 r e o1 hs h1
          simp only [Reference.run]
          rw [h4, ih s1 s2 _ o2 h3 h2]
          exact h.2
  refine gen es _ s _ out ⟨rfl, rfl, rfl, rfl, ⟨rfl, rfl, rfl⟩, ⟨rfl, rfl, rfl⟩, ⟨rfl, rfl, rfl⟩⟩ h

/-- C86 on well-formed input (`C70`): the node does not fail and publishes what the reference
localiser publishes. -/
theorem C86_well_formed {n : ℕ} (tf : Tf2) (p : EkfParams) (L : ℝ) (hL : 0 < L) (hL10 : L ≤ 10)
    (hLf : L ≤ 1 / max p.defaultFrequency (1 / 10)) (hframe : p.poseFrame ≠ []) (es : List Event)
    (hes : WellFormed tf L es) :
    ∃ s, run n.succ_pos tf p (NodeState.make (n + 1) p) es =
      .ok (s, ((Reference.init n p).run tf p es).2) := by
  obtain ⟨s, out, h, -⟩ := C70_no_failure n.succ_pos tf p L hL hL10 hLf hframe es hes
  exact ⟨s, by rw [h, C86_refines tf p es s out h]⟩

/-- The run of `C66_node_violated` (an initial pose, a pose message and a tick) meets the
hypotheses, and the reference publishes two messages with that heading. -/
example : ∃ (s : NodeState 1) (out : List Output),
    run Nat.one_pos levelTf quietParams (NodeState.make 1 quietParams)
      [.initialPose (headingMsg (-3)) identityTries, .pose (headingMsg 3),
       .timer 0 0 0 0 0 (fun _ => true) (fun _ => true)] = .ok (s, out) ∧
    ((Reference.init 0 quietParams).run levelTf quietParams
      [.initialPose (headingMsg (-3)) identityTries, .pose (headingMsg 3),
       .timer 0 0 0 0 0 (fun _ => true) (fun _ => true)]).2 = out ∧ out.length = 2 := by
  obtain ⟨s, pose, pc, tc, vx, wz, h, -⟩ := C66_node_violated
  exact ⟨s, _, h, C86_refines levelTf quietParams _ s _ h, rfl⟩

end Verif.Ekf
