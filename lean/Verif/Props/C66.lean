/-
C66 at the node: a run in which the published heading turns round.
-/
import Verif.Props.C36
import Verif.Props.C40

set_option autoImplicit false

namespace Verif.Ekf

open Matrix Verif.Kalman

/-- The yaw of a unit quaternion, as `tf2::getYaw` computes it away from gimbal lock. -/
noncomputable def unitYaw (q : Quat) : ℝ :=
  atan2 (2 * (q.x * q.y + q.w * q.z)) (q.w ^ 2 + q.x ^ 2 - q.y ^ 2 - q.z ^ 2)

/-- The quaternion of a rotation by `θ` about the vertical. -/
noncomputable def aboutZ (θ : ℝ) : Quat := ⟨Real.cos (θ / 2), 0, 0, Real.sin (θ / 2)⟩

theorem unitYaw_aboutZ (θ : ℝ) : unitYaw (aboutZ θ) = normalizeYaw θ := by
  have h1 : Real.sin θ = 2 * Real.sin (θ / 2) * Real.cos (θ / 2) := by
    rw [← Real.sin_two_mul]; congr 1; ring
  have h2 : Real.cos θ = Real.cos (θ / 2) ^ 2 - Real.sin (θ / 2) ^ 2 := by
    rw [← Real.cos_two_mul']; congr 1; ring
  unfold unitYaw normalizeYaw aboutZ
  simp only
  rw [h1, h2]
  congr 1 <;> ring

/-- `tf2` for level poses. -/
noncomputable def levelTf : Tf2 := ⟨fun q => some (unitYaw q), fun _ => some 0, fun _ => some 0⟩

/-- No process noise, smoothing over one tick; otherwise the defaults. -/
noncomputable def quietParams : EkfParams :=
  ⟨50, "map".toList, 1, 10000, 10000, 2, 0, true, 0, 0, 0⟩

/-- Identity covariance. -/
def unitCov : Fin 36 → ℝ := fun i => if i.val % 7 = 0 then 1 else 0

/-- A level pose at the origin with heading `θ`. -/
noncomputable def headingMsg (θ : ℝ) : PoseMsg :=
  ⟨"map".toList, 0, some 0, some 0, some 0, aboutZ θ, unitCov⟩

/-- The initial covariance of the run. -/
noncomputable def P0 : Matrix (Fin 6) (Fin 6) ℝ :=
  Matrix.diagonal ![1, 1, 1, 1 / 10000, 1 / 100, 1 / 100]

/-- The state transition of the first tick (heading -3, standing still). -/
noncomputable def A0 : Matrix (Fin 6) (Fin 6) ℝ :=
  createStateTransitionMatrix ![0, 0, -3, 0, 0, 0] (1 / 50)

/-- Variance of the heading after the first prediction. -/
noncomputable def pYaw : ℝ := 1 + 1 / 250000

theorem yaw_column : (A0 * P0 * A0ᵀ) 0 2 = 0 ∧ (A0 * P0 * A0ᵀ) 1 2 = 0 ∧
    (A0 * P0 * A0ᵀ) 2 2 = pYaw := by
  refine ⟨?_, ?_, ?_⟩ <;>
    simp [A0, P0, createStateTransitionMatrix, Matrix.mul_apply, Matrix.vecMul_diagonal,
      Fin.sum_univ_succ, pYaw] <;> norm_num

theorem P0_psd : P0.PosSemidef := by
  rw [P0, Matrix.posSemidef_diagonal_iff]
  intro i
  fin_cases i <;> norm_num

theorem P1_psd : (A0 * P0 * A0ᵀ).PosSemidef := by
  rw [tr_eq]; exact P0_psd.mul_mul_conjTranspose_same _

/-- `C P Cᵀ` is the pose block. -/
theorem pose_block (P : Matrix (Fin 6) (Fin 6) ℝ) :
    poseMeasurementMatrix * P * poseMeasurementMatrixᵀ = poseCovariance P := by
  ext i j
  fin_cases i <;> fin_cases j <;>
    simp [poseMeasurementMatrix, poseCovariance, Matrix.mul_apply, Matrix.vecMul, dotProduct,
      Fin.sum_univ_succ]

/-- A solution of a linear system with invertible matrix. -/
theorem inv_mulVec_of {n : ℕ} (S : Matrix (Fin n) (Fin n) ℝ) (hS : S.det ≠ 0) (v w : Fin n → ℝ)
    (h : S *ᵥ v = w) : S⁻¹ *ᵥ w = v := by
  rw [← h, Matrix.mulVec_mulVec, Matrix.nonsing_inv_mul _ (Ne.isUnit hS), Matrix.one_mulVec]

theorem vec_third (P : Matrix (Fin 3) (Fin 3) ℝ) (a : ℝ) :
    P *ᵥ ![0, 0, a] = ![P 0 2 * a, P 1 2 * a, P 2 2 * a] := by
  ext i
  fin_cases i <;> simp [Matrix.mulVec, dotProduct, Fin.sum_univ_succ]

/-- C66, violation by a run of the node: initial heading -3 rad and a measured heading of 3 rad, 0.28
rad apart and both pointing backwards, with equal variances. The node publishes a heading within
0.01 rad of 0: forwards. -/
theorem C66_node_violated :
    ∃ (s : NodeState 1) (pose : Estimate) (pc tc : Fin 36 → ℝ) (vx wz : ℝ),
      run Nat.one_pos levelTf quietParams (NodeState.make 1 quietParams)
        [.initialPose (headingMsg (-3)) identityTries, .pose (headingMsg 3),
         .timer 0 0 0 0 0 (fun _ => true) (fun _ => true)] =
        .ok (s, [.transform 0 "map".toList "base_link".toList pose,
          .odometry 0 "map".toList "base_link".toList pose pc vx wz tc]) ∧
      |pose.yaw| < 1 / 100 ∧ Real.cos (-3) < -(9 / 10) ∧ Real.cos 3 < -(9 / 10) := by
  have hpi1 := Real.pi_gt_d2
  have hpi2 := Real.pi_lt_d2
  have hn3 : normalizeYaw 3 = 3 := C38_fixes 3 (by linarith) (by linarith)
  have hn3' : normalizeYaw (-3) = -3 := C38_fixes (-3) (by linarith) (by linarith)
  have hn0 : normalizeYaw 0 = 0 := C38_fixes 0 (by linarith) (by linarith)
  have hid : unitYaw ⟨1, 0, 0, 0⟩ = 0 := by
    have h0 := unitYaw_aboutZ 0
    rw [hn0] at h0
    have hq : aboutZ 0 = ⟨1, 0, 0, 0⟩ := by simp [aboutZ]
    rwa [hq] at h0
  -- initial pose
  let f0 : TimeDelayKalmanFilter ℝ 1 6 := TimeDelayKalmanFilter.make ![0, 0, -3, 0, 0, 0] P0 1
  let s0 : NodeState 1 := resetState levelTf (NodeState.make 1 quietParams) (headingMsg (-3)) (0 + 0)
    (0 + 0) (-3 + 0)
  have hs0 : step Nat.one_pos levelTf quietParams (NodeState.make 1 quietParams)
      (.initialPose (headingMsg (-3)) identityTries) = .ok (s0, []) :=
    initialPose_ok Nat.one_pos levelTf quietParams _ _ identityTries "map".toList "map".toList rfl rfl
      ⟨0, 0, 0, ⟨1, 0, 0, 0⟩⟩ rfl 0 0 (-3) 0 rfl rfl
      (by change some (unitYaw (aboutZ (-3))) = _; rw [unitYaw_aboutZ, hn3'])
      (by change some (unitYaw ⟨1, 0, 0, 0⟩) = _; rw [hid])
  have hekf0 : s0.ekf = some f0 := by
    change some (TimeDelayKalmanFilter.make (initState (0 + 0) (0 + 0) (-3 + 0))
      (initCovariance unitCov) 1) = some (TimeDelayKalmanFilter.make ![0, 0, -3, 0, 0, 0] P0 1)
    have e1 : initState (0 + 0) (0 + 0) (-3 + 0) = ![0, 0, -3, 0, 0, 0] := by simp [initState]
    have e2 : initCovariance unitCov = P0 := by
      unfold initCovariance P0
      congr 1
    rw [e1, e2]
  let s1 : NodeState 1 := updateSimple1DFilters levelTf { s0 with poseQ := s0.poseQ.push (headingMsg 3) }
    (headingMsg 3)
  have hs1 : step Nat.one_pos levelTf quietParams s0 (.pose (headingMsg 3)) = .ok (s1, []) := rfl
  -- prediction
  have hx0 : f0.getLatestX Nat.one_pos = ![0, 0, -3, 0, 0, 0] := by
    funext k
    simp only [f0, TimeDelayKalmanFilter.getLatestX, TimeDelayKalmanFilter.make, initX]
    congr 1
    apply Fin.ext
    exact Nat.mod_eq_of_lt k.isLt
  let f1 := predictStep Nat.one_pos quietParams (1 / 50) f0
  have hlat : ∀ g : TimeDelayKalmanFilter ℝ 1 6, g.getLatestX Nat.one_pos = blkX g.x 0 := by
    intro g
    funext k
    simp only [TimeDelayKalmanFilter.getLatestX, blkX]
    congr 1
  have hlatP : ∀ g : TimeDelayKalmanFilter ℝ 1 6, g.getLatestP Nat.one_pos = blk g.P 0 0 := by
    intro g
    ext k l
    simp only [TimeDelayKalmanFilter.getLatestP, blk]
    congr 1
  have hx1 : blkX f1.x 0 = ![0, 0, -3, 0, 0, 0] := by
    have h := (C32_state_nonlinear (n := 0) f0 (predictNextState (f0.getLatestX Nat.one_pos) (1 / 50))
      (createStateTransitionMatrix (f0.getLatestX Nat.one_pos) (1 / 50))
      (processNoiseCovariance (quietParams.variance.timeScaledVariances (1 / 50)))).1
    rw [← hlat]
    refine h.trans ?_
    rw [hx0]
    funext k
    fin_cases k <;> simp [predictNextState, hn3']
  have hQ : processNoiseCovariance (quietParams.variance.timeScaledVariances (1 / 50)) = 0 := by
    have : (![0, 0, 0, 0, 0, 0] : Fin 6 → ℝ) = 0 := by funext k; fin_cases k <;> rfl
    simp [processNoiseCovariance, EkfParams.variance, quietParams, initYawBias,
      DefaultVariance.timeScaledVariances, timeScaledVariance, this]
  have hb0 : blk f0.P 0 0 = P0 := by
    ext k l
    change initP P0 1 (slot 0 k) (slot 0 l) = _
    rw [initP_slot, if_pos rfl]
  have hP1 : blk f1.P 0 0 = A0 * P0 * A0ᵀ := by
    have h := updateP_blk_00 (n := 0) (Nat.le_mul_of_pos_left 6 Nat.one_pos) f0.P
      (createStateTransitionMatrix (f0.getLatestX Nat.one_pos) (1 / 50))
      (processNoiseCovariance (quietParams.variance.timeScaledVariances (1 / 50)))
    refine h.trans ?_
    rw [hQ, add_zero, hb0, hx0]
    rfl
  -- measurement
  obtain ⟨c02, c12, c22⟩ := yaw_column
  have hR : poseMeasurementCovariance unitCov (toSizeT 1) = 1 := by
    ext i j
    fin_cases i <;> fin_cases j <;> simp [poseMeasurementCovariance, unitCov, toSizeT]
  have hp0 : 0 < pYaw := by unfold pYaw; norm_num
  have hSpos : ((1 : Matrix (Fin 3) (Fin 3) ℝ) +
      poseMeasurementMatrix * blk f1.P 0 0 * poseMeasurementMatrixᵀ).PosDef := by
    refine Matrix.PosDef.one.add_posSemidef ?_
    rw [hP1, tr_eq poseMeasurementMatrix]
    exact P1_psd.mul_mul_conjTranspose_same _
  have hSdet := ((isUnit_iff_isUnit_det _).1 hSpos.isUnit).ne_zero
  obtain ⟨f2, hu, hx2, -⟩ := (C33_blocks f1 ![0, 0, 3] poseMeasurementMatrix 1 0).2 hSdet
  have hinn : (![0, 0, 3] : Fin 3 → ℝ) - poseMeasurementMatrix *ᵥ blkX f1.x 0 = ![0, 0, 6] := by
    rw [hx1]
    ext i
    fin_cases i <;> simp [poseMeasurementMatrix, Matrix.mulVec, dotProduct, Fin.sum_univ_succ]
    norm_num
  have hsol : ((1 : Matrix (Fin 3) (Fin 3) ℝ) +
      poseMeasurementMatrix * blk f1.P 0 0 * poseMeasurementMatrixᵀ)⁻¹ *ᵥ ![0, 0, 6] =
      ![0, 0, 6 / (1 + pYaw)] := by
    apply inv_mulVec_of _ hSdet
    rw [vec_third, pose_block, hP1]
    have e0 : (1 + poseCovariance (A0 * P0 * A0ᵀ) : Matrix (Fin 3) (Fin 3) ℝ) 0 2 = 0 := by
      rw [Matrix.add_apply, Matrix.one_apply_ne (by decide)]
      change 0 + (A0 * P0 * A0ᵀ) 0 2 = 0
      rw [c02, add_zero]
    have e1 : (1 + poseCovariance (A0 * P0 * A0ᵀ) : Matrix (Fin 3) (Fin 3) ℝ) 1 2 = 0 := by
      rw [Matrix.add_apply, Matrix.one_apply_ne (by decide)]
      change 0 + (A0 * P0 * A0ᵀ) 1 2 = 0
      rw [c12, add_zero]
    have e2 : (1 + poseCovariance (A0 * P0 * A0ᵀ) : Matrix (Fin 3) (Fin 3) ℝ) 2 2 = 1 + pYaw := by
      rw [Matrix.add_apply, Matrix.one_apply_eq]
      change 1 + (A0 * P0 * A0ᵀ) 2 2 = _
      rw [c22]
    rw [e0, e1, e2]
    have : (1 + pYaw) * (6 / (1 + pYaw)) = 6 := by field_simp
    rw [this]
    simp
  have hyaw : f2.getLatestX Nat.one_pos 2 = -3 + pYaw * (6 / (1 + pYaw)) := by
    rw [hlat, hx2 0, ← Matrix.mulVec_mulVec, hinn, hsol, Pi.add_apply, hx1]
    have : (blk f1.P 0 0 * poseMeasurementMatrixᵀ) 2 2 = pYaw := by
      rw [hP1, ← c22]
      simp [poseMeasurementMatrix, Matrix.mul_apply (M := A0 * P0 * A0ᵀ), Fin.sum_univ_succ]
    have e : ((blk f1.P 0 0 * poseMeasurementMatrixᵀ) *ᵥ ![0, 0, 6 / (1 + pYaw)]) 2 =
        (blk f1.P 0 0 * poseMeasurementMatrixᵀ) 2 2 * (6 / (1 + pYaw)) := by
      simp [Matrix.mulVec, dotProduct, Fin.sum_univ_succ]
    rw [e, this]
    simp
  have hbias : f2.getLatestX Nat.one_pos 3 = 0 := by
    rw [hlat, hx2 0, ← Matrix.mulVec_mulVec, hinn, hsol, Pi.add_apply, hx1]
    have e : ((blk f1.P 0 0 * poseMeasurementMatrixᵀ) *ᵥ ![0, 0, 6 / (1 + pYaw)]) 3 =
        (blk f1.P 0 0 * poseMeasurementMatrixᵀ) 3 2 * (6 / (1 + pYaw)) := by
      simp [Matrix.mulVec, dotProduct, Fin.sum_univ_succ]
    have : (blk f1.P 0 0 * poseMeasurementMatrixᵀ) 3 2 = (A0 * P0 * A0ᵀ) 3 2 := by
      rw [hP1]
      simp [poseMeasurementMatrix, Matrix.mul_apply (M := A0 * P0 * A0ᵀ), Fin.sum_univ_succ]
    have h32 : (A0 * P0 * A0ᵀ) 3 2 = 0 := by
      simp [A0, P0, createStateTransitionMatrix, Matrix.mul_apply, Matrix.vecMul_diagonal,
        Fin.sum_univ_succ]
    rw [e, this, h32]
    simp
  -- the loop body
  have hdelay : computeDelayStep (computeDelayTime 0 0 : ℝ) (1 / 50) = .ok 0 :=
    C31_no_delay _ _ (by norm_num) (by simp [computeDelayTime])
  have hgetX : f1.getX 0 = .ok ![0, 0, -3, 0, 0, 0] := by
    rw [← hx1]
    simp only [TimeDelayKalmanFilter.getX]
    rw [dif_pos (by norm_num)]
    congr 1
    funext k
    simp only [blkX]
    congr 1
    apply Fin.ext
    simp [slot_val]
  have hvec : poseMeasurementVector levelTf (headingMsg 3) = fun i => some ((![0, 0, 3] : Fin 3 → ℝ) i) := by
    funext i
    fin_cases i
    · rfl
    · rfl
    · change (some (unitYaw (aboutZ 3))).map normalizeYaw = some 3
      rw [unitYaw_aboutZ, Option.map_some, hn3, hn3]
  have hfin : allFinite (poseMeasurementVector levelTf (headingMsg 3)) = some ![0, 0, 3] := by
    rw [hvec]
    unfold allFinite
    have hsome : ∀ i : Fin 3, ((fun i => some ((![0, 0, 3] : Fin 3 → ℝ) i)) i).isSome = true :=
      fun _ => rfl
    rw [dif_pos hsome]
    rfl
  have hgate : mahalanobisGate true 10000 (getPoseState ![0, 0, -3, 0, 0, 0]) ![0, 0, 3]
      (poseCovariance (f1.getLatestP Nat.one_pos)) = true := by
    rw [hlatP, hP1]
    unfold mahalanobisGate squaredMahalanobis
    by_cases hdet : (poseCovariance (A0 * P0 * A0ᵀ)).det = 0
    · rw [if_pos hdet]
    · rw [if_neg hdet]
      have hdiff : getPoseState ![0, 0, -3, 0, 0, 0] - ![0, 0, 3] = ![0, 0, -6] := by
        ext i
        fin_cases i <;> simp [getPoseState]
        norm_num
      have hs : (poseCovariance (A0 * P0 * A0ᵀ))⁻¹ *ᵥ ![0, 0, -6] = ![0, 0, -6 / pYaw] := by
        apply inv_mulVec_of _ hdet
        rw [vec_third]
        have e0 : poseCovariance (A0 * P0 * A0ᵀ) 0 2 = 0 := c02
        have e1 : poseCovariance (A0 * P0 * A0ᵀ) 1 2 = 0 := c12
        have e2 : poseCovariance (A0 * P0 * A0ᵀ) 2 2 = pYaw := c22
        rw [e0, e1, e2]
        have : pYaw * (-6 / pYaw) = -6 := by field_simp
        rw [this]
        simp
      rw [hdiff, hs]
      have : (![0, 0, -6] : Fin 3 → ℝ) ⬝ᵥ ![0, 0, -6 / pYaw] = 36 / pYaw := by
        simp [dotProduct, Fin.sum_univ_succ]
        ring
      simp only [this, decide_eq_true_eq]
      rw [div_le_iff₀ hp0]
      unfold pYaw
      norm_num
  have hproc : processPose Nat.one_pos levelTf (fun _ => true) 10000 1 0 (1 / 50) (headingMsg 3) f1 =
      .ok f2 := by
    unfold processPose processMeasurement
    have hst : (headingMsg 3).stamp = 0 := rfl
    have hcv : (headingMsg 3).cov = unitCov := rfl
    have hc : (!checkDelayStep 0 ((1 : ℕ) : ℤ)) = false := by decide
    have hu' : f1.update ![0, 0, 3] poseMeasurementMatrix 1 0 = .ok f2 := hu
    simp only [hst, hcv, hdelay, bind, Except.bind, hc, hfin, hgetX, hgate, hR, hu', Bool.not_true,
      Bool.false_eq_true, if_false]
    rfl
  have hq1 : s1.poseQ = ⟨1, [headingMsg 3], [0]⟩ := rfl
  have hall : updateAll (processPose Nat.one_pos levelTf (fun _ => true) quietParams.poseGate
      quietParams.poseSmoothing 0 (1 / 50)) s1.poseQ f1 = .ok (f2, ⟨1, [], []⟩) := by
    rw [hq1]
    change updateLoop _ 1 0 _ f1 = _
    have hpop : (⟨1, [headingMsg 3], [0]⟩ : AgedQueue PoseMsg).pop =
        .ok (headingMsg 3, ⟨1, [], []⟩) := rfl
    have hproc' : processPose Nat.one_pos levelTf (fun _ => true) quietParams.poseGate
      quietParams.poseSmoothing 0 (1 / 50) (headingMsg 3) f1 = .ok f2 := hproc
    rw [updateLoop, if_pos (by simp [AgedQueue.size])]
    simp only [hpop, bind, Except.bind, hproc']
    rfl
  have htw : updateAll (processTwist Nat.one_pos (fun _ => true) quietParams.twistGate
      quietParams.twistSmoothing 0 (1 / 50)) s1.twistQ f2 = .ok (f2, ⟨2, [], []⟩) := rfl
  have hint : s1.interval.compute (((0 : ℤ) : ℝ) / 1000000000) =
      (.ok (1 / 50), ⟨50, some (((0 : ℤ) : ℝ) / 1000000000)⟩) := by
    have hiv : s1.interval = UpdateInterval.make 50 := rfl
    rw [hiv]
    simp only [UpdateInterval.compute, UpdateInterval.make, computeInterval]
    rw [max_eq_left (by norm_num)]
  have hekf1 : s1.ekf = some f0 := hekf0
  have hstep : step Nat.one_pos levelTf quietParams s1
      (.timer 0 0 0 0 0 (fun _ => true) (fun _ => true)) =
      .ok ({ s1 with ekf := some f2, interval := ⟨50, some (((0 : ℤ) : ℝ) / 1000000000)⟩,
                     poseQ := ⟨1, [], []⟩, twistQ := ⟨2, [], []⟩ },
        publish Nat.one_pos quietParams s1 f2 0 0) := by
    have hall' : updateAll (processPose Nat.one_pos levelTf (fun _ => true) quietParams.poseGate
      quietParams.poseSmoothing 0 (1 / 50)) s1.poseQ (predictStep Nat.one_pos quietParams (1 / 50) f0)
      = .ok (f2, ⟨1, [], []⟩) := hall
    simp only [step, timerCallback, hekf1, hint, bind, Except.bind, hall', htw]
    rfl
  have hcos : Real.cos 3 < -(9 / 10) := by
    have h1 : Real.cos 3 = -Real.cos (Real.pi - 3) := by rw [Real.cos_pi_sub, neg_neg]
    have h2 := Real.one_sub_sq_div_two_le_cos (x := Real.pi - 3)
    rw [h1]
    nlinarith
  refine ⟨{ s1 with ekf := some f2, interval := ⟨50, some (((0 : ℤ) : ℝ) / 1000000000)⟩,
                    poseQ := ⟨1, [], []⟩, twistQ := ⟨2, [], []⟩ },
    ⟨f2.getLatestX Nat.one_pos 0, f2.getLatestX Nat.one_pos 1, s1.z.getX, s1.roll.getX,
      s1.pitch.getX, f2.getLatestX Nat.one_pos 2 + f2.getLatestX Nat.one_pos 3⟩,
    ekfCovarianceToPoseMessageCovariance (f2.getLatestP Nat.one_pos),
    ekfCovarianceToTwistMessageCovariance (f2.getLatestP Nat.one_pos),
    f2.getLatestX Nat.one_pos 4, f2.getLatestX Nat.one_pos 5, ?_, ?_, ?_, hcos⟩
  · simp only [run, bind, Except.bind, hs0, hs1, hstep, pure, Except.pure, List.nil_append,
      List.append_nil]
    rfl
  · simp only [hyaw, hbias]
    unfold pYaw
    rw [abs_lt]
    constructor <;> norm_num
  · rw [Real.cos_neg]; exact hcos

end Verif.Ekf
