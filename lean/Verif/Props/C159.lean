/-
C159: whether a pose that comes late is used is decided with the uncertainty of another time.
-/
import Verif.Props.C156

set_option autoImplicit false

namespace Verif.Ekf

open Matrix Verif.Kalman

/-! ### Specification -/

/-- Specification: the square of the distance that the README speaks of, of a difference measured with a
covariance. -/
noncomputable def sqDistance {h : ℕ} (d : Fin h → ℝ) (S : Matrix (Fin h) (Fin h) ℝ) : ℝ := d ⬝ᵥ (S⁻¹ *ᵥ d)

section Rule
variable {n : ℕ} {tf : Tf2} {p : EkfParams}

/-- The decision, if the uncertainty of the measured part has not changed since the time of the message. -/
theorem process_same {h : ℕ} {sing : Bool} {stateOf : (Fin 6 → ℝ) → (Fin h → ℝ)}
    {covOf : Matrix (Fin 6) (Fin 6) ℝ → Matrix (Fin h) (Fin h) ℝ} {C : Matrix (Fin h) (Fin 6) ℝ}
    {gate dt : ℝ} {now stamp : ℤ} {y : Fin h → Option ℝ} {R : Matrix (Fin h) (Fin h) ℝ}
    {f : TimeDelayKalmanFilter ℝ (n + 1) 6} {v : Fin h → ℝ} (hy : y = fun i => some (v i))
    {δ : Fin (n + 1)} (hd : computeDelayStep (computeDelayTime now stamp : ℝ) dt = .ok (δ.val : ℤ))
    (hsame : covOf (blk f.P δ δ) = covOf (blk f.P 0 0)) (hdet : (covOf (blk f.P δ δ)).det ≠ 0) :
    (gate ^ 2 < sqDistance (v - stateOf (blkX f.x δ)) (covOf (blk f.P δ δ)) →
      processMeasurement n.succ_pos sing stateOf covOf C gate now dt stamp y R f = .ok f) ∧
    (sqDistance (v - stateOf (blkX f.x δ)) (covOf (blk f.P δ δ)) ≤ gate ^ 2 →
      ∀ g, f.update v C R (δ.val : ℤ) = .ok g →
      processMeasurement n.succ_pos sing stateOf covOf C gate now dt stamp y R f = .ok g) := by
  have hgate : mahalanobisGate sing gate (stateOf (blkX f.x δ)) v (covOf (f.getLatestP n.succ_pos)) =
      decide (sqDistance (v - stateOf (blkX f.x δ)) (covOf (blk f.P δ δ)) ≤ gate ^ 2) := by
    rw [getLatestP_blk, ← hsame]
    have hneg : stateOf (blkX f.x δ) - v = -(v - stateOf (blkX f.x δ)) := by simp
    simp only [mahalanobisGate, squaredMahalanobis, if_neg hdet, sqDistance, hneg, Matrix.mulVec_neg,
      dotProduct_neg, neg_dotProduct, neg_neg, pow_two]
  have hall : allFinite y = some v := by
    rw [hy]
    simp [allFinite]
  have hc : checkDelayStep (δ.val : ℤ) ((n + 1 : ℕ) : ℤ) = true := by
    simp only [checkDelayStep, decide_eq_true_eq]
    exact_mod_cast δ.isLt
  constructor
  · intro hfar
    rw [decide_eq_false (not_le.2 hfar)] at hgate
    simp only [processMeasurement, bind, Except.bind, hd, hc, hall, getX_blk, hgate]
    rfl
  · intro hnear g hg
    rw [decide_eq_true hnear] at hgate
    exact process_taken hy hd hgate hg

/-- C159, what holds of poses: if the uncertainty of the pose is the same now as it was at the time of the message
(for example because the message is not late), then the message is used exactly if its distance from the estimate of
its time, measured with the uncertainty of that estimate, does not exceed the limit: otherwise the filter stays
as it is. Missing: the same whatever the uncertainty is now, which is false (`C159_late_violated`). -/
theorem C159_pose_partial {sp : PoseMsg → Bool} {now : ℤ} {dt : ℝ} {m : PoseMsg}
    {f : TimeDelayKalmanFilter ℝ (n + 1) 6} {δ : Fin (n + 1)}
    (hd : computeDelayStep (computeDelayTime now m.stamp : ℝ) dt = .ok (δ.val : ℤ)) {v : Fin 3 → ℝ}
    (hv : poseMeasurementVector tf m = fun i => some (v i))
    (hsame : poseCovariance (blk f.P δ δ) = poseCovariance (blk f.P 0 0))
    (hdet : (poseCovariance (blk f.P δ δ)).det ≠ 0) :
    (p.poseGate ^ 2 < sqDistance (v - getPoseState (blkX f.x δ)) (poseCovariance (blk f.P δ δ)) →
      processPose n.succ_pos tf sp p.poseGate p.poseSmoothing now dt m f = .ok f) ∧
    (sqDistance (v - getPoseState (blkX f.x δ)) (poseCovariance (blk f.P δ δ)) ≤ p.poseGate ^ 2 →
      ∀ g, f.update v poseMeasurementMatrix (poseMeasurementCovariance m.cov (toSizeT p.poseSmoothing))
        (δ.val : ℤ) = .ok g →
      processPose n.succ_pos tf sp p.poseGate p.poseSmoothing now dt m f = .ok g) :=
  process_same hv hd hsame hdet

/-- C159, what holds of twists: the same with the uncertainty of the two speeds and their limit. -/
theorem C159_twist_partial {st : TwistMsg → Bool} {now : ℤ} {dt : ℝ} {m : TwistMsg}
    {f : TimeDelayKalmanFilter ℝ (n + 1) 6} {δ : Fin (n + 1)}
    (hd : computeDelayStep (computeDelayTime now m.stamp : ℝ) dt = .ok (δ.val : ℤ)) {v w : ℝ}
    (hv : m.vx = some v) (hw : m.wz = some w)
    (hsame : twistCovariance (blk f.P δ δ) = twistCovariance (blk f.P 0 0))
    (hdet : (twistCovariance (blk f.P δ δ)).det ≠ 0) :
    (p.twistGate ^ 2 < sqDistance (![v, w] - getTwistState (blkX f.x δ)) (twistCovariance (blk f.P δ δ)) →
      processTwist n.succ_pos st p.twistGate p.twistSmoothing now dt m f = .ok f) ∧
    (sqDistance (![v, w] - getTwistState (blkX f.x δ)) (twistCovariance (blk f.P δ δ)) ≤ p.twistGate ^ 2 →
      ∀ g, f.update ![v, w] twistMeasurementMatrix (twistMeasurementCovariance m.cov (toSizeT p.twistSmoothing))
        (δ.val : ℤ) = .ok g →
      processTwist n.succ_pos st p.twistGate p.twistSmoothing now dt m f = .ok g) := by
  refine process_same ?_ hd hsame hdet
  funext i
  fin_cases i
  · exact hv
  · exact hw

end Rule

/-! ### A pose that is farther away than the limit -/

section Witness
variable {n : ℕ}

/-- The parameters, with this limit for the distance of poses. -/
noncomputable def gateParams (g : ℝ) : EkfParams := { offParams with poseGate := g }

/-- A pose `e` metres ahead, taken at time 0, with unit variances. -/
noncomputable def farPose (e : ℝ) : PoseMsg :=
  ⟨['m'], 0, some e, some 0, some 0, ⟨1, 0, 0, 0⟩,
    fun i => if i = 0 ∨ i = 7 ∨ i = 14 ∨ i = 21 ∨ i = 28 ∨ i = 35 then 1 else 0⟩

theorem far_predict (g : ℝ) (f : TimeDelayKalmanFilter ℝ (n + 1) 6) :
    predictStep n.succ_pos (gateParams g) 1 f = predictStep n.succ_pos offParams 1 f := rfl

theorem off0_cov : initCovariance offStart.cov = Matrix.diagonal ![1, 1, 1, 1 / 10000, 1 / 100, 1 / 100] := by
  ext i j
  fin_cases i <;> fin_cases j <;> simp [initCovariance, offStart, Matrix.diagonal]

/-- The filter in the tick. -/
theorem far_blocks :
    blkX (predictStep (n + 1).succ_pos offParams 1 off0).x 0 = 0 ∧
    blkX (predictStep (n + 1).succ_pos offParams 1 off0).x 1 = 0 ∧
    poseCovariance (blk (predictStep (n + 1).succ_pos offParams 1 (off0 (n := n + 1))).P 0 0) =
      Matrix.diagonal ![101 / 100, 1, 1 + 1 / 100 + 1 / 40000] ∧
    (∀ k, blk (predictStep (n + 1).succ_pos offParams 1 (off0 (n := n + 1))).P 0 1 k 0 = if k = 0 then 1 else 0) ∧
    blk (predictStep (n + 1).succ_pos offParams 1 (off0 (n := n + 1))).P 1 1 = initCovariance offStart.cov := by
  obtain ⟨h0, hP⟩ := off1 (n := n + 1)
  refine ⟨h0, ?_, ?_, ?_, ?_⟩
  · have := predictStep_blk (p := offParams) (i := 0) 1 (off0 (n := n + 1)) (by omega)
    refine Eq.trans this ?_
    have h := off0_latest (n := n + 1)
    rw [latest_blkX] at h
    exact h
  · rw [hP]
    ext i j
    fin_cases i <;> fin_cases j <;> simp [poseCovariance, offP1, Matrix.diagonal]
  · have := updateP_blk_0s (n := n + 1) (d := 6) (by omega) (off0 (n := n + 1)).P
      (createStateTransitionMatrix ((off0 (n := n + 1)).getLatestX (n + 1).succ_pos) 1)
      (processNoiseCovariance (offParams.variance.timeScaledVariances 1)) 0
    have hb : blk (predictStep (n + 1).succ_pos offParams 1 (off0 (n := n + 1))).P 0 1 =
        createStateTransitionMatrix ((off0 (n := n + 1)).getLatestX (n + 1).succ_pos) 1 *
          blk (off0 (n := n + 1)).P 0 0 := this
    intro k
    rw [hb, off0_latest, off0_blk, show (fun _ => (1 : ℝ)) = offStart.cov from rfl, off0_cov, Matrix.mul_diagonal]
    fin_cases k <;> simp [createStateTransitionMatrix]
  · have := updateP_blk_ss (n := n + 1) (d := 6) (by omega) (off0 (n := n + 1)).P
      (createStateTransitionMatrix ((off0 (n := n + 1)).getLatestX (n + 1).succ_pos) 1)
      (processNoiseCovariance (offParams.variance.timeScaledVariances 1)) 0 0
    exact this.trans off0_blk

/-- The pose is used. -/
theorem far_taken {g e : ℝ} (he : e ^ 2 ≤ 101 / 100 * g ^ 2) {f : TimeDelayKalmanFilter ℝ (n + 2) 6}
    (h0 : blkX f.x 0 = 0) (h1 : blkX f.x 1 = 0)
    (hM : poseCovariance (blk f.P 0 0) = Matrix.diagonal ![101 / 100, 1, 1 + 1 / 100 + 1 / 40000])
    (h01 : ∀ k, blk f.P 0 1 k 0 = if k = 0 then 1 else 0)
    (h11 : blk f.P 1 1 = initCovariance offStart.cov) (sp : PoseMsg → Bool) :
    ∃ f', processPose (n + 1).succ_pos flatTf sp (gateParams g).poseGate (gateParams g).poseSmoothing 1000000000 1
      (farPose e) f = .ok f' ∧ blkX f'.x 0 = ![e / 2, 0, 0, 0, 0, 0] := by
  have hR : poseMeasurementCovariance (farPose e).cov (toSizeT (gateParams g).poseSmoothing) = 1 := by
    have : toSizeT (gateParams g).poseSmoothing = 1 := by simp [toSizeT, gateParams, offParams]
    rw [this]
    ext i j
    fin_cases i <;> fin_cases j <;> simp [poseMeasurementCovariance, farPose]
  have hS : poseMeasurementCovariance (farPose e).cov (toSizeT (gateParams g).poseSmoothing) +
      poseMeasurementMatrix * blk f.P 1 1 * poseMeasurementMatrixᵀ = Matrix.diagonal ![2, 2, 2] := by
    rw [hR, h11, off0_cov]
    ext i j
    rw [Matrix.add_apply, Matrix.mul_apply]
    simp only [Matrix.mul_diagonal, Matrix.transpose_apply, Fin.sum_univ_six]
    fin_cases i <;> fin_cases j <;>
      (try simp [poseMeasurementMatrix, Matrix.diagonal]) <;> try norm_num
  have hdS : (Matrix.diagonal ![2, 2, 2] : Matrix (Fin 3) (Fin 3) ℝ).det ≠ 0 := by
    rw [Matrix.det_diagonal]
    simp [Fin.prod_univ_three]
  obtain ⟨f', hu, hX, -⟩ := (C33_blocks f ![e, 0, 0] poseMeasurementMatrix _ 1).2 (by rw [hS]; exact hdS)
  have hdel : computeDelayStep (computeDelayTime 1000000000 (farPose e).stamp : ℝ) 1 =
      .ok (((1 : Fin (n + 2)).val : ℕ) : ℤ) := by
    refine delay_closest one_pos (by simp) ?_
    norm_num [computeDelayTime, farPose, abs_lt]
  have hdM : (Matrix.diagonal ![101 / 100, 1, 1 + 1 / 100 + 1 / 40000] : Matrix (Fin 3) (Fin 3) ℝ).det ≠ 0 := by
    rw [Matrix.det_diagonal]
    simp [Fin.prod_univ_three]
    norm_num
  refine ⟨f', ?_, ?_⟩
  · refine process_taken (v := ![e, 0, 0]) (δ := 1) ?_ hdel ?_ hu
    · funext i
      fin_cases i
      · rfl
      · rfl
      · simp [poseMeasurementVector, flatTf, normalizeYaw_zero]
    · rw [getLatestP_blk, hM, h1]
      have hd : getPoseState 0 - ![e, 0, 0] = ![-e, 0, 0] := by
        funext i
        fin_cases i <;> simp [getPoseState]
      have hu0 : (Matrix.diagonal ![101 / 100, 1, 1 + 1 / 100 + 1 / 40000] : Matrix (Fin 3) (Fin 3) ℝ)⁻¹ *ᵥ
          ![-e, 0, 0] = ![-e * (100 / 101), 0, 0] := by
        refine inv_apply_of hdM ?_
        funext i
        rw [Matrix.mulVec_diagonal]
        fin_cases i
        · simp; ring
        · simp
        · simp
      simp only [mahalanobisGate, squaredMahalanobis, if_neg hdM, hd, hu0, decide_eq_true_eq]
      simp only [dotProduct, Fin.sum_univ_three]
      simp [gateParams]
      nlinarith
  · have hres : (![e, 0, 0] : Fin 3 → ℝ) - poseMeasurementMatrix *ᵥ blkX f.x 1 = ![e, 0, 0] := by
      rw [h1, Matrix.mulVec_zero, sub_zero]
    have hu0 : (Matrix.diagonal ![2, 2, 2] : Matrix (Fin 3) (Fin 3) ℝ)⁻¹ *ᵥ ![e, 0, 0] = ![e / 2, 0, 0] := by
      refine inv_apply_of hdS ?_
      funext i
      rw [Matrix.mulVec_diagonal]
      fin_cases i
      · simp; ring
      · simp
      · simp
    funext k
    rw [hX, hres, hS, h0, zero_add, ← Matrix.mulVec_mulVec, hu0, ← Matrix.mulVec_mulVec]
    have hk : (blk f.P 0 1 *ᵥ (poseMeasurementMatrixᵀ *ᵥ ![e / 2, 0, 0])) k = blk f.P 0 1 k 0 * (e / 2) := by
      simp [Matrix.mulVec, dotProduct, poseMeasurementMatrix, Fin.sum_univ_succ]
    rw [hk, h01]
    fin_cases k <;> simp

/-- What happens: an initial pose at the origin with unit variances, a pose that was taken then, and a second later
a tick. -/
noncomputable def farEvents (sp : PoseMsg → Bool) (st : TwistMsg → Bool) (ms : List PoseMsg) : List Event :=
  [.initialPose offStart identityTries] ++ ms.map Event.pose ++
    [.timer 1000000000 1000000000 1000000000 1000000000 1000000000 sp st]

/-- C159, violated: whatever the limit, a pose that is farther from the estimate of its time than the limit,
measured with the uncertainty of that estimate, is used and moves what is published, since the uncertainty has
grown in the meantime. -/
theorem C159_late_violated {g e : ℝ} (hg : 0 < g) (hge : g < e) (he : e ^ 2 ≤ 101 / 100 * g ^ 2)
    (sp : PoseMsg → Bool) (st : TwistMsg → Bool) :
    ∃ (s1 s2 : NodeState (n + 2)) (o1 o2 : List Output),
      run (n + 1).succ_pos flatTf (gateParams g) (NodeState.make (n + 2) (gateParams g))
        (farEvents sp st [farPose e]) = .ok (s1, o1) ∧
      run (n + 1).succ_pos flatTf (gateParams g) (NodeState.make (n + 2) (gateParams g))
        (farEvents sp st []) = .ok (s2, o2) ∧
      (gateParams g).poseGate ^ 2 <
        sqDistance (![e, 0, 0] - getPoseState (initState 0 0 0)) (poseCovariance (initCovariance offStart.cov)) ∧
      o2.map Output.whereabouts = [(1000000000, 0, 0, 0), (1000000000, 0, 0, 0)] ∧
      o1.map Output.whereabouts = [(1000000000, e / 2, 0, 0), (1000000000, e / 2, 0, 0)] := by
  obtain ⟨h0, h1, hM, h01, h11⟩ := far_blocks (n := n)
  set f := predictStep (n + 1).succ_pos offParams 1 (off0 (n := n + 1)) with hf
  obtain ⟨f', hf', hx'⟩ := far_taken he h0 h1 hM h01 h11 sp
  have shown : ∀ (s : NodeState (n + 2)) (f : TimeDelayKalmanFilter ℝ (n + 2) 6) (x : ℝ),
      blkX f.x 0 = ![x, 0, 0, 0, 0, 0] →
      (publish (n + 1).succ_pos (gateParams g) s f 1000000000 1000000000).map Output.whereabouts =
        [(1000000000, x, 0, 0), (1000000000, x, 0, 0)] := by
    intro s f x hx
    simp [publish, Output.whereabouts, latest_blkX, hx]
  have e1 : ∃ s1 : NodeState (n + 2), step (n + 1).succ_pos flatTf (gateParams g)
      (NodeState.make (n + 2) (gateParams g)) (.initialPose offStart identityTries) = .ok (s1, []) ∧
      s1.ekf = some off0 ∧ s1.interval = ⟨1, none⟩ ∧ s1.poseQ = ⟨1, [], []⟩ ∧ s1.twistQ = ⟨1, [], []⟩ := by
    refine ⟨_, rfl, ?_, rfl, rfl, rfl⟩
    simp [updateSimple1DFilters, off0, offStart]
  obtain ⟨s1, r1, k1, i1, p1, t1⟩ := e1
  have hc : ∀ s : NodeState (n + 2), s.interval = ⟨1, none⟩ →
      s.interval.compute (((1000000000 : ℤ) : ℝ) / 1000000000) = (.ok 1, ⟨1, some 1⟩) := by
    intro s hs
    rw [hs]
    norm_num [UpdateInterval.compute, computeInterval]
  -- without the message
  have q2 : ∃ s2, step (n + 1).succ_pos flatTf (gateParams g) s1
      (.timer 1000000000 1000000000 1000000000 1000000000 1000000000 sp st) =
      .ok (s2, publish (n + 1).succ_pos (gateParams g) s1 f 1000000000 1000000000) := by
    refine ⟨{ s1 with ekf := some f, interval := ⟨1, some 1⟩ }, ?_⟩
    simp only [step, timerCallback, k1, hc s1 i1, bind, Except.bind, updateAll_empty _ s1.poseQ _ (by rw [p1]),
      updateAll_empty _ s1.twistQ _ (by rw [t1]), pure, Except.pure, far_predict, ← hf]
  obtain ⟨s2, q2⟩ := q2
  -- with the message
  set s3 : NodeState (n + 2) :=
    updateSimple1DFilters flatTf { s1 with poseQ := s1.poseQ.push (farPose e) } (farPose e) with hs3
  have k3 : s3.ekf = some off0 ∧ s3.interval = ⟨1, none⟩ ∧ s3.poseQ = s1.poseQ.push (farPose e) ∧
      s3.twistQ = ⟨1, [], []⟩ := ⟨k1, i1, rfl, t1⟩
  have hq : updateAll (processPose (n + 1).succ_pos flatTf sp (gateParams g).poseGate (gateParams g).poseSmoothing
      1000000000 1) s3.poseQ f = .ok (f', ⟨1, [], []⟩) := by
    rw [k3.2.2.1, p1]
    simp only [updateAll, AgedQueue.push, AgedQueue.size, List.nil_append, List.length_singleton, updateLoop,
      AgedQueue.pop, bind, Except.bind]
    simp [hf']
  have q3 : ∃ s4, step (n + 1).succ_pos flatTf (gateParams g) s3
      (.timer 1000000000 1000000000 1000000000 1000000000 1000000000 sp st) =
      .ok (s4, publish (n + 1).succ_pos (gateParams g) s3 f' 1000000000 1000000000) := by
    refine ⟨{ s3 with ekf := some f', interval := ⟨1, some 1⟩, poseQ := ⟨1, [], []⟩ }, ?_⟩
    simp only [step, timerCallback, k3.1, hc s3 k3.2.1, bind, Except.bind, far_predict, ← hf, hq,
      updateAll_empty _ s3.twistQ _ (by rw [k3.2.2.2]), pure, Except.pure]
  obtain ⟨s4, q3⟩ := q3
  have pose : step (n + 1).succ_pos flatTf (gateParams g) s1 (.pose (farPose e)) = .ok (s3, []) := rfl
  refine ⟨s4, s2, [] ++ ([] ++ (publish (n + 1).succ_pos (gateParams g) s3 f' 1000000000 1000000000 ++ [])),
    [] ++ (publish (n + 1).succ_pos (gateParams g) s1 f 1000000000 1000000000 ++ []), ?_, ?_, ?_, ?_, ?_⟩
  · simp only [farEvents, List.map_cons, List.map_nil, List.cons_append, List.nil_append]
    rw [run, r1]
    simp only [bind, Except.bind]
    rw [run, pose]
    simp only [bind, Except.bind]
    rw [run, q3]
    rfl
  · simp only [farEvents, List.map_nil, List.append_nil, List.cons_append, List.nil_append]
    rw [run, r1]
    simp only [bind, Except.bind]
    rw [run, q2]
    rfl
  · have hcov : poseCovariance (initCovariance offStart.cov) = 1 := by
      rw [off0_cov]
      ext i j
      fin_cases i <;> fin_cases j <;> simp [poseCovariance, Matrix.diagonal]
    have hd : (![e, 0, 0] : Fin 3 → ℝ) - getPoseState (initState 0 0 0) = ![e, 0, 0] := by
      funext i
      fin_cases i <;> simp [getPoseState, initState]
    rw [hcov, hd, sqDistance, inv_one, Matrix.one_mulVec]
    simp only [dotProduct, Fin.sum_univ_three, gateParams]
    simp
    nlinarith
  · simp only [List.nil_append, List.append_nil]
    refine shown s1 f 0 ?_
    rw [h0]
    funext i
    fin_cases i <;> rfl
  · simp only [List.nil_append, List.append_nil]
    exact shown s3 f' (e / 2) hx'

end Witness

/-! Non-vacuity. -/

/-- A limit of two and a pose at a distance of 2.004. -/
example : (0 : ℝ) < 2 ∧ (2 : ℝ) < 2.004 ∧ (2.004 : ℝ) ^ 2 ≤ 101 / 100 * 2 ^ 2 := by norm_num

/-- A pose three metres away that is not late is refused with a limit of two. -/
example (sp : PoseMsg → Bool) :
    processPose (Nat.succ_pos 4) flatTf sp (gateParams 2).poseGate (gateParams 2).poseSmoothing 0 1 (farPose 3)
      (off0 (n := 4)) = .ok off0 := by
  have hcov : poseCovariance (blk (off0 (n := 4)).P 0 0) = 1 := by
    rw [off0_blk, show (fun _ => (1 : ℝ)) = offStart.cov from rfl, off0_cov]
    ext i j
    fin_cases i <;> fin_cases j <;> simp [poseCovariance, Matrix.diagonal]
  have hx : blkX (off0 (n := 4)).x 0 = 0 := by
    have h := off0_latest (n := 4)
    rwa [latest_blkX] at h
  refine (C159_pose_partial (δ := 0) (v := ![3, 0, 0]) ?_ ?_ rfl (by rw [hcov]; simp)).1 ?_
  · refine delay_closest one_pos (by simp) ?_
    norm_num [computeDelayTime, farPose, abs_lt]
  · funext i
    fin_cases i
    · rfl
    · rfl
    · simp [poseMeasurementVector, flatTf, normalizeYaw_zero]
  · rw [hcov, hx, sqDistance, inv_one, Matrix.one_mulVec]
    simp only [dotProduct, Fin.sum_univ_three, gateParams]
    simp [getPoseState]
    norm_num

end Verif.Ekf
