/-
C160: whether a message is thrown away does not depend on how uncertain it says it is.
-/
import Verif.Props.C159
import Mathlib.Analysis.Matrix.PosDef

set_option autoImplicit false

namespace Verif.Ekf

open Matrix Verif.Kalman

/-! ### The distance becomes smaller if an uncertainty is added -/

/-- Adding an uncertainty makes no distance larger. -/
theorem sqDistance_add_le {h : ℕ} {S R : Matrix (Fin h) (Fin h) ℝ} (hS : S.PosDef) (hR : R.PosSemidef)
    (d : Fin h → ℝ) : sqDistance d (S + R) ≤ sqDistance d S := by
  have hSd : S.det ≠ 0 := hS.det_pos.ne'
  have hTd : (S + R).det ≠ 0 := (hS.add_posSemidef hR).det_pos.ne'
  set u := (S + R)⁻¹ *ᵥ d with hu
  set w := S⁻¹ *ᵥ d with hw
  have hSw : S *ᵥ w = d := by
    rw [hw, Matrix.mulVec_mulVec, Matrix.mul_nonsing_inv _ (isUnit_iff_ne_zero.2 hSd), Matrix.one_mulVec]
  have hTu : S *ᵥ u + R *ᵥ u = d := by
    rw [← Matrix.add_mulVec, hu, Matrix.mulVec_mulVec, Matrix.mul_nonsing_inv _ (isUnit_iff_ne_zero.2 hTd),
      Matrix.one_mulVec]
  have hsym : w ⬝ᵥ (S *ᵥ u) = u ⬝ᵥ (S *ᵥ w) := by
    have ht : Sᵀ = S := by
      have := hS.isHermitian
      simpa [Matrix.IsHermitian, Matrix.conjTranspose_eq_transpose_of_trivial] using this
    rw [Matrix.dotProduct_mulVec, ← Matrix.mulVec_transpose, ht, dotProduct_comm]
  have h1 : 0 ≤ (w - u) ⬝ᵥ (S *ᵥ (w - u)) := by
    simpa using hS.posSemidef.dotProduct_mulVec_nonneg (w - u)
  have h2 : 0 ≤ u ⬝ᵥ (R *ᵥ u) := by
    simpa using hR.dotProduct_mulVec_nonneg u
  have h3 : u ⬝ᵥ d = u ⬝ᵥ (S *ᵥ u) + u ⬝ᵥ (R *ᵥ u) := by
    rw [← dotProduct_add, hTu]
  rw [Matrix.mulVec_sub, dotProduct_sub, sub_dotProduct, sub_dotProduct, hsym, hSw] at h1
  have e1 : sqDistance d (S + R) = u ⬝ᵥ d := by rw [sqDistance, ← hu, dotProduct_comm]
  have e2 : sqDistance d S = w ⬝ᵥ d := by rw [sqDistance, ← hw, dotProduct_comm]
  rw [e1, e2]
  linarith

section Rule
variable {n : ℕ} {tf : Tf2} {p : EkfParams}

/-- What is used is not far away, its own uncertainty being counted. -/
theorem process_probable {h : ℕ} {sing : Bool} {stateOf : (Fin 6 → ℝ) → (Fin h → ℝ)}
    {covOf : Matrix (Fin 6) (Fin 6) ℝ → Matrix (Fin h) (Fin h) ℝ} {C : Matrix (Fin h) (Fin 6) ℝ}
    {gate dt : ℝ} {now stamp : ℤ} {y : Fin h → Option ℝ} {R : Matrix (Fin h) (Fin h) ℝ}
    {f f' : TimeDelayKalmanFilter ℝ (n + 1) 6} {v : Fin h → ℝ} (hy : y = fun i => some (v i))
    {δ : Fin (n + 1)} (hd : computeDelayStep (computeDelayTime now stamp : ℝ) dt = .ok (δ.val : ℤ))
    (hS : (covOf (blk f.P 0 0)).PosDef) (hR : R.PosSemidef)
    (hrun : processMeasurement n.succ_pos sing stateOf covOf C gate now dt stamp y R f = .ok f') (hne : f' ≠ f) :
    sqDistance (v - stateOf (blkX f.x δ)) (covOf (blk f.P 0 0) + R) ≤ gate ^ 2 := by
  have hgate : mahalanobisGate sing gate (stateOf (blkX f.x δ)) v (covOf (f.getLatestP n.succ_pos)) =
      decide (sqDistance (v - stateOf (blkX f.x δ)) (covOf (blk f.P 0 0)) ≤ gate ^ 2) := by
    rw [getLatestP_blk]
    have hneg : stateOf (blkX f.x δ) - v = -(v - stateOf (blkX f.x δ)) := by simp
    simp only [mahalanobisGate, squaredMahalanobis, if_neg hS.det_pos.ne', sqDistance, hneg, Matrix.mulVec_neg,
      dotProduct_neg, neg_dotProduct, neg_neg, pow_two]
  have hall : allFinite y = some v := by
    rw [hy]
    simp [allFinite]
  have hc : checkDelayStep (δ.val : ℤ) ((n + 1 : ℕ) : ℤ) = true := by
    simp only [checkDelayStep, decide_eq_true_eq]
    exact_mod_cast δ.isLt
  refine le_trans (sqDistance_add_le hS hR _) (not_lt.1 fun hfar => hne ?_)
  rw [decide_eq_false (not_le.2 hfar)] at hgate
  simp only [processMeasurement, bind, Except.bind, hd, hc, hall, getX_blk, hgate] at hrun
  injection hrun with hrun
  exact hrun.symm

/-- C160, what holds of poses: a pose that is used, so that the filter is not as before, is not farther away than
the limit if the uncertainty of the estimate and that of the message are both counted. -/
theorem C160_pose_partial {sp : PoseMsg → Bool} {now : ℤ} {dt : ℝ} {m : PoseMsg}
    {f f' : TimeDelayKalmanFilter ℝ (n + 1) 6} {δ : Fin (n + 1)}
    (hd : computeDelayStep (computeDelayTime now m.stamp : ℝ) dt = .ok (δ.val : ℤ)) {v : Fin 3 → ℝ}
    (hv : poseMeasurementVector tf m = fun i => some (v i))
    (hS : (poseCovariance (blk f.P 0 0)).PosDef)
    (hR : (poseMeasurementCovariance m.cov (toSizeT p.poseSmoothing)).PosSemidef)
    (hrun : processPose n.succ_pos tf sp p.poseGate p.poseSmoothing now dt m f = .ok f') (hne : f' ≠ f) :
    sqDistance (v - getPoseState (blkX f.x δ))
      (poseCovariance (blk f.P 0 0) + poseMeasurementCovariance m.cov (toSizeT p.poseSmoothing)) ≤ p.poseGate ^ 2 :=
  process_probable hv hd hS hR hrun hne

/-- C160, what holds of twists. -/
theorem C160_twist_partial {st : TwistMsg → Bool} {now : ℤ} {dt : ℝ} {m : TwistMsg}
    {f f' : TimeDelayKalmanFilter ℝ (n + 1) 6} {δ : Fin (n + 1)}
    (hd : computeDelayStep (computeDelayTime now m.stamp : ℝ) dt = .ok (δ.val : ℤ)) {v w : ℝ}
    (hv : m.vx = some v) (hw : m.wz = some w)
    (hS : (twistCovariance (blk f.P 0 0)).PosDef)
    (hR : (twistMeasurementCovariance m.cov (toSizeT p.twistSmoothing)).PosSemidef)
    (hrun : processTwist n.succ_pos st p.twistGate p.twistSmoothing now dt m f = .ok f') (hne : f' ≠ f) :
    sqDistance (![v, w] - getTwistState (blkX f.x δ))
      (twistCovariance (blk f.P 0 0) + twistMeasurementCovariance m.cov (toSizeT p.twistSmoothing)) ≤
      p.twistGate ^ 2 := by
  refine process_probable ?_ hd hS hR hrun hne
  funext i
  fin_cases i
  · exact hv
  · exact hw

end Rule

/-! ### A pose that says it is uncertain -/

section Witness
variable {n : ℕ}

/-- A pose `e` metres ahead, taken at the time of the tick, with variance `r` in each component. -/
noncomputable def widePose (e r : ℝ) : PoseMsg :=
  ⟨['m'], 1000000000, some e, some 0, some 0, ⟨1, 0, 0, 0⟩,
    fun i => if i = 0 ∨ i = 7 ∨ i = 14 ∨ i = 21 ∨ i = 28 ∨ i = 35 then r else 0⟩

/-- The measured values of the pose. -/
theorem wide_vector (e r : ℝ) : poseMeasurementVector flatTf (widePose e r) = fun i => some (![e, 0, 0] i) := by
  funext i
  fin_cases i
  · rfl
  · rfl
  · simp [poseMeasurementVector, flatTf, normalizeYaw_zero]

theorem wide_delay (e r : ℝ) : computeDelayStep (computeDelayTime 1000000000 (widePose e r).stamp : ℝ) 1 =
    .ok (((0 : Fin (n + 2)).val : ℕ) : ℤ) := by
  refine delay_closest one_pos (by simp) ?_
  norm_num [computeDelayTime, widePose, abs_lt]

/-- The distance of the pose. -/
theorem wide_distance {a b c : ℝ} (ha : 0 < a) (hb : 0 < b) (hc : 0 < c) (e : ℝ) :
    sqDistance (![e, 0, 0] - getPoseState 0) (Matrix.diagonal ![a, b, c]) = e ^ 2 / a := by
  have hd : (![e, 0, 0] : Fin 3 → ℝ) - getPoseState 0 = ![e, 0, 0] := by
    funext i
    fin_cases i <;> simp [getPoseState]
  have hdet : (Matrix.diagonal ![a, b, c] : Matrix (Fin 3) (Fin 3) ℝ).det ≠ 0 := by
    rw [Matrix.det_diagonal]
    simp [Fin.prod_univ_three, ha.ne', hb.ne', hc.ne']
  have hi : (Matrix.diagonal ![a, b, c] : Matrix (Fin 3) (Fin 3) ℝ)⁻¹ *ᵥ ![e, 0, 0] = ![e / a, 0, 0] := by
    refine inv_apply_of hdet ?_
    funext i
    rw [Matrix.mulVec_diagonal]
    fin_cases i
    · simp
      field_simp
    · simp
    · simp
  rw [hd, sqDistance, hi]
  simp only [dotProduct, Fin.sum_univ_three]
  simp
  ring

/-- C160, violated: whatever the limit, a pose farther from the estimate than the limit times the standard
deviation of the estimate is thrown away, even if it says itself that it is so uncertain that the difference is
within the limit times its own standard deviation: the node says the same as without the message. -/
theorem C160_wide_violated {g e r : ℝ} (he : 101 / 100 * g ^ 2 < e ^ 2) (hr : 0 < r) (her : e ^ 2 ≤ g ^ 2 * r)
    (sp : PoseMsg → Bool) (st : TwistMsg → Bool) :
    ∃ (f : TimeDelayKalmanFilter ℝ (n + 2) 6) (s1 s2 : NodeState (n + 2)) (o1 o2 : List Output),
      run (n + 1).succ_pos flatTf (gateParams g) (NodeState.make (n + 2) (gateParams g))
        (farEvents sp st [widePose e r]) = .ok (s1, o1) ∧
      run (n + 1).succ_pos flatTf (gateParams g) (NodeState.make (n + 2) (gateParams g))
        (farEvents sp st []) = .ok (s2, o2) ∧
      s1.ekf = some f ∧ s2.ekf = some f ∧
      sqDistance (![e, 0, 0] - getPoseState (blkX f.x 0)) (poseMeasurementCovariance (widePose e r).cov 1) ≤
        (gateParams g).poseGate ^ 2 ∧
      sqDistance (![e, 0, 0] - getPoseState (blkX f.x 0))
        (poseCovariance (blk f.P 0 0) + poseMeasurementCovariance (widePose e r).cov 1) ≤
        (gateParams g).poseGate ^ 2 ∧
      o1.map Output.whereabouts = [(1000000000, 0, 0, 0), (1000000000, 0, 0, 0)] ∧
      o2.map Output.whereabouts = [(1000000000, 0, 0, 0), (1000000000, 0, 0, 0)] := by
  obtain ⟨h0, -, hM, -, -⟩ := far_blocks (n := n)
  set f := predictStep (n + 1).succ_pos offParams 1 (off0 (n := n + 1)) with hf
  have hR : poseMeasurementCovariance (widePose e r).cov 1 = Matrix.diagonal ![r, r, r] := by
    ext i j
    fin_cases i <;> fin_cases j <;> simp [poseMeasurementCovariance, widePose]
  have hrefused : processPose (n + 1).succ_pos flatTf sp (gateParams g).poseGate (gateParams g).poseSmoothing
      1000000000 1 (widePose e r) f = .ok f := by
    refine (C159_pose_partial (p := gateParams g) (δ := 0) (wide_delay e r) (wide_vector e r) rfl ?_).1 ?_
    · rw [hM, Matrix.det_diagonal]
      simp [Fin.prod_univ_three]
      norm_num
    · rw [hM, h0, wide_distance (by norm_num) one_pos (by norm_num), lt_div_iff₀ (by norm_num)]
      simp only [gateParams]
      linarith
  have shown : ∀ s : NodeState (n + 2),
      (publish (n + 1).succ_pos (gateParams g) s f 1000000000 1000000000).map Output.whereabouts =
        [(1000000000, 0, 0, 0), (1000000000, 0, 0, 0)] := by
    intro s
    simp [publish, Output.whereabouts, latest_blkX, h0]
  have e1 : ∃ s1 : NodeState (n + 2), step (n + 1).succ_pos flatTf (gateParams g)
      (NodeState.make (n + 2) (gateParams g)) (.initialPose offStart identityTries) = .ok (s1, []) ∧
      s1.ekf = some off0 ∧ s1.interval = ⟨1, none⟩ ∧ s1.poseQ = ⟨1, [], []⟩ ∧ s1.twistQ = ⟨1, [], []⟩ := by
    refine ⟨_, rfl, ?_, rfl, rfl, rfl⟩
    simp [updateSimple1DFilters, off0, offStart]
  obtain ⟨s1, r1, k1, i1, p1, t1⟩ := e1
  have hc : ∀ s : NodeState (n + 2), s.interval = ⟨1, none⟩ →
      s.interval.compute (((1000000000 : ℤ) : ℝ) / 1000000000) = (.ok 1, ⟨1, some 1⟩) := by
    intro s hs
    rw [hs]
    norm_num [UpdateInterval.compute, computeInterval]
  have q2 : step (n + 1).succ_pos flatTf (gateParams g) s1
      (.timer 1000000000 1000000000 1000000000 1000000000 1000000000 sp st) =
      .ok ({ s1 with ekf := some f, interval := ⟨1, some 1⟩ },
        publish (n + 1).succ_pos (gateParams g) s1 f 1000000000 1000000000) := by
    simp only [step, timerCallback, k1, hc s1 i1, bind, Except.bind, updateAll_empty _ s1.poseQ _ (by rw [p1]),
      updateAll_empty _ s1.twistQ _ (by rw [t1]), pure, Except.pure, far_predict, ← hf]
  set s3 : NodeState (n + 2) :=
    updateSimple1DFilters flatTf { s1 with poseQ := s1.poseQ.push (widePose e r) } (widePose e r) with hs3
  have k3 : s3.ekf = some off0 ∧ s3.interval = ⟨1, none⟩ ∧ s3.poseQ = s1.poseQ.push (widePose e r) ∧
      s3.twistQ = ⟨1, [], []⟩ := ⟨k1, i1, rfl, t1⟩
  have hq : updateAll (processPose (n + 1).succ_pos flatTf sp (gateParams g).poseGate (gateParams g).poseSmoothing
      1000000000 1) s3.poseQ f = .ok (f, ⟨1, [], []⟩) := by
    rw [k3.2.2.1, p1]
    simp only [updateAll, AgedQueue.push, AgedQueue.size, List.nil_append, List.length_singleton, updateLoop,
      AgedQueue.pop, bind, Except.bind]
    simp [hrefused]
  have q3 : step (n + 1).succ_pos flatTf (gateParams g) s3
      (.timer 1000000000 1000000000 1000000000 1000000000 1000000000 sp st) =
      .ok ({ s3 with ekf := some f, interval := ⟨1, some 1⟩, poseQ := ⟨1, [], []⟩ },
        publish (n + 1).succ_pos (gateParams g) s3 f 1000000000 1000000000) := by
    simp only [step, timerCallback, k3.1, hc s3 k3.2.1, bind, Except.bind, far_predict, ← hf, hq,
      updateAll_empty _ s3.twistQ _ (by rw [k3.2.2.2]), pure, Except.pure]
  have pose : step (n + 1).succ_pos flatTf (gateParams g) s1 (.pose (widePose e r)) = .ok (s3, []) := rfl
  refine ⟨f, { s3 with ekf := some f, interval := ⟨1, some 1⟩, poseQ := ⟨1, [], []⟩ },
    { s1 with ekf := some f, interval := ⟨1, some 1⟩ },
    [] ++ ([] ++ (publish (n + 1).succ_pos (gateParams g) s3 f 1000000000 1000000000 ++ [])),
    [] ++ (publish (n + 1).succ_pos (gateParams g) s1 f 1000000000 1000000000 ++ []), ?_, ?_, rfl, rfl, ?_, ?_, ?_, ?_⟩
  · simp only [farEvents, List.map_cons, List.map_nil, List.cons_append, List.nil_append]
    rw [run, r1]
    simp only [bind, Except.bind]
    rw [run, pose]
    simp only [bind, Except.bind]
    rw [run, q3]
    rfl
  · simp only [farEvents, List.map_nil, List.append_nil, List.cons_append, List.nil_append]
    rw [run, r1]
    simp only [bind, Except.bind]
    rw [run, q2]
    rfl
  · rw [hR, h0, wide_distance hr hr hr, div_le_iff₀ hr]
    exact her
  · have hsum : poseCovariance (blk f.P 0 0) + Matrix.diagonal ![r, r, r] =
        Matrix.diagonal ![101 / 100 + r, 1 + r, 1 + 1 / 100 + 1 / 40000 + r] := by
      rw [hM, Matrix.diagonal_add]
      congr 1
      funext i
      fin_cases i <;> rfl
    rw [hR, h0, hsum, wide_distance (by positivity) (by positivity) (by positivity), div_le_iff₀ (by positivity)]
    simp only [gateParams]
    nlinarith [sq_nonneg g]
  · simp only [List.nil_append, List.append_nil]
    exact shown s3
  · simp only [List.nil_append, List.append_nil]
    exact shown s1

end Witness

/-! Non-vacuity. -/

/-- A limit of three, a pose four metres away that says its standard deviation is ten metres. -/
example : (101 / 100 * 3 ^ 2 : ℝ) < 4 ^ 2 ∧ (0 : ℝ) < 100 ∧ (4 : ℝ) ^ 2 ≤ 3 ^ 2 * 100 := by norm_num

/-- A pose one metre away is used with a limit of two: the filter is not as before. -/
example (sp : PoseMsg → Bool) : ∃ f f' : TimeDelayKalmanFilter ℝ 2 6,
    (poseCovariance (blk (N := 2) f.P 0 0)).PosDef ∧
    (poseMeasurementCovariance (farPose 1).cov (toSizeT (gateParams 2).poseSmoothing)).PosSemidef ∧
    processPose (Nat.succ_pos 1) flatTf sp (gateParams 2).poseGate (gateParams 2).poseSmoothing 1000000000 1
      (farPose 1) f = .ok f' ∧ f' ≠ f := by
  obtain ⟨h0, h1, hM, h01, h11⟩ := far_blocks (n := 0)
  obtain ⟨f', hf', hx'⟩ := far_taken (n := 0) (g := 2) (e := 1) (by norm_num) h0 h1 hM h01 h11 sp
  refine ⟨_, f', ?_, ?_, hf', ?_⟩
  · rw [hM]
    refine Matrix.PosDef.diagonal fun i => ?_
    fin_cases i <;> norm_num
  · have : poseMeasurementCovariance (farPose 1).cov (toSizeT (gateParams 2).poseSmoothing) = 1 := by
      have ht : toSizeT (gateParams 2).poseSmoothing = 1 := by simp [toSizeT, gateParams, offParams]
      rw [ht]
      ext i j
      fin_cases i <;> fin_cases j <;> simp [poseMeasurementCovariance, farPose]
    rw [this]
    exact Matrix.PosSemidef.one
  · intro h
    have := congrFun (hx'.symm.trans ((congrArg (fun f => blkX (N := 2) f.x 0) h).trans h0)) 0
    norm_num at this

end Verif.Ekf
