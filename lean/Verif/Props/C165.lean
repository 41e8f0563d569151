/-
C165: a message that has been used is used again when it comes again.
-/
import Verif.Props.C162

set_option autoImplicit false

namespace Verif.Ekf

open Matrix Verif.Kalman

/-! ### The distance after an update -/

section Distance
variable {h : ℕ}

/-- The uncertainty after an update, in information form. -/
theorem updated_inv {M R : Matrix (Fin h) (Fin h) ℝ} (hM : M.PosDef) (hR : R.PosDef) :
    (M - M * (R + M)⁻¹ * M)⁻¹ = M⁻¹ + R⁻¹ ∧ (M - M * (R + M)⁻¹ * M).PosDef := by
  have uM : IsUnit M.det := isUnit_iff_ne_zero.2 hM.det_pos.ne'
  have uR : IsUnit R.det := isUnit_iff_ne_zero.2 hR.det_pos.ne'
  have uT : IsUnit (R + M).det := isUnit_iff_ne_zero.2 (hR.add_posSemidef hM.posSemidef).det_pos.ne'
  have key : (M - M * (R + M)⁻¹ * M) * (M⁻¹ + R⁻¹) = 1 := by
    have e1 : M * M⁻¹ = 1 := Matrix.mul_nonsing_inv _ uM
    have e2 : R * R⁻¹ = 1 := Matrix.mul_nonsing_inv _ uR
    have e3 : (R + M)⁻¹ * (R + M) = 1 := Matrix.nonsing_inv_mul _ uT
    calc (M - M * (R + M)⁻¹ * M) * (M⁻¹ + R⁻¹)
        = M * M⁻¹ + M * R⁻¹ - (M * (R + M)⁻¹ * (M * M⁻¹) + M * (R + M)⁻¹ * M * R⁻¹) := by noncomm_ring
      _ = 1 + M * R⁻¹ - (M * (R + M)⁻¹ * (R * R⁻¹) + M * (R + M)⁻¹ * M * R⁻¹) := by rw [e1, e2]
      _ = 1 + M * R⁻¹ - M * ((R + M)⁻¹ * (R + M)) * R⁻¹ := by noncomm_ring
      _ = 1 := by rw [e3]; noncomm_ring
  have hinv := Matrix.inv_eq_right_inv key
  refine ⟨hinv, ?_⟩
  have : M - M * (R + M)⁻¹ * M = (M⁻¹ + R⁻¹)⁻¹ := (Matrix.inv_eq_left_inv key).symm
  rw [this]
  exact (hM.inv.add_posSemidef hR.inv.posSemidef).inv

/-- An update makes the distance of what it used smaller, by the distance that counts both uncertainties. -/
theorem updated_distance {M R : Matrix (Fin h) (Fin h) ℝ} (hM : M.PosDef) (hR : R.PosDef) (d : Fin h → ℝ) :
    sqDistance (d - (M * (R + M)⁻¹) *ᵥ d) (M - M * (R + M)⁻¹ * M) = sqDistance d M - sqDistance d (R + M) := by
  have uM : IsUnit M.det := isUnit_iff_ne_zero.2 hM.det_pos.ne'
  have uR : IsUnit R.det := isUnit_iff_ne_zero.2 hR.det_pos.ne'
  have uT : IsUnit (R + M).det := isUnit_iff_ne_zero.2 (hR.add_posSemidef hM.posSemidef).det_pos.ne'
  have e1 : M⁻¹ * M = 1 := Matrix.nonsing_inv_mul _ uM
  have e2 : R⁻¹ * R = 1 := Matrix.nonsing_inv_mul _ uR
  have e3 : (R + M) * (R + M)⁻¹ = 1 := Matrix.mul_nonsing_inv _ uT
  have e4 : M * M⁻¹ = 1 := Matrix.mul_nonsing_inv _ uM
  have key : (M⁻¹ + R⁻¹) * (1 - M * (R + M)⁻¹) = M⁻¹ := by
    calc (M⁻¹ + R⁻¹) * (1 - M * (R + M)⁻¹)
        = M⁻¹ + R⁻¹ * 1 - (M⁻¹ * M) * (R + M)⁻¹ - R⁻¹ * M * (R + M)⁻¹ := by noncomm_ring
      _ = M⁻¹ + R⁻¹ * ((R + M) * (R + M)⁻¹) - (R⁻¹ * R) * (R + M)⁻¹ - R⁻¹ * M * (R + M)⁻¹ := by rw [e1, e2, e3]
      _ = M⁻¹ := by noncomm_ring
  have ht : Mᵀ = M := by
    have := hM.isHermitian
    simpa [Matrix.IsHermitian, Matrix.conjTranspose_eq_transpose_of_trivial] using this
  have hd : d - (M * (R + M)⁻¹) *ᵥ d = (1 - M * (R + M)⁻¹) *ᵥ d := by
    rw [Matrix.sub_mulVec, Matrix.one_mulVec]
  have hlast : ((M * (R + M)⁻¹) *ᵥ d) ⬝ᵥ (M⁻¹ *ᵥ d) = d ⬝ᵥ ((R + M)⁻¹ *ᵥ d) := by
    rw [← Matrix.mulVec_mulVec, dotProduct_comm, Matrix.dotProduct_mulVec, ← Matrix.mulVec_transpose, ht,
      Matrix.mulVec_mulVec, e4, Matrix.one_mulVec]
  unfold sqDistance
  rw [(updated_inv hM hR).1]
  nth_rewrite 2 [hd]
  rw [Matrix.mulVec_mulVec, key, sub_dotProduct, hlast]

end Distance

/-! ### Messages that come again -/

section Again
variable {n : ℕ} {tf : Tf2} {p : EkfParams}

/-- One turn of a message that is not late and within the limit: it is used, and then it is nearer than before. -/
theorem again_step {h : ℕ} {sing : Bool} {stateOf : (Fin 6 → ℝ) → (Fin h → ℝ)}
    {covOf : Matrix (Fin 6) (Fin 6) ℝ → Matrix (Fin h) (Fin h) ℝ} {C : Matrix (Fin h) (Fin 6) ℝ}
    (hst : ∀ x, stateOf x = C *ᵥ x) (hcv : ∀ P, covOf P = C * P * Cᵀ) {gate dt : ℝ} {now stamp : ℤ}
    {y : Fin h → Option ℝ} {R : Matrix (Fin h) (Fin h) ℝ} (hR : R.PosDef) {v : Fin h → ℝ}
    (hy : y = fun i => some (v i)) (hd : computeDelayStep (computeDelayTime now stamp : ℝ) dt = .ok 0)
    (f : TimeDelayKalmanFilter ℝ (n + 1) 6) (hM : (covOf (blk f.P 0 0)).PosDef)
    (hnear : sqDistance (v - stateOf (blkX f.x 0)) (covOf (blk f.P 0 0)) ≤ gate ^ 2) :
    ∃ f', processMeasurement n.succ_pos sing stateOf covOf C gate now dt stamp y R f = .ok f' ∧
      f.update v C R 0 = .ok f' ∧ (covOf (blk f'.P 0 0)).PosDef ∧
      sqDistance (v - stateOf (blkX f'.x 0)) (covOf (blk f'.P 0 0)) =
        sqDistance (v - stateOf (blkX f.x 0)) (covOf (blk f.P 0 0)) -
          sqDistance (v - stateOf (blkX f.x 0)) (R + covOf (blk f.P 0 0)) := by
  have hT : (R + C * blk f.P 0 0 * Cᵀ).det ≠ 0 := by
    rw [← hcv]
    exact (hR.add_posSemidef hM.posSemidef).det_pos.ne'
  obtain ⟨f', hu, hX, hP⟩ := (C33_blocks f v C R 0).2 hT
  have hp := (process_same (sing := sing) (stateOf := stateOf) (covOf := covOf) (C := C) (gate := gate) (R := R) hy
    (f := f) (δ := 0) hd rfl hM.det_pos.ne').2 hnear f' hu
  have hx : v - stateOf (blkX f'.x 0) = (v - stateOf (blkX f.x 0)) -
      (covOf (blk f.P 0 0) * (R + covOf (blk f.P 0 0))⁻¹) *ᵥ (v - stateOf (blkX f.x 0)) := by
    rw [hst, hX 0, Matrix.mulVec_add, Matrix.mulVec_mulVec, hcv, hst]
    simp only [Matrix.mul_assoc]
    abel
  have hc : covOf (blk f'.P 0 0) =
      covOf (blk f.P 0 0) - covOf (blk f.P 0 0) * (R + covOf (blk f.P 0 0))⁻¹ * covOf (blk f.P 0 0) := by
    rw [hcv, hP 0 0, Matrix.mul_sub, Matrix.sub_mul, hcv]
    simp only [Matrix.mul_assoc]
  refine ⟨f', hp, hu, ?_, ?_⟩
  · rw [hc]
    exact (updated_inv hM hR).2
  · rw [hx, hc]
    exact updated_distance hM hR _

/-- Any number of turns. -/
theorem again_many {h : ℕ} {sing : Bool} {stateOf : (Fin 6 → ℝ) → (Fin h → ℝ)}
    {covOf : Matrix (Fin 6) (Fin 6) ℝ → Matrix (Fin h) (Fin h) ℝ} {C : Matrix (Fin h) (Fin 6) ℝ}
    (hst : ∀ x, stateOf x = C *ᵥ x) (hcv : ∀ P, covOf P = C * P * Cᵀ) {gate dt : ℝ} {now stamp : ℤ}
    {y : Fin h → Option ℝ} {R : Matrix (Fin h) (Fin h) ℝ} (hR : R.PosDef) {v : Fin h → ℝ}
    (hy : y = fun i => some (v i)) (hd : computeDelayStep (computeDelayTime now stamp : ℝ) dt = .ok 0) {α : Type}
    (m : α) : ∀ (k : ℕ) (f : TimeDelayKalmanFilter ℝ (n + 1) 6), (covOf (blk f.P 0 0)).PosDef →
      sqDistance (v - stateOf (blkX f.x 0)) (covOf (blk f.P 0 0)) ≤ gate ^ 2 →
      ∃ f', (List.replicate k m).foldlM
          (fun f _ => processMeasurement n.succ_pos sing stateOf covOf C gate now dt stamp y R f) f = .ok f' ∧
        (List.replicate k m).foldlM (fun f _ => f.update v C R 0) f = .ok f' ∧
        sqDistance (v - stateOf (blkX f'.x 0)) (covOf (blk f'.P 0 0)) ≤
          sqDistance (v - stateOf (blkX f.x 0)) (covOf (blk f.P 0 0)) := by
  intro k
  induction k with
  | zero => intro f _ _; exact ⟨f, rfl, rfl, le_rfl⟩
  | succ k ih =>
    intro f hM hnear
    obtain ⟨f1, h1, h2, h3, h4⟩ := again_step (sing := sing) hst hcv hR hy hd f hM hnear
    have hpos : 0 ≤ sqDistance (v - stateOf (blkX f.x 0)) (R + covOf (blk f.P 0 0)) := by
      have := ((hR.add_posSemidef hM.posSemidef).inv.posSemidef).dotProduct_mulVec_nonneg (v - stateOf (blkX f.x 0))
      simpa [sqDistance] using this
    obtain ⟨f2, k1, k2, k3⟩ := ih f1 h3 (by linarith)
    refine ⟨f2, ?_, ?_, by linarith⟩
    · rw [List.replicate_succ, List.foldlM_cons, h1]
      exact k1
    · rw [List.replicate_succ, List.foldlM_cons, h2]
      exact k2

/-- C165, what holds of poses: a pose that is not late, of regular covariance, which is within the limit, is used as
often as it comes if nothing else comes in between: none of its turns is refused, and it never gets farther away. -/
theorem C165_pose_partial {sp : PoseMsg → Bool} {now : ℤ} {dt : ℝ} {m : PoseMsg}
    (hd : computeDelayStep (computeDelayTime now m.stamp : ℝ) dt = .ok 0) {v : Fin 3 → ℝ}
    (hv : poseMeasurementVector tf m = fun i => some (v i))
    (hR : (poseMeasurementCovariance m.cov (toSizeT p.poseSmoothing)).PosDef)
    (f : TimeDelayKalmanFilter ℝ (n + 1) 6) (hM : (poseCovariance (blk f.P 0 0)).PosDef)
    (hnear : sqDistance (v - getPoseState (blkX f.x 0)) (poseCovariance (blk f.P 0 0)) ≤ p.poseGate ^ 2) (k : ℕ) :
    ∃ f', (List.replicate k m).foldlM
        (fun f m => processPose n.succ_pos tf sp p.poseGate p.poseSmoothing now dt m f) f = .ok f' ∧
      (List.replicate k m).foldlM (fun f m => f.update v poseMeasurementMatrix
        (poseMeasurementCovariance m.cov (toSizeT p.poseSmoothing)) 0) f = .ok f' ∧
      sqDistance (v - getPoseState (blkX f'.x 0)) (poseCovariance (blk f'.P 0 0)) ≤
        sqDistance (v - getPoseState (blkX f.x 0)) (poseCovariance (blk f.P 0 0)) := by
  obtain ⟨f', h1, h2, h3⟩ := again_many (sing := sp m) poseState_eq poseCov_eq hR hv hd m k f hM hnear
  have swap : ∀ (g : TimeDelayKalmanFilter ℝ (n + 1) 6 → PoseMsg → Res (TimeDelayKalmanFilter ℝ (n + 1) 6)) (k : ℕ)
      (f : TimeDelayKalmanFilter ℝ (n + 1) 6),
      (List.replicate k m).foldlM g f = (List.replicate k m).foldlM (fun f _ => g f m) f := by
    intro g k
    induction k with
    | zero => intro f; rfl
    | succ k ih =>
      intro f
      rw [List.replicate_succ, List.foldlM_cons, List.foldlM_cons]
      congr 1
      funext f
      exact ih f
  refine ⟨f', ?_, ?_, h3⟩
  · rw [swap]
    exact h1
  · rw [swap]
    exact h2

theorem twistState_mul (x : Fin 6 → ℝ) : getTwistState x = twistMeasurementMatrix *ᵥ x := by
  funext i
  fin_cases i <;> simp [getTwistState, twistMeasurementMatrix, Matrix.mulVec, dotProduct, Fin.sum_univ_succ]

theorem twistCov_mul (P : Matrix (Fin 6) (Fin 6) ℝ) :
    twistCovariance P = twistMeasurementMatrix * P * twistMeasurementMatrixᵀ := by
  ext i j
  fin_cases i <;> fin_cases j <;>
    simp [twistMeasurementMatrix, twistCovariance, Matrix.mul_apply, Matrix.vecMul, dotProduct, Fin.sum_univ_succ]

/-- C165, what holds of twists: the same. -/
theorem C165_twist_partial {st : TwistMsg → Bool} {now : ℤ} {dt : ℝ} {m : TwistMsg}
    (hd : computeDelayStep (computeDelayTime now m.stamp : ℝ) dt = .ok 0) {v w : ℝ} (hv : m.vx = some v)
    (hw : m.wz = some w) (hR : (twistMeasurementCovariance m.cov (toSizeT p.twistSmoothing)).PosDef)
    (f : TimeDelayKalmanFilter ℝ (n + 1) 6) (hM : (twistCovariance (blk f.P 0 0)).PosDef)
    (hnear : sqDistance (![v, w] - getTwistState (blkX f.x 0)) (twistCovariance (blk f.P 0 0)) ≤ p.twistGate ^ 2)
    (k : ℕ) :
    ∃ f', (List.replicate k m).foldlM
        (fun f m => processTwist n.succ_pos st p.twistGate p.twistSmoothing now dt m f) f = .ok f' ∧
      (List.replicate k m).foldlM (fun f m => f.update ![v, w] twistMeasurementMatrix
        (twistMeasurementCovariance m.cov (toSizeT p.twistSmoothing)) 0) f = .ok f' ∧
      sqDistance (![v, w] - getTwistState (blkX f'.x 0)) (twistCovariance (blk f'.P 0 0)) ≤
        sqDistance (![v, w] - getTwistState (blkX f.x 0)) (twistCovariance (blk f.P 0 0)) := by
  have hy : twistMeasurementVector m = fun i => some (![v, w] i) := by
    funext i
    fin_cases i
    · exact hv
    · exact hw
  obtain ⟨f', h1, h2, h3⟩ := again_many (sing := st m) twistState_mul twistCov_mul hR hy hd m k f hM hnear
  have swap : ∀ (g : TimeDelayKalmanFilter ℝ (n + 1) 6 → TwistMsg → Res (TimeDelayKalmanFilter ℝ (n + 1) 6)) (k : ℕ)
      (f : TimeDelayKalmanFilter ℝ (n + 1) 6),
      (List.replicate k m).foldlM g f = (List.replicate k m).foldlM (fun f _ => g f m) f := by
    intro g k
    induction k with
    | zero => intro f; rfl
    | succ k ih =>
      intro f
      rw [List.replicate_succ, List.foldlM_cons, List.foldlM_cons]
      congr 1
      funext f
      exact ih f
  refine ⟨f', ?_, ?_, h3⟩
  · rw [swap]
    exact h1
  · rw [swap]
    exact h2

end Again

/-! ### Another message in between -/

section Witness
variable {n : ℕ}

/-- A run with three poses before the tick. -/
theorem thrice_run {g : ℝ} (m1 m2 m3 : PoseMsg) {x a b c : ℝ} {f1 f2 f' : TimeDelayKalmanFilter ℝ (n + 2) 6}
    (sp : PoseMsg → Bool) (st : TwistMsg → Bool)
    (h1 : processPose (n + 1).succ_pos flatTf sp (twiceParams g).poseGate (twiceParams g).poseSmoothing 1000000000 1
      m1 (predictStep (n + 1).succ_pos offParams 1 (off0 (n := n + 1))) = .ok f1)
    (h2 : processPose (n + 1).succ_pos flatTf sp (twiceParams g).poseGate (twiceParams g).poseSmoothing 1000000000 1
      m2 f1 = .ok f2)
    (h3 : processPose (n + 1).succ_pos flatTf sp (twiceParams g).poseGate (twiceParams g).poseSmoothing 1000000000 1
      m3 f2 = .ok f') (hs : Straight x a b c f') :
    ∃ (s : NodeState (n + 2)) (o : List Output),
      run (n + 1).succ_pos flatTf (twiceParams g) (NodeState.make (n + 2) (twiceParams g))
        (farEvents sp st [m1, m2, m3]) = .ok (s, o) ∧ s.ekf = some f' ∧
      o.map Output.whereabouts = [(1000000000, x, 0, 0), (1000000000, x, 0, 0)] := by
  set f := predictStep (n + 1).succ_pos offParams 1 (off0 (n := n + 1)) with hf
  have e1 : ∃ s1 : NodeState (n + 2), step (n + 1).succ_pos flatTf (twiceParams g)
      (NodeState.make (n + 2) (twiceParams g)) (.initialPose offStart identityTries) = .ok (s1, []) ∧
      s1.ekf = some off0 ∧ s1.interval = ⟨1, none⟩ ∧ s1.poseQ = ⟨2, [], []⟩ ∧ s1.twistQ = ⟨1, [], []⟩ := by
    refine ⟨_, rfl, ?_, rfl, rfl, rfl⟩
    simp [updateSimple1DFilters, off0, offStart]
  obtain ⟨s1, r1, k1, i1, p1, t1⟩ := e1
  set s2 : NodeState (n + 2) :=
    updateSimple1DFilters flatTf { s1 with poseQ := s1.poseQ.push m1 } m1 with hs2
  set s3 : NodeState (n + 2) :=
    updateSimple1DFilters flatTf { s2 with poseQ := s2.poseQ.push m2 } m2 with hs3
  set s4 : NodeState (n + 2) :=
    updateSimple1DFilters flatTf { s3 with poseQ := s3.poseQ.push m3 } m3 with hs4
  have k4 : s4.ekf = some off0 ∧ s4.interval = ⟨1, none⟩ ∧ s4.poseQ = ((s1.poseQ.push m1).push m2).push m3 ∧
      s4.twistQ = ⟨1, [], []⟩ := ⟨k1, i1, rfl, t1⟩
  have hc : s4.interval.compute (((1000000000 : ℤ) : ℝ) / 1000000000) = (.ok 1, ⟨1, some 1⟩) := by
    rw [k4.2.1]
    norm_num [UpdateInterval.compute, computeInterval]
  have hq : updateAll (processPose (n + 1).succ_pos flatTf sp (twiceParams g).poseGate
      (twiceParams g).poseSmoothing 1000000000 1) s4.poseQ f = .ok (f', ⟨2, [m1, m2, m3], [1, 1, 1]⟩) := by
    have hq4 : s4.poseQ = ⟨2, [m1, m2, m3], [0, 0, 0]⟩ := by rw [k4.2.2.1, p1]; rfl
    have := updateLoop_all (processPose (n + 1).succ_pos flatTf sp (twiceParams g).poseGate
      (twiceParams g).poseSmoothing 1000000000 1) [m1, m2, m3] [] [0, 0, 0] [] 2 0 f rfl rfl rfl (by simp)
    rw [hq4, updateAll, AgedQueue.size]
    refine this.trans ?_
    simp [h1, h2, h3, bind, Except.bind, pure, Except.pure, Except.map]
  have pred : predictStep (n + 1).succ_pos (twiceParams g) 1 (off0 (n := n + 1)) = f := rfl
  have q4 : step (n + 1).succ_pos flatTf (twiceParams g) s4
      (.timer 1000000000 1000000000 1000000000 1000000000 1000000000 sp st) =
      .ok ({ s4 with ekf := some f', interval := ⟨1, some 1⟩, poseQ := ⟨2, [m1, m2, m3], [1, 1, 1]⟩ },
        publish (n + 1).succ_pos (twiceParams g) s4 f' 1000000000 1000000000) := by
    simp only [step, timerCallback, k4.1, hc, bind, Except.bind, pred, hq,
      updateAll_empty _ s4.twistQ _ (by rw [k4.2.2.2]), pure, Except.pure]
  have pose1 : step (n + 1).succ_pos flatTf (twiceParams g) s1 (.pose m1) = .ok (s2, []) := rfl
  have pose2 : step (n + 1).succ_pos flatTf (twiceParams g) s2 (.pose m2) = .ok (s3, []) := rfl
  have pose3 : step (n + 1).succ_pos flatTf (twiceParams g) s3 (.pose m3) = .ok (s4, []) := rfl
  refine ⟨{ s4 with ekf := some f', interval := ⟨1, some 1⟩, poseQ := ⟨2, [m1, m2, m3], [1, 1, 1]⟩ },
    [] ++ ([] ++ ([] ++ ([] ++ (publish (n + 1).succ_pos (twiceParams g) s4 f' 1000000000 1000000000 ++ [])))),
    ?_, rfl, ?_⟩
  · simp only [farEvents, List.map_cons, List.map_nil, List.cons_append, List.nil_append]
    rw [run, r1]
    simp only [bind, Except.bind]
    rw [run, pose1]
    simp only [bind, Except.bind]
    rw [run, pose2]
    simp only [bind, Except.bind]
    rw [run, pose3]
    simp only [bind, Except.bind]
    rw [run, q4]
    rfl
  · have c0 : blkX f'.x 0 0 = x := congrFun hs.pose 0
    have c1 : blkX f'.x 0 1 = 0 := congrFun hs.pose 1
    have c2 : blkX f'.x 0 2 = 0 := congrFun hs.pose 2
    have c3 := hs.bias
    simp [publish, Output.whereabouts, latest_blkX, c0, c1, c2, c3]

/-- C165, violated: a pose `e` metres ahead is used; then one comes that agrees with the estimate of before; then the
first one comes again and is thrown away: the filter and all that is published are as they are without it. -/
theorem C165_between_violated {g e : ℝ} (hlo : 30502 / 40401 * g ^ 2 < e ^ 2) (hhi : e ^ 2 ≤ 101 / 100 * g ^ 2)
    (sp : PoseMsg → Bool) (st : TwistMsg → Bool) :
    ∃ (s1 s2 s3 : NodeState (n + 2)) (o1 o2 o3 : List Output),
      run (n + 1).succ_pos flatTf (twiceParams g) (NodeState.make (n + 2) (twiceParams g))
        (farEvents sp st [widePose 0 (1 / 2), widePose 0 (1 / 2)]) = .ok (s1, o1) ∧
      run (n + 1).succ_pos flatTf (twiceParams g) (NodeState.make (n + 2) (twiceParams g))
        (farEvents sp st [widePose e (1 / 2), widePose 0 (1 / 2)]) = .ok (s2, o2) ∧
      run (n + 1).succ_pos flatTf (twiceParams g) (NodeState.make (n + 2) (twiceParams g))
        (farEvents sp st [widePose e (1 / 2), widePose 0 (1 / 2), widePose e (1 / 2)]) = .ok (s3, o3) ∧
      o1.map Output.whereabouts = [(1000000000, 0, 0, 0), (1000000000, 0, 0, 0)] ∧
      o2.map Output.whereabouts = [(1000000000, 101 / 302 * e, 0, 0), (1000000000, 101 / 302 * e, 0, 0)] ∧
      o3.map Output.whereabouts = o2.map Output.whereabouts ∧ 101 / 302 * e ≠ 0 := by
  have h0 := twice_start (n := n)
  have hg := sq_nonneg g
  obtain ⟨f1, u1, t1⟩ := twice_used (g := g) (e := 0) (by norm_num) one_pos (by norm_num) h0 (by nlinarith) sp
  obtain ⟨f2, u2, t2⟩ := twice_used (g := g) (e := 0) (by norm_num) (by norm_num) (by norm_num) t1
    (by norm_num; nlinarith) sp
  obtain ⟨a1, b1, c1, d1⟩ := twice_run _ _ sp st u1 u2 t2
  obtain ⟨f3, u3, t3⟩ := twice_used (g := g) (e := e) (by norm_num) one_pos (by norm_num) h0
    (by norm_num; linarith) sp
  obtain ⟨f4, u4, t4⟩ := twice_used (g := g) (e := 0) (by norm_num) (by norm_num) (by norm_num) t3
    (by norm_num; nlinarith) sp
  obtain ⟨a2, b2, c2, d2⟩ := twice_run _ _ sp st u3 u4 t4
  have r5 := twice_refused (g := g) (e := e) (by norm_num) (by norm_num) (by norm_num) t4
    (by norm_num; nlinarith) sp
  obtain ⟨a3, b3, c3, -, d3⟩ := thrice_run _ _ _ sp st u3 u4 r5 t4
  have hx : (0 : ℝ) + 101 / 100 / (101 / 100 + 1) * (e - 0) + 101 / 100 / (101 / 100 + 1) /
      (101 / 100 / (101 / 100 + 1) + 1) * (0 - (0 + 101 / 100 / (101 / 100 + 1) * (e - 0))) = 101 / 302 * e := by
    ring
  refine ⟨a1, a2, a3, b1, b2, b3, c1, c2, c3, ?_, ?_, ?_, ?_⟩
  · rw [d1]
    norm_num
  · rw [d2, hx]
  · rw [d3, d2]
  · intro h
    have he : e = 0 := by linarith
    rw [he] at hlo
    nlinarith

end Witness

/-! Non-vacuity. -/

/-- A limit of two and a pose 1.9 metres ahead. -/
example : (30502 / 40401 * 2 ^ 2 : ℝ) < 1.9 ^ 2 ∧ (1.9 : ℝ) ^ 2 ≤ 101 / 100 * 2 ^ 2 := by norm_num

/-- The pose of the violation meets the hypotheses of `C165_pose_partial` in the filter it comes to first. -/
example {n : ℕ} :
    computeDelayStep (computeDelayTime 1000000000 (widePose 1 (1 / 2)).stamp : ℝ) 1 = .ok 0 ∧
    (poseMeasurementVector flatTf (widePose 1 (1 / 2)) = fun i => some (![1, 0, 0] i)) ∧
    (poseMeasurementCovariance (widePose 1 (1 / 2)).cov (toSizeT (twiceParams 2).poseSmoothing)).PosDef ∧
    (poseCovariance (blk (predictStep (n + 1).succ_pos offParams 1 (off0 (n := n + 1))).P 0 0)).PosDef ∧
    sqDistance (![1, 0, 0] - getPoseState (blkX (predictStep (n + 1).succ_pos offParams 1 (off0 (n := n + 1))).x 0))
      (poseCovariance (blk (predictStep (n + 1).succ_pos offParams 1 (off0 (n := n + 1))).P 0 0)) ≤
        (twiceParams 2).poseGate ^ 2 := by
  have h0 := twice_start (n := n)
  refine ⟨wide_delay (n := n) 1 _, wide_vector 1 _, ?_, ?_, ?_⟩
  · have : poseMeasurementCovariance (widePose 1 (1 / 2)).cov (toSizeT (twiceParams 2).poseSmoothing) = 1 := by
      have : toSizeT (twiceParams 2).poseSmoothing = 2 := by simp [toSizeT, twiceParams]
      rw [this]
      ext i j
      fin_cases i <;> fin_cases j <;> simp [poseMeasurementCovariance, widePose]
    rw [this]
    exact Matrix.PosDef.one
  · rw [h0.cov]
    refine Matrix.PosDef.diagonal fun i => ?_
    fin_cases i <;> norm_num
  · rw [h0.cov, h0.pose, axis_distance (by norm_num) one_pos (by norm_num)]
    change _ ≤ (2 : ℝ) ^ 2
    norm_num

end Verif.Ekf
