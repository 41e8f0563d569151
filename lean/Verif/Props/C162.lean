/-
C162: messages that come in the same tick in another order.
-/
import Verif.Props.C160
import Verif.Props.C114

set_option autoImplicit false

namespace Verif.Ekf

open Matrix Verif.Kalman

/-! ### Specification -/

section Order
variable {n : ℕ}

/-- Specification: the pose is not farther from the estimate of its time than the limit. -/
def Within (g : ℝ) (v : Fin 3 → ℝ) (δ : Fin (n + 1)) (f : TimeDelayKalmanFilter ℝ (n + 1) 6) : Prop :=
  (poseCovariance (blk f.P 0 0)).det ≠ 0 ∧
    sqDistance (v - getPoseState (blkX f.x δ)) (poseCovariance (blk f.P 0 0)) ≤ g ^ 2

/-- Specification: taken one after the other, each of the poses is within the limit when its turn comes. -/
def AllWithin (process : PoseMsg → TimeDelayKalmanFilter ℝ (n + 1) 6 → Res (TimeDelayKalmanFilter ℝ (n + 1) 6))
    (g : ℝ) (v : PoseMsg → Fin 3 → ℝ) (δ : PoseMsg → Fin (n + 1)) :
    List PoseMsg → TimeDelayKalmanFilter ℝ (n + 1) 6 → Prop
  | [], _ => True
  | m :: ms, f => Within g (v m) (δ m) f ∧ ∀ f', process m f = .ok f' → AllWithin process g v δ ms f'

/-! ### The loop over the queue -/

/-- If no message of the queue reaches its age, the loop takes each of them once, in order. -/
theorem updateLoop_all {α F : Type} (process : α → F → Res F) :
    ∀ (ms done : List α) (as as' : List ℤ) (maxAge : ℤ) (i : ℕ) (f : F), as.length = ms.length →
      as'.length = done.length → i = done.length → (∀ a ∈ as, a + 1 < maxAge) →
      updateLoop process ms.length i ⟨maxAge, ms ++ done, as ++ as'⟩ f =
        (ms.foldlM (fun f m => process m f) f).map fun f =>
          (f, ⟨maxAge, done ++ ms, as' ++ as.map (· + 1)⟩) := by
  intro ms
  induction ms with
  | nil =>
    intro done as as' maxAge i f h1 _ _ _
    have : as = [] := List.length_eq_zero_iff.1 h1
    subst this
    simp [updateLoop, pure, Except.pure, Except.map]
  | cons m ms ih =>
    intro done as as' maxAge i f h1 h2 h3 h4
    cases as with
    | nil => simp at h1
    | cons a as =>
      have ha : a + 1 < maxAge := h4 a List.mem_cons_self
      have hi : i < (⟨maxAge, m :: ms ++ done, a :: as ++ as'⟩ : AgedQueue α).size := by
        simp only [AgedQueue.size, List.length_append, List.length_cons]
        omega
      rw [List.length_cons, updateLoop, if_pos hi]
      simp only [AgedQueue.pop, List.cons_append, if_pos ha, bind, Except.bind, List.foldlM_cons]
      cases hp : process m f with
      | error e => rfl
      | ok f' =>
        have := ih (done ++ [m]) as (as' ++ [a + 1]) maxAge (i + 1) f' (by simpa using h1) (by simp [h2])
          (by simp [h3]) (fun x hx => h4 x (List.mem_cons_of_mem _ hx))
        simp only [List.append_assoc] at this ⊢
        rw [this]
        simp

variable {tf : Tf2} {p : EkfParams} {sp : PoseMsg → Bool} {now : ℤ} {dt : ℝ}

/-- Poses within the limit are processed like updates. -/
theorem process_fold {g : ℝ} (hg : g = p.poseGate) {v : PoseMsg → Fin 3 → ℝ} {δ : PoseMsg → Fin (n + 1)} :
    ∀ (ms : List PoseMsg) (f : TimeDelayKalmanFilter ℝ (n + 1) 6), f.P.PosSemidef →
      (∀ m ∈ ms, computeDelayStep (computeDelayTime now m.stamp : ℝ) dt = .ok ((δ m).val : ℤ)) →
      (∀ m ∈ ms, poseMeasurementVector tf m = fun i => some (v m i)) →
      (∀ m ∈ ms, (poseMeasurementCovariance m.cov (toSizeT p.poseSmoothing)).PosDef) →
      AllWithin (processPose n.succ_pos tf sp p.poseGate p.poseSmoothing now dt) g v δ ms f →
      ms.foldlM (fun f m => processPose n.succ_pos tf sp p.poseGate p.poseSmoothing now dt m f) f =
        (ms.map fun m => ((⟨3, v m, poseMeasurementMatrix,
          poseMeasurementCovariance m.cov (toSizeT p.poseSmoothing), 0⟩ : Meas 6), δ m)).foldlM upd f := by
  intro ms
  induction ms with
  | nil => intro f _ _ _ _ _; rfl
  | cons m ms ih =>
    intro f hf hd hv hR hw
    obtain ⟨⟨hdet, hnear⟩, hrest⟩ := hw
    obtain ⟨f', hu, hf', -, -⟩ := upd_ok f ((⟨3, v m, poseMeasurementMatrix,
      poseMeasurementCovariance m.cov (toSizeT p.poseSmoothing), 0⟩ : Meas 6), δ m) hf (hR m List.mem_cons_self)
    have hgate : mahalanobisGate (sp m) p.poseGate (getPoseState (blkX f.x (δ m))) (v m)
        (poseCovariance (f.getLatestP n.succ_pos)) = true := by
      have hneg : getPoseState (blkX f.x (δ m)) - v m = -(v m - getPoseState (blkX f.x (δ m))) := by simp
      rw [getLatestP_blk]
      simp only [mahalanobisGate, squaredMahalanobis, if_neg hdet, hneg, Matrix.mulVec_neg,
        dotProduct_neg, neg_dotProduct, neg_neg, decide_eq_true_eq, ← pow_two]
      rw [← hg]
      exact hnear
    have hp : processPose n.succ_pos tf sp p.poseGate p.poseSmoothing now dt m f = .ok f' :=
      process_taken (hv m List.mem_cons_self) (hd m List.mem_cons_self) hgate hu
    rw [List.foldlM_cons, List.map_cons, List.foldlM_cons, hp, hu]
    exact ih f' hf' (fun x hx => hd x (List.mem_cons_of_mem _ hx)) (fun x hx => hv x (List.mem_cons_of_mem _ hx))
      (fun x hx => hR x (List.mem_cons_of_mem _ hx)) (hrest f' hp)

/-- C162, what holds: if poses wait in the queue that are all to be used again, with finite values, regular
covariances and delays within the history, and each of them is within the limit when its turn comes, in the one order
and in the other, then the filter is the same after them. -/
theorem C162_order_partial {v : PoseMsg → Fin 3 → ℝ} {δ : PoseMsg → Fin (n + 1)} {ms ms' : List PoseMsg}
    (hperm : ms.Perm ms') {as as' : List ℤ} (hl : as.length = ms.length) (hl' : as'.length = ms'.length)
    {maxAge : ℤ} (ha : ∀ a ∈ as, a + 1 < maxAge) (ha' : ∀ a ∈ as', a + 1 < maxAge)
    (f : TimeDelayKalmanFilter ℝ (n + 1) 6) (hf : f.P.PosSemidef)
    (hd : ∀ m ∈ ms, computeDelayStep (computeDelayTime now m.stamp : ℝ) dt = .ok ((δ m).val : ℤ))
    (hv : ∀ m ∈ ms, poseMeasurementVector tf m = fun i => some (v m i))
    (hR : ∀ m ∈ ms, (poseMeasurementCovariance m.cov (toSizeT p.poseSmoothing)).PosDef)
    (hw : AllWithin (processPose n.succ_pos tf sp p.poseGate p.poseSmoothing now dt) p.poseGate v δ ms f)
    (hw' : AllWithin (processPose n.succ_pos tf sp p.poseGate p.poseSmoothing now dt) p.poseGate v δ ms' f) :
    ∃ g, updateAll (processPose n.succ_pos tf sp p.poseGate p.poseSmoothing now dt) ⟨maxAge, ms, as⟩ f =
        .ok (g, ⟨maxAge, ms, as.map (· + 1)⟩) ∧
      updateAll (processPose n.succ_pos tf sp p.poseGate p.poseSmoothing now dt) ⟨maxAge, ms', as'⟩ f =
        .ok (g, ⟨maxAge, ms', as'.map (· + 1)⟩) := by
  set mk : PoseMsg → Meas 6 × Fin (n + 1) := fun m => ((⟨3, v m, poseMeasurementMatrix,
    poseMeasurementCovariance m.cov (toSizeT p.poseSmoothing), 0⟩ : Meas 6), δ m) with hmk
  have hpos : ∀ a ∈ ms.map mk, a.1.R.PosDef := by
    intro a hm
    obtain ⟨m, hm', rfl⟩ := List.mem_map.1 hm
    exact hR m hm'
  obtain ⟨g, hg, -, -, -⟩ := fold_ok (ms.map mk) hpos f hf
  have e1 := process_fold (sp := sp) (now := now) (dt := dt) rfl ms f hf hd hv hR hw
  have e2 := process_fold (sp := sp) (now := now) (dt := dt) rfl ms' f hf (fun m h => hd m (hperm.mem_iff.2 h))
    (fun m h => hv m (hperm.mem_iff.2 h)) (fun m h => hR m (hperm.mem_iff.2 h)) hw'
  have e3 : (ms'.map mk).foldlM upd f = .ok g := by
    rw [← fold_perm (hperm.map mk) hpos f hf]
    exact hg
  refine ⟨g, ?_, ?_⟩
  · have := updateLoop_all (processPose n.succ_pos tf sp p.poseGate p.poseSmoothing now dt) ms [] as [] maxAge 0 f hl
      rfl rfl ha
    simp only [List.append_nil, List.nil_append] at this
    rw [updateAll, AgedQueue.size, this, e1, hg]
    rfl
  · have := updateLoop_all (processPose n.succ_pos tf sp p.poseGate p.poseSmoothing now dt) ms' [] as' [] maxAge 0 f
      hl' rfl rfl ha'
    simp only [List.append_nil, List.nil_append] at this
    rw [updateAll, AgedQueue.size, this, e2, e3]
    rfl

end Order

/-! ### Two poses -/

section Witness
variable {n : ℕ}

/-- The parameters, with this limit for the distance of poses and each pose used twice. -/
noncomputable def twiceParams (g : ℝ) : EkfParams := { gateParams g with poseSmoothing := 2 }

/-- What is known of the newest state and its uncertainty. -/
structure Straight (x a b c : ℝ) (f : TimeDelayKalmanFilter ℝ (n + 2) 6) : Prop where
  pose : getPoseState (blkX f.x 0) = ![x, 0, 0]
  bias : blkX f.x 0 3 = 0
  cov : poseCovariance (blk f.P 0 0) = Matrix.diagonal ![a, b, c]
  row : ∀ j, (blk f.P 0 0 * poseMeasurementMatrixᵀ) 3 j = 0

theorem poseState_eq (x : Fin 6 → ℝ) : getPoseState x = poseMeasurementMatrix *ᵥ x := by
  funext i
  fin_cases i <;> simp [getPoseState, poseMeasurementMatrix, Matrix.mulVec, dotProduct, Fin.sum_univ_succ]

theorem poseCov_eq (P : Matrix (Fin 6) (Fin 6) ℝ) :
    poseCovariance P = poseMeasurementMatrix * P * poseMeasurementMatrixᵀ := by
  ext i j
  fin_cases i <;> fin_cases j <;>
    simp [poseMeasurementMatrix, poseCovariance, Matrix.mul_apply, Matrix.vecMul, dotProduct, Fin.sum_univ_succ]

/-- The distance of a pose on the axis. -/
theorem axis_distance {a b c : ℝ} (ha : 0 < a) (hb : 0 < b) (hc : 0 < c) (e x : ℝ) :
    sqDistance (![e, 0, 0] - ![x, 0, 0]) (Matrix.diagonal ![a, b, c]) = (e - x) ^ 2 / a := by
  have h := wide_distance ha hb hc (e - x)
  have hd : (![e, 0, 0] : Fin 3 → ℝ) - ![x, 0, 0] = ![e - x, 0, 0] - getPoseState 0 := by
    funext i
    fin_cases i <;> simp [getPoseState]
  rw [hd, h]

/-- The pose is thrown away. -/
theorem twice_refused {g e x a b c : ℝ} (ha : 0 < a) (hb : 0 < b) (hc : 0 < c)
    {f : TimeDelayKalmanFilter ℝ (n + 2) 6} (h : Straight x a b c f) (hfar : g ^ 2 * a < (e - x) ^ 2)
    (sp : PoseMsg → Bool) :
    processPose (n + 1).succ_pos flatTf sp (twiceParams g).poseGate (twiceParams g).poseSmoothing 1000000000 1
      (widePose e (1 / 2)) f = .ok f := by
  refine (C159_pose_partial (p := twiceParams g) (δ := 0) (wide_delay e _) (wide_vector e _) rfl ?_).1 ?_
  · rw [h.cov, Matrix.det_diagonal]
    simp [Fin.prod_univ_three, ha.ne', hb.ne', hc.ne']
  · rw [h.cov, h.pose, axis_distance ha hb hc, lt_div_iff₀ ha]
    exact hfar

/-- The pose is used. -/
theorem twice_used {g e x a b c : ℝ} (ha : 0 < a) (hb : 0 < b) (hc : 0 < c)
    {f : TimeDelayKalmanFilter ℝ (n + 2) 6} (h : Straight x a b c f) (hnear : (e - x) ^ 2 ≤ g ^ 2 * a)
    (sp : PoseMsg → Bool) :
    ∃ f', processPose (n + 1).succ_pos flatTf sp (twiceParams g).poseGate (twiceParams g).poseSmoothing 1000000000 1
      (widePose e (1 / 2)) f = .ok f' ∧
      Straight (x + a / (a + 1) * (e - x)) (a / (a + 1)) (b / (b + 1)) (c / (c + 1)) f' := by
  have hR : poseMeasurementCovariance (widePose e (1 / 2)).cov (toSizeT (twiceParams g).poseSmoothing) = 1 := by
    have : toSizeT (twiceParams g).poseSmoothing = 2 := by simp [toSizeT, twiceParams]
    rw [this]
    ext i j
    fin_cases i <;> fin_cases j <;> simp [poseMeasurementCovariance, widePose]
  have ha1 : a + 1 ≠ 0 := by positivity
  have hb1 : b + 1 ≠ 0 := by positivity
  have hc1 : c + 1 ≠ 0 := by positivity
  have hS : poseMeasurementCovariance (widePose e (1 / 2)).cov (toSizeT (twiceParams g).poseSmoothing) +
      poseMeasurementMatrix * blk f.P 0 0 * poseMeasurementMatrixᵀ = Matrix.diagonal ![a + 1, b + 1, c + 1] := by
    rw [hR, ← poseCov_eq, h.cov, ← Matrix.diagonal_one, Matrix.diagonal_add]
    congr 1
    funext i
    fin_cases i <;> simp [add_comm]
  have hSi : (Matrix.diagonal ![a + 1, b + 1, c + 1] : Matrix (Fin 3) (Fin 3) ℝ)⁻¹ =
      Matrix.diagonal ![1 / (a + 1), 1 / (b + 1), 1 / (c + 1)] := by
    refine Matrix.inv_eq_right_inv ?_
    rw [Matrix.diagonal_mul_diagonal, ← Matrix.diagonal_one]
    congr 1
    funext i
    fin_cases i
    · simp [ha1]
    · simp [hb1]
    · simp [hc1]
  have hdS : (Matrix.diagonal ![a + 1, b + 1, c + 1] : Matrix (Fin 3) (Fin 3) ℝ).det ≠ 0 := by
    rw [Matrix.det_diagonal]
    simp [Fin.prod_univ_three, ha1, hb1, hc1]
  obtain ⟨f', hu, hX, hP⟩ := (C33_blocks f ![e, 0, 0] poseMeasurementMatrix _ 0).2 (by rw [hS]; exact hdS)
  have hdM : (poseCovariance (blk f.P 0 0)).det ≠ 0 := by
    rw [h.cov, Matrix.det_diagonal]
    simp [Fin.prod_univ_three, ha.ne', hb.ne', hc.ne']
  have hHPH : poseMeasurementMatrix * blk f.P 0 0 * poseMeasurementMatrixᵀ = Matrix.diagonal ![a, b, c] := by
    rw [← poseCov_eq, h.cov]
  have hd : (![e, 0, 0] : Fin 3 → ℝ) - poseMeasurementMatrix *ᵥ blkX f.x 0 = ![e - x, 0, 0] := by
    rw [← poseState_eq, h.pose]
    funext i
    fin_cases i <;> simp
  refine ⟨f', ?_, ?_, ?_, ?_, ?_⟩
  · refine (C159_pose_partial (p := twiceParams g) (δ := 0) (wide_delay e _) (wide_vector e _) rfl hdM).2 ?_ f' hu
    rw [h.cov, h.pose, axis_distance ha hb hc, div_le_iff₀ ha]
    exact hnear
  · rw [poseState_eq, hX, Matrix.mulVec_add, hd, ← poseState_eq, h.pose, hS, hSi, Matrix.mulVec_mulVec,
      ← Matrix.mul_assoc, ← Matrix.mul_assoc, hHPH, Matrix.diagonal_mul_diagonal]
    funext i
    rw [Pi.add_apply, Matrix.mulVec_diagonal]
    fin_cases i
    · simp [div_eq_mul_inv]
    · simp
    · simp
  · rw [hX, Pi.add_apply, h.bias, zero_add, ← Matrix.mulVec_mulVec, Matrix.mulVec, dotProduct]
    exact Finset.sum_eq_zero fun j _ => by rw [h.row, zero_mul]
  · rw [poseCov_eq, hP, hS, hSi, Matrix.mul_sub, Matrix.sub_mul, hHPH]
    have : poseMeasurementMatrix * (blk f.P 0 0 * poseMeasurementMatrixᵀ *
        Matrix.diagonal ![1 / (a + 1), 1 / (b + 1), 1 / (c + 1)] * poseMeasurementMatrix * blk f.P 0 0) *
        poseMeasurementMatrixᵀ = (poseMeasurementMatrix * blk f.P 0 0 * poseMeasurementMatrixᵀ) *
        Matrix.diagonal ![1 / (a + 1), 1 / (b + 1), 1 / (c + 1)] *
        (poseMeasurementMatrix * blk f.P 0 0 * poseMeasurementMatrixᵀ) := by
      simp only [Matrix.mul_assoc]
    rw [this, hHPH, Matrix.diagonal_mul_diagonal, Matrix.diagonal_mul_diagonal, Matrix.diagonal_sub]
    congr 1
    funext i
    fin_cases i
    · simp
      field_simp
      ring
    · simp
      field_simp
      ring
    · simp
      field_simp
      ring
  · intro j
    rw [hP, Matrix.sub_mul, Matrix.sub_apply, h.row, zero_sub, neg_eq_zero]
    simp only [Matrix.mul_assoc]
    rw [← Matrix.mul_assoc (blk f.P 0 0), Matrix.mul_apply]
    exact Finset.sum_eq_zero fun k _ => by rw [h.row, zero_mul]

theorem twice_start : Straight 0 (101 / 100) 1 (1 + 1 / 100 + 1 / 40000)
    (predictStep (n + 1).succ_pos offParams 1 (off0 (n := n + 1))) := by
  obtain ⟨h0, hP⟩ := off1 (n := n + 1)
  refine ⟨?_, by rw [h0]; rfl, far_blocks.2.2.1, ?_⟩
  · rw [h0]
    funext i
    fin_cases i <;> simp [getPoseState]
  · intro j
    rw [hP]
    fin_cases j <;> simp [offP1, poseMeasurementMatrix, Matrix.mul_apply, Fin.sum_univ_succ]

/-- A run with two poses before the tick. -/
theorem twice_run {g : ℝ} (m1 m2 : PoseMsg) {x a b c : ℝ} {f' : TimeDelayKalmanFilter ℝ (n + 2) 6}
    (sp : PoseMsg → Bool) (st : TwistMsg → Bool) {f1 : TimeDelayKalmanFilter ℝ (n + 2) 6}
    (h1 : processPose (n + 1).succ_pos flatTf sp (twiceParams g).poseGate (twiceParams g).poseSmoothing 1000000000 1
      m1 (predictStep (n + 1).succ_pos offParams 1 (off0 (n := n + 1))) = .ok f1)
    (h2 : processPose (n + 1).succ_pos flatTf sp (twiceParams g).poseGate (twiceParams g).poseSmoothing 1000000000 1
      m2 f1 = .ok f') (hs : Straight x a b c f') :
    ∃ (s : NodeState (n + 2)) (o : List Output),
      run (n + 1).succ_pos flatTf (twiceParams g) (NodeState.make (n + 2) (twiceParams g))
        (farEvents sp st [m1, m2]) = .ok (s, o) ∧
      o.map Output.whereabouts = [(1000000000, x, 0, 0), (1000000000, x, 0, 0)] := by
  set f := predictStep (n + 1).succ_pos offParams 1 (off0 (n := n + 1)) with hf
  have e1 : ∃ s1 : NodeState (n + 2), step (n + 1).succ_pos flatTf (twiceParams g)
      (NodeState.make (n + 2) (twiceParams g)) (.initialPose offStart identityTries) = .ok (s1, []) ∧
      s1.ekf = some off0 ∧ s1.interval = ⟨1, none⟩ ∧ s1.poseQ = ⟨2, [], []⟩ ∧ s1.twistQ = ⟨1, [], []⟩ := by
    refine ⟨_, rfl, ?_, rfl, rfl, rfl⟩
    simp [updateSimple1DFilters, off0, offStart]
  obtain ⟨s1, r1, k1, i1, p1, t1⟩ := e1
  set s2 : NodeState (n + 2) :=
    updateSimple1DFilters flatTf { s1 with poseQ := s1.poseQ.push m1 } m1 with hs2
  set s3 : NodeState (n + 2) :=
    updateSimple1DFilters flatTf { s2 with poseQ := s2.poseQ.push m2 } m2 with hs3
  have k3 : s3.ekf = some off0 ∧ s3.interval = ⟨1, none⟩ ∧ s3.poseQ = (s1.poseQ.push m1).push m2 ∧
      s3.twistQ = ⟨1, [], []⟩ := ⟨k1, i1, rfl, t1⟩
  have hc : s3.interval.compute (((1000000000 : ℤ) : ℝ) / 1000000000) = (.ok 1, ⟨1, some 1⟩) := by
    rw [k3.2.1]
    norm_num [UpdateInterval.compute, computeInterval]
  have hq : updateAll (processPose (n + 1).succ_pos flatTf sp (twiceParams g).poseGate
      (twiceParams g).poseSmoothing 1000000000 1) s3.poseQ f = .ok (f', ⟨2, [m1, m2], [1, 1]⟩) := by
    have hq3 : s3.poseQ = ⟨2, [m1, m2], [0, 0]⟩ := by rw [k3.2.2.1, p1]; rfl
    have := updateLoop_all (processPose (n + 1).succ_pos flatTf sp (twiceParams g).poseGate
      (twiceParams g).poseSmoothing 1000000000 1) [m1, m2] [] [0, 0] [] 2 0 f rfl rfl rfl (by simp)
    rw [hq3, updateAll, AgedQueue.size]
    refine this.trans ?_
    simp [h1, h2, bind, Except.bind, pure, Except.pure, Except.map]
  have pred : predictStep (n + 1).succ_pos (twiceParams g) 1 (off0 (n := n + 1)) = f := rfl
  have q3 : step (n + 1).succ_pos flatTf (twiceParams g) s3
      (.timer 1000000000 1000000000 1000000000 1000000000 1000000000 sp st) =
      .ok ({ s3 with ekf := some f', interval := ⟨1, some 1⟩, poseQ := ⟨2, [m1, m2], [1, 1]⟩ },
        publish (n + 1).succ_pos (twiceParams g) s3 f' 1000000000 1000000000) := by
    simp only [step, timerCallback, k3.1, hc, bind, Except.bind, pred, hq,
      updateAll_empty _ s3.twistQ _ (by rw [k3.2.2.2]), pure, Except.pure]
  have pose1 : step (n + 1).succ_pos flatTf (twiceParams g) s1 (.pose m1) = .ok (s2, []) := rfl
  have pose2 : step (n + 1).succ_pos flatTf (twiceParams g) s2 (.pose m2) = .ok (s3, []) := rfl
  refine ⟨{ s3 with ekf := some f', interval := ⟨1, some 1⟩, poseQ := ⟨2, [m1, m2], [1, 1]⟩ },
    [] ++ ([] ++ ([] ++ (publish (n + 1).succ_pos (twiceParams g) s3 f' 1000000000 1000000000 ++ []))),
    ?_, ?_⟩
  · simp only [farEvents, List.map_cons, List.map_nil, List.cons_append, List.nil_append]
    rw [run, r1]
    simp only [bind, Except.bind]
    rw [run, pose1]
    simp only [bind, Except.bind]
    rw [run, pose2]
    simp only [bind, Except.bind]
    rw [run, q3]
    rfl
  · have c0 : blkX f'.x 0 0 = x := congrFun hs.pose 0
    have c1 : blkX f'.x 0 1 = 0 := congrFun hs.pose 1
    have c2 : blkX f'.x 0 2 = 0 := congrFun hs.pose 2
    have c3 := hs.bias
    simp [publish, Output.whereabouts, latest_blkX, c0, c1, c2, c3]

/-- C162, violated: with the same two poses between two ticks, one at the estimate and one `e` metres ahead, what is
published depends on which of them comes first: the one at the estimate makes the filter so certain that the other
is thrown away; in the other order both are used. -/
theorem C162_order_violated {g e : ℝ} (hlo : 101 / 201 * g ^ 2 < e ^ 2) (hhi : e ^ 2 ≤ 101 / 100 * g ^ 2)
    (sp : PoseMsg → Bool) (st : TwistMsg → Bool) :
    ∃ (s1 s2 : NodeState (n + 2)) (o1 o2 : List Output),
      run (n + 1).succ_pos flatTf (twiceParams g) (NodeState.make (n + 2) (twiceParams g))
        (farEvents sp st [widePose 0 (1 / 2), widePose e (1 / 2)]) = .ok (s1, o1) ∧
      run (n + 1).succ_pos flatTf (twiceParams g) (NodeState.make (n + 2) (twiceParams g))
        (farEvents sp st [widePose e (1 / 2), widePose 0 (1 / 2)]) = .ok (s2, o2) ∧
      o1.map Output.whereabouts = [(1000000000, 0, 0, 0), (1000000000, 0, 0, 0)] ∧
      o2.map Output.whereabouts = [(1000000000, 101 / 302 * e, 0, 0), (1000000000, 101 / 302 * e, 0, 0)] ∧
      101 / 302 * e ≠ 0 := by
  have h0 := twice_start (n := n)
  have hg := sq_nonneg g
  obtain ⟨f1, u1, s1⟩ := twice_used (g := g) (e := 0) (by norm_num) one_pos (by norm_num) h0 (by nlinarith) sp
  have r1 := twice_refused (g := g) (e := e) (by norm_num) (by norm_num) (by norm_num) s1
    (by norm_num; linarith) sp
  obtain ⟨a1, b1, c1, d1⟩ := twice_run _ _ sp st u1 r1 s1
  obtain ⟨f2, u2, s2⟩ := twice_used (g := g) (e := e) (by norm_num) one_pos (by norm_num) h0
    (by norm_num; linarith) sp
  obtain ⟨f3, u3, s3⟩ := twice_used (g := g) (e := 0) (by norm_num) (by norm_num) (by norm_num) s2
    (by norm_num; nlinarith) sp
  obtain ⟨a2, b2, c2, d2⟩ := twice_run _ _ sp st u2 u3 s3
  refine ⟨a1, a2, b1, b2, c1, c2, ?_, ?_, ?_⟩
  · rw [d1]
    norm_num
  · rw [d2]
    have : (0 : ℝ) + 101 / 100 / (101 / 100 + 1) * (e - 0) + 101 / 100 / (101 / 100 + 1) /
        (101 / 100 / (101 / 100 + 1) + 1) * (0 - (0 + 101 / 100 / (101 / 100 + 1) * (e - 0))) = 101 / 302 * e := by
      ring
    rw [this]
  · intro h
    have he : e = 0 := by linarith
    rw [he] at hlo
    nlinarith

end Witness

/-! Non-vacuity. -/

/-- A limit of two and a pose 1.8 metres ahead. -/
example : (101 / 201 * 2 ^ 2 : ℝ) < 1.8 ^ 2 ∧ (1.8 : ℝ) ^ 2 ≤ 101 / 100 * 2 ^ 2 := by norm_num

/-- Two poses near the estimate are within a limit of two in both orders. -/
example {n : ℕ} (sp : PoseMsg → Bool) (m1 m2 : PoseMsg)
    (h : (m1 = widePose 0 (1 / 2) ∧ m2 = widePose 1 (1 / 2)) ∨ (m1 = widePose 1 (1 / 2) ∧ m2 = widePose 0 (1 / 2))) :
    AllWithin (processPose (n + 1).succ_pos flatTf sp (twiceParams 2).poseGate (twiceParams 2).poseSmoothing
      1000000000 1) (twiceParams 2).poseGate (fun m => ![m.px.getD 0, 0, 0]) (fun _ => (0 : Fin (n + 2))) [m1, m2]
      (predictStep (n + 1).succ_pos offParams 1 (off0 (n := n + 1))) := by
  have h0 := twice_start (n := n)
  have within : ∀ {x a b c e : ℝ} {f : TimeDelayKalmanFilter ℝ (n + 2) 6}, 0 < a → 0 < b → 0 < c →
      Straight x a b c f → (e - x) ^ 2 ≤ 2 ^ 2 * a →
      Within (twiceParams 2).poseGate ![(widePose e (1 / 2)).px.getD 0, 0, 0] (0 : Fin (n + 2)) f := by
    intro x a b c e f ha hb hc hs hn
    refine ⟨?_, ?_⟩
    · rw [hs.cov, Matrix.det_diagonal]
      simp [Fin.prod_univ_three, ha.ne', hb.ne', hc.ne']
    · have := axis_distance ha hb hc e x
      rw [hs.cov, hs.pose]
      refine le_of_eq_of_le this ?_
      rw [div_le_iff₀ ha]
      exact hn
  rcases h with ⟨rfl, rfl⟩ | ⟨rfl, rfl⟩
  · refine ⟨within (by norm_num) one_pos (by norm_num) h0 (by norm_num), fun f' hf' => ⟨?_, fun _ _ => trivial⟩⟩
    obtain ⟨f1, u1, s1⟩ := twice_used (g := 2) (e := 0) (by norm_num) one_pos (by norm_num) h0 (by norm_num) sp
    rw [u1] at hf'
    injection hf' with hf'
    subst hf'
    exact within (by norm_num) (by norm_num) (by norm_num) s1 (by norm_num)
  · refine ⟨within (by norm_num) one_pos (by norm_num) h0 (by norm_num), fun f' hf' => ⟨?_, fun _ _ => trivial⟩⟩
    obtain ⟨f1, u1, s1⟩ := twice_used (g := 2) (e := 1) (by norm_num) one_pos (by norm_num) h0 (by norm_num) sp
    rw [u1] at hf'
    injection hf' with hf'
    subst hf'
    exact within (by norm_num) (by norm_num) (by norm_num) s1 (by norm_num)

end Verif.Ekf
