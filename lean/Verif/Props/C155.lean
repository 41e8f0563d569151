/-
C155: the parameter that switches the estimation of the yaw bias off.
-/
import Verif.Props.C123
import Verif.Props.C148

set_option autoImplicit false

namespace Verif.Ekf

open Matrix Verif.Kalman

/-! ### The node -/

section Node
variable {n : ℕ} {tf : Tf2} {p : EkfParams}

/-- A property of the filter that every initial pose establishes and that predictions and messages keep
holds at the end of every execution. -/
theorem run_filter (I : TimeDelayKalmanFilter ℝ (n + 1) 6 → Prop) (J0 : PoseMsg → Prop) (Jp : PoseMsg → Prop)
    (Jt : TwistMsg → Prop)
    (hinit : ∀ m x y yaw, J0 m → I (TimeDelayKalmanFilter.make (initState x y yaw) (initCovariance m.cov) (n + 1)))
    (hpred : ∀ dt f, I f → I (predictStep n.succ_pos p dt f))
    (hpose : ∀ sp t2 dt m f f', Jp m → I f →
      processPose n.succ_pos tf sp p.poseGate p.poseSmoothing t2 dt m f = .ok f' → I f')
    (htwist : ∀ st t3 dt m f f', Jt m → I f →
      processTwist n.succ_pos st p.twistGate p.twistSmoothing t3 dt m f = .ok f' → I f') :
    ∀ (es : List Event) (s s' : NodeState (n + 1)) (out : List Output),
      (∀ f, s.ekf = some f → I f) → (∀ m ∈ s.poseQ.msgs, Jp m) → (∀ m ∈ s.twistQ.msgs, Jt m) →
      (∀ e ∈ es, match e with
        | .initialPose m _ => J0 m
        | .pose m => Jp m
        | .twist m => Jt m
        | .timer .. => True) →
      run n.succ_pos tf p s es = .ok (s', out) → ∀ f, s'.ekf = some f → I f := by
  intro es
  induction es with
  | nil =>
    intro s s' out hs _ _ _ h
    simp only [run] at h
    injection h with h
    injection h with h _
    subst h; exact hs
  | cons e es ih =>
    intro s s' out hs hp ht hes h
    simp only [run, bind, Except.bind] at h
    cases h1 : step n.succ_pos tf p s e with
    | error x => rw [h1] at h; cases h
    | ok r =>
      obtain ⟨s1, o1⟩ := r
      rw [h1] at h
      simp only at h
      cases h2 : run n.succ_pos tf p s1 es with
      | error x => rw [h2] at h; cases h
      | ok r2 =>
        obtain ⟨s2, o2⟩ := r2
        rw [h2] at h
        simp only [pure, Except.pure] at h
        injection h with h
        injection h with h _
        subst h
        have key : (∀ f, s1.ekf = some f → I f) ∧ (∀ m ∈ s1.poseQ.msgs, Jp m) ∧
            (∀ m ∈ s1.twistQ.msgs, Jt m) := by
          have he := hes e List.mem_cons_self
          cases e with
          | initialPose m tries =>
            have hcopy := h1
            simp only [step, initialPoseCallback, bind, Except.bind] at h1
            cases ha : eraseBeginSlash p.poseFrame with
            | error e => rw [ha] at h1; cases h1
            | ok a =>
              rw [ha] at h1
              cases hb : eraseBeginSlash m.frame with
              | error e => rw [hb] at h1; cases h1
              | ok b =>
                rw [hb] at h1
                simp only at h1
                cases hl : lookupTransform (tries a b) with
                | none => rw [hl] at h1; cases h1
                | some t =>
                  rw [hl] at h1
                  simp only at h1
                  cases hx : m.px <;> cases hy : m.py <;> cases hq : tf.getYaw m.ori <;>
                    cases ht1 : tf.getYaw t.rot <;> rw [hx, hy, hq, ht1] at h1 <;>
                    first
                      | (cases h1; done)
                      | skip
                  rw [initialPose_ok n.succ_pos tf p s m tries a b ha hb t hl _ _ _ _ hx hy hq ht1] at hcopy
                  injection hcopy with hcopy
                  rw [Prod.mk.injEq] at hcopy
                  obtain ⟨rfl, rfl⟩ := hcopy
                  refine ⟨?_, ?_, ?_⟩
                  · intro f hf'
                    simp only [resetState, updateSimple1DFilters, Option.some.injEq] at hf'
                    rw [← hf']
                    exact hinit m _ _ _ he
                  · intro m hm; simp [resetState, AgedQueue.clear] at hm
                  · intro m hm; simp [resetState, AgedQueue.clear] at hm
          | pose m =>
            simp only [step] at h1
            injection h1 with h1
            injection h1 with h1 h1'
            subst h1; subst h1'
            refine ⟨hs, fun m' hm' => ?_, ht⟩
            simp only [updateSimple1DFilters, AgedQueue.push, List.mem_append, List.mem_singleton] at hm'
            rcases hm' with hm' | rfl
            · exact hp m' hm'
            · exact he
          | twist m =>
            simp only [step] at h1
            injection h1 with h1
            injection h1 with h1 h1'
            subst h1; subst h1'
            refine ⟨hs, hp, fun m' hm' => ?_⟩
            simp only [AgedQueue.push, List.mem_append, List.mem_singleton] at hm'
            rcases hm' with hm' | rfl
            · exact ht m' hm'
            · exact he
          | timer t1 t2 t3 t4 t5 sp st =>
            simp only [step, timerCallback] at h1
            split at h1
            · injection h1 with h1
              injection h1 with h1 h1'
              subst h1; subst h1'
              exact ⟨hs, hp, ht⟩
            · rename_i f hf
              split at h1
              · injection h1 with h1
                injection h1 with h1 h1'
                subst h1; subst h1'
                exact ⟨hs, hp, ht⟩
              · cases h1
              · rename_i dt iv hiv
                simp only [bind, Except.bind] at h1
                cases g1 : updateAll (processPose n.succ_pos tf sp p.poseGate p.poseSmoothing t2 dt)
                    s.poseQ (predictStep n.succ_pos p dt f) with
                | error x => rw [g1] at h1; cases h1
                | ok r1 =>
                  obtain ⟨f1, q1⟩ := r1
                  rw [g1] at h1
                  simp only at h1
                  obtain ⟨i1, j1⟩ := updateLoop_inv _ I Jp (fun m f f' => hpose sp t2 dt m f f')
                    _ _ _ _ _ _ (hpred dt f (hs f hf)) hp g1
                  cases g2 : updateAll (processTwist n.succ_pos st p.twistGate p.twistSmoothing t3 dt)
                      s.twistQ f1 with
                  | error x => rw [g2] at h1; cases h1
                  | ok r2 =>
                    obtain ⟨f2, q2⟩ := r2
                    rw [g2] at h1
                    simp only [pure, Except.pure] at h1
                    obtain ⟨i2, j2⟩ := updateLoop_inv _ I Jt (fun m f f' => htwist st t3 dt m f f')
                      _ _ _ _ _ _ i1 ht g2
                    injection h1 with h1
                    injection h1 with h1 h1'
                    subst h1; subst h1'
                    refine ⟨fun g hg => ?_, j1, j2⟩
                    injection hg with hg
                    subst hg
                    exact i2
        obtain ⟨k1, k2, k3⟩ := key
        exact ih s1 s2 o2 k1 k2 k3 (fun e he => hes e (List.mem_cons_of_mem _ he)) h2

/-! ### Specification -/

/-- Specification: the yaw bias in the filter (component 3 of the newest state). -/
def biasOf (f : TimeDelayKalmanFilter ℝ (n + 1) 6) : ℝ := f.getLatestX n.succ_pos 3

/-- Specification: its variance. -/
def biasVariance (f : TimeDelayKalmanFilter ℝ (n + 1) 6) : ℝ := f.getLatestP n.succ_pos 3 3

/-- Specification: the variance that the filter gives to the heading that is published, which is the sum of
components 2 and 3. -/
def headingVariance (f : TimeDelayKalmanFilter ℝ (n + 1) 6) : ℝ :=
  f.getLatestP n.succ_pos 2 2 + f.getLatestP n.succ_pos 2 3 + f.getLatestP n.succ_pos 3 2 +
    f.getLatestP n.succ_pos 3 3

/-- Specification: the bias is known to be zero in all stored states. -/
structure NoBias (f : TimeDelayKalmanFilter ℝ (n + 1) 6) : Prop where
  mean : ∀ i, blkX f.x i 3 = 0
  row : ∀ i j k, blk f.P i j 3 k = 0
  col : ∀ i j k, blk f.P i j k 3 = 0

/-! ### The bias is never less certain than at the start -/

theorem off_noise (hp : p.enableYawBias = false) (dt : ℝ) (k : Fin 6) :
    processNoiseCovariance (p.variance.timeScaledVariances dt) 3 k = 0 ∧
    processNoiseCovariance (p.variance.timeScaledVariances dt) k 3 = 0 := by
  constructor <;> fin_cases k <;>
    simp [processNoiseCovariance, EkfParams.variance, initYawBias, hp, DefaultVariance.timeScaledVariances,
      timeScaledVariance, Matrix.diagonal]

theorem transition_row (x : Fin 6 → ℝ) (dt : ℝ) (k : Fin 6) :
    createStateTransitionMatrix x dt 3 k = if (3 : Fin 6) = k then 1 else 0 := by
  fin_cases k <;> simp [createStateTransitionMatrix]

theorem transition_conj_row (x : Fin 6 → ℝ) (dt : ℝ) (P : Matrix (Fin 6) (Fin 6) ℝ) :
    (createStateTransitionMatrix x dt * P * (createStateTransitionMatrix x dt)ᵀ) 3 3 = P 3 3 := by
  simp [Matrix.mul_apply, transition_row]

/-- One prediction adds to the variance of the bias its process noise. -/
theorem predict_bias (dt : ℝ) (f : TimeDelayKalmanFilter ℝ (n + 1) 6) :
    biasVariance (predictStep n.succ_pos p dt f) = biasVariance f +
      (if p.enableYawBias then (p.yawBiasCov * dt) ^ 2 else 0) := by
  simp only [biasVariance, predictStep_latestP, Matrix.add_apply, transition_conj_row]
  congr 1
  cases h : p.enableYawBias <;>
    simp [processNoiseCovariance, EkfParams.variance, initYawBias, h, DefaultVariance.timeScaledVariances,
      timeScaledVariance]
  ring

theorem bias_decreases {f f' : TimeDelayKalmanFilter ℝ (n + 1) 6} (h : (f.P - f'.P).PosSemidef) :
    biasVariance f' ≤ biasVariance f := by
  have := h.diag_nonneg (i := slot 0 3)
  simp only [biasVariance, getLatestP_blk, blk]
  simpa using this

theorem make_bias (x : Fin 6 → ℝ) (c : Fin 36 → ℝ) :
    biasVariance (TimeDelayKalmanFilter.make x (initCovariance c) (n + 1)) = 1 / 10000 := by
  simp only [biasVariance, getLatestP_blk, blk, TimeDelayKalmanFilter.make]
  rw [initP_slot, if_pos rfl]
  simp [initCovariance]

/-- C155, what holds: with the estimation of the bias switched off, whatever happens, the variance of the
bias is never greater than what an initial pose sets it to. -/
theorem C155_certain_partial (hp : p.enableYawBias = false) (es : List Event) (hes : ∀ e ∈ es, e.CovPsd)
    {s' : NodeState (n + 1)} {out : List Output}
    (h : run n.succ_pos tf p (NodeState.make (n + 1) p) es = .ok (s', out))
    (f : TimeDelayKalmanFilter ℝ (n + 1) 6) (hf : s'.ekf = some f) :
    0 ≤ biasVariance f ∧ biasVariance f ≤ 1 / 10000 := by
  have key := run_filter (tf := tf) (p := p) (fun f => f.P.PosSemidef ∧ biasVariance f ≤ 1 / 10000)
    (fun m => CovPsd m.cov) (fun m => CovPsd m.cov) (fun m => CovPsd m.cov) ?_ ?_ ?_ ?_ es _ s' out
    (fun f hf => by simp [NodeState.make] at hf) (fun m hm => by simp [NodeState.make, AgedQueue.make] at hm)
    (fun m hm => by simp [NodeState.make, AgedQueue.make] at hm) ?_ h f hf
  · refine ⟨?_, key.2⟩
    have := key.1.diag_nonneg (i := slot 0 3)
    simpa only [biasVariance, getLatestP_blk, blk] using this
  · exact fun m x y yaw hm => ⟨initP_psd _ (initCovariance_psd _ hm), (make_bias _ _).le⟩
  · rintro dt f ⟨h1, h2⟩
    refine ⟨predictStep_psd p dt f h1, ?_⟩
    rw [predict_bias, hp]
    simpa using h2
  · rintro sp t2 dt m f f' hm ⟨h1, h2⟩ hu
    obtain ⟨u1, u2⟩ := processPose_psd (p := p) m f f' hm h1 hu
    exact ⟨u1, (bias_decreases u2).trans h2⟩
  · rintro st t3 dt m f f' hm ⟨h1, h2⟩ hu
    obtain ⟨u1, u2⟩ := processTwist_psd (p := p) m f f' hm h1 hu
    exact ⟨u1, (bias_decreases u2).trans h2⟩
  · intro e he
    have := hes e he
    cases e <;> exact this

/-! ### A bias known to be zero stays so -/

theorem noBias_predict (hp : p.enableYawBias = false) (dt : ℝ) {f : TimeDelayKalmanFilter ℝ (n + 1) 6}
    (h : NoBias f) : NoBias (predictStep n.succ_pos p dt f) := by
  have hb : 6 ≤ (n + 1) * 6 := by omega
  have hx0 : f.getLatestX n.succ_pos 3 = 0 := by rw [latest_blkX]; exact h.mean 0
  refine ⟨fun i => ?_, fun i j k => ?_, fun i j k => ?_⟩
  · simp only [predictStep]
    rw [predict_blk]
    split_ifs with hi
    · simp [predictNextState, hx0]
    · exact h.mean _
  · simp only [predictStep, TimeDelayKalmanFilter.predict]
    rcases Fin.eq_zero_or_eq_succ i with rfl | ⟨i, rfl⟩ <;>
      rcases Fin.eq_zero_or_eq_succ j with rfl | ⟨j, rfl⟩
    · rw [updateP_blk_00 hb, Matrix.add_apply, (off_noise hp dt k).1]
      simp [Matrix.mul_apply, transition_row, h.row]
    · rw [updateP_blk_0s hb]
      simp [Matrix.mul_apply, transition_row, h.row]
    · rw [updateP_blk_s0 hb]
      simp [Matrix.mul_apply, h.row]
    · rw [updateP_blk_ss hb, h.row]
  · simp only [predictStep, TimeDelayKalmanFilter.predict]
    rcases Fin.eq_zero_or_eq_succ i with rfl | ⟨i, rfl⟩ <;>
      rcases Fin.eq_zero_or_eq_succ j with rfl | ⟨j, rfl⟩
    · rw [updateP_blk_00 hb, Matrix.add_apply, (off_noise hp dt k).2]
      simp [Matrix.mul_apply, transition_row, h.col]
    · rw [updateP_blk_0s hb]
      simp [Matrix.mul_apply, h.col]
    · rw [updateP_blk_s0 hb]
      simp [Matrix.mul_apply, transition_row, h.col]
    · rw [updateP_blk_ss hb, h.col]

theorem noBias_update {h : ℕ} {f f' : TimeDelayKalmanFilter ℝ (n + 1) 6} (hf : NoBias f) {y : Fin h → ℝ}
    {C : Matrix (Fin h) (Fin 6) ℝ} {R : Matrix (Fin h) (Fin h) ℝ} (δ : Fin (n + 1))
    (hu : f.update y C R (δ.val : ℤ) = .ok f') : NoBias f' := by
  obtain ⟨hc1, hc2⟩ := C33_blocks f y C R δ
  by_cases hdet : (R + C * blk f.P δ δ * Cᵀ).det = 0
  · rw [hc1 hdet] at hu; cases hu
  · obtain ⟨g, hg, hX, hP⟩ := hc2 hdet
    rw [hg] at hu
    injection hu with hu
    subst hu
    have hr : ∀ (m : ℕ) (i : Fin (n + 1)) (M : Matrix (Fin 6) (Fin m) ℝ) (k : Fin m),
        (blk f.P i δ * M) 3 k = 0 := by
      intro m i M k
      simp [Matrix.mul_apply, hf.row]
    refine ⟨fun i => ?_, fun i j k => ?_, fun i j k => ?_⟩
    · rw [hX, Pi.add_apply, hf.mean, zero_add, Matrix.mul_assoc]
      simp only [Matrix.mulVec, dotProduct, hr, zero_mul, Finset.sum_const_zero]
    · rw [hP, Matrix.sub_apply, hf.row]
      simp only [Matrix.mul_assoc, hr, sub_zero]
    · rw [hP, Matrix.sub_apply, hf.col, Matrix.mul_apply]
      simp [hf.col]

theorem noBias_process {h : ℕ} {sing : Bool} {stateOf : (Fin 6 → ℝ) → (Fin h → ℝ)}
    {covOf : Matrix (Fin 6) (Fin 6) ℝ → Matrix (Fin h) (Fin h) ℝ} {C : Matrix (Fin h) (Fin 6) ℝ}
    {gate dt : ℝ} {now stamp : ℤ} {y : Fin h → Option ℝ} {R : Matrix (Fin h) (Fin h) ℝ}
    {f f' : TimeDelayKalmanFilter ℝ (n + 1) 6} (hf : NoBias f)
    (hp : processMeasurement n.succ_pos sing stateOf covOf C gate now dt stamp y R f = .ok f') : NoBias f' := by
  by_cases hy : ∀ i, (y i).isSome
  · have e : y = fun i => some ((y i).get (hy i)) := by funext i; simp
    rcases process_cases e hp with rfl | ⟨δ, -, -, hu⟩
    · exact hf
    · exact noBias_update hf δ hu
  · have hn : allFinite y = none := by simp only [allFinite, dif_neg hy]
    simp only [processMeasurement, bind, Except.bind] at hp
    cases hd : computeDelayStep (computeDelayTime now stamp : ℝ) dt with
    | error e => rw [hd] at hp; cases hp
    | ok s =>
      rw [hd] at hp
      simp only [hn] at hp
      split_ifs at hp <;> (injection hp with hp; subst hp; exact hf)

/-- C155, what holds: with the estimation switched off, once the bias is known to be zero it remains zero
through all poses, twists and ticks, whatever they say, until the next initial pose. (An initial pose does
not establish this, see `C155_estimated_violated`.) -/
theorem C155_kept_partial (hp : p.enableYawBias = false) (es : List Event)
    (hes : ∀ e ∈ es, ∀ m tries, e ≠ .initialPose m tries) {s s' : NodeState (n + 1)} {out : List Output}
    (hs : ∀ f, s.ekf = some f → NoBias f) (h : run n.succ_pos tf p s es = .ok (s', out))
    (f : TimeDelayKalmanFilter ℝ (n + 1) 6) (hf : s'.ekf = some f) :
    NoBias f ∧ biasOf f = 0 ∧ headingVariance f = f.getLatestP n.succ_pos 2 2 := by
  have key := run_filter (tf := tf) (p := p) NoBias (fun _ => False) (fun _ => True) (fun _ => True)
    (fun _ _ _ _ h => h.elim) (fun dt f h => noBias_predict hp dt h)
    (fun sp t2 dt m f f' _ hf hu => noBias_process hf hu) (fun st t3 dt m f f' _ hf hu => noBias_process hf hu)
    es s s' out hs (fun _ _ => trivial) (fun _ _ => trivial) (by
      intro e he
      cases e with
      | initialPose m tries => exact hes _ he _ _ rfl
      | pose m => trivial
      | twist m => trivial
      | timer => trivial) h f hf
  refine ⟨key, ?_, ?_⟩
  · simp only [biasOf, latest_blkX, key.mean]
  · simp only [headingVariance, getLatestP_blk, key.row, key.col, add_zero]

/-! ### The published variance -/

theorem predict_heading (dt : ℝ) (x : Fin 6 → ℝ) (c : Fin 36 → ℝ) :
    headingVariance (predictStep n.succ_pos p dt (TimeDelayKalmanFilter.make x (initCovariance c) (n + 1))) =
      (predictStep n.succ_pos p dt
        (TimeDelayKalmanFilter.make x (initCovariance c) (n + 1))).getLatestP n.succ_pos 2 2 +
      (1 / 10000 + (if p.enableYawBias then (p.yawBiasCov * dt) ^ 2 else 0)) := by
  have h33 := predict_bias (p := p) dt (TimeDelayKalmanFilter.make x (initCovariance c) (n + 1))
  rw [make_bias] at h33
  have h0 : (TimeDelayKalmanFilter.make x (initCovariance c) (n + 1)).getLatestP n.succ_pos =
      initCovariance c := by
    rw [getLatestP_blk]
    ext k l
    exact (initP_slot _ 0 0 k l).trans (if_pos rfl)
  have h23 : (predictStep n.succ_pos p dt
      (TimeDelayKalmanFilter.make x (initCovariance c) (n + 1))).getLatestP n.succ_pos 2 3 = 0 ∧
    (predictStep n.succ_pos p dt
      (TimeDelayKalmanFilter.make x (initCovariance c) (n + 1))).getLatestP n.succ_pos 3 2 = 0 := by
    rw [predictStep_latestP, h0]
    have hc : ∀ x : Fin 6 → ℝ, createStateTransitionMatrix x dt 2 3 = 0 := fun x => rfl
    have hd : ∀ v : Fin 4 → ℝ, processNoiseCovariance v 2 3 = 0 ∧ processNoiseCovariance v 3 2 = 0 :=
      fun v => ⟨Matrix.diagonal_apply_ne _ (by decide), Matrix.diagonal_apply_ne _ (by decide)⟩
    constructor
    · rw [Matrix.add_apply, (hd _).1, Matrix.mul_apply]
      simp [transition_row, initCovariance, hc]
    · rw [Matrix.add_apply, (hd _).2, Matrix.mul_assoc, Matrix.mul_apply]
      simp [transition_row, initCovariance, hc]
  simp only [headingVariance, h23.1, h23.2, add_zero]
  congr 1

/-- C155, violated: at the first tick after an initial pose, whatever that pose and the parameters are, the
variance published for the heading is smaller than the variance that the filter gives to it, because the one
of the bias that has been added to it is left out. -/
theorem C155_variance_violated (m : PoseMsg) (tries : List Char → List Char → ℕ → Option Transform)
    (t1 t2 t3 t4 t5 : ℤ) (sp : PoseMsg → Bool) (st : TwistMsg → Bool) {s' : NodeState (n + 1)}
    {out : List Output}
    (h : run n.succ_pos tf p (NodeState.make (n + 1) p)
      [.initialPose m tries, .timer t1 t2 t3 t4 t5 sp st] = .ok (s', out)) :
    ∃ f, s'.ekf = some f ∧ ∃ o ∈ out, ∃ stamp frame child pose pc vx wz tc,
      o = .odometry stamp frame child pose pc vx wz tc ∧
      pose.yaw = f.getLatestX n.succ_pos 2 + f.getLatestX n.succ_pos 3 ∧
      pc 35 + 1 / 10000 ≤ headingVariance f := by
  simp only [run, bind, Except.bind] at h
  cases h1 : step n.succ_pos tf p (NodeState.make (n + 1) p) (.initialPose m tries) with
  | error x => rw [h1] at h; cases h
  | ok r =>
    obtain ⟨s1, o1⟩ := r
    rw [h1] at h
    simp only at h
    have key : ∃ x, s1.ekf = some (TimeDelayKalmanFilter.make x (initCovariance m.cov) (n + 1)) ∧
        s1.poseQ.msgs = [] ∧ s1.twistQ.msgs = [] ∧ s1.interval = UpdateInterval.make p.defaultFrequency := by
      have hcopy := h1
      simp only [step, initialPoseCallback, bind, Except.bind] at h1
      cases ha : eraseBeginSlash p.poseFrame with
      | error e => rw [ha] at h1; cases h1
      | ok a =>
        rw [ha] at h1
        cases hb : eraseBeginSlash m.frame with
        | error e => rw [hb] at h1; cases h1
        | ok b =>
          rw [hb] at h1
          simp only at h1
          cases hl : lookupTransform (tries a b) with
          | none => rw [hl] at h1; cases h1
          | some t =>
            rw [hl] at h1
            simp only at h1
            cases hx : m.px <;> cases hy : m.py <;> cases hq : tf.getYaw m.ori <;>
              cases ht1 : tf.getYaw t.rot <;> rw [hx, hy, hq, ht1] at h1 <;>
              first
                | (cases h1; done)
                | skip
            rw [initialPose_ok n.succ_pos tf p _ m tries a b ha hb t hl _ _ _ _ hx hy hq ht1] at hcopy
            injection hcopy with hcopy
            rw [Prod.mk.injEq] at hcopy
            obtain ⟨rfl, rfl⟩ := hcopy
            exact ⟨_, rfl, rfl, rfl, rfl⟩
    obtain ⟨x, hf, hq1, hq2, hi⟩ := key
    have hc : ∃ dt iv, s1.interval.compute ((t1 : ℝ) / 1000000000) = (.ok dt, iv) := by
      rw [hi]
      exact ⟨_, _, rfl⟩
    obtain ⟨dt, iv, hc⟩ := hc
    simp only [step, timerCallback, hf, hc, bind, Except.bind, updateAll_empty _ _ _ hq1,
      updateAll_empty _ _ _ hq2, pure, Except.pure, List.append_nil] at h
    injection h with h
    injection h with h h'
    subst h; subst h'
    refine ⟨_, rfl, _, List.mem_append_right _ (List.mem_cons_of_mem _ (List.mem_singleton.2 rfl)),
      _, _, _, _, _, _, _, _, rfl, rfl, ?_⟩
    rw [predict_heading]
    have : 0 ≤ (if p.enableYawBias then (p.yawBiasCov * dt) ^ 2 else 0 : ℝ) := by
      split_ifs
      · positivity
      · exact le_rfl
    simp only [ekfCovarianceToPoseMessageCovariance]
    simp
    linarith

end Node

/-! ### The bias is estimated although that is switched off -/

section Witness
variable {n : ℕ}

/-- The parameters of `ekf_localizer.hpp` 143-156 with the estimation of the bias switched off, one tick a
second and every message used once. -/
noncomputable def offParams : EkfParams :=
  ⟨1, ['m'], 1, 10000, 10000, 1, 1 / 200, false, 1 / 1000, 5, 1⟩

/-- The initial pose: the origin with unit variances. -/
def offStart : PoseMsg := ⟨['m'], 0, some 0, some 0, some 0, ⟨1, 0, 0, 0⟩, fun _ => 1⟩

/-- Two metres per second straight on. -/
noncomputable def offTwist : TwistMsg :=
  ⟨['b'], 0, some 2, some 0, fun i => if i = 0 then 2501 / 100 else if i = 35 then 101 / 100 else 0⟩

/-- The vehicle is seen a metre to the left of where the localizer predicts it. -/
noncomputable def offPose : PoseMsg :=
  ⟨['m'], 1000000000, some (1 / 2501 + 1), some 1, some 0, ⟨1, 0, 0, 0⟩,
    fun i => if i = 0 ∨ i = 7 ∨ i = 14 ∨ i = 21 ∨ i = 28 ∨ i = 35 then 1 else 0⟩

/-- The filter after the initial pose. -/
noncomputable def off0 : TimeDelayKalmanFilter ℝ (n + 1) 6 :=
  TimeDelayKalmanFilter.make (initState 0 0 0) (initCovariance fun _ => 1) (n + 1)

theorem off0_blk : blk (off0 (n := n)).P 0 0 = initCovariance fun _ => 1 := by
  ext k l
  exact (initP_slot _ 0 0 k l).trans (if_pos rfl)

theorem off0_latest : (off0 (n := n)).getLatestX n.succ_pos = 0 := by
  funext i
  have : ∀ k : Fin 6, (off0 (n := n)).getLatestX n.succ_pos k = initState 0 0 0 k := by
    intro k
    simp only [TimeDelayKalmanFilter.getLatestX, off0, TimeDelayKalmanFilter.make, initX]
    congr 1
    exact Fin.ext (Nat.mod_eq_of_lt k.isLt)
  rw [this]
  fin_cases i <;> rfl

theorem normalizeYaw_zero : normalizeYaw 0 = 0 := by
  have : (⟨1, 0⟩ : ℂ) = 1 := rfl
  simp [normalizeYaw, atan2, this]

/-- The covariance at the first tick. -/
noncomputable def offP1 : Matrix (Fin 6) (Fin 6) ℝ :=
  !![101 / 100, 0, 0, 0, 1 / 100, 0;
     0, 1, 0, 0, 0, 0;
     0, 0, 1 + 1 / 100 + 1 / 40000, 0, 0, 1 / 100;
     0, 0, 0, 1 / 10000, 0, 0;
     1 / 100, 0, 0, 0, 2501 / 100, 0;
     0, 0, 1 / 100, 0, 0, 101 / 100]

theorem offQ : processNoiseCovariance (offParams.variance.timeScaledVariances 1) =
    Matrix.diagonal ![0, 0, 1 / 40000, 0, 25, 1] := by
  have h : offParams.variance.timeScaledVariances 1 = ![1 / 40000, 0, 25, 1] := by
    funext i
    fin_cases i <;>
      (try simp [DefaultVariance.timeScaledVariances, timeScaledVariance, offParams, EkfParams.variance,
        initYawBias]) <;> try norm_num
  rw [h]
  rfl

theorem off1 : blkX (predictStep n.succ_pos offParams 1 off0).x 0 = 0 ∧
    blk (predictStep n.succ_pos offParams 1 (off0 (n := n))).P 0 0 = offP1 := by
  constructor
  · rw [← latest_blkX, predictStep_latestX, off0_latest]
    funext i
    fin_cases i <;> simp [predictNextState, normalizeYaw_zero]
  · rw [← getLatestP_blk, predictStep_latestP, off0_latest, getLatestP_blk, off0_blk]
    have key : ∀ (A : Matrix (Fin 6) (Fin 6) ℝ) (v : Fin 6 → ℝ) (i j : Fin 6),
        (A * Matrix.diagonal v * Aᵀ) i j = ∑ k, A i k * v k * A j k := by
      intro A v i j
      rw [Matrix.mul_apply]
      simp only [Matrix.mul_diagonal, Matrix.transpose_apply]
    ext i j
    simp only [Matrix.add_apply, initCovariance, offQ]
    rw [key, Fin.sum_univ_six]
    fin_cases i <;> fin_cases j <;> (try simp [createStateTransitionMatrix, Matrix.diagonal, offP1]) <;> try norm_num

/-- The covariance after the twist. -/
noncomputable def offP2 : Matrix (Fin 6) (Fin 6) ℝ :=
  !![101 / 100 - 1 / 500200, 0, 0, 0, 1 / 200, 0;
     0, 1, 0, 0, 0, 0;
     0, 0, 1 + 1 / 100 + 1 / 40000 - 1 / 20200, 0, 0, 1 / 200;
     0, 0, 0, 1 / 10000, 0, 0;
     1 / 200, 0, 0, 0, 2501 / 200, 0;
     0, 0, 1 / 200, 0, 0, 101 / 200]

theorem offR : twistMeasurementCovariance offTwist.cov (toSizeT offParams.twistSmoothing) =
    !![2501 / 100, 0; 0, 101 / 100] := by
  have : toSizeT offParams.twistSmoothing = 1 := by simp [toSizeT, offParams]
  rw [this]
  ext i j
  fin_cases i <;> fin_cases j <;> simp [twistMeasurementCovariance, offTwist]

theorem twist_left (M : Matrix (Fin 6) (Fin 6) ℝ) :
    twistMeasurementMatrix * M = M.submatrix ![4, 5] id := by
  ext i j
  rw [Matrix.mul_apply]
  fin_cases i <;> simp [twistMeasurementMatrix, Fin.sum_univ_succ]

theorem twist_right (M : Matrix (Fin 6) (Fin 6) ℝ) :
    M * twistMeasurementMatrixᵀ = M.submatrix id ![4, 5] := by
  ext i j
  rw [Matrix.mul_apply]
  fin_cases j <;> simp [twistMeasurementMatrix, Fin.sum_univ_succ]

theorem offCP1 : twistMeasurementMatrix * offP1 * twistMeasurementMatrixᵀ =
    !![2501 / 100, 0; 0, 101 / 100] := by
  ext i j
  fin_cases i <;> fin_cases j <;>
    simp [twistMeasurementMatrix, offP1, Matrix.mul_apply, Fin.sum_univ_succ]

theorem delay_none (t : ℤ) : computeDelayStep (computeDelayTime t t : ℝ) 1 = .ok 0 := by
  have h2 : ⌊(2⁻¹ : ℝ)⌋ = 0 := by rw [Int.floor_eq_zero_iff]; norm_num
  simp [computeDelayStep, computeDelayTime, roundHalfAway, h2]

/-- The twist is used. -/
theorem off2 {f1 : TimeDelayKalmanFilter ℝ (n + 1) 6} (hx : blkX f1.x 0 = 0) (hP : blk f1.P 0 0 = offP1)
    (st : TwistMsg → Bool) :
    ∃ f2, processTwist n.succ_pos st offParams.twistGate offParams.twistSmoothing 0 1 offTwist f1 = .ok f2 ∧
      blkX f2.x 0 = ![1 / 2501, 0, 0, 0, 1, 0] ∧ blk f2.P 0 0 = offP2 := by
  set R := twistMeasurementCovariance offTwist.cov (toSizeT offParams.twistSmoothing) with hR
  have hS : R + twistMeasurementMatrix * blk f1.P 0 0 * twistMeasurementMatrixᵀ =
      !![2501 / 50, 0; 0, 101 / 50] := by
    rw [hR, offR, hP, offCP1]
    ext i j
    fin_cases i <;> fin_cases j <;> norm_num
  have hinv : (!![2501 / 50, 0; 0, 101 / 50] : Matrix (Fin 2) (Fin 2) ℝ)⁻¹ =
      !![50 / 2501, 0; 0, 50 / 101] := by
    refine Matrix.inv_eq_right_inv ?_
    ext i j
    fin_cases i <;> fin_cases j <;> (try simp [Matrix.mul_apply, Fin.sum_univ_succ]) <;> try norm_num
  have hdet : (R + twistMeasurementMatrix * blk f1.P 0 0 * twistMeasurementMatrixᵀ).det ≠ 0 := by
    rw [hS, Matrix.det_fin_two_of]; norm_num
  obtain ⟨f2, hu, hX2, hP2⟩ := (C33_blocks f1 ![2, 0] twistMeasurementMatrix R 0).2 hdet
  have hx2 : blkX f2.x 0 = ![1 / 2501, 0, 0, 0, 1, 0] := by
    rw [hX2, hS, hinv, hP, hx, twist_right, Matrix.mulVec_zero, sub_zero, zero_add]
    funext i
    simp only [Matrix.mulVec, dotProduct, Matrix.mul_apply, Fin.sum_univ_two, Matrix.submatrix_apply]
    fin_cases i <;> (try simp [offP1]) <;> try norm_num
  have hp2 : blk f2.P 0 0 = offP2 := by
    rw [hP2, hS, hinv, hP, twist_right, Matrix.mul_assoc, twist_left]
    ext i j
    simp only [Matrix.sub_apply, Matrix.mul_apply, Fin.sum_univ_two, Matrix.submatrix_apply]
    fin_cases i <;> fin_cases j <;> (try simp [offP1, offP2]) <;> try norm_num
  refine ⟨f2, ?_, hx2, hp2⟩
  refine process_taken (v := ![2, 0]) (δ := 0) ?_ (delay_none 0) ?_ hu
  · funext i
    fin_cases i <;> rfl
  · rw [getLatestP_blk, hP, hx]
    have hc : twistCovariance offP1 = !![2501 / 100, 0; 0, 101 / 100] := by
      ext i j
      fin_cases i <;> fin_cases j <;> rfl
    have hci : (!![2501 / 100, 0; 0, 101 / 100] : Matrix (Fin 2) (Fin 2) ℝ)⁻¹ =
        !![100 / 2501, 0; 0, 100 / 101] := by
      refine Matrix.inv_eq_right_inv ?_
      ext i j
      fin_cases i <;> fin_cases j <;> (try simp [Matrix.mul_apply, Fin.sum_univ_succ]) <;> try norm_num
    have hcd : (!![2501 / 100, 0; 0, 101 / 100] : Matrix (Fin 2) (Fin 2) ℝ).det ≠ 0 := by
      rw [Matrix.det_fin_two_of]; norm_num
    simp only [mahalanobisGate, squaredMahalanobis, hc, if_neg hcd, hci, decide_eq_true_eq]
    (try simp [getTwistState, offParams, dotProduct, Matrix.mulVec, Fin.sum_univ_succ]) <;> try norm_num

/-- What is known of the covariance at the second tick: that of x, y and yaw. -/
noncomputable def offM : Matrix (Fin 3) (Fin 3) ℝ :=
  !![101 / 100 - 1 / 500200 + 1 / 100 + 2501 / 200, 0, 0;
     0, 1 + (1 + 1 / 100 + 1 / 40000 - 1 / 20200) + 1 / 10000, 1 + 1 / 100 + 1 / 40000 - 1 / 20200 + 1 / 200;
     0, 1 + 1 / 100 + 1 / 40000 - 1 / 20200 + 1 / 200,
      1 + 1 / 100 + 1 / 40000 - 1 / 20200 + 1 / 100 + 101 / 200 + 1 / 40000]

theorem off3 {f2 : TimeDelayKalmanFilter ℝ (n + 1) 6} (hx : blkX f2.x 0 = ![1 / 2501, 0, 0, 0, 1, 0])
    (hP : blk f2.P 0 0 = offP2) :
    blkX (predictStep n.succ_pos offParams 1 f2).x 0 = ![1 / 2501 + 1, 0, 0, 0, 1, 0] ∧
    poseCovariance (blk (predictStep n.succ_pos offParams 1 f2).P 0 0) = offM ∧
    (fun j : Fin 3 => blk (predictStep n.succ_pos offParams 1 f2).P 0 0 3 (Fin.castLE (by norm_num) j)) =
      ![0, 1 / 10000, 0] := by
  refine ⟨?_, ?_, ?_⟩
  · rw [← latest_blkX, predictStep_latestX, latest_blkX, hx]
    funext i
    fin_cases i <;> simp [predictNextState, normalizeYaw_zero]
  · rw [← getLatestP_blk, predictStep_latestP, latest_blkX, getLatestP_blk, hx, hP]
    ext i j
    simp only [poseCovariance, offQ, Matrix.add_apply, Matrix.mul_apply, Matrix.transpose_apply, Fin.sum_univ_six]
    fin_cases i <;> fin_cases j <;>
      (try simp [createStateTransitionMatrix, Matrix.diagonal, offP2, offM]) <;> try norm_num
  · rw [← getLatestP_blk, predictStep_latestP, latest_blkX, getLatestP_blk, hx, hP]
    funext j
    simp only [offQ, Matrix.add_apply, Matrix.mul_apply, Matrix.transpose_apply, Fin.sum_univ_six]
    fin_cases j <;>
      (try simp [createStateTransitionMatrix, Matrix.diagonal, offP2]) <;> try norm_num

theorem inv_apply_of {m : ℕ} {S : Matrix (Fin m) (Fin m) ℝ} {u v : Fin m → ℝ} (hdet : S.det ≠ 0)
    (h : S *ᵥ u = v) : S⁻¹ *ᵥ v = u := by
  rw [← h, Matrix.mulVec_mulVec, Matrix.nonsing_inv_mul _ (isUnit_iff_ne_zero.2 hdet), Matrix.one_mulVec]

/-- The pose is used, and moves the bias. -/
theorem off4 {f3 : TimeDelayKalmanFilter ℝ (n + 1) 6} (hx : blkX f3.x 0 = ![1 / 2501 + 1, 0, 0, 0, 1, 0])
    (hM : poseCovariance (blk f3.P 0 0) = offM)
    (hrow : (fun j : Fin 3 => blk f3.P 0 0 3 (Fin.castLE (by norm_num) j)) = ![0, 1 / 10000, 0])
    (sp : PoseMsg → Bool) :
    ∃ f4, processPose n.succ_pos flatTf sp offParams.poseGate offParams.poseSmoothing 1000000000 1 offPose f3 =
      .ok f4 ∧ 0 < blkX f4.x 0 3 := by
  have hC : poseMeasurementMatrix * blk f3.P 0 0 * poseMeasurementMatrixᵀ = offM := by
    rw [← hM]
    ext i j
    fin_cases i <;> fin_cases j <;>
      simp [poseMeasurementMatrix, poseCovariance, Matrix.mul_apply, Matrix.vecMul, dotProduct,
        Fin.sum_univ_succ]
  have hR : poseMeasurementCovariance offPose.cov (toSizeT offParams.poseSmoothing) = 1 := by
    have : toSizeT offParams.poseSmoothing = 1 := by simp [toSizeT, offParams]
    rw [this]
    ext i j
    fin_cases i <;> fin_cases j <;> simp [poseMeasurementCovariance, offPose]
  have hdM : offM.det ≠ 0 := by
    rw [Matrix.det_fin_three]
    (try simp [offM]) <;> try norm_num
  have hdS : (1 + offM).det ≠ 0 := by
    rw [Matrix.det_fin_three]
    simp only [Matrix.add_apply, Matrix.one_apply]
    (try simp [offM]) <;> try norm_num
  have hdet : (poseMeasurementCovariance offPose.cov (toSizeT offParams.poseSmoothing) +
      poseMeasurementMatrix * blk f3.P 0 0 * poseMeasurementMatrixᵀ).det ≠ 0 := by
    rw [hC, hR]; exact hdS
  obtain ⟨f4, hu, hX4, -⟩ :=
    (C33_blocks f3 ![1 / 2501 + 1, 1, 0] poseMeasurementMatrix _ 0).2 hdet
  have hres : (![1 / 2501 + 1, 1, 0] : Fin 3 → ℝ) - poseMeasurementMatrix *ᵥ blkX f3.x 0 = ![0, 1, 0] := by
    rw [hx]
    funext i
    fin_cases i <;> simp [poseMeasurementMatrix]
  refine ⟨f4, ?_, ?_⟩
  · refine process_taken (v := ![1 / 2501 + 1, 1, 0]) (δ := 0) ?_ (delay_none _) ?_ hu
    · funext i
      fin_cases i
      · rfl
      · rfl
      · simp [poseMeasurementVector, flatTf, normalizeYaw_zero]
    · rw [getLatestP_blk, hM, hx]
      have hd : getPoseState ![1 / 2501 + 1, 0, 0, 0, 1, 0] - ![1 / 2501 + 1, 1, 0] = ![0, -1, 0] := by
        funext i
        fin_cases i <;> simp [getPoseState]
      have hu0 : offM⁻¹ *ᵥ ![0, -1, 0] =
          ![0, -offM 2 2 / (offM 1 1 * offM 2 2 - offM 1 2 ^ 2),
            offM 1 2 / (offM 1 1 * offM 2 2 - offM 1 2 ^ 2)] := by
        refine inv_apply_of hdM ?_
        funext i
        simp only [Matrix.mulVec, dotProduct, Fin.sum_univ_three]
        fin_cases i <;> (try simp [offM]) <;> try norm_num
      simp only [mahalanobisGate, squaredMahalanobis, if_neg hdM, hd, hu0, decide_eq_true_eq]
      simp only [dotProduct, Fin.sum_univ_three]
      (try simp [offM, offParams]) <;> try norm_num
  · rw [hX4, hres, hC, hR, hx, ← Matrix.mulVec_mulVec]
    have hu0 : (1 + offM)⁻¹ *ᵥ ![0, 1, 0] =
        ![0, (1 + offM 2 2) / ((1 + offM 1 1) * (1 + offM 2 2) - offM 1 2 ^ 2),
          -offM 1 2 / ((1 + offM 1 1) * (1 + offM 2 2) - offM 1 2 ^ 2)] := by
      refine inv_apply_of hdS ?_
      funext i
      simp only [Matrix.mulVec, dotProduct, Fin.sum_univ_three, Matrix.add_apply, Matrix.one_apply]
      fin_cases i <;> (try simp [offM]) <;> try norm_num
    rw [hu0, ← Matrix.mulVec_mulVec]
    have e : ∀ v : Fin 3 → ℝ, (blk f3.P 0 0 *ᵥ (poseMeasurementMatrixᵀ *ᵥ v)) 3 =
        (fun j : Fin 3 => blk f3.P 0 0 3 (Fin.castLE (by norm_num) j)) ⬝ᵥ v := by
      intro v
      simp [Matrix.mulVec, dotProduct, poseMeasurementMatrix, Fin.sum_univ_succ]
    rw [Pi.add_apply, e, hrow]
    simp only [dotProduct, Fin.sum_univ_three]
    (try simp [offM]) <;> try norm_num

/-- What happens: an initial pose, a twist, a tick, a pose that is seen to the left, a tick. -/
noncomputable def offEvents (sp : PoseMsg → Bool) (st : TwistMsg → Bool) : List Event :=
  [.initialPose offStart identityTries, .twist offTwist, .timer 0 0 0 0 0 sp st, .pose offPose,
    .timer 1000000000 1000000000 1000000000 1000000000 1000000000 sp st]

/-- C155, violated: with the estimation of the bias switched off, a vehicle that moves and is then seen
beside the place where it was expected makes the localizer estimate a bias, and the published heading
contains it. -/
theorem C155_estimated_violated (sp : PoseMsg → Bool) (st : TwistMsg → Bool) :
    offParams.enableYawBias = false ∧
    ∃ (s' : NodeState (n + 1)) (out : List Output) (f : TimeDelayKalmanFilter ℝ (n + 1) 6),
      run n.succ_pos flatTf offParams (NodeState.make (n + 1) offParams) (offEvents sp st) = .ok (s', out) ∧
      s'.ekf = some f ∧ 0 < biasOf f ∧ ∃ o ∈ out, ∃ stamp frame child pose pc vx wz tc,
        o = .odometry stamp frame child pose pc vx wz tc ∧ pose.yaw = f.getLatestX n.succ_pos 2 + biasOf f := by
  refine ⟨rfl, ?_⟩
  obtain ⟨hx1, hP1⟩ := off1 (n := n)
  obtain ⟨f2, hf2, hx2, hP2⟩ := off2 hx1 hP1 st
  obtain ⟨hx3, hM3, hr3⟩ := off3 hx2 hP2
  obtain ⟨f4, hf4, h4⟩ := off4 hx3 hM3 hr3 sp
  have e1 : ∃ s1 : NodeState (n + 1), step n.succ_pos flatTf offParams (NodeState.make (n + 1) offParams)
      (.initialPose offStart identityTries) = .ok (s1, []) ∧ s1.ekf = some off0 ∧
      s1.interval = ⟨1, none⟩ ∧ s1.poseQ = ⟨1, [], []⟩ ∧ s1.twistQ = ⟨1, [], []⟩ := by
    refine ⟨_, rfl, ?_, rfl, rfl, rfl⟩
    simp [updateSimple1DFilters, off0, offStart]
  obtain ⟨s1, r1, k1, i1, p1, t1⟩ := e1
  have e3 : ∃ s3 o3, step n.succ_pos flatTf offParams { s1 with twistQ := s1.twistQ.push offTwist }
      (.timer 0 0 0 0 0 sp st) = .ok (s3, o3) ∧ s3.ekf = some f2 ∧ s3.interval = ⟨1, some 0⟩ ∧
      s3.poseQ = ⟨1, [], []⟩ ∧ s3.twistQ = ⟨1, [], []⟩ := by
    have hc : s1.interval.compute (((0 : ℤ) : ℝ) / 1000000000) = (.ok 1, ⟨1, some 0⟩) := by
      rw [i1]
      norm_num [UpdateInterval.compute, computeInterval]
    have hq : updateAll (processTwist n.succ_pos st offParams.twistGate offParams.twistSmoothing 0 1)
        (s1.twistQ.push offTwist) (predictStep n.succ_pos offParams 1 off0) = .ok (f2, ⟨1, [], []⟩) := by
      rw [t1]
      simp only [updateAll, AgedQueue.push, AgedQueue.size, List.nil_append, List.length_singleton, updateLoop,
        AgedQueue.pop, bind, Except.bind]
      simp [hf2]
    refine ⟨{ s1 with ekf := some f2, interval := ⟨1, some 0⟩, twistQ := ⟨1, [], []⟩ },
      publish n.succ_pos offParams { s1 with twistQ := s1.twistQ.push offTwist } f2 0 0, ?_, ?_⟩
    · simp only [step, timerCallback, k1, hc, bind, Except.bind, updateAll_empty _ s1.poseQ _ (by rw [p1]), hq,
        pure, Except.pure]
    · exact ⟨rfl, rfl, p1, rfl⟩
  obtain ⟨s3, o3, r3, k3, i3, p3, t3⟩ := e3
  have e5 : ∃ s5 o5, step n.succ_pos flatTf offParams
      (updateSimple1DFilters flatTf { s3 with poseQ := s3.poseQ.push offPose } offPose)
      (.timer 1000000000 1000000000 1000000000 1000000000 1000000000 sp st) = .ok (s5, o5) ∧
      s5.ekf = some f4 ∧ ∃ o ∈ o5, ∃ stamp frame child pose pc vx wz tc,
        o = .odometry stamp frame child pose pc vx wz tc ∧
        pose.yaw = f4.getLatestX n.succ_pos 2 + biasOf f4 := by
    have hc : s3.interval.compute (((1000000000 : ℤ) : ℝ) / 1000000000) = (.ok 1, ⟨1, some 1⟩) := by
      rw [compute_interval _ 0 _ (by rw [i3]), i3]
      norm_num
    have hq : updateAll (processPose n.succ_pos flatTf sp offParams.poseGate offParams.poseSmoothing 1000000000 1)
        (s3.poseQ.push offPose) (predictStep n.succ_pos offParams 1 f2) = .ok (f4, ⟨1, [], []⟩) := by
      rw [p3]
      simp only [updateAll, AgedQueue.push, AgedQueue.size, List.nil_append, List.length_singleton, updateLoop,
        AgedQueue.pop, bind, Except.bind]
      simp [hf4]
    refine ⟨{ updateSimple1DFilters flatTf { s3 with poseQ := s3.poseQ.push offPose } offPose with
        ekf := some f4, interval := ⟨1, some 1⟩, poseQ := ⟨1, [], []⟩ },
      publish n.succ_pos offParams (updateSimple1DFilters flatTf { s3 with poseQ := s3.poseQ.push offPose } offPose)
        f4 1000000000 1000000000, ?_, ?_⟩
    · simp only [step, timerCallback, updateSimple1DFilters, k3, hc, bind, Except.bind,
        updateAll_empty _ s3.twistQ _ (by rw [t3]), hq, pure, Except.pure]
    · exact ⟨rfl, _, List.mem_cons_of_mem _ (List.mem_singleton.2 rfl), _, _, _, _, _, _, _, _, rfl, rfl⟩
  obtain ⟨s5, o5, r5, k5, o, ho, hyaw⟩ := e5
  refine ⟨s5, [] ++ ([] ++ (o3 ++ ([] ++ (o5 ++ [])))), f4, ?_, k5, ?_, o, ?_, hyaw⟩
  · simp only [offEvents, run, bind, Except.bind, r1]
    simp only [step] at r3 r5 ⊢
    simp only [r3, r5, pure, Except.pure]
  · simpa only [biasOf, latest_blkX] using h4
  · simp [ho]

end Witness

/-! Non-vacuity of the other statements. -/

/-- A filter that knows that there is no bias. -/
example : NoBias (n := 2) (TimeDelayKalmanFilter.make (initState 1 2 0)
    (Matrix.diagonal ![1, 1, 1, 0, 1 / 100, 1 / 100]) 3) := by
  have hx : ∀ i : Fin 3, blkX (TimeDelayKalmanFilter.make (initState 1 2 0)
      (Matrix.diagonal ![1, 1, 1, 0, 1 / 100, 1 / 100]) 3).x i 3 = 0 := by
    intro i
    simp only [blkX, TimeDelayKalmanFilter.make, initX, slot_val]
    fin_cases i <;> rfl
  refine ⟨hx, fun i j k => ?_, fun i j k => ?_⟩
  · simp only [blk, TimeDelayKalmanFilter.make]
    rw [initP_slot]
    split_ifs
    · fin_cases k <;> simp [Matrix.diagonal]
    · rfl
  · simp only [blk, TimeDelayKalmanFilter.make]
    rw [initP_slot]
    split_ifs
    · fin_cases k <;> simp [Matrix.diagonal]
    · rfl

/-- The execution of `C155_variance_violated` exists. -/
example : ∃ (s' : NodeState 1) (out : List Output),
    run Nat.one_pos flatTf offParams (NodeState.make 1 offParams)
      [.initialPose offStart identityTries, .timer 0 0 0 0 0 (fun _ => true) fun _ => true] =
      .ok (s', out) := ⟨_, _, rfl⟩

/-- One of `C155_certain_partial`. -/
example : ∃ (s' : NodeState 1) (out : List Output) (f : TimeDelayKalmanFilter ℝ 1 6),
    run Nat.one_pos flatTf offParams (NodeState.make 1 offParams)
      [.initialPose offStart identityTries] = .ok (s', out) ∧ s'.ekf = some f ∧
    biasVariance f = 1 / 10000 ∧ ∀ e ∈ [Event.initialPose offStart identityTries], e.CovPsd := by
  refine ⟨_, _, off0, rfl, by simp [updateSimple1DFilters, off0, offStart], make_bias _ _, ?_⟩
  intro e he
  rw [List.mem_singleton.1 he]
  exact covPsd_one

end Verif.Ekf
