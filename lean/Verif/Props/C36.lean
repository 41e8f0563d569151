/-
C36: a rejected measurement does not change the estimate (with the last part of C31);
C43: covariance arrays; C66: yaw residuals; C67: the Mahalanobis gate.
-/
import Verif.Model.Measurement
import Verif.Props.C28
import Verif.Props.C30
import Verif.Props.C32
import Verif.Props.C37
import Mathlib.Analysis.Real.Pi.Bounds

set_option autoImplicit false

namespace Verif.Ekf

open Matrix Verif.Kalman

section Process
variable {N h : ℕ} (hN : 0 < N) (sing : Bool) (stateOf : (Fin 6 → ℝ) → (Fin h → ℝ))
  (covOf : Matrix (Fin 6) (Fin 6) ℝ → Matrix (Fin h) (Fin h) ℝ) (C : Matrix (Fin h) (Fin 6) ℝ)
  (gateDist : ℝ) (now : ℤ) (dt : ℝ) (stamp : ℤ) (y : Fin h → Option ℝ)
  (R : Matrix (Fin h) (Fin h) ℝ) (f : TimeDelayKalmanFilter ℝ N 6)

theorem computeDelayStep_nonneg {delay dt : ℝ} (hdt : 0 < dt) {s : ℤ}
    (h : computeDelayStep delay dt = .ok s) : 0 ≤ s := by
  have hq : 0 ≤ max delay 0 / dt := div_nonneg (le_max_right _ _) hdt.le
  simp only [computeDelayStep, if_neg hdt.ne'] at h
  split_ifs at h
  injection h with h
  rw [← h]
  exact (roundHalfAway_nonneg hq).1

/-- C36: whatever the message, with a positive time step and a representable delay the iteration
neither throws nor does anything else than: leave the filter exactly as it was, or apply one filter
update with the measurement read from the message, which then is finite, inside the history and
inside the gate. -/
theorem C36_outcome (hdt : 0 < dt) (s : ℤ)
    (hs : computeDelayStep (computeDelayTime now stamp : ℝ) dt = .ok s) :
    processMeasurement hN sing stateOf covOf C gateDist now dt stamp y R f = .ok f ∨
    ∃ (yv : Fin h → ℝ) (x : Fin 6 → ℝ) (f' : TimeDelayKalmanFilter ℝ N 6),
      0 ≤ s ∧ s < N ∧ (∀ i, y i = some (yv i)) ∧ f.getX s = .ok x ∧
      mahalanobisGate sing gateDist (stateOf x) yv (covOf (f.getLatestP hN)) = true ∧
      f.update yv C R s = .ok f' ∧
      processMeasurement hN sing stateOf covOf C gateDist now dt stamp y R f = .ok f' := by
  have h0 := computeDelayStep_nonneg hdt hs
  unfold processMeasurement
  simp only [hs, bind, Except.bind]
  by_cases hlt : s < N
  · have hc : (!checkDelayStep s N) = false := by simp [checkDelayStep, hlt]
    rw [hc]
    simp only [Bool.false_eq_true, if_false]
    cases hy : allFinite y with
    | none => exact Or.inl rfl
    | some yv =>
      have hyv : ∀ i, y i = some (yv i) := by
        intro i
        unfold allFinite at hy
        split_ifs at hy with hall
        injection hy with hy
        rw [← hy]
        exact (Option.some_get (hall i)).symm
      simp only
      cases hx : f.getX s with
      | error e =>
        simp [TimeDelayKalmanFilter.getX, h0, hlt] at hx
      | ok x =>
        simp only
        cases hg : mahalanobisGate sing gateDist (stateOf x) yv (covOf (f.getLatestP hN)) with
        | false => left; rfl
        | true =>
          simp only [Bool.not_true, Bool.false_eq_true, if_false]
          cases hu : f.update yv C R s with
          | ok f' => right; exact ⟨yv, x, f', h0, hlt, hyv, rfl, hg, hu, rfl⟩
          | error e =>
            left
            have : e = .invalidArgument := by
              simp only [TimeDelayKalmanFilter.update] at hu
              split_ifs at hu with h1 h2
              · injection hu with hu; exact hu.symm
              · omega
              · cases hk : calcKalmanGain f.P (makeMeasurementMatrix C N s.toNat) R with
                | none => rw [hk] at hu; injection hu with hu; exact hu.symm
                | some G => rw [hk] at hu; cases hu
            subst this
            rfl
  · left
    have hc : (!checkDelayStep s N) = true := by simp [checkDelayStep]; omega
    rw [hc]
    rfl

/-- C31: a measurement at least `N - 1/2` time steps old (whose step would not be smaller than the
number `N` of stored steps) is discarded and the filter not touched. -/
theorem C31_beyond_history (hdt : 0 < dt)
    (hrange : (computeDelayTime now stamp : ℝ) / dt < 2147483647)
    (hold : ((N : ℝ) - 1 / 2) * dt ≤ computeDelayTime now stamp) :
    processMeasurement hN sing stateOf covOf C gateDist now dt stamp y R f = .ok f := by
  obtain ⟨s, h1, h2, h3, h4⟩ := C31_delay_step _ dt hdt hrange
  have hN' : (1 : ℝ) ≤ N := by exact_mod_cast hN
  have hpos : 0 ≤ (computeDelayTime now stamp : ℝ) :=
    le_trans (mul_nonneg (by linarith) hdt.le) hold
  rw [max_eq_left hpos] at h3 h4
  have hq : (N : ℝ) - 1 / 2 ≤ computeDelayTime now stamp / dt := by
    rw [le_div_iff₀ hdt]; exact hold
  have h5 : ((N : ℤ) : ℝ) < ((s + 1 : ℤ) : ℝ) := by push_cast; linarith
  have h6 : (N : ℤ) ≤ s := by have := Int.cast_lt.1 h5; omega
  rcases C36_outcome hN sing stateOf covOf C gateDist now dt stamp y R f hdt s h1 with h | ⟨_, _, _, _, h, _⟩
  · exact h
  · omega

/-- C36, NaN or infinite measurement: unchanged. -/
theorem C36_not_finite (hdt : 0 < dt) (s : ℤ)
    (hs : computeDelayStep (computeDelayTime now stamp : ℝ) dt = .ok s) (i : Fin h)
    (hi : y i = none) :
    processMeasurement hN sing stateOf covOf C gateDist now dt stamp y R f = .ok f := by
  rcases C36_outcome hN sing stateOf covOf C gateDist now dt stamp y R f hdt s hs with
    h | ⟨yv, _, _, _, _, h, _⟩
  · exact h
  · rw [h i] at hi; cases hi

/-- C36, gate: if the squared Mahalanobis distance to the stored state exceeds the squared gate,
unchanged. -/
theorem C36_outside_gate (hdt : 0 < dt) (s : ℤ)
    (hs : computeDelayStep (computeDelayTime now stamp : ℝ) dt = .ok s) (yv : Fin h → ℝ)
    (hy : ∀ i, y i = some (yv i)) (x : Fin 6 → ℝ) (hx : f.getX s = .ok x)
    (hdet : (covOf (f.getLatestP hN)).det ≠ 0)
    (hfar : gateDist ^ 2 < (stateOf x - yv) ⬝ᵥ ((covOf (f.getLatestP hN))⁻¹ *ᵥ (stateOf x - yv))) :
    processMeasurement hN sing stateOf covOf C gateDist now dt stamp y R f = .ok f := by
  rcases C36_outcome hN sing stateOf covOf C gateDist now dt stamp y R f hdt s hs with
    h | ⟨yv', x', _, _, _, h, hx', hg, _⟩
  · exact h
  · have e1 : yv' = yv := by
      funext i
      have := h i
      rw [hy i] at this
      exact (Option.some.inj this).symm
    have e2 : x' = x := by rw [hx] at hx'; injection hx' with hx'; exact hx'.symm
    subst e1 e2
    exfalso
    simp only [mahalanobisGate, squaredMahalanobis, if_neg hdet, decide_eq_true_eq] at hg
    nlinarith

/-- C36, refused by the filter (singular innovation covariance): unchanged. -/
theorem C36_refused (hdt : 0 < dt) (δ : Fin N)
    (hs : computeDelayStep (computeDelayTime now stamp : ℝ) dt = .ok (δ.val : ℤ))
    (hdet : (R + C * blk f.P δ δ * Cᵀ).det = 0) :
    processMeasurement hN sing stateOf covOf C gateDist now dt stamp y R f = .ok f := by
  rcases C36_outcome hN sing stateOf covOf C gateDist now dt stamp y R f hdt _ hs with
    h | ⟨yv, _, _, _, _, _, _, _, hu, _⟩
  · exact h
  · rw [(C33_blocks f yv C R δ).1 hdet] at hu
    cases hu

end Process

/-- C36 for pose messages: a NaN or infinite position or yaw leaves the filter as it was. -/
theorem C36_pose_not_finite {N : ℕ} (hN : 0 < N) (tf : Tf2) (sing : PoseMsg → Bool) (gateDist : ℝ)
    (smoothing now : ℤ) (dt : ℝ) (m : PoseMsg) (f : TimeDelayKalmanFilter ℝ N 6) (hdt : 0 < dt)
    (s : ℤ) (hs : computeDelayStep (computeDelayTime now m.stamp : ℝ) dt = .ok s)
    (hbad : m.px = none ∨ m.py = none ∨ tf.getYaw m.ori = none) :
    processPose hN tf sing gateDist smoothing now dt m f = .ok f := by
  unfold processPose
  rcases hbad with h | h | h
  · exact C36_not_finite _ _ _ _ _ _ _ _ _ _ _ _ hdt s hs 0 (by simp [poseMeasurementVector, h])
  · exact C36_not_finite _ _ _ _ _ _ _ _ _ _ _ _ hdt s hs 1 (by simp [poseMeasurementVector, h])
  · exact C36_not_finite _ _ _ _ _ _ _ _ _ _ _ _ hdt s hs 2 (by simp [poseMeasurementVector, h])

/-- C36 for twist messages. -/
theorem C36_twist_not_finite {N : ℕ} (hN : 0 < N) (sing : TwistMsg → Bool) (gateDist : ℝ)
    (smoothing now : ℤ) (dt : ℝ) (m : TwistMsg) (f : TimeDelayKalmanFilter ℝ N 6) (hdt : 0 < dt)
    (s : ℤ) (hs : computeDelayStep (computeDelayTime now m.stamp : ℝ) dt = .ok s)
    (hbad : m.vx = none ∨ m.wz = none) :
    processTwist hN sing gateDist smoothing now dt m f = .ok f := by
  unfold processTwist
  rcases hbad with h | h
  · exact C36_not_finite _ _ _ _ _ _ _ _ _ _ _ _ hdt s hs 0 (by simp [twistMeasurementVector, h])
  · exact C36_not_finite _ _ _ _ _ _ _ _ _ _ _ _ hdt s hs 1 (by simp [twistMeasurementVector, h])

/-- The loop considers the messages of `AgedQueue.tick`, in order. -/
theorem updateLoop_eq {α F : Type} (process : α → F → Res F) :
    ∀ (fuel i : ℕ) (q q' : AgedQueue α) (ms : List α) (f : F),
      AgedQueue.tickLoop fuel i q = .ok (ms, q') →
      updateLoop process fuel i q f = (ms.foldlM (fun f m => process m f) f).map fun f' => (f', q') := by
  intro fuel
  induction fuel with
  | zero =>
    intro i q q' ms f h
    simp only [AgedQueue.tickLoop] at h
    injection h with h
    rw [Prod.mk.injEq] at h
    obtain ⟨rfl, rfl⟩ := h
    rfl
  | succ fuel ih =>
    intro i q q' ms f h
    rw [AgedQueue.tickLoop] at h
    rw [updateLoop]
    by_cases hi : i < q.size
    · rw [if_pos hi] at h ⊢
      cases hp : q.pop with
      | error e => rw [hp] at h; cases h
      | ok r =>
        obtain ⟨m, q1⟩ := r
        rw [hp] at h
        simp only [bind, Except.bind] at h ⊢
        cases ht : AgedQueue.tickLoop fuel (i + 1) q1 with
        | error e => rw [ht] at h; cases h
        | ok r =>
          obtain ⟨ms', q2⟩ := r
          rw [ht] at h
          simp only [pure, Except.pure] at h
          injection h with h
          rw [Prod.mk.injEq] at h
          obtain ⟨rfl, rfl⟩ := h
          rw [List.foldlM_cons]
          cases hm : process m f with
          | error e => rfl
          | ok f1 =>
            simp only [bind, Except.bind]
            exact ih (i + 1) q1 q2 ms' f1 ht
    · rw [if_neg hi] at h ⊢
      injection h with h
      rw [Prod.mk.injEq] at h
      obtain ⟨rfl, rfl⟩ := h
      rfl

/-- C36 for a whole tick: if every message considered is rejected, the filter is unchanged. -/
theorem C36_tick {α F : Type} (process : α → F → Res F) (q q' : AgedQueue α) (ms : List α) (f : F)
    (ht : q.tick = .ok (ms, q')) (hrej : ∀ m ∈ ms, process m f = .ok f) :
    updateAll process q f = .ok (f, q') := by
  unfold updateAll
  rw [updateLoop_eq process _ _ _ _ _ _ ht]
  have : ms.foldlM (fun f m => process m f) f = .ok f := by
    clear ht
    induction ms with
    | nil => rfl
    | cons m ms ih =>
      rw [List.foldlM_cons, hrej m List.mem_cons_self]
      exact ih fun m' hm' => hrej m' (List.mem_cons_of_mem _ hm')
  rw [this]
  rfl

/-! ### C43 -/

/-- Position of a filter component among the six of a pose covariance. -/
def poseSlot : Fin 3 → Fin 6 := ![0, 1, 5]

/-- Position of `vx`, `wz` in a twist covariance. -/
def twistSlot : Fin 2 → Fin 6 := ![0, 5]

/-- Entry `(i, j)` of a 36-array in row-major order. -/
def entry (c : Fin 36 → ℝ) (i j : Fin 6) : ℝ := c ⟨6 * i.val + j.val, by omega⟩

/-- C43: the pose covariance holds the filter covariance of x, y, yaw at rows and columns 0, 1, 5. -/
theorem C43_pose_entries (P : Matrix (Fin 6) (Fin 6) ℝ) (a b : Fin 3) :
    entry (ekfCovarianceToPoseMessageCovariance P) (poseSlot a) (poseSlot b) =
      P ⟨a.val, by omega⟩ ⟨b.val, by omega⟩ := by
  fin_cases a <;> fin_cases b <;> rfl

/-- C43: and zero elsewhere. -/
theorem C43_pose_zero (P : Matrix (Fin 6) (Fin 6) ℝ) (i j : Fin 6)
    (h : (∀ a, poseSlot a ≠ i) ∨ ∀ a, poseSlot a ≠ j) :
    entry (ekfCovarianceToPoseMessageCovariance P) i j = 0 := by
  have hs : ∀ i : Fin 6, (∀ a, poseSlot a ≠ i) → i = 2 ∨ i = 3 ∨ i = 4 := by decide
  rcases h with h | h
  · rcases hs i h with rfl | rfl | rfl <;> fin_cases j <;> rfl
  · rcases hs j h with rfl | rfl | rfl <;> fin_cases i <;> rfl

/-- C43: the twist covariance holds the filter covariance of vx, wz at rows and columns 0 and 5. -/
theorem C43_twist_entries (P : Matrix (Fin 6) (Fin 6) ℝ) (a b : Fin 2) :
    entry (ekfCovarianceToTwistMessageCovariance P) (twistSlot a) (twistSlot b) =
      P ⟨4 + a.val, by omega⟩ ⟨4 + b.val, by omega⟩ := by
  fin_cases a <;> fin_cases b <;> rfl

/-- C43: and zero elsewhere. -/
theorem C43_twist_zero (P : Matrix (Fin 6) (Fin 6) ℝ) (i j : Fin 6)
    (h : (∀ a, twistSlot a ≠ i) ∨ ∀ a, twistSlot a ≠ j) :
    entry (ekfCovarianceToTwistMessageCovariance P) i j = 0 := by
  have hs : ∀ i : Fin 6, (∀ a, twistSlot a ≠ i) → i = 1 ∨ i = 2 ∨ i = 3 ∨ i = 4 := by decide
  rcases h with h | h
  · rcases hs i h with rfl | rfl | rfl | rfl <;> fin_cases j <;> rfl
  · rcases hs j h with rfl | rfl | rfl | rfl <;> fin_cases i <;> rfl

/-- C43, round trip: read back with the measurement code, published pose and twist covariances give
the filter's blocks (times the smoothing factor). -/
theorem C43_round_trip (P : Matrix (Fin 6) (Fin 6) ℝ) (smoothing : ℕ) :
    poseMeasurementCovariance (ekfCovarianceToPoseMessageCovariance P) smoothing =
      (smoothing : ℝ) • poseCovariance P ∧
    twistMeasurementCovariance (ekfCovarianceToTwistMessageCovariance P) smoothing =
      (smoothing : ℝ) • twistCovariance P := by
  constructor
  · unfold poseMeasurementCovariance
    congr 1
    ext i j
    fin_cases i <;> fin_cases j <;> rfl
  · unfold twistMeasurementCovariance
    congr 1
    ext i j
    fin_cases i <;> fin_cases j <;> rfl

/-- C43: the measurement covariance of a positive semidefinite message covariance is positive
semidefinite (what C34 asks of updates). -/
theorem C43_measurement_psd (c : Fin 36 → ℝ) (smoothing : ℕ)
    (h : (Matrix.of fun i j => entry c i j).PosSemidef) :
    (poseMeasurementCovariance c smoothing).PosSemidef ∧
    (twistMeasurementCovariance c smoothing).PosSemidef := by
  have h0 : (0 : ℝ) ≤ (smoothing : ℝ) := Nat.cast_nonneg _
  constructor
  · have e : poseMeasurementCovariance c smoothing =
        (smoothing : ℝ) • (Matrix.of fun i j => entry c i j).submatrix poseSlot poseSlot := by
      unfold poseMeasurementCovariance
      congr 1
      ext i j
      fin_cases i <;> fin_cases j <;> rfl
    rw [e]
    exact (h.submatrix _).smul h0
  · have e : twistMeasurementCovariance c smoothing =
        (smoothing : ℝ) • (Matrix.of fun i j => entry c i j).submatrix twistSlot twistSlot := by
      unfold twistMeasurementCovariance
      congr 1
      ext i j
      fin_cases i <;> fin_cases j <;> rfl
    rw [e]
    exact (h.submatrix _).smul h0

/-! ### C67 -/

section Gate
variable {n : ℕ}

/-- C67: for a positive definite covariance the squared distance exists, is not negative, vanishes
exactly for equal vectors and is symmetric. -/
theorem C67_distance (C : Matrix (Fin n) (Fin n) ℝ) (hC : C.PosDef) (x y : Fin n → ℝ) :
    ∃ s, squaredMahalanobis x y C = some s ∧ squaredMahalanobis y x C = some s ∧ 0 ≤ s ∧
      (s = 0 ↔ x = y) := by
  have hdet : C.det ≠ 0 := ((isUnit_iff_isUnit_det _).1 hC.isUnit).ne_zero
  have hinv := hC.inv
  refine ⟨(x - y) ⬝ᵥ (C⁻¹ *ᵥ (x - y)), ?_, ?_, ?_, ?_⟩
  · simp [squaredMahalanobis, hdet]
  · simp only [squaredMahalanobis, if_neg hdet, Option.some.injEq]
    have : y - x = -(x - y) := by abel
    rw [this, Matrix.mulVec_neg, neg_dotProduct, dotProduct_neg, neg_neg]
  · have := hinv.posSemidef.dotProduct_mulVec_nonneg (x - y)
    simpa using this
  · constructor
    · intro h0
      by_contra hne
      have := hinv.dotProduct_mulVec_pos (sub_ne_zero.2 hne)
      rw [star_trivial, h0] at this
      exact lt_irrefl _ this
    · rintro rfl
      simp

/-- C67: a larger gate accepts whatever a smaller one accepts, for any covariance. -/
theorem C67_monotone (sing : Bool) (d1 d2 : ℝ) (h0 : 0 ≤ d1) (h : d1 ≤ d2) (x y : Fin n → ℝ)
    (C : Matrix (Fin n) (Fin n) ℝ) (ha : mahalanobisGate sing d1 x y C = true) :
    mahalanobisGate sing d2 x y C = true := by
  unfold mahalanobisGate at ha ⊢
  cases hs : squaredMahalanobis x y C with
  | none => rw [hs] at ha; exact ha
  | some s =>
    rw [hs] at ha
    simp only [decide_eq_true_eq] at ha ⊢
    nlinarith

/-- C67: a measurement equal to the prediction is accepted; one at squared distance above the
squared gate is not. -/
theorem C67_accepts_equal (sing : Bool) (d : ℝ) (C : Matrix (Fin n) (Fin n) ℝ) (hC : C.PosDef)
    (x y : Fin n → ℝ) :
    mahalanobisGate sing d x x C = true ∧
    ∀ s, squaredMahalanobis x y C = some s → (mahalanobisGate sing d x y C = true ↔ s ≤ d ^ 2) := by
  constructor
  · obtain ⟨s, h1, -, -, h4⟩ := C67_distance C hC x x
    simp only [mahalanobisGate, h1, decide_eq_true_eq, h4.2 rfl]
    exact mul_self_nonneg d
  · intro s hs
    simp only [mahalanobisGate, hs, decide_eq_true_eq, pow_two]

end Gate

/-! ### C66 -/

/-- C66, residual: if the estimated yaw is normalised and the measured yaw equals it modulo a full
turn, the measurement's yaw component equals the estimate (the residual is zero). More generally, if
estimate and normalised measurement are at most half a turn apart, the residual `y - x` used by the
filter is the angle between them up to its sign at exactly half a turn. Missing: estimates and
measurements on different sides of the cut (`C66_violated`). -/
theorem C66_yaw_residual_partial (est meas : ℝ) :
    (-Real.pi < est → est ≤ Real.pi → (∃ k : ℤ, meas = est + k * (2 * Real.pi)) →
      normalizeYaw meas - est = 0) ∧
    (-Real.pi < normalizeYaw meas - est → normalizeYaw meas - est ≤ Real.pi →
      normalizeYaw meas - est = normalizeYaw (meas - est)) := by
  constructor
  · rintro h1 h2 ⟨k, hk⟩
    have := (C38_congruent meas).2 est h1 h2 ⟨-k, by rw [hk]; push_cast; ring⟩
    rw [← this, sub_self]
  · intro h1 h2
    obtain ⟨k, hk⟩ := (C38_congruent meas).1
    exact (C38_congruent (meas - est)).2 _ h1 h2 ⟨k, by rw [hk]; ring⟩

/-- C66, violation at the filter: an estimate of yaw `2π`, variance 1, and a measurement of exactly
that heading with variance 1. The filter moves the heading by half a turn. (In the node, stored
states older than the newest can have such a yaw after an initial pose; the newest one is normalised
by the prediction. `C66_node_violated` in `C66.lean` is a run of the node.) -/
theorem C66_violated : ∃ (f f' : TimeDelayKalmanFilter ℝ 1 6) (y : Fin 3 → ℝ),
    f.getLatestX Nat.one_pos 2 = 2 * Real.pi ∧ y 2 = normalizeYaw (2 * Real.pi) ∧
    f.update y poseMeasurementMatrix 1 0 = .ok f' ∧
    f'.getLatestX Nat.one_pos 2 = Real.pi ∧
    Real.cos (f'.getLatestX Nat.one_pos 2) = -Real.cos (f.getLatestX Nat.one_pos 2) := by
  have hn : normalizeYaw (2 * Real.pi) = 0 := by
    symm
    apply (C38_congruent _).2 0 (by linarith [Real.pi_pos]) Real.pi_pos.le
    exact ⟨-1, by push_cast; ring⟩
  let f : TimeDelayKalmanFilter ℝ 1 6 :=
    TimeDelayKalmanFilter.make ![0, 0, 2 * Real.pi, 0, 0, 0] 1 1
  let y : Fin 3 → ℝ := ![0, 0, 0]
  have hblk : blk f.P 0 0 = 1 := by
    ext k l
    change initP 1 1 (slot 0 k) (slot 0 l) = _
    rw [initP_slot, if_pos rfl]
  have hx : blkX f.x 0 = ![0, 0, 2 * Real.pi, 0, 0, 0] := by
    funext k
    change initX (![0, 0, 2 * Real.pi, 0, 0, 0] : Fin 6 → ℝ) 1 (slot (0 : Fin 1) k) = _
    unfold initX
    congr 1
    apply Fin.ext
    simp [slot_val, Nat.mod_eq_of_lt k.isLt]
  have hCC : poseMeasurementMatrix * (1 : Matrix (Fin 6) (Fin 6) ℝ) * poseMeasurementMatrixᵀ = 1 := by
    rw [Matrix.mul_one]
    ext i j
    fin_cases i <;> fin_cases j <;>
      simp [poseMeasurementMatrix, Matrix.mul_apply, Fin.sum_univ_succ]
  have hS : (1 : Matrix (Fin 3) (Fin 3) ℝ) + poseMeasurementMatrix * blk f.P 0 0 * poseMeasurementMatrixᵀ =
      (2 : ℝ) • 1 := by
    rw [hblk, hCC, two_smul]
  have hSinv : ((2 : ℝ) • (1 : Matrix (Fin 3) (Fin 3) ℝ))⁻¹ = (1 / 2 : ℝ) • 1 := by
    apply Matrix.inv_eq_right_inv
    rw [Matrix.smul_mul, Matrix.mul_smul, Matrix.one_mul, smul_smul]
    norm_num
  have hdet : ((2 : ℝ) • (1 : Matrix (Fin 3) (Fin 3) ℝ)).det ≠ 0 := by
    rw [Matrix.det_smul, Matrix.det_one]
    norm_num
  obtain ⟨f', h1, h2, -⟩ := (C33_blocks f y poseMeasurementMatrix 1 0).2 (by rw [hS]; exact hdet)
  have hlat : ∀ g : TimeDelayKalmanFilter ℝ 1 6, g.getLatestX Nat.one_pos = blkX g.x 0 := by
    intro g
    funext k
    simp only [TimeDelayKalmanFilter.getLatestX, blkX]
    congr 1
  have hpi : f'.getLatestX Nat.one_pos 2 = Real.pi := by
    rw [hlat, h2 0, hblk, hx, hCC, Matrix.one_mul, Pi.add_apply]
    have : (1 + 1 : Matrix (Fin 3) (Fin 3) ℝ) = (2 : ℝ) • 1 := (two_smul ℝ _).symm
    rw [this, hSinv]
    simp [poseMeasurementMatrix, y, Matrix.mulVec, dotProduct, Fin.sum_univ_succ]
    ring
  have h2pi : f.getLatestX Nat.one_pos 2 = 2 * Real.pi := by rw [hlat, hx]; rfl
  refine ⟨f, f', y, h2pi, by rw [hn]; rfl, h1, hpi, ?_⟩
  rw [hpi, h2pi, Real.cos_pi, Real.cos_two_pi]

/-- C66, violation for normalised estimates: estimate and measurement 0.3 rad apart across the cut
give a residual of more than `π`. -/
theorem C66_residual_violated : ∃ est meas : ℝ, -Real.pi < est ∧ est ≤ Real.pi ∧
    Real.pi < normalizeYaw meas - est ∧ |normalizeYaw (meas - est)| < 3 / 10 := by
  have h1 := Real.pi_gt_d2
  have h2 := Real.pi_lt_d2
  have e1 : normalizeYaw 3 = 3 := C38_fixes 3 (by linarith) (by linarith)
  have e2 : normalizeYaw (3 - -3) = 6 - 2 * Real.pi := by
    symm
    apply (C38_congruent _).2 _ (by linarith) (by linarith)
    exact ⟨-1, by push_cast; ring⟩
  refine ⟨-3, 3, by linarith, by linarith, by rw [e1]; linarith, ?_⟩
  rw [e2, abs_lt]
  constructor <;> linarith

/-! Non-vacuity. -/

example : (1 : Matrix (Fin 3) (Fin 3) ℝ).PosDef := Matrix.PosDef.one
example : computeDelayStep (computeDelayTime 2000000000 1000000000 : ℝ) (1 / 2) = .ok 2 := by
  obtain ⟨s, h1, h2, h3, h4⟩ := C31_delay_step (1 : ℝ) (1 / 2) (by norm_num) (by norm_num)
  have e : (computeDelayTime 2000000000 1000000000 : ℝ) = 1 := by
    simp [computeDelayTime]
  rw [e, h1]
  rw [max_eq_left (by norm_num)] at h3 h4
  have h5 : (s : ℝ) < ((3 : ℤ) : ℝ) := by push_cast; linarith
  have h6 : ((1 : ℤ) : ℝ) < (s : ℝ) := by push_cast; linarith
  have := Int.cast_lt.1 h5
  have := Int.cast_lt.1 h6
  have : s = 2 := by omega
  rw [this]

end Verif.Ekf
