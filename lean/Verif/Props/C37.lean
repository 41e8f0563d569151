/-
C37: the transition matrix is the Jacobian of the motion model; C38: yaw normalisation.
-/
import Verif.Model.Motion
import Mathlib.Analysis.SpecialFunctions.Trigonometric.Deriv
import Mathlib.Analysis.SpecialFunctions.Complex.LogDeriv
import Mathlib.Analysis.Calculus.FDeriv.Pi
import Mathlib.Analysis.Matrix.Normed
import Mathlib.Topology.Algebra.Module.FiniteDimension
import Mathlib.LinearAlgebra.Matrix.PosDef
import Mathlib.Algebra.Order.Star.Real
import Mathlib.Tactic.FinCases
import Mathlib.Tactic.LinearCombination

set_option autoImplicit false

namespace Verif.Ekf

open Real

/-! ### C38 -/

theorem arg_exp (θ : ℝ) : normalizeYaw θ = Complex.arg (Complex.exp (θ * Complex.I)) := by
  unfold normalizeYaw atan2
  congr 1
  rw [Complex.exp_mul_I]
  apply Complex.ext
  · simp [Complex.cos_ofReal_re, Complex.sin_ofReal_im]
  · simp [Complex.sin_ofReal_re, Complex.cos_ofReal_im]

/-- C38: the normalised yaw lies in `(-π, π]`. -/
theorem C38_range (θ : ℝ) : -π < normalizeYaw θ ∧ normalizeYaw θ ≤ π :=
  ⟨Complex.neg_pi_lt_arg _, Complex.arg_le_pi _⟩

/-- C38: a yaw in `(-π, π]` is fixed. -/
theorem C38_fixes (θ : ℝ) (h1 : -π < θ) (h2 : θ ≤ π) : normalizeYaw θ = θ := by
  rw [arg_exp, Complex.arg_exp_mul_I, toIocMod_eq_self]
  exact ⟨h1, by linarith⟩

/-- C38: idempotent. -/
theorem C38_idempotent (θ : ℝ) : normalizeYaw (normalizeYaw θ) = normalizeYaw θ :=
  C38_fixes _ (C38_range θ).1 (C38_range θ).2

/-- C38: it differs from the input by a multiple of `2π`, and is the only such angle in
`(-π, π]`. -/
theorem C38_congruent (θ : ℝ) : (∃ k : ℤ, normalizeYaw θ = θ + k * (2 * π)) ∧
    ∀ φ, -π < φ → φ ≤ π → (∃ k : ℤ, φ = θ + k * (2 * π)) → φ = normalizeYaw θ := by
  have hex : ∃ k : ℤ, normalizeYaw θ = θ + k * (2 * π) := by
    rw [arg_exp, Complex.arg_exp_mul_I]
    refine ⟨-toIocDiv (by positivity : (0 : ℝ) < 2 * π) (-π) θ, ?_⟩
    rw [toIocMod]
    push_cast
    rw [zsmul_eq_mul]
    ring
  refine ⟨hex, ?_⟩
  rintro φ h1 h2 ⟨k, hk⟩
  obtain ⟨k', hk'⟩ := hex
  obtain ⟨h3, h4⟩ := C38_range θ
  have hpi := Real.pi_pos
  have hd : φ - normalizeYaw θ = ((k - k' : ℤ) : ℝ) * (2 * π) := by
    rw [hk, hk']; push_cast; ring
  have hz : k - k' = 0 := by
    by_contra hne
    rcases lt_or_gt_of_ne hne with h | h
    · have : ((k - k' : ℤ) : ℝ) ≤ -1 := by exact_mod_cast (by omega : k - k' ≤ -1)
      nlinarith
    · have : (1 : ℝ) ≤ ((k - k' : ℤ) : ℝ) := by exact_mod_cast (by omega : 1 ≤ k - k')
      nlinarith
  rw [hz] at hd
  simp only [Int.cast_zero, zero_mul] at hd
  linarith

/-- C38: the predicted yaw is always normalised and congruent to `yaw + wz dt`; the direction is
that of `yaw + wz dt`. -/
theorem C38_predicted_yaw (X : Fin 6 → ℝ) (dt : ℝ) :
    -π < predictNextState X dt 2 ∧ predictNextState X dt 2 ≤ π ∧
    cos (predictNextState X dt 2) = cos (X 2 + X 5 * dt) ∧
    sin (predictNextState X dt 2) = sin (X 2 + X 5 * dt) := by
  have e : predictNextState X dt 2 = normalizeYaw (X 2 + X 5 * dt) := rfl
  rw [e]
  obtain ⟨k, hk⟩ := (C38_congruent (X 2 + X 5 * dt)).1
  refine ⟨(C38_range _).1, (C38_range _).2, ?_, ?_⟩
  · rw [hk, Real.cos_add_int_mul_two_pi]
  · rw [hk, Real.sin_add_int_mul_two_pi]

/-! ### C37 -/

/-- Specification: the motion model of the comment in `ekf_localizer.cpp` 155-165, without wrapping
of the yaw. -/
noncomputable def motion (dt : ℝ) (X : Fin 6 → ℝ) : Fin 6 → ℝ := fun i =>
  match i with
  | 0 => X 0 + X 4 * cos (X 2 + X 3) * dt
  | 1 => X 1 + X 4 * sin (X 2 + X 3) * dt
  | 2 => X 2 + X 5 * dt
  | 3 => X 3
  | 4 => X 4
  | 5 => X 5

/-- The predicted state is the motion model with the yaw normalised. -/
theorem C37_motion_model (X : Fin 6 → ℝ) (dt : ℝ) (i : Fin 6) :
    predictNextState X dt i =
      if i = 2 then normalizeYaw (motion dt X 2) else motion dt X i := by
  fin_cases i <;> simp [predictNextState, motion]

/-- The linear map of a matrix, as a continuous linear map. -/
noncomputable def matCLM (A : Matrix (Fin 6) (Fin 6) ℝ) : (Fin 6 → ℝ) →L[ℝ] (Fin 6 → ℝ) :=
  LinearMap.toContinuousLinearMap (Matrix.mulVecLin A)

theorem matCLM_apply (A : Matrix (Fin 6) (Fin 6) ℝ) (v : Fin 6 → ℝ) :
    matCLM A v = Matrix.mulVec A v := rfl

/-- C37: at every state and for every time step, the transition matrix is the derivative of the
motion model. -/
theorem C37_jacobian (X : Fin 6 → ℝ) (dt : ℝ) :
    HasFDerivAt (motion dt) (matCLM (createStateTransitionMatrix X dt)) X := by
  have hp : ∀ i : Fin 6, HasFDerivAt (fun Y : Fin 6 → ℝ => Y i)
      (ContinuousLinearMap.proj (R := ℝ) (φ := fun _ : Fin 6 => ℝ) i) X := fun i =>
    (ContinuousLinearMap.proj (R := ℝ) (φ := fun _ : Fin 6 => ℝ) i).hasFDerivAt
  rw [hasFDerivAt_pi']
  intro i
  fin_cases i
  · refine ((hp 0).add (((hp 4).mul ((hp 2).add (hp 3)).cos).mul_const dt)).congr_fderiv ?_
    ext v
    simp [matCLM_apply, createStateTransitionMatrix, Matrix.mulVec, dotProduct, Fin.sum_univ_succ]
    ring
  · refine ((hp 1).add (((hp 4).mul ((hp 2).add (hp 3)).sin).mul_const dt)).congr_fderiv ?_
    ext v
    simp [matCLM_apply, createStateTransitionMatrix, Matrix.mulVec, dotProduct, Fin.sum_univ_succ]
    ring
  · refine ((hp 2).add ((hp 5).mul_const dt)).congr_fderiv ?_
    ext v
    simp [matCLM_apply, createStateTransitionMatrix, Matrix.mulVec, dotProduct, Fin.sum_univ_succ]
  · refine (hp 3).congr_fderiv ?_
    ext v
    simp [matCLM_apply, createStateTransitionMatrix, Matrix.mulVec, dotProduct, Fin.sum_univ_succ]
  · refine (hp 4).congr_fderiv ?_
    ext v
    simp [matCLM_apply, createStateTransitionMatrix, Matrix.mulVec, dotProduct, Fin.sum_univ_succ]
  · refine (hp 5).congr_fderiv ?_
    ext v
    simp [matCLM_apply, createStateTransitionMatrix, Matrix.mulVec, dotProduct, Fin.sum_univ_succ]

/-- Away from the cut the normalisation has derivative 1. -/
theorem hasDerivAt_normalizeYaw (θ : ℝ) (h : cos θ ≠ -1) : HasDerivAt normalizeYaw 1 θ := by
  have hslit : Complex.exp (θ * Complex.I) ∈ Complex.slitPlane := by
    rw [Complex.mem_slitPlane_iff_arg, ← arg_exp]
    refine ⟨?_, Complex.exp_ne_zero _⟩
    intro hpi
    obtain ⟨k, hk⟩ := (C38_congruent θ).1
    apply h
    have : cos (normalizeYaw θ) = cos θ := by rw [hk, Real.cos_add_int_mul_two_pi]
    rw [← this, hpi, Real.cos_pi]
  have h1 : HasDerivAt (fun t : ℝ => Complex.exp (t * Complex.I))
      (Complex.exp (θ * Complex.I) * Complex.I) θ := by
    have : HasDerivAt (fun t : ℝ => (t : ℂ) * Complex.I) Complex.I θ := by
      simpa using (Complex.ofRealCLM.hasDerivAt (x := θ)).mul_const Complex.I
    exact this.cexp
  have h2 := h1.clog_real hslit
  rw [mul_div_assoc, mul_comm, div_mul_cancel₀] at h2
  · have h3 := Complex.imCLM.hasFDerivAt.comp_hasDerivAt θ h2
    have e : (⇑Complex.imCLM ∘ fun t : ℝ => Complex.log (Complex.exp (t * Complex.I))) =
        normalizeYaw := by
      funext t
      simp only [Function.comp, Complex.imCLM_apply, Complex.log_im, arg_exp]
    rw [e] at h3
    simpa using h3
  · exact Complex.exp_ne_zero _

/-- C37, with the wrapping: the transition matrix is the derivative of the predicted state itself
wherever the predicted yaw is not at the cut `±π`. -/
theorem C37_jacobian_wrapped (X : Fin 6 → ℝ) (dt : ℝ) (h : cos (X 2 + X 5 * dt) ≠ -1) :
    HasFDerivAt (fun Y => predictNextState Y dt) (matCLM (createStateTransitionMatrix X dt)) X := by
  have hm := C37_jacobian X dt
  rw [hasFDerivAt_pi'] at hm ⊢
  intro i
  have hi := hm i
  by_cases h2 : i = 2
  · subst h2
    have hn := (hasDerivAt_normalizeYaw (motion dt X 2) h).hasFDerivAt.comp X hi
    have e : (normalizeYaw ∘ fun Y => motion dt Y 2) = fun Y => predictNextState Y dt 2 := by
      funext Y
      simp [C37_motion_model Y dt 2]
    rw [e] at hn
    refine hn.congr_fderiv ?_
    ext v
    simp
  · have e : (fun Y => predictNextState Y dt i) = fun Y => motion dt Y i := by
      funext Y
      rw [C37_motion_model Y dt i, if_neg h2]
    rw [e]
    exact hi

/-- The process noise of every tick is a covariance (it is what `C34` asks of the prediction), and
it has no noise in `x` and `y`. -/
theorem C37_process_noise_psd (v : DefaultVariance) (dt : ℝ) :
    (processNoiseCovariance (v.timeScaledVariances dt)).PosSemidef := by
  unfold processNoiseCovariance
  apply Matrix.PosSemidef.diagonal
  intro i
  fin_cases i <;>
    simp [DefaultVariance.timeScaledVariances, timeScaledVariance] <;>
    nlinarith [sq_nonneg (v.yaw * dt), sq_nonneg (v.yawBias * dt), sq_nonneg (v.vx * dt),
      sq_nonneg (v.wz * dt)]

/-! Non-vacuity. -/

example : normalizeYaw (3 * π) = π := by
  symm
  apply (C38_congruent (3 * π)).2 π (by linarith [Real.pi_pos]) le_rfl
  exact ⟨-1, by push_cast; ring⟩

example : cos ((![0, 0, 0, 0, 1, 1] : Fin 6 → ℝ) 2 + (![0, 0, 0, 0, 1, 0] : Fin 6 → ℝ) 5 * 1) ≠ -1 := by
  simp
  norm_num

end Verif.Ekf
