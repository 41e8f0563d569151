/-
C87: the filters compute what Kalman filters are used for: the mean and covariance of the moved and
disturbed state, and the best correction by a measurement.
-/
import Verif.Props.C32
import Mathlib.LinearAlgebra.Matrix.PosDef
import Mathlib.Analysis.Matrix.PosDef

set_option autoImplicit false

namespace Verif.Kalman

open Matrix

/-! ### Specification -/

/-- Mean of points with weights. -/
def mean {ι : Type} [Fintype ι] {n : ℕ} (w : ι → ℝ) (X : ι → Fin n → ℝ) : Fin n → ℝ :=
  fun k => ∑ i, w i * X i k

/-- Covariance of points with weights. -/
def covariance {ι : Type} [Fintype ι] {n : ℕ} (w : ι → ℝ) (X : ι → Fin n → ℝ) :
    Matrix (Fin n) (Fin n) ℝ :=
  fun k l => ∑ i, w i * ((X i k - mean w X k) * (X i l - mean w X l))

/-- Covariance of the error after correcting an estimate with error covariance `P` by `G` times the
residual of a measurement with matrix `C` and noise `R`. -/
def correctedCovariance {α β : Type} [Fintype α] [Fintype β] [DecidableEq α] (P : Matrix α α ℝ)
    (C : Matrix β α ℝ) (R : Matrix β β ℝ) (G : Matrix α β ℝ) : Matrix α α ℝ :=
  (1 - G * C) * P * (1 - G * C)ᵀ + G * R * Gᵀ

/-- Weighted squared distances of a state from the estimate `x0` and of its measurement from `y`. -/
noncomputable def misfit {α β : Type} [Fintype α] [Fintype β] [DecidableEq α] [DecidableEq β]
    (x0 : α → ℝ) (P : Matrix α α ℝ) (y : β → ℝ) (C : Matrix β α ℝ) (R : Matrix β β ℝ) (x : α → ℝ) : ℝ :=
  (x - x0) ⬝ᵥ (P⁻¹ *ᵥ (x - x0)) + (y - C *ᵥ x) ⬝ᵥ (R⁻¹ *ᵥ (y - C *ᵥ x))

/-! ### Helpers -/

section Helpers
variable {α β : Type} [Fintype α] [Fintype β] [DecidableEq α] [DecidableEq β]

/-- The corrected covariance, compared with the one of the Kalman gain. -/
theorem corrected_sub (P : Matrix α α ℝ) (C : Matrix β α ℝ) (R : Matrix β β ℝ) (hP : P.PosSemidef)
    (hR : R.PosSemidef) (hdet : (R + C * P * Cᵀ).det ≠ 0) (G : Matrix α β ℝ) :
    (R + C * P * Cᵀ).PosSemidef ∧
    correctedCovariance P C R G - (P - P * Cᵀ * (R + C * P * Cᵀ)⁻¹ * C * P) =
      (G - P * Cᵀ * (R + C * P * Cᵀ)⁻¹) * (R + C * P * Cᵀ) *
        (G - P * Cᵀ * (R + C * P * Cᵀ)⁻¹)ᵀ := by
  set S := R + C * P * Cᵀ with hS
  have hPt : Pᵀ = P := hP.isHermitian
  have hRt : Rᵀ = R := hR.isHermitian
  have hSt : Sᵀ = S := by
    rw [hS]; simp only [Matrix.transpose_add, Matrix.transpose_mul, hPt, hRt, Matrix.transpose_transpose,
      Matrix.mul_assoc]
  have hu : IsUnit S.det := isUnit_iff_ne_zero.2 hdet
  set K := P * Cᵀ * S⁻¹ with hK
  have hKS : K * S = P * Cᵀ := by rw [hK, Matrix.mul_assoc, Matrix.nonsing_inv_mul _ hu, Matrix.mul_one]
  have hSK : S * Kᵀ = C * P := by
    have := congrArg Matrix.transpose hKS
    simpa [Matrix.transpose_mul, hSt, hPt] using this
  have hSp : S.PosSemidef := by
    rw [hS]
    refine hR.add ?_
    have := hP.mul_mul_conjTranspose_same C
    rwa [Matrix.conjTranspose_eq_transpose_of_trivial] at this
  refine ⟨hSp, ?_⟩
  have e1 : (G - K) * S * (G - K)ᵀ = G * S * Gᵀ - G * (S * Kᵀ) - K * S * Gᵀ + K * (S * Kᵀ) := by
    simp only [Matrix.transpose_sub, Matrix.sub_mul, Matrix.mul_sub, Matrix.mul_assoc]; abel
  rw [e1, hKS, hSK, hS]
  unfold correctedCovariance
  simp only [Matrix.transpose_sub, Matrix.transpose_mul, Matrix.transpose_one, Matrix.sub_mul,
    Matrix.mul_sub, Matrix.add_mul, Matrix.mul_add, Matrix.one_mul, Matrix.mul_one, Matrix.mul_assoc]
  abel

/-- The Kalman gain minimises the corrected covariance. -/
theorem gain_optimal (P : Matrix α α ℝ) (C : Matrix β α ℝ) (R : Matrix β β ℝ) (hP : P.PosSemidef)
    (hR : R.PosSemidef) (hdet : (R + C * P * Cᵀ).det ≠ 0) (G : Matrix α β ℝ) :
    (correctedCovariance P C R G - (P - P * Cᵀ * (R + C * P * Cᵀ)⁻¹ * C * P)).PosSemidef := by
  obtain ⟨hS, hk⟩ := corrected_sub P C R hP hR hdet G
  rw [hk]
  have := hS.mul_mul_conjTranspose_same (G - P * Cᵀ * (R + C * P * Cᵀ)⁻¹)
  rwa [Matrix.conjTranspose_eq_transpose_of_trivial] at this

/-- The covariance of the filter is the corrected covariance of the Kalman gain. -/
theorem corrected_gain (P : Matrix α α ℝ) (C : Matrix β α ℝ) (R : Matrix β β ℝ) (hP : P.PosSemidef)
    (hR : R.PosSemidef) (hdet : (R + C * P * Cᵀ).det ≠ 0) :
    correctedCovariance P C R (P * Cᵀ * (R + C * P * Cᵀ)⁻¹) =
      P - P * Cᵀ * (R + C * P * Cᵀ)⁻¹ * C * P := by
  obtain ⟨-, hk⟩ := corrected_sub P C R hP hR hdet (P * Cᵀ * (R + C * P * Cᵀ)⁻¹)
  rw [sub_self, Matrix.zero_mul, Matrix.zero_mul] at hk
  exact sub_eq_zero.1 hk

/-- The corrected state is the only minimiser of the misfit. -/
theorem update_least_squares (x0 : α → ℝ) (P : Matrix α α ℝ) (y : β → ℝ) (C : Matrix β α ℝ)
    (R : Matrix β β ℝ) (hP : P.PosDef) (hR : R.PosDef) (x : α → ℝ)
    (hx : x ≠ x0 + (P * Cᵀ * (R + C * P * Cᵀ)⁻¹) *ᵥ (y - C *ᵥ x0)) :
    misfit x0 P y C R (x0 + (P * Cᵀ * (R + C * P * Cᵀ)⁻¹) *ᵥ (y - C *ᵥ x0)) < misfit x0 P y C R x := by
  set S := R + C * P * Cᵀ with hS
  have hSp : S.PosDef := by
    rw [hS]
    refine hR.add_posSemidef ?_
    have := hP.posSemidef.mul_mul_conjTranspose_same C
    rwa [Matrix.conjTranspose_eq_transpose_of_trivial] at this
  have hu : IsUnit S.det := isUnit_iff_ne_zero.2 hSp.det_pos.ne'
  have hPu : IsUnit P.det := isUnit_iff_ne_zero.2 hP.det_pos.ne'
  have hRu : IsUnit R.det := isUnit_iff_ne_zero.2 hR.det_pos.ne'
  set r := y - C *ᵥ x0 with hr
  set x1 := x0 + (P * Cᵀ * S⁻¹) *ᵥ r with hx1
  set d := x - x1 with hd
  have hd0 : d ≠ 0 := fun h => hx (sub_eq_zero.1 h)
  -- the gradient vanishes at the corrected state
  have g1 : P⁻¹ *ᵥ (x1 - x0) = Cᵀ *ᵥ (S⁻¹ *ᵥ r) := by
    rw [hx1, add_sub_cancel_left, Matrix.mulVec_mulVec, Matrix.mulVec_mulVec, Matrix.mul_assoc,
      ← Matrix.mul_assoc, Matrix.nonsing_inv_mul _ hPu, Matrix.one_mul]
  have g2 : y - C *ᵥ x1 = R *ᵥ (S⁻¹ *ᵥ r) := by
    have : R = S - C * P * Cᵀ := by rw [hS]; abel
    rw [this, Matrix.sub_mulVec, Matrix.mulVec_mulVec, Matrix.mul_nonsing_inv _ hu, Matrix.one_mulVec,
      hx1, Matrix.mulVec_add, Matrix.mulVec_mulVec, Matrix.mulVec_mulVec, hr]
    simp only [Matrix.mul_assoc]
    abel
  have g3 : R⁻¹ *ᵥ (y - C *ᵥ x1) = S⁻¹ *ᵥ r := by
    rw [g2, Matrix.mulVec_mulVec, Matrix.nonsing_inv_mul _ hRu, Matrix.one_mulVec]
  have hPi : P⁻¹.PosDef := hP.inv
  have hRi : R⁻¹.PosDef := hR.inv
  have hPit : P⁻¹ᵀ = P⁻¹ := hPi.isHermitian
  have hRit : R⁻¹ᵀ = R⁻¹ := hRi.isHermitian
  have sym : ∀ {γ : Type} [Fintype γ] (M : Matrix γ γ ℝ) (hM : Mᵀ = M) (a b : γ → ℝ),
      a ⬝ᵥ (M *ᵥ b) = b ⬝ᵥ (M *ᵥ a) := by
    intro γ _ M hM a b
    rw [Matrix.dotProduct_mulVec, ← Matrix.mulVec_transpose, hM, dotProduct_comm]
  have ex : x = x1 + d := by rw [hd]; abel
  have e1 : x - x0 = (x1 - x0) + d := by rw [ex]; abel
  have e2 : y - C *ᵥ x = (y - C *ᵥ x1) - C *ᵥ d := by rw [ex, Matrix.mulVec_add]; abel
  have cross : d ⬝ᵥ (P⁻¹ *ᵥ (x1 - x0)) = (C *ᵥ d) ⬝ᵥ (R⁻¹ *ᵥ (y - C *ᵥ x1)) := by
    rw [g1, g3, Matrix.dotProduct_mulVec, Matrix.vecMul_transpose]
  have hpos : 0 < d ⬝ᵥ (P⁻¹ *ᵥ d) := by
    have := hPi.dotProduct_mulVec_pos hd0
    simpa using this
  have hnn : 0 ≤ (C *ᵥ d) ⬝ᵥ (R⁻¹ *ᵥ (C *ᵥ d)) := by
    have := hRi.posSemidef.dotProduct_mulVec_nonneg (C *ᵥ d)
    simpa using this
  unfold misfit
  rw [e1, e2]
  simp only [Matrix.mulVec_add, Matrix.mulVec_sub, dotProduct_add, add_dotProduct, dotProduct_sub,
    sub_dotProduct]
  have s1 := sym P⁻¹ hPit (x1 - x0) d
  have s2 := sym R⁻¹ hRit (y - C *ᵥ x1) (C *ᵥ d)
  simp only [Matrix.mulVec_add, Matrix.mulVec_sub, dotProduct_add, add_dotProduct, dotProduct_sub,
    sub_dotProduct] at s1 s2 cross hpos hnn
  linarith

end Helpers

/-! ### Prediction -/

/-- C87: if the filter holds mean and covariance of a population (any points with weights of sum 1),
and the noise has mean 0 and covariance `Q`, then after the prediction it holds mean and covariance
of the population of all `A x + B v + noise`. -/
theorem C87_prediction {n m u : ℕ} (f : KalmanFilter ℝ n m u) (v : Fin u → ℝ) {ι κ : Type} [Fintype ι]
    [Fintype κ] (w : ι → ℝ) (hw : ∑ i, w i = 1) (X : ι → Fin n → ℝ) (w' : κ → ℝ) (hw' : ∑ j, w' j = 1)
    (W : κ → Fin n → ℝ) (hx : mean w X = f.x) (hP : covariance w X = f.P) (hW : mean w' W = 0)
    (hQ : covariance w' W = f.Q) :
    let w2 : ι × κ → ℝ := fun a => w a.1 * w' a.2
    let X2 : ι × κ → Fin n → ℝ := fun a => f.A *ᵥ X a.1 + f.B *ᵥ v + W a.2
    mean w2 X2 = (f.predict v).x ∧ covariance w2 X2 = (f.predict v).P := by
  intro w2 X2
  have hX : ∀ k, ∑ i, w i * X i k = f.x k := fun k => congrFun hx k
  have hWk : ∀ k, ∑ j, w' j * W j k = 0 := fun k => congrFun hW k
  have hA : ∀ k, ∑ i, w i * (f.A *ᵥ X i) k = (f.A *ᵥ f.x) k := by
    intro k
    simp only [Matrix.mulVec, dotProduct, Finset.mul_sum]
    rw [Finset.sum_comm]
    refine Finset.sum_congr rfl fun l _ => ?_
    rw [← hX l, Finset.mul_sum]
    exact Finset.sum_congr rfl fun i _ => by ring
  have prod : ∀ (g : ι → ℝ) (c : ℝ) (q : κ → ℝ), ∑ a : ι × κ, w a.1 * w' a.2 * (g a.1 + c + q a.2) =
      ∑ i, w i * g i + c + ∑ j, w' j * q j := by
    intro g c q
    rw [Fintype.sum_prod_type]
    have : ∀ i, ∑ j, w i * w' j * (g i + c + q j) = w i * g i + w i * c + w i * ∑ j, w' j * q j := by
      intro i
      have : ∀ j, w i * w' j * (g i + c + q j) =
          w i * (g i + c) * w' j + w i * (w' j * q j) := fun j => by ring
      simp only [this, Finset.sum_add_distrib, ← Finset.mul_sum, hw']
      ring
    simp only [this, Finset.sum_add_distrib, ← Finset.sum_mul, hw, one_mul]
  have hm : mean w2 X2 = (f.predict v).x := by
    funext k
    have := prod (fun i => (f.A *ᵥ X i) k) ((f.B *ᵥ v) k) (fun j => W j k)
    rw [hA, hWk, add_zero] at this
    exact this
  refine ⟨hm, ?_⟩
  ext k l
  have hdev : ∀ (a : ι × κ) k, X2 a k - mean w2 X2 k = (f.A *ᵥ (X a.1 - f.x)) k + W a.2 k := by
    intro a k
    rw [hm]
    simp only [X2, KalmanFilter.predict, KalmanFilter.predictWith, predictNextState, Pi.add_apply,
      Matrix.mulVec_sub, Pi.sub_apply]
    ring
  have hd0 : ∀ k, ∑ i, w i * (f.A *ᵥ (X i - f.x)) k = 0 := by
    intro k
    simp only [Matrix.mulVec_sub, Pi.sub_apply, mul_sub, Finset.sum_sub_distrib, ← Finset.sum_mul, hw,
      hA]
    ring
  have hAPA : ∑ i, w i * ((f.A *ᵥ (X i - f.x)) k * (f.A *ᵥ (X i - f.x)) l) = (f.A * f.P * f.Aᵀ) k l := by
    have hl : ∀ i, w i * ((f.A *ᵥ (X i - f.x)) k * (f.A *ᵥ (X i - f.x)) l) = ∑ b, ∑ a,
        f.A k a * (w i * ((X i a - f.x a) * (X i b - f.x b))) * f.A l b := by
      intro i
      simp only [Matrix.mulVec, dotProduct, Pi.sub_apply]
      rw [Finset.sum_mul_sum, Finset.sum_comm, Finset.mul_sum]
      refine Finset.sum_congr rfl fun b _ => ?_
      rw [Finset.mul_sum]
      exact Finset.sum_congr rfl fun a _ => by ring
    simp only [hl, Matrix.mul_apply, Matrix.transpose_apply, ← hP, covariance, hx]
    rw [Finset.sum_comm]
    refine Finset.sum_congr rfl fun b _ => ?_
    rw [Finset.sum_comm, Finset.sum_mul]
    refine Finset.sum_congr rfl fun a _ => ?_
    rw [Finset.mul_sum, Finset.sum_mul]
  change ∑ a : ι × κ, w a.1 * w' a.2 * ((X2 a k - mean w2 X2 k) * (X2 a l - mean w2 X2 l)) =
    (f.A * f.P * f.Aᵀ + f.Q) k l
  simp only [hdev]
  rw [Matrix.add_apply, ← hAPA, ← hQ, Fintype.sum_prod_type]
  have inner : ∀ i, ∑ j, w i * w' j * (((f.A *ᵥ (X i - f.x)) k + W j k) *
      ((f.A *ᵥ (X i - f.x)) l + W j l)) =
      w i * ((f.A *ᵥ (X i - f.x)) k * (f.A *ᵥ (X i - f.x)) l) +
        w i * ∑ j, w' j * (W j k * W j l) := by
    intro i
    have : ∀ j, w i * w' j * (((f.A *ᵥ (X i - f.x)) k + W j k) * ((f.A *ᵥ (X i - f.x)) l + W j l)) =
        w i * ((f.A *ᵥ (X i - f.x)) k * (f.A *ᵥ (X i - f.x)) l) * w' j +
        w i * (f.A *ᵥ (X i - f.x)) k * (w' j * W j l) + w i * (f.A *ᵥ (X i - f.x)) l * (w' j * W j k) +
        w i * (w' j * (W j k * W j l)) := fun j => by ring
    simp only [this, Finset.sum_add_distrib, ← Finset.mul_sum, hw', hWk]
    ring
  simp only [inner, Finset.sum_add_distrib, ← Finset.sum_mul, hw, one_mul]
  simp only [covariance, hW, Pi.zero_apply, sub_zero]

/-- C87: no other linear correction by the residual gives a smaller error covariance than the one
the filter holds after an accepted update, whose error covariance it is. -/
theorem C87_optimal_gain {n m u : ℕ} (f f' : KalmanFilter ℝ n m u) (y : Fin m → ℝ)
    (hP : f.P.PosSemidef) (hR : f.R.PosSemidef) (h : f.update y = .ok f') :
    (∃ G, f'.P = correctedCovariance f.P f.C f.R G ∧ f'.x = f.x + G *ᵥ (y - f.C *ᵥ f.x)) ∧
    ∀ G, (correctedCovariance f.P f.C f.R G - f'.P).PosSemidef := by
  unfold KalmanFilter.update calcKalmanGain at h
  simp only at h
  by_cases hd : (f.R + f.C * (f.P * f.Cᵀ)).det = 0
  · rw [if_pos hd] at h; cases h
  · rw [if_neg hd] at h
    injection h with h
    have hd' : (f.R + f.C * f.P * f.Cᵀ).det ≠ 0 := by rwa [Matrix.mul_assoc]
    have hP' : f'.P = f.P - f.P * f.Cᵀ * (f.R + f.C * f.P * f.Cᵀ)⁻¹ * f.C * f.P := by
      rw [← h, Matrix.mul_assoc f.C f.P]
      rfl
    refine ⟨⟨f.P * f.Cᵀ * (f.R + f.C * f.P * f.Cᵀ)⁻¹, ?_, ?_⟩, fun G => ?_⟩
    · rw [hP', corrected_gain _ _ _ hP hR hd']
    · rw [← h, Matrix.mul_assoc f.C f.P]
      rfl
    · rw [hP']
      exact gain_optimal _ _ _ hP hR hd' G

/-- C87: for proper covariances every update is accepted, and its state is the only minimiser of the
weighted squared distances from the previous state and from the measurement. -/
theorem C87_least_squares {n m u : ℕ} (f : KalmanFilter ℝ n m u) (y : Fin m → ℝ) (hP : f.P.PosDef)
    (hR : f.R.PosDef) :
    ∃ f', f.update y = .ok f' ∧
      ∀ x, x ≠ f'.x → misfit f.x f.P y f.C f.R f'.x < misfit f.x f.P y f.C f.R x := by
  have hS : (f.R + f.C * (f.P * f.Cᵀ)).PosDef := by
    refine hR.add_posSemidef ?_
    have := hP.posSemidef.mul_mul_conjTranspose_same f.C
    rwa [Matrix.conjTranspose_eq_transpose_of_trivial, Matrix.mul_assoc] at this
  unfold KalmanFilter.update calcKalmanGain
  simp only
  rw [if_neg hS.det_pos.ne']
  refine ⟨_, rfl, fun x hx => ?_⟩
  have := update_least_squares f.x f.P y f.C f.R hP hR x
  rw [Matrix.mul_assoc f.C f.P] at this
  exact this hx

/-! ### The filter with delays -/

/-- C87 for the delayed filter: no other linear correction of all stored states by the residual of
the state `δ` steps back gives a smaller error covariance. -/
theorem C87_delayed_optimal_gain {N d h : ℕ} (f f' : TimeDelayKalmanFilter ℝ N d) (y : Fin h → ℝ)
    (C : Matrix (Fin h) (Fin d) ℝ) (R : Matrix (Fin h) (Fin h) ℝ) (δ : Fin N) (hP : f.P.PosSemidef)
    (hR : R.PosSemidef) (hu : f.update y C R (δ.val : ℤ) = .ok f') :
    (∃ G, aug f'.P = correctedCovariance (aug f.P) (delayedMeasurement C δ) R G ∧
      augX f'.x = augX f.x + G *ᵥ (y - C *ᵥ blkX f.x δ)) ∧
    ∀ G, (correctedCovariance (aug f.P) (delayedMeasurement C δ) R G - aug f'.P).PosSemidef := by
  obtain ⟨h1, h2, h3⟩ := C33_augmented f f' y C R δ hu
  have hP' := (psd_aug f.P).2 hP
  refine ⟨⟨aug f.P * (delayedMeasurement C δ)ᵀ *
    (R + delayedMeasurement C δ * aug f.P * (delayedMeasurement C δ)ᵀ)⁻¹, ?_, ?_⟩, fun G => ?_⟩
  · rw [h3, corrected_gain _ _ _ hP' hR h1]
  · rw [h2]
    have : delayedMeasurement C δ *ᵥ augX f.x = C *ᵥ blkX f.x δ := by
      funext r
      simp only [Matrix.mulVec, dotProduct]
      rw [Fintype.sum_prod_type, Finset.sum_eq_single δ]
      · exact Finset.sum_congr rfl fun l _ => by simp [delayedMeasurement, augX, blkX]
      · intro j _ hj
        exact Finset.sum_eq_zero fun l _ => by simp [delayedMeasurement, hj]
      · simp
    rw [this]
  · rw [h3]
    exact gain_optimal _ _ _ hP' hR h1 G

/-- C87 for the delayed filter: with proper covariances the corrected sequence of states is the only
minimiser of the weighted squared distances from the previous one and of the measurement from the
state `δ` steps back. -/
theorem C87_delayed_least_squares {N d h : ℕ} (f : TimeDelayKalmanFilter ℝ N d) (y : Fin h → ℝ)
    (C : Matrix (Fin h) (Fin d) ℝ) (R : Matrix (Fin h) (Fin h) ℝ) (δ : Fin N) (hP : (aug f.P).PosDef)
    (hR : R.PosDef) :
    ∃ f', f.update y C R (δ.val : ℤ) = .ok f' ∧ ∀ x, x ≠ augX f'.x →
      misfit (augX f.x) (aug f.P) y (delayedMeasurement C δ) R (augX f'.x) <
        misfit (augX f.x) (aug f.P) y (delayedMeasurement C δ) R x := by
  obtain ⟨f', hf'⟩ := C34_accepted f y C R δ ((psd_aug f.P).1 hP.posSemidef) hR
  obtain ⟨-, h2, -⟩ := C33_augmented f f' y C R δ hf'
  refine ⟨f', hf', fun x hx => ?_⟩
  have := update_least_squares (augX f.x) (aug f.P) y (delayedMeasurement C δ) R hP hR x
  rw [← h2] at this
  exact this hx

/-! ### A case -/

/-- Two points at ±1, moved by `x ↦ 2 x + 3` and disturbed by ±1: mean 3, variance 5. -/
noncomputable def exFilter : KalmanFilter ℝ 1 1 1 :=
  { x := 0, P := 1, A := !![2], B := 1, C := 1, Q := 1, R := 1 }

example : mean (ι := Fin 2) (fun _ => 1 / 2) (fun i _ => if i = 0 then 1 else -1) = exFilter.x ∧
    covariance (ι := Fin 2) (fun _ => 1 / 2) (fun i _ => if i = 0 then 1 else -1) = exFilter.P ∧
    covariance (ι := Fin 2) (fun _ => 1 / 2) (fun i _ => if i = 0 then 1 else -1) = exFilter.Q ∧
    (exFilter.predict fun _ => 3).x 0 = 3 ∧ (exFilter.predict fun _ => 3).P 0 0 = 5 := by
  refine ⟨?_, ?_, ?_, ?_, ?_⟩
  · funext k; simp [mean, exFilter]
  · ext k l
    fin_cases k; fin_cases l
    norm_num [covariance, mean, exFilter]
  · ext k l
    fin_cases k; fin_cases l
    norm_num [covariance, mean, exFilter]
  · simp [exFilter, KalmanFilter.predict, KalmanFilter.predictWith, predictNextState]
  · simp [exFilter, KalmanFilter.predict, KalmanFilter.predictWith, predictNextCovariance, Matrix.vecMul,
      dotProduct]
    norm_num

example : exFilter.P.PosDef ∧ exFilter.R.PosDef := ⟨Matrix.PosDef.one, Matrix.PosDef.one⟩

end Verif.Kalman
