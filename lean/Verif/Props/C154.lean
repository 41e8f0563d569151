/-
C154: what `docs/source` derives and what `localization` computes.

The definitions of this file are the formulas of the documentation; the theorems compare them with the
model of the code.
-/
import Verif.Model.Loam
import Verif.Props.C45
import Verif.Props.C46
import Verif.Props.C52
import Verif.Props.C81
import Verif.GaussQuartile

set_option autoImplicit false

namespace Verif.Loc

open Matrix Verif.Rot Verif.Opt Verif.Loam ProbabilityTheory

/-! ### The formulas of the documentation -/

/-- `docs/source/robust_stddev_estimator.rst` 30-36 and `weighted_gauss_newton.rst` 61-62: `Φ⁻¹(3/4)`. -/
def IsUpperQuartile (m : ℝ) : Prop := gaussianReal 0 1 (Set.Iic m) = 3 / 4

/-- `docs/source/loam.rst` 54-58: the residual of an edge point at `x`. -/
def docEdgeResidual (p1 p2 x : Fin 3 → ℝ) : Fin 3 → ℝ := (x - p1) ⨯₃ (x - p2)

/-- `loam.rst` 170-175: the derivative of the residual of an edge point. -/
def docEdgeDerivative (p1 p2 : Fin 3 → ℝ) : Matrix (Fin 3) (Fin 3) ℝ :=
  !![0, -(p2 2 - p1 2), p2 1 - p1 1;
     p2 2 - p1 2, 0, -(p2 0 - p1 0);
     -(p2 1 - p1 1), p2 0 - p1 0, 0]

/-- `loam.rst` 62-65, one point: the error. -/
noncomputable def docEdgeError (p1 p2 x : Fin 3 → ℝ) : ℝ :=
  1 / 2 * (docEdgeResidual p1 p2 x ⬝ᵥ docEdgeResidual p1 p2 x)

/-- `loam.rst` 177-182: the derivative of the error. -/
def docEdgeGradient (p1 p2 x : Fin 3 → ℝ) : Fin 3 → ℝ :=
  (p2 - p1) ⨯₃ ((x - p1) ⨯₃ (x - p2))

/-- `loam.rst` 38: the mean of the neighbours. -/
def docMean (X : List (Fin 3 → ℝ)) : Fin 3 → ℝ := X.sum

/-- `loam.rst` 38: the covariance of the neighbours about `m`. -/
noncomputable def docCovariance (X : List (Fin 3 → ℝ)) (m : Fin 3 → ℝ) : Matrix (Fin 3) (Fin 3) ℝ :=
  (1 / ((X.length : ℝ) - 1)) • (X.map fun a => vecMulVec (a - m) (a - m)).sum

/-- `loam.rst` 109-113: the residual of a surface point at `y`. -/
noncomputable def docSurfaceResidual (w y : Fin 3 → ℝ) : ℝ := ((1 / len w) • w) ⬝ᵥ y

/-- `weighted_gauss_newton.rst` 66-70. -/
noncomputable def docHuber (k e : ℝ) : ℝ := if k ^ 2 ≤ e then 2 * k * Real.sqrt e - k ^ 2 else e

/-- `weighted_gauss_newton.rst` 234-238, the matrix of the linear equation. -/
def docMatrix (wb : List (ℝ × Block)) : Matrix (Fin 7) (Fin 7) ℝ :=
  -(wb.map fun p => p.1 • (p.2.Jᵀ * p.2.J)).sum

/-- `weighted_gauss_newton.rst` 230-233, the right side of the linear equation. -/
def docVector (wb : List (ℝ × Block)) : Fin 7 → ℝ :=
  (wb.map fun p => p.1 • (p.2.Jᵀ *ᵥ p.2.r)).sum

/-! ### The robust standard deviation -/

/-- C154: the distribution function of the standard normal distribution takes the value 3/4 once. -/
theorem C154_quartile : ∃! m, IsUpperQuartile m := by
  obtain ⟨m, hm, hu⟩ := Gauss.quartile
  exact ⟨m, (Gauss.cdf_quartile m).2 hm, fun y hy => hu y ((Gauss.cdf_quartile y).1 hy)⟩

/-- C154: the scale of the code is the estimate `MAD / Φ⁻¹(3/4)` of the documentation to fourteen
digits, for every non-empty list of errors. -/
theorem C154_scale {nth : Nth} (hn : Lib.IsNthElement nth) (m : ℝ) (hm : IsUpperQuartile m)
    (v : List ℝ) (hv : v ≠ []) :
    ∃ c d s, Lib.IsMedian v c ∧ Lib.IsMedian (v.map fun x => |x - c|) d ∧ scale nth v = .ok s ∧
      |s - d / m| ≤ 1 / 10 ^ 14 * (d / m) := by
  obtain ⟨c, d, s, hc, hd, hs, he, h0⟩ := (C73_scale hn v).2 hv
  refine ⟨c, d, s, hc, hd, hs, ?_⟩
  obtain ⟨hm0, hb⟩ := Gauss.quartile_inverse m ((Gauss.cdf_quartile m).1 hm)
  have hd0 : 0 ≤ d := by
    rw [he] at h0
    by_contra h
    have : d < 0 := not_le.1 h
    linarith
  have : s - d / m = (1.482602218505602 * m - 1) * (d / m) := by
    rw [he]
    field_simp
  rw [this, abs_mul, abs_of_nonneg (div_nonneg hd0 hm0.le)]
  exact mul_le_mul_of_nonneg_right hb (div_nonneg hd0 hm0.le)

theorem ball_standard (mu sigma r : ℝ) (hs : 0 < sigma) :
    gaussianReal mu (NNReal.mk (sigma ^ 2) (sq_nonneg sigma)) {x | |x - mu| ≤ r} =
      gaussianReal 0 1 (Set.Icc (-(r / sigma)) (r / sigma)) := by
  have hmap : gaussianReal mu (NNReal.mk (sigma ^ 2) (sq_nonneg sigma)) =
      ((gaussianReal 0 1).map (sigma * ·)).map (· + mu) := by
    rw [gaussianReal_map_const_mul, gaussianReal_map_add_const]
    simp
  have hset : (fun x => sigma * x) ⁻¹' ((fun x => x + mu) ⁻¹' {x | |x - mu| ≤ r}) =
      Set.Icc (-(r / sigma)) (r / sigma) := by
    ext x
    simp only [Set.mem_preimage, Set.mem_ofPred_eq, Set.mem_Icc, add_sub_cancel_right]
    rw [abs_mul, abs_of_pos hs, mul_comm, ← le_div_iff₀ hs, abs_le]
  have hms : MeasurableSet {x : ℝ | |x - mu| ≤ r} :=
    (isClosed_le (by fun_prop) (by fun_prop)).measurableSet
  rw [hmap, MeasureTheory.Measure.map_apply (by fun_prop) hms,
    MeasureTheory.Measure.map_apply (by fun_prop)
      ((by fun_prop : Measurable fun x : ℝ => x + mu) hms), hset]

/-- C154: for a normal distribution of any mean and standard deviation, the radius of the interval about
the mean with half of the probability, which is the median absolute deviation of the distribution, times
the constant of the code is the standard deviation to fourteen digits. -/
theorem C154_normal (mu sigma r : ℝ) (hs : 0 < sigma)
    (h : gaussianReal mu (NNReal.mk (sigma ^ 2) (sq_nonneg sigma)) {x | |x - mu| ≤ r} = 1 / 2) :
    |1.482602218505602 * r - sigma| ≤ 1 / 10 ^ 14 * sigma := by
  rw [ball_standard mu sigma r hs] at h
  have hr : 0 ≤ r / sigma := by
    by_contra hc
    rw [Set.Icc_eq_empty (by linarith [not_le.1 hc]), MeasureTheory.measure_empty] at h
    exact absurd h.symm (by simp)
  rw [Gauss.ball_eq _ hr] at h
  have hp := Gauss.root_pos
  have ha : Gauss.area (r / sigma) = Real.sqrt (2 * Real.pi) / 4 := by
    have h2 : (1 / 2 : ENNReal) = ENNReal.ofReal (1 / 2) := by
      rw [ENNReal.ofReal_div_of_pos (by norm_num)]; norm_num
    rw [h2] at h
    have hn : 0 ≤ 2 * Gauss.area (r / sigma) / Real.sqrt (2 * Real.pi) := by
      have h0 : Gauss.area 0 = 0 := by simp [Gauss.area]
      have := Gauss.area_strictMono.monotone hr
      rw [h0] at this
      positivity
    have h3 := (ENNReal.ofReal_eq_ofReal_iff hn (by norm_num)).1 h
    field_simp at h3 ⊢
    linarith
  obtain ⟨-, hb⟩ := Gauss.quartile_inverse _ ha
  have : 1.482602218505602 * r - sigma = (1.482602218505602 * (r / sigma) - 1) * sigma := by
    field_simp
  rw [this, abs_mul, abs_of_pos hs]
  exact mul_le_mul_of_nonneg_right hb hs.le

/-- For every normal distribution there is such an interval. -/
example (mu sigma : ℝ) (hs : 0 < sigma) :
    ∃ r, gaussianReal mu (NNReal.mk (sigma ^ 2) (sq_nonneg sigma)) {x | |x - mu| ≤ r} = 1 / 2 := by
  obtain ⟨m, hm, -⟩ := Gauss.quartile
  have hm0 := (Gauss.quartile_inverse m hm).1
  refine ⟨sigma * m, ?_⟩
  rw [ball_standard mu sigma _ hs, mul_div_cancel_left₀ _ hs.ne', Gauss.ball_eq m hm0.le, hm]
  have hp := Gauss.root_pos
  rw [show 2 * (Real.sqrt (2 * Real.pi) / 4) / Real.sqrt (2 * Real.pi) = 1 / 2 by field_simp; norm_num,
    ENNReal.ofReal_div_of_pos (by norm_num)]
  norm_num

/-- Three errors of which one is far off: the deviations from the median 2 are 1, 0 and 98, so the
estimate of the documentation is `1 / Φ⁻¹(3/4)`. -/
example : Lib.IsMedian [1, 2, (100 : ℝ)] 2 ∧ Lib.IsMedian ([1, 2, (100 : ℝ)].map fun x => |x - 2|) 1 := by
  constructor
  · exact ⟨2, 2, by norm_num [Lib.OrderStat], by norm_num [Lib.OrderStat], by norm_num⟩
  · refine ⟨1, 1, ?_, ?_, by norm_num⟩ <;>
    · rw [show ([1, 2, (100 : ℝ)].map fun x => |x - 2|) = [1, 0, 98] by norm_num]
      norm_num [Lib.OrderStat]

/-! ### Edges -/

/-- C154: the matrix of the documentation is the derivative of its residual. -/
theorem C154_edge_derivative (p1 p2 x : Fin 3 → ℝ) :
    HasFDerivAt (docEdgeResidual p1 p2) (mat (docEdgeDerivative p1 p2)) x := by
  refine (cross_derivative p1 p2 x).congr_fderiv ?_
  rfl

theorem edge_swapped (T : Pose) (q : Quat) (p0 m u : Fin 3 → ℝ) :
    makeEdgeResidual T p0 (m - u) (m + u) = -docEdgeResidual (m + u) (m - u) (T.apply p0) ∧
    makeEdgeJacobianRow q p0 (m - u) (m + u) =
      -(docEdgeDerivative (m + u) (m - u) * hcat (dRpDq q p0) (1 : Matrix (Fin 3) (Fin 3) ℝ)) := by
  constructor
  · unfold makeEdgeResidual docEdgeResidual
    rw [← cross_anticomm, neg_neg]
    rfl
  · have hh : hat (m + u - (m - u)) = -docEdgeDerivative (m + u) (m - u) := by
      ext i j
      fin_cases i <;> fin_cases j <;> simp [hat, docEdgeDerivative]
    unfold makeEdgeJacobianRow
    simp only [hh]
    rw [← Matrix.neg_mul, mul_hcat, Matrix.mul_one]

/-- C154: what the code enters into the optimisation for an edge point, once its neighbours `X` are
found and `u` is the eigenvector: the ends are those of the documentation in the opposite order, so
residual and Jacobian have the opposite sign, and `JᵀJ`, `Jᵀr` and `r·r`, which are all that the
optimisation uses, are those of the documentation, up to the mean. -/
theorem C154_edge {knn : Knn} {eig : Eig} {map : List V3} {k : ℤ} {T : Pose} {p0 : V3} {X : List V3}
    {m : V3} {C : Matrix (Fin 3) (Fin 3) ℝ}
    (hX : nearestKSearch knn map (T.apply p0) k = .ok X) (hm : calcMeanAndCovariance X = some (m, C)) :
    ∃ (J : Matrix (Fin 3) (Fin 7) ℝ) (r u : Fin 3 → ℝ),
      edgeBlock knn eig map k T p0 = .ok (⟨3, 7, J⟩, ⟨3, r⟩) ∧ (∀ i, u i = (eig C).2 i 2) ∧
      let K := docEdgeDerivative (m + u) (m - u) * hcat (dRpDq (Quat.ofMatrix T.linear) p0)
        (1 : Matrix (Fin 3) (Fin 3) ℝ)
      let d := docEdgeResidual (m + u) (m - u) (T.apply p0)
      r = -d ∧ J = -K ∧ Jᵀ * J = Kᵀ * K ∧ Jᵀ *ᵥ r = Kᵀ *ᵥ d ∧ r ⬝ᵥ r = d ⬝ᵥ d := by
  let v : V3 := fun i => (eig C).2 i 2
  refine ⟨makeEdgeJacobianRow (Quat.ofMatrix T.linear) p0 (m - v) (m + v),
    makeEdgeResidual T p0 (m - v) (m + v), v, ?_, fun i => rfl, ?_⟩
  · unfold edgeBlock
    simp only [hX, hm, finite, bind, Except.bind, pure, Except.pure]
    rfl
  · intro K d
    obtain ⟨hr, hJ⟩ := edge_swapped T (Quat.ofMatrix T.linear) p0 m v
    refine ⟨hr, hJ, ?_, ?_, ?_⟩
    · rw [hJ, transpose_neg, Matrix.neg_mul, Matrix.mul_neg, neg_neg]
    · rw [hJ, hr, transpose_neg, neg_mulVec, mulVec_neg, neg_neg]
    · rw [hr, neg_dotProduct_neg]

/-- The documented error along a straight line. -/
theorem docEdgeError_line (p1 p2 x v : Fin 3 → ℝ) (s : ℝ) :
    docEdgeError p1 p2 (x + s • v) = docEdgeError p1 p2 x + s * (-docEdgeGradient p1 p2 x ⬝ᵥ v) +
      s ^ 2 * (1 / 2 * ((docEdgeDerivative p1 p2 *ᵥ v) ⬝ᵥ (docEdgeDerivative p1 p2 *ᵥ v))) := by
  simp [docEdgeError, docEdgeResidual, docEdgeGradient, docEdgeDerivative, crossProduct,
    vecHead, vecTail]
  ring

/-- C154, what holds of the derivative of the error in the documentation: it is the negative of the
true derivative, in every direction; `TripletCross` of the code computes the formula of the
documentation. Missing is the sign. -/
theorem C154_edge_gradient_partial (p1 p2 x v : Fin 3 → ℝ) :
    HasDerivAt (fun s : ℝ => docEdgeError p1 p2 (x + s • v)) (-docEdgeGradient p1 p2 x ⬝ᵥ v) 0 ∧
    tripletCross x p1 p2 = docEdgeGradient p1 p2 x := by
  refine ⟨?_, rfl⟩
  have h : (fun s : ℝ => docEdgeError p1 p2 (x + s • v)) = fun s => docEdgeError p1 p2 x +
      s * (-docEdgeGradient p1 p2 x ⬝ᵥ v) +
      s ^ 2 * (1 / 2 * ((docEdgeDerivative p1 p2 *ᵥ v) ⬝ᵥ (docEdgeDerivative p1 p2 *ᵥ v))) :=
    funext fun s => docEdgeError_line p1 p2 x v s
  rw [h]
  refine (((hasDerivAt_id (0 : ℝ)).mul_const (-docEdgeGradient p1 p2 x ⬝ᵥ v)).const_add
    (docEdgeError p1 p2 x)).add ((((hasDerivAt_id (0 : ℝ)).pow 2).mul_const _)) |>.congr_deriv ?_
  simp

/-- C154 violated: off the line the derivative of the documentation points downhill: who follows its
negative, as for a gradient, lets the error grow. -/
theorem C154_edge_gradient_violated (p1 p2 x : Fin 3 → ℝ) (h : p1 ≠ p2) (hx : ¬ OnLine p1 p2 x) :
    ∃ slope, 0 < slope ∧ HasDerivAt
      (fun s : ℝ => docEdgeError p1 p2 (x + s • -docEdgeGradient p1 p2 x)) slope 0 := by
  refine ⟨_, ?_, (C154_edge_gradient_partial p1 p2 x _).1⟩
  rw [neg_dotProduct_neg]
  refine lt_of_le_of_ne (dot_self_nonneg _) fun h0 => hx ?_
  have hz : docEdgeGradient p1 p2 x = 0 := dotProduct_self_eq_zero.1 h0.symm
  obtain ⟨foot, hf, -, ht⟩ := C52_triplet_cross x p1 p2 h
  rw [(C154_edge_gradient_partial p1 p2 x 0).2, hz] at ht
  have hl : len (p2 - p1) ^ 2 ≠ 0 := pow_ne_zero 2 fun e => h (sub_eq_zero.1 ((len_eq_zero _).1 e)).symm
  have := (smul_eq_zero.1 ht.symm).resolve_left hl
  rwa [← sub_eq_zero.1 this]

/-- The point (0, 1, 0) and the line from (-1, 0, 0) to (1, 0, 0): the error is 2, the documented
derivative (0, -4, 0), the true one (0, 4, 0). -/
example : docEdgeError ![-1, 0, 0] ![1, 0, 0] ![0, 1, 0] = 2 ∧
    docEdgeGradient ![-1, 0, 0] ![1, 0, 0] ![0, 1, 0] = ![0, -4, 0] ∧
    ![-1, 0, 0] ≠ (![1, 0, 0] : Fin 3 → ℝ) ∧ ¬ OnLine ![-1, 0, 0] ![1, 0, 0] ![0, 1, 0] := by
  refine ⟨?_, ?_, ?_, ?_⟩
  · simp [docEdgeError, docEdgeResidual, crossProduct]
    norm_num
  · funext i
    fin_cases i <;> simp [docEdgeGradient, crossProduct]
    norm_num
  · intro h
    have := congrFun h 0
    norm_num at this
  · rintro ⟨s, hs⟩
    have := congrFun hs 1
    simp at this

/-! ### Mean and covariance of the neighbours -/

theorem sum_apply (X : List (Fin 3 → ℝ)) (j : Fin 3) : X.sum j = (X.map fun x => x j).sum := by
  induction X with
  | nil => rfl
  | cons x X ih => simp [ih]

/-- C154, what holds of the mean in the documentation: it is the mean of the code times the number of
neighbours. Missing is the division. -/
theorem C154_mean_partial (X : List (Fin 3 → ℝ)) (m : Fin 3 → ℝ) (h : center X = some m) :
    docMean X = (X.length : ℝ) • m := by
  unfold center at h
  split at h
  · cases h
  · rename_i hl
    injection h with h
    subst h
    have hl' : (X.length : ℝ) ≠ 0 := Nat.cast_ne_zero.2 hl
    funext j
    simp only [docMean, sum_apply, Pi.smul_apply, smul_eq_mul]
    field_simp

/-- C154 violated: with two neighbours or more the mean of the documentation is that of the code only if
both are zero. -/
theorem C154_mean_violated (X : List (Fin 3 → ℝ)) (hX : 2 ≤ X.length) (m : Fin 3 → ℝ)
    (h : center X = some m) : docMean X = m ↔ m = 0 := by
  rw [C154_mean_partial X m h]
  constructor
  · intro e
    have h2 : ((X.length : ℝ) - 1) • m = 0 := by rw [sub_smul, one_smul, e, sub_self]
    refine (smul_eq_zero.1 h2).resolve_left ?_
    have : (2 : ℝ) ≤ X.length := by exact_mod_cast hX
    linarith
  · rintro rfl
    simp

theorem docSum_apply (X : List (Fin 3 → ℝ)) (m : Fin 3 → ℝ) (i j : Fin 3) :
    (X.map fun a => vecMulVec (a - m) (a - m)).sum i j =
      (X.map fun x => (x i - m i) * (x j - m j)).sum := by
  induction X with
  | nil => rfl
  | cons x X ih => simp [ih, vecMulVec_apply]

/-- C154: about the mean of the code, the covariance of the code is that of the documentation times
`(K - 1) / K`. -/
theorem C154_covariance (X : List V3) (hX : 2 ≤ X.length) (m : V3) (C : Matrix (Fin 3) (Fin 3) ℝ)
    (h : calcMeanAndCovariance X = some (m, C)) :
    C = (((X.length : ℝ) - 1) / X.length) • docCovariance X m := by
  obtain ⟨m', C', h', -, hC⟩ := mean_cov_some (X := X) (by rintro rfl; simp at hX)
  rw [h] at h'
  obtain ⟨rfl, rfl⟩ : m = m' ∧ C = C' := by simpa using h'
  have h2 : (2 : ℝ) ≤ X.length := by exact_mod_cast hX
  have hl : (X.length : ℝ) ≠ 0 := by linarith
  have hl1 : (X.length : ℝ) - 1 ≠ 0 := by linarith
  ext i j
  simp only [docCovariance, Matrix.smul_apply, smul_eq_mul, docSum_apply, ← hC]
  field_simp

/-- C154: hence both have the same eigenvectors, the eigenvalues in the same order, and the edge that
the code finds is that of the documentation. -/
theorem C154_principal (X : List V3) (hX : 2 ≤ X.length) (m : V3) (C : Matrix (Fin 3) (Fin 3) ℝ)
    (h : calcMeanAndCovariance X = some (m, C)) :
    ∃ c : ℝ, 0 < c ∧ c < 1 ∧ ∀ (v : V3) (l : ℝ), docCovariance X m *ᵥ v = l • v ↔ C *ᵥ v = (c * l) • v := by
  have h2 : (2 : ℝ) ≤ X.length := by exact_mod_cast hX
  have hc : (0 : ℝ) < ((X.length : ℝ) - 1) / X.length := div_pos (by linarith) (by linarith)
  refine ⟨((X.length : ℝ) - 1) / X.length, hc, ?_, fun v l => ?_⟩
  · rw [div_lt_one (by linarith)]
    linarith
  · rw [C154_covariance X hX m C h, smul_mulVec, mul_smul]
    exact (smul_right_injective _ hc.ne').eq_iff.symm

/-- Two neighbours (1, 0, 0) and (3, 0, 0): the mean is (2, 0, 0), the documented one (4, 0, 0). -/
example : ∃ m C, calcMeanAndCovariance [![1, 0, 0], ![3, 0, 0]] = some (m, C) ∧ m = ![2, 0, 0] ∧
    C 0 0 = 1 ∧ docMean [![1, 0, 0], ![3, 0, 0]] = ![4, 0, 0] ∧
    docCovariance [![1, 0, 0], ![3, 0, 0]] m 0 0 = 2 := by
  obtain ⟨m, C, h, h1, h2⟩ := mean_cov_some (X := [![1, 0, 0], ![3, 0, 0]]) (by simp)
  have e0 := h1 0
  have e1 := h1 1
  have e2 := h1 2
  have e3 := h2 0 0
  simp at e0 e1 e2 e3
  have m0 : m 0 = 2 := by linarith
  refine ⟨m, C, h, ?_, ?_, ?_, ?_⟩
  · funext i
    fin_cases i
    · exact m0
    · simp; linarith
    · simp; linarith
  · rw [m0] at e3
    linarith
  · funext i
    fin_cases i <;> simp [docMean]
    norm_num
  · simp only [docCovariance, Matrix.smul_apply, smul_eq_mul, docSum_apply]
    simp [m0]
    norm_num

/-! ### Surfaces -/

/-- C154, what holds of the residual of a surface point in the documentation: it is that of the code
less `1 / ‖w‖`, a constant, so both have the same derivative. Missing is the constant. -/
theorem C154_surface_partial (w y : Fin 3 → ℝ) (hw : w ≠ 0) :
    signedPointPlaneDistance w y = some (docSurfaceResidual w y + 1 / len w) := by
  have hl : len w ≠ 0 := fun e => hw ((len_eq_zero w).1 e)
  have hn : Rot.norm w = len w := rfl
  unfold signedPointPlaneDistance docSurfaceResidual planeBias
  rw [hn, if_neg hl, smul_dotProduct, smul_eq_mul]
  congr 1
  field_simp

/-- C154 violated: the residual of the documentation is zero at no point of the plane; its magnitude
there is the distance of the plane from the origin. -/
theorem C154_surface_violated (w y : Fin 3 → ℝ) (hw : w ≠ 0) (hy : OnPlane w y) :
    docSurfaceResidual w y ≠ 0 ∧ IsDistance (OnPlane w) 0 |docSurfaceResidual w y| := by
  have hl : len w ≠ 0 := fun e => hw ((len_eq_zero w).1 e)
  have h1 : docSurfaceResidual w y = -(1 / len w) := by
    unfold docSurfaceResidual
    unfold OnPlane at hy
    rw [smul_dotProduct, smul_eq_mul, eq_neg_of_add_eq_zero_left hy]
    ring
  obtain ⟨d, hd, -, -, hdist⟩ := (C53_distance w 0).2 hw
  rw [C154_surface_partial w 0 hw] at hd
  injection hd with hd
  have h0 : docSurfaceResidual w 0 = 0 := by simp [docSurfaceResidual]
  rw [h0, zero_add] at hd
  refine ⟨?_, ?_⟩
  · rw [h1]
    exact neg_ne_zero.2 (one_div_ne_zero hl)
  · rw [h1, abs_neg, hd]
    exact hdist

/-- The plane `z = 2`. -/
example : (![0, 0, -1 / 2] : Fin 3 → ℝ) ≠ 0 ∧ OnPlane ![0, 0, -1 / 2] ![5, 7, 2] := by
  refine ⟨fun h => ?_, ?_⟩
  · have := congrFun h 2
    simp at this
  · simp [OnPlane]

/-! ### Weights and steps -/

/-- C154: the loss of the code is that of the documentation. -/
theorem C154_loss (e k : ℝ) : huber e k = docHuber k e := by
  unfold huber docHuber
  by_cases h : e < k * k
  · rw [if_pos h, if_neg (by rw [sq]; exact not_le.2 h)]
  · rw [if_neg h, if_pos (by rw [sq]; exact not_lt.1 h), sq]

/-- C154: the weights of the code are the derivatives of the documented loss at the errors divided by
the scale, but for an addition of 1e-16 to the scale. -/
theorem C154_weights {nth : Nth} (hn : Lib.IsNthElement nth) (es : List ℝ) (hes : es ≠ []) :
    ∃ ns s, normalizeErrorScale nth es = .ok (ns, s) ∧ scale nth es = .ok s ∧
      ns.length = es.length ∧ (computeWeights ns).length = es.length ∧
      ∀ (i : ℕ) (e : ℝ), es[i]? = some e → ∃ x w, ns[i]? = some x ∧ (computeWeights ns)[i]? = some w ∧
        HasDerivAt (docHuber 1.345) w x ∧
        (0 < s → 0 ≤ e → 0 ≤ e / s - x ∧ e / s - x ≤ e / s * (1 / 10 ^ 16 / s)) := by
  obtain ⟨c, d, s, hc, hd, hs, he, h0⟩ := (C73_scale hn es).2 hes
  refine ⟨es.map fun e => e / (s + 1 / 10 ^ 16), s, ?_, hs, by simp, by simp [computeWeights], ?_⟩
  · simp [normalizeErrorScale, hs, bind, Except.bind, pure, Except.pure]
  · intro i e hi
    have hx : (es.map fun e => e / (s + 1 / 10 ^ 16))[i]? = some (e / (s + 1 / 10 ^ 16)) := by
      rw [List.getElem?_map, hi]; rfl
    obtain ⟨w, hw, -, -, hder⟩ := (C45_optimizer_weights _).2 i _ hx
    refine ⟨_, w, hx, hw, ?_, fun hs0 he0 => ?_⟩
    · have : (fun x => huber x 1.345) = docHuber 1.345 := funext fun x => C154_loss x _
      rwa [this] at hder
    · have hp : (0 : ℝ) < s + 1 / 10 ^ 16 := by positivity
      have h1 : e / s - e / (s + 1 / 10 ^ 16) = e / s * (1 / 10 ^ 16 / (s + 1 / 10 ^ 16)) := by
        field_simp
        ring
      rw [h1]
      refine ⟨by positivity, ?_⟩
      refine mul_le_mul_of_nonneg_left ?_ (by positivity)
      exact div_le_div_of_nonneg_left (by positivity) hs0 (by linarith [show (0:ℝ) < 1 / 10 ^ 16 by positivity])

/-- C154, what holds of the linear equation of the documentation: the step of the code solves it in all
directions in which a unit quaternion can turn. Missing is the direction of the quaternion itself. -/
theorem C154_step_partial {llt : Llt} (hllt : LltSpec llt) (q : Quat) (hq : q.IsUnit) (ws : List ℝ)
    (bs : List Block) (hl : ws.length = bs.length) (hw : ∀ w ∈ ws, 0 < w)
    (hd : ¬ ∃ l, IsEigenvalue (gram bs) l ∧ |l| < 1 / 10) :
    ∃ dx, weightedUpdate llt (makeM q) ws (bs.map Block.jac) (bs.map Block.res) = .ok dx ∧
      ∀ t, (makeM q *ᵥ t) ⬝ᵥ (docMatrix (ws.zip bs) *ᵥ (makeM q *ᵥ dx) - docVector (ws.zip bs)) = 0 := by
  obtain ⟨dx, h, hz, -⟩ := C46_step hllt q hq ws bs hl hw hd
  refine ⟨dx, h, fun t => ?_⟩
  have h1 : docMatrix (ws.zip bs) = -normalMatrix (ws.zip bs) := rfl
  have h2 : docVector (ws.zip bs) = gradient (ws.zip bs) := rfl
  rw [h1, h2, neg_mulVec, dotProduct_sub, dotProduct_neg, quad_normalMatrix, dot_gradient]
  have key : ∀ wb : List (ℝ × Block),
      (wb.map fun p => p.1 * ((p.2.J *ᵥ makeM q *ᵥ t) ⬝ᵥ (p.2.J *ᵥ makeM q *ᵥ dx))).sum +
      (wb.map fun p => p.1 * ((p.2.J *ᵥ makeM q *ᵥ t) ⬝ᵥ p.2.r)).sum =
      ∑ j, t j * (wb.map fun p => p.1 * ∑ i, (p.2.J * makeM q) i j *
        (p.2.J *ᵥ (makeM q *ᵥ dx) + p.2.r) i).sum := by
    intro wb
    induction wb with
    | nil => simp
    | cons p ps ih =>
      simp only [List.map_cons, List.sum_cons, mul_add, Finset.sum_add_distrib, ← ih]
      have : ∑ j, t j * (p.1 * ∑ i, (p.2.J * makeM q) i j * (p.2.J *ᵥ (makeM q *ᵥ dx) + p.2.r) i) =
          p.1 * ((p.2.J *ᵥ makeM q *ᵥ t) ⬝ᵥ (p.2.J *ᵥ (makeM q *ᵥ dx) + p.2.r)) := by
        rw [mulVec_mulVec t p.2.J (makeM q)]
        generalize p.2.J *ᵥ (makeM q *ᵥ dx) + p.2.r = y
        generalize p.2.J * makeM q = N
        simp only [mulVec, dotProduct, Finset.mul_sum, Finset.sum_mul]
        rw [Finset.sum_comm]
        refine Finset.sum_congr rfl fun i _ => Finset.sum_congr rfl fun j _ => ?_
        ring
      rw [this, dotProduct_add]
      ring
  have := key (ws.zip bs)
  simp only [hz, mul_zero, Finset.sum_const_zero] at this
  linarith

/-- C154 violated: a well-conditioned problem in which no step of the code solves the linear equation of
the documentation: its solution changes the length of the quaternion. -/
theorem C154_step_violated :
    ∃ (q : Quat) (ws : List ℝ) (bs : List Block), q.IsUnit ∧ ws.length = bs.length ∧
      (∀ w ∈ ws, 0 < w) ∧ (¬ ∃ l, IsEigenvalue (gram bs) l ∧ |l| < 1 / 10) ∧
      (∃ delta, docMatrix (ws.zip bs) *ᵥ delta = docVector (ws.zip bs)) ∧
      ∀ dx, docMatrix (ws.zip bs) *ᵥ (makeM q *ᵥ dx) ≠ docVector (ws.zip bs) := by
  refine ⟨⟨1, 0, 0, 0⟩, [1], [⟨7, 1, Pi.single 0 1⟩], by simp [Quat.IsUnit], rfl, by simp, ?_, ?_, ?_⟩
  · rintro ⟨l, ⟨v, hv, h⟩, hl⟩
    have h1 : (1 - l) • v = 0 := by
      rw [sub_smul, one_smul, ← h]
      simp [Opt.gram]
    have h2 := (smul_eq_zero.1 h1).resolve_right hv
    rw [← sub_eq_zero.1 h2] at hl
    norm_num at hl
  · refine ⟨-Pi.single 0 1, ?_⟩
    rw [show docMatrix ([1].zip [(⟨7, 1, Pi.single 0 1⟩ : Block)]) = -1 by simp [docMatrix],
      neg_mulVec, one_mulVec, neg_neg]
    simp only [docVector, List.zip_cons_cons, List.zip_nil_left, List.map_cons, List.map_nil,
      List.sum_cons, List.sum_nil, transpose_one, one_mulVec, one_smul, add_zero]
  · intro dx h
    have h0 := congrFun h 0
    rw [show docMatrix ([1].zip [(⟨7, 1, Pi.single 0 1⟩ : Block)]) = -1 by simp [docMatrix],
      neg_mulVec, one_mulVec, makeM_mulVec, Pi.neg_apply] at h0
    have h1 : coords (Quat.mul ⟨1, 0, 0, 0⟩ ⟨0, dx 0 / 2, dx 1 / 2, dx 2 / 2⟩)
        (fun i => dx (Fin.natAdd 3 i)) 0 = 0 := by
      show 1 * 0 - 0 * (dx 0 / 2) - 0 * (dx 1 / 2) - 0 * (dx 2 / 2) = (0 : ℝ)
      ring
    rw [h1] at h0
    simp [docVector] at h0

end Verif.Loc
