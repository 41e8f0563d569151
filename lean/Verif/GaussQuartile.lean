/-
The upper quartile of the standard normal distribution, to fourteen digits. Helper for `Props/C154`.
-/
import Mathlib.Probability.Distributions.Gaussian.Real
import Mathlib.Analysis.Real.Pi.Bounds
import Mathlib.Analysis.SpecialFunctions.Integrals.Basic
import Mathlib.MeasureTheory.Integral.IntegralEqImproper
import Mathlib.Topology.Order.IntermediateValue

set_option autoImplicit false

namespace Verif.Gauss

open MeasureTheory ProbabilityTheory

/-- `∫ exp (-x² / 2)` from zero. -/
noncomputable def area (c : ℝ) : ℝ := ∫ x in (0 : ℝ)..c, Real.exp (-(x ^ 2 / 2))

theorem exp_taylor (x : ℝ) (h0 : 0 ≤ x) (h1 : x ≤ 1) :
    |Real.exp (-(x ^ 2 / 2)) - ∑ m ∈ Finset.range 14, (-(x ^ 2 / 2)) ^ m / (m.factorial : ℝ)| ≤
      (1 / 2) ^ 14 / 80000000000 := by
  have hx : |-(x ^ 2 / 2)| ≤ 1 / 2 := by
    rw [abs_neg, abs_of_nonneg (by positivity)]; nlinarith
  have h := Real.exp_bound (hx.trans (by norm_num)) (n := 14) (by norm_num)
  refine h.trans ?_
  calc _ ≤ (1 / 2 : ℝ) ^ 14 * ((Nat.succ 14 : ℕ) / ((Nat.factorial 14 : ℕ) * (14 : ℕ) : ℝ)) := by
        gcongr
    _ ≤ _ := by norm_num [Nat.factorial]

theorem continuous_density : Continuous fun x : ℝ => Real.exp (-(x ^ 2 / 2)) := by fun_prop

theorem area_taylor (c : ℝ) (h0 : 0 ≤ c) (h1 : c ≤ 1) :
    |area c -
      ∑ m ∈ Finset.range 14, (-1 / 2) ^ m / (m.factorial : ℝ) * (c ^ (2 * m + 1) / (2 * m + 1))| ≤
      (1 / 2) ^ 14 / 80000000000 := by
  have hi : ∑ m ∈ Finset.range 14, (-1 / 2) ^ m / (m.factorial : ℝ) * (c ^ (2 * m + 1) / (2 * m + 1)) =
      ∫ x in (0 : ℝ)..c, ∑ m ∈ Finset.range 14, (-(x ^ 2 / 2)) ^ m / (m.factorial : ℝ) := by
    rw [intervalIntegral.integral_finsetSum
      (fun m _ => (by fun_prop : Continuous _).intervalIntegrable _ _)]
    refine Finset.sum_congr rfl fun m _ => ?_
    have : ∀ x : ℝ, (-(x ^ 2 / 2)) ^ m / (m.factorial : ℝ) =
        (-1 / 2) ^ m / (m.factorial : ℝ) * x ^ (2 * m) := by
      intro x
      rw [pow_mul, div_mul_eq_mul_div, ← mul_pow]; congr 2; ring
    simp only [this]
    rw [intervalIntegral.integral_const_mul, integral_pow]
    simp
  unfold area
  rw [hi, ← intervalIntegral.integral_sub
    (continuous_density.intervalIntegrable _ _) ((by fun_prop : Continuous _).intervalIntegrable _ _)]
  have := intervalIntegral.norm_integral_le_of_norm_le_const (a := 0) (b := c)
    (f := fun x : ℝ => Real.exp (-(x ^ 2 / 2)) -
      ∑ m ∈ Finset.range 14, (-(x ^ 2 / 2)) ^ m / (m.factorial : ℝ))
    (C := (1 / 2) ^ 14 / 80000000000) (by
      intro x hx
      rw [Set.uIoc_of_le h0] at hx
      exact exp_taylor x hx.1.le (hx.2.trans h1))
  rw [Real.norm_eq_abs] at this
  refine this.trans ?_
  rw [sub_zero, abs_of_nonneg h0]
  exact mul_le_of_le_one_right (by norm_num) h1

/-- Lower and upper bound of the inverse of the constant `b` of `robust.cpp`. -/
noncomputable def lo : ℝ := 1 / 1.482602218505612
/-- See `lo`. -/
noncomputable def hi : ℝ := 1 / 1.482602218505592

theorem area_lo : area lo < Real.sqrt (2 * Real.pi) / 4 := by
  have h := (abs_le.mp (area_taylor lo (by norm_num [lo]) (by norm_num [lo]))).2
  have h2 : area lo ≤ 0.626657068657748 := by
    refine (sub_le_iff_le_add.mp h).trans ?_
    norm_num [Finset.sum_range_succ, Nat.factorial, lo]
  have := Real.pi_gt_d20
  rw [lt_div_iff₀ (by norm_num)]
  refine (mul_le_mul_of_nonneg_right h2 (by norm_num)).trans_lt ?_
  refine Real.lt_sqrt_of_sq_lt ?_
  norm_num
  linarith

theorem area_hi : Real.sqrt (2 * Real.pi) / 4 < area hi := by
  have h := (abs_le.mp (area_taylor hi (by norm_num [hi]) (by norm_num [hi]))).1
  have h2 : 0.6266570686577515 ≤ area hi := by
    refine le_trans ?_ (le_sub_iff_add_le.mp h)
    norm_num [Finset.sum_range_succ, Nat.factorial, hi]
  have := Real.pi_lt_d20
  rw [div_lt_iff₀ (by norm_num)]
  refine lt_of_lt_of_le ?_ (mul_le_mul_of_nonneg_right h2 (by norm_num))
  rw [Real.sqrt_lt' (by norm_num)]
  norm_num
  linarith

theorem area_sub (a b : ℝ) : area b - area a = ∫ x in a..b, Real.exp (-(x ^ 2 / 2)) := by
  unfold area
  rw [sub_eq_iff_eq_add', intervalIntegral.integral_add_adjacent_intervals] <;>
    exact continuous_density.intervalIntegrable _ _

theorem area_strictMono : StrictMono area := by
  intro a b h
  rw [← sub_pos, area_sub]
  exact intervalIntegral.intervalIntegral_pos_of_pos
    (continuous_density.intervalIntegrable _ _) (fun x => Real.exp_pos _) h

theorem area_continuous : Continuous area :=
  intervalIntegral.continuous_primitive (fun _ _ => continuous_density.intervalIntegrable _ _) _

theorem area_neg (c : ℝ) : area (-c) = -area c := by
  unfold area
  have := intervalIntegral.integral_comp_neg (a := 0) (b := c) fun x : ℝ => Real.exp (-(x ^ 2 / 2))
  simp only [neg_sq, neg_zero] at this
  rw [this, intervalIntegral.integral_symm]

/-- The density of the standard normal distribution. -/
theorem density (x : ℝ) :
    gaussianPDFReal 0 1 x = (Real.sqrt (2 * Real.pi))⁻¹ * Real.exp (-(x ^ 2 / 2)) := by
  simp [gaussianPDFReal, neg_div]

theorem root_pos : 0 < Real.sqrt (2 * Real.pi) := Real.sqrt_pos.2 (by positivity)

theorem half : ∫ x in Set.Iic (0 : ℝ), gaussianPDFReal 0 1 x = 1 / 2 := by
  have h := intervalIntegral.integral_Iic_add_Ioi (b := (0 : ℝ))
    (integrable_gaussianPDFReal 0 1).integrableOn (integrable_gaussianPDFReal 0 1).integrableOn
  rw [integral_gaussianPDFReal_eq_one 0 one_ne_zero] at h
  have h2 := integral_comp_neg_Iic (0 : ℝ) (gaussianPDFReal 0 1)
  have h3 : (fun x => gaussianPDFReal 0 1 (-x)) = gaussianPDFReal 0 1 := by
    funext x; rw [density, density, neg_sq]
  rw [h3, neg_zero] at h2
  linarith

theorem integral_Iic (m : ℝ) :
    ∫ x in Set.Iic m, gaussianPDFReal 0 1 x = 1 / 2 + area m / Real.sqrt (2 * Real.pi) := by
  have h := intervalIntegral.integral_Iic_sub_Iic (a := (0 : ℝ)) (b := m)
    (integrable_gaussianPDFReal 0 1).integrableOn (integrable_gaussianPDFReal 0 1).integrableOn
  rw [half] at h
  simp only [density] at h ⊢
  rw [intervalIntegral.integral_const_mul] at h
  rw [sub_eq_iff_eq_add'.1 h, div_eq_inv_mul (area m)]
  rfl

/-- The distribution function. -/
theorem cdf_eq (m : ℝ) : gaussianReal 0 1 (Set.Iic m) =
    ENNReal.ofReal (1 / 2 + area m / Real.sqrt (2 * Real.pi)) := by
  rw [gaussianReal_apply_eq_integral 0 one_ne_zero, integral_Iic]

theorem cdf_quartile (m : ℝ) :
    gaussianReal 0 1 (Set.Iic m) = 3 / 4 ↔ area m = Real.sqrt (2 * Real.pi) / 4 := by
  have h34 : (3 / 4 : ENNReal) = ENNReal.ofReal (3 / 4) := by
    rw [ENNReal.ofReal_div_of_pos (by norm_num)]; norm_num
  have hp := root_pos
  rw [cdf_eq, h34]
  constructor
  · intro h
    have h' := congrArg ENNReal.toReal h
    rw [ENNReal.toReal_ofReal (r := 3 / 4) (by norm_num)] at h'
    have hn : 0 ≤ 1 / 2 + area m / Real.sqrt (2 * Real.pi) := by
      by_contra hc
      rw [ENNReal.ofReal_of_nonpos (not_le.1 hc).le] at h'
      norm_num at h'
    rw [ENNReal.toReal_ofReal hn] at h'
    field_simp at h' ⊢
    linarith
  · intro h
    rw [h]
    congr 1
    field_simp
    norm_num

theorem ball_eq (m : ℝ) (hm : 0 ≤ m) : gaussianReal 0 1 (Set.Icc (-m) m) =
    ENNReal.ofReal (2 * area m / Real.sqrt (2 * Real.pi)) := by
  rw [gaussianReal_apply_eq_integral 0 one_ne_zero, integral_Icc_eq_integral_Ioc,
    ← intervalIntegral.integral_of_le (by linarith)]
  simp only [density]
  rw [intervalIntegral.integral_const_mul, ← area_sub, area_neg]
  congr 1
  ring

/-- There is exactly one upper quartile; it lies between the bounds. -/
theorem quartile : ∃! m, area m = Real.sqrt (2 * Real.pi) / 4 := by
  have hlh : lo ≤ hi := by norm_num [lo, hi]
  obtain ⟨m, -, hm⟩ := intermediate_value_Icc hlh area_continuous.continuousOn
    ⟨area_lo.le, area_hi.le⟩
  exact ⟨m, hm, fun y hy => area_strictMono.injective (hy.trans hm.symm)⟩

theorem quartile_bounds (m : ℝ) (h : area m = Real.sqrt (2 * Real.pi) / 4) : lo < m ∧ m < hi :=
  ⟨area_strictMono.lt_iff_lt.1 (h ▸ area_lo), area_strictMono.lt_iff_lt.1 (h ▸ area_hi)⟩

/-- The inverse of the upper quartile. -/
theorem quartile_inverse (m : ℝ) (h : area m = Real.sqrt (2 * Real.pi) / 4) :
    0 < m ∧ |1.482602218505602 * m - 1| ≤ 1 / 10 ^ 14 := by
  obtain ⟨h1, h2⟩ := quartile_bounds m h
  unfold lo at h1
  unfold hi at h2
  rw [div_lt_iff₀ (by norm_num)] at h1
  rw [lt_div_iff₀ (by norm_num)] at h2
  have hm : 0 < m := by norm_num at h1; linarith
  have hm1 : m < 1 := by norm_num at h2; linarith
  refine ⟨hm, abs_le.2 ⟨?_, ?_⟩⟩ <;> norm_num at h1 h2 ⊢ <;> linarith

end Verif.Gauss
