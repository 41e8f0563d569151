/-
C81 the line that an edge point is matched to.
-/
import Verif.Props.C80
import Verif.Props.C52
import Mathlib.LinearAlgebra.Matrix.DotProduct
import Mathlib.LinearAlgebra.Matrix.PosDef
import Mathlib.Algebra.Order.Star.Real
import Mathlib.Analysis.Matrix.Spectrum
import Mathlib.Data.Fin.Tuple.Sort

set_option autoImplicit false

namespace Verif.Loam

open Matrix Verif.Rot Verif.Opt Verif.Loc

/-- What is assumed about Eigen's solver for symmetric matrices: orthonormal eigenvectors, eigenvalues in
increasing order. -/
def EigSpec (eig : Eig) : Prop :=
  ∀ C : Matrix (Fin 3) (Fin 3) ℝ, Cᵀ = C →
    (eig C).2ᵀ * (eig C).2 = 1 ∧ C * (eig C).2 = (eig C).2 * Matrix.diagonal (eig C).1 ∧
    (eig C).1 0 ≤ (eig C).1 1 ∧ (eig C).1 1 ≤ (eig C).1 2

/-- The points of the line through `a` in direction `d` (a single point if `d = 0`). -/
def OnRay (a d p : V3) : Prop := ∃ s : ℝ, p = a + s • d

/-- Sum of the squared distances between the points of `X` and the points assigned to them. -/
def total (X : List V3) (foot : V3 → V3) : ℝ := (X.map fun x => sqDist x (foot x)).sum

/-- The line through `a` in direction `d` fits the points `X` best: no other line, however points on it
are assigned to the points of `X`, has a smaller sum of squared distances. -/
def BestLine (X : List V3) (a d : V3) : Prop :=
  ∃ foot : V3 → V3, (∀ x ∈ X, OnRay a d (foot x)) ∧
    ∀ (a' d' : V3) (foot' : V3 → V3), (∀ x ∈ X, OnRay a' d' (foot' x)) → total X foot ≤ total X foot'

/-! ### Moments of a list of points -/

theorem sum_quadratic (X : List V3) (f : V3 → ℝ) (c b0 b1 b2 a00 a11 a22 a01 a02 a12 : ℝ)
    (hf : ∀ x, f x = c + b0 * x 0 + b1 * x 1 + b2 * x 2 + a00 * (x 0 * x 0) + a11 * (x 1 * x 1) +
      a22 * (x 2 * x 2) + a01 * (x 0 * x 1) + a02 * (x 0 * x 2) + a12 * (x 1 * x 2)) :
    (X.map f).sum = X.length * c + b0 * (X.map fun x => x 0).sum + b1 * (X.map fun x => x 1).sum +
      b2 * (X.map fun x => x 2).sum + a00 * (X.map fun x => x 0 * x 0).sum +
      a11 * (X.map fun x => x 1 * x 1).sum + a22 * (X.map fun x => x 2 * x 2).sum +
      a01 * (X.map fun x => x 0 * x 1).sum + a02 * (X.map fun x => x 0 * x 2).sum +
      a12 * (X.map fun x => x 1 * x 2).sum := by
  induction X with
  | nil => simp
  | cons x X ih =>
    simp only [List.map_cons, List.sum_cons, List.length_cons, ih, hf x]
    push_cast
    ring

theorem mean_cov_some {X : List V3} (hX : X ≠ []) :
    ∃ m C, calcMeanAndCovariance X = some (m, C) ∧
      (∀ i, (X.map fun x => x i - m i).sum = 0) ∧
      ∀ i j, X.length * C i j = (X.map fun x => (x i - m i) * (x j - m j)).sum := by
  have hl : X.length ≠ 0 := fun h => hX (List.length_eq_zero_iff.1 h)
  have hl' : (X.length : ℝ) ≠ 0 := Nat.cast_ne_zero.2 hl
  have hc : center X = some fun j => (X.map fun x => x j).sum / X.length := by
    unfold center
    rw [if_neg hl]
  refine ⟨fun j => (X.map fun x => x j).sum / X.length,
    Matrix.of fun i j => ((X.map fun x => x - fun j => (X.map fun x => x j).sum / X.length).map
      fun d => d i * d j).sum / X.length, ?_, fun i => ?_, fun i j => ?_⟩
  · unfold calcMeanAndCovariance
    rw [hc]
    rfl
  · have : ∀ (Y : List V3) (c : ℝ), (Y.map fun x => x i - c).sum = (Y.map fun x => x i).sum - Y.length * c := by
      intro Y c
      induction Y with
      | nil => simp
      | cons y Y ih =>
        simp only [List.map_cons, List.sum_cons, List.length_cons, ih]
        push_cast
        ring
    rw [this]
    field_simp
    ring
  · rw [Matrix.of_apply, mul_div_cancel₀ _ hl', List.map_map]
    rfl

theorem rayleigh {eig : Eig} (he : EigSpec eig) (C : Matrix (Fin 3) (Fin 3) ℝ) (hC : Cᵀ = C) (e : V3) :
    (let u : V3 := fun i => (eig C).2 i 2
     u ⬝ᵥ u = 1 ∧ e ⬝ᵥ (C *ᵥ e) ≤ (u ⬝ᵥ (C *ᵥ u)) * (e ⬝ᵥ e)) := by
  obtain ⟨h1, h2, h3, h4⟩ := he C hC
  generalize (eig C).1 = l at *
  generalize (eig C).2 = U at *
  intro u
  have hU : U * Uᵀ = 1 := mul_eq_one_comm.1 h1
  have huu : u ⬝ᵥ u = 1 := by
    have := congrFun (congrFun h1 2) 2
    rw [Matrix.mul_apply, Matrix.one_apply_eq] at this
    exact this
  have hCu : C *ᵥ u = l 2 • u := by
    funext i
    have := congrFun (congrFun h2 i) 2
    rw [Matrix.mul_apply, Matrix.mul_diagonal] at this
    rw [Pi.smul_apply, smul_eq_mul, mul_comm]
    exact this
  refine ⟨huu, ?_⟩
  rw [hCu, dotProduct_smul, huu, smul_eq_mul, mul_one]
  have hCd : C = U * Matrix.diagonal l * Uᵀ := by
    rw [← h2, Matrix.mul_assoc, hU, Matrix.mul_one]
  set y : V3 := Uᵀ *ᵥ e with hy
  have hey : e ⬝ᵥ e = y ⬝ᵥ y := by
    rw [hy, dotProduct_mulVec, vecMul_transpose, mulVec_mulVec, hU, one_mulVec]
  have hq : e ⬝ᵥ (C *ᵥ e) = ∑ i, l i * (y i * y i) := by
    rw [hCd, ← mulVec_mulVec, ← mulVec_mulVec, dotProduct_mulVec, ← mulVec_transpose, ← hy]
    simp only [dotProduct, mulVec_diagonal]
    exact Finset.sum_congr rfl fun i _ => by ring
  rw [hq, hey]
  simp only [dotProduct, Fin.sum_univ_three]
  have q0 := mul_self_nonneg (y 0)
  have q1 := mul_self_nonneg (y 1)
  nlinarith

/-- The sum of squared distances of the points of `X` from the line through `m - c` in the unit
direction `e`. -/
theorem line_sum (X : List V3) (m c e : V3) (C : Matrix (Fin 3) (Fin 3) ℝ)
    (h0 : ∀ i, (X.map fun x => x i - m i).sum = 0)
    (hC : ∀ i j, X.length * C i j = (X.map fun x => (x i - m i) * (x j - m j)).sum) :
    (X.map fun x => (x - m + c) ⬝ᵥ (x - m + c) - ((x - m + c) ⬝ᵥ e) ^ 2).sum =
      X.length * (C 0 0 + C 1 1 + C 2 2 - e ⬝ᵥ (C *ᵥ e)) +
      X.length * (c ⬝ᵥ c - (c ⬝ᵥ e) ^ 2) := by
  set Y := X.map fun x => x - m with hY
  have hmap : ∀ f : V3 → ℝ, (X.map fun x => f (x - m)).sum = (Y.map f).sum := by
    intro f
    rw [hY, List.map_map]
    rfl
  have hlen : Y.length = X.length := by rw [hY, List.length_map]
  have hy0 : ∀ i, (Y.map fun x => x i).sum = 0 := by
    intro i
    rw [← hmap fun x => x i, ← h0 i]
    rfl
  have hyC : ∀ i j, (Y.map fun x => x i * x j).sum = X.length * C i j := by
    intro i j
    rw [← hmap fun x => x i * x j, hC i j]
    rfl
  rw [hmap fun y => (y + c) ⬝ᵥ (y + c) - ((y + c) ⬝ᵥ e) ^ 2]
  rw [sum_quadratic Y _ (c ⬝ᵥ c - (c ⬝ᵥ e) ^ 2)
    (2 * c 0 - 2 * (c ⬝ᵥ e) * e 0) (2 * c 1 - 2 * (c ⬝ᵥ e) * e 1) (2 * c 2 - 2 * (c ⬝ᵥ e) * e 2)
    (1 - e 0 * e 0) (1 - e 1 * e 1) (1 - e 2 * e 2) (-2 * (e 0 * e 1)) (-2 * (e 0 * e 2))
    (-2 * (e 1 * e 2))]
  · rw [hy0, hy0, hy0, hyC, hyC, hyC, hyC, hyC, hyC, hlen]
    have s01 : (X.length : ℝ) * C 1 0 = X.length * C 0 1 := by
      rw [← hyC, ← hyC]
      congr 2
      funext x
      ring
    have s02 : (X.length : ℝ) * C 2 0 = X.length * C 0 2 := by
      rw [← hyC, ← hyC]
      congr 2
      funext x
      ring
    have s12 : (X.length : ℝ) * C 2 1 = X.length * C 1 2 := by
      rw [← hyC, ← hyC]
      congr 2
      funext x
      ring
    simp only [dotProduct, mulVec, Fin.sum_univ_three]
    linear_combination (e 0 * e 1) * s01 + (e 0 * e 2) * s02 + (e 1 * e 2) * s12
  · intro x
    simp only [dotProduct, Fin.sum_univ_three, Pi.add_apply]
    ring

theorem sqDist_foot (x a e : V3) (he : e ⬝ᵥ e = 1) (s : ℝ) :
    sqDist x (a + s • e) = (x - a) ⬝ᵥ (x - a) - ((x - a) ⬝ᵥ e) ^ 2 + (s - (x - a) ⬝ᵥ e) ^ 2 := by
  have : e 0 ^ 2 + e 1 ^ 2 + e 2 ^ 2 = 1 := by
    rw [← he]
    simp only [dotProduct, Fin.sum_univ_three]
    ring
  simp only [sqDist, dotProduct, Fin.sum_univ_three, Pi.add_apply, Pi.smul_apply, Pi.sub_apply,
    smul_eq_mul]
  linear_combination s ^ 2 * this

theorem exists_unit_dir (d : V3) : ∃ (e : V3) (k : ℝ), e ⬝ᵥ e = 1 ∧ d = k • e := by
  by_cases hd : d = 0
  · refine ⟨![1, 0, 0], 0, ?_, by rw [hd, zero_smul]⟩
    simp [dotProduct, Fin.sum_univ_three]
  · have h1 : d ⬝ᵥ d ≠ 0 := fun h => hd (dotProduct_self_eq_zero.1 h)
    have h2 : 0 < d ⬝ᵥ d := lt_of_le_of_ne (by
      simp only [dotProduct]
      exact Finset.sum_nonneg fun i _ => mul_self_nonneg _) (Ne.symm h1)
    have h3 : Real.sqrt (d ⬝ᵥ d) ≠ 0 := (Real.sqrt_pos.2 h2).ne'
    refine ⟨(Real.sqrt (d ⬝ᵥ d))⁻¹ • d, Real.sqrt (d ⬝ᵥ d), ?_, ?_⟩
    · rw [smul_dotProduct, dotProduct_smul, smul_eq_mul, smul_eq_mul, ← mul_assoc, ← mul_inv,
        Real.mul_self_sqrt h2.le, inv_mul_cancel₀ h1]
    · rw [smul_smul, mul_inv_cancel₀ h3, one_smul]

theorem cauchy3 (c e : V3) (he : e ⬝ᵥ e = 1) : (c ⬝ᵥ e) ^ 2 ≤ c ⬝ᵥ c := by
  have h : 0 ≤ (c - (c ⬝ᵥ e) • e) ⬝ᵥ (c - (c ⬝ᵥ e) • e) := by
    simp only [dotProduct]
    exact Finset.sum_nonneg fun i _ => mul_self_nonneg _
  have h2 : (c - (c ⬝ᵥ e) • e) ⬝ᵥ (c - (c ⬝ᵥ e) • e) = c ⬝ᵥ c - (c ⬝ᵥ e) ^ 2 := by
    rw [sub_dotProduct, dotProduct_sub, dotProduct_sub, smul_dotProduct, smul_dotProduct,
      dotProduct_smul, dotProduct_smul, he, dotProduct_comm e c]
    simp only [smul_eq_mul]
    ring
  linarith

/-- C81: the line through the mean of a non-empty list of points, in the direction of the eigenvector of
the largest eigenvalue of their covariance, is the line that fits them best; the direction has
length 1. -/
theorem C81_best_line {eig : Eig} (he : EigSpec eig) (X : List V3) (hX : X ≠ []) :
    ∃ m C, calcMeanAndCovariance X = some (m, C) ∧
      (fun i => (eig C).2 i 2) ⬝ᵥ (fun i => (eig C).2 i 2) = 1 ∧
      BestLine X m fun i => (eig C).2 i 2 := by
  obtain ⟨m, C, hmc, h0, hC⟩ := mean_cov_some hX
  have hsym : Cᵀ = C := by
    have hl' : (X.length : ℝ) ≠ 0 := Nat.cast_ne_zero.2 fun h => hX (List.length_eq_zero_iff.1 h)
    ext i j
    rw [transpose_apply]
    apply mul_left_cancel₀ hl'
    rw [hC, hC]
    congr 2
    funext x
    ring
  refine ⟨m, C, hmc, (rayleigh he C hsym 0).1, ?_⟩
  set u : V3 := fun i => (eig C).2 i 2 with hu
  have huu : u ⬝ᵥ u = 1 := (rayleigh he C hsym 0).1
  refine ⟨fun x => m + ((x - m) ⬝ᵥ u) • u, fun x _ => ⟨_, rfl⟩, fun a d foot' hf => ?_⟩
  obtain ⟨e, k, hee, rfl⟩ := exists_unit_dir d
  have hl0 : (0 : ℝ) ≤ X.length := Nat.cast_nonneg _
  have lhs : total X (fun x => m + ((x - m) ⬝ᵥ u) • u) =
      X.length * (C 0 0 + C 1 1 + C 2 2 - u ⬝ᵥ (C *ᵥ u)) := by
    have := line_sum X m 0 u C h0 hC
    simp only [add_zero, zero_dotProduct] at this
    rw [show (0 : ℝ) - 0 ^ 2 = 0 by ring, mul_zero, add_zero] at this
    rw [← this]
    unfold total
    congr 2
    funext x
    rw [sqDist_foot x m u huu]
    ring
  have rhs : X.length * (C 0 0 + C 1 1 + C 2 2 - e ⬝ᵥ (C *ᵥ e)) ≤ total X foot' := by
    have h1 := line_sum X m (m - a) e C h0 hC
    have h2 := cauchy3 (m - a) e hee
    have h3 : (X.map fun x => (x - m + (m - a)) ⬝ᵥ (x - m + (m - a)) - ((x - m + (m - a)) ⬝ᵥ e) ^ 2).sum ≤
        total X foot' := by
      unfold total
      refine List.sum_le_sum fun x hx => ?_
      obtain ⟨s, hs⟩ := hf x hx
      rw [hs, smul_smul, sqDist_foot x a e hee, sub_add_sub_cancel]
      exact le_add_of_nonneg_right (sq_nonneg _)
    have h4 := mul_nonneg hl0 (sub_nonneg.2 h2)
    linarith
  have hr := (rayleigh he C hsym e).2
  rw [hee, mul_one] at hr
  rw [lhs]
  refine le_trans (mul_le_mul_of_nonneg_left ?_ hl0) rhs
  linarith

/-- C81: the covariance of a non-empty list of points is symmetric and positive semidefinite, and its
quadratic form is the mean squared deviation along a direction; the mean is the point with the smallest
sum of squared distances. -/
theorem C81_covariance (X : List V3) (hX : X ≠ []) :
    ∃ m C, calcMeanAndCovariance X = some (m, C) ∧ C.PosSemidef ∧
      (∀ v : V3, X.length * (v ⬝ᵥ (C *ᵥ v)) = (X.map fun x => (v ⬝ᵥ (x - m)) ^ 2).sum) ∧
      ∀ a : V3, total X (fun _ => m) ≤ total X fun _ => a := by
  obtain ⟨m, C, hmc, h0, hC⟩ := mean_cov_some hX
  have hl' : (X.length : ℝ) ≠ 0 := Nat.cast_ne_zero.2 fun h => hX (List.length_eq_zero_iff.1 h)
  have hpos : (0 : ℝ) < X.length := lt_of_le_of_ne (Nat.cast_nonneg _) (Ne.symm hl')
  have hsym : ∀ i j, C i j = C j i := by
    intro i j
    apply mul_left_cancel₀ hl'
    rw [hC, hC]
    congr 2
    funext x
    ring
  have hquad : ∀ v : V3, X.length * (v ⬝ᵥ (C *ᵥ v)) = (X.map fun x => (v ⬝ᵥ (x - m)) ^ 2).sum := by
    intro v
    set Y := X.map fun x => x - m with hY
    have hmap : ∀ f : V3 → ℝ, (X.map fun x => f (x - m)).sum = (Y.map f).sum := by
      intro f
      rw [hY, List.map_map]
      rfl
    have hyC : ∀ i j, (Y.map fun x => x i * x j).sum = X.length * C i j := by
      intro i j
      rw [← hmap fun x => x i * x j, hC i j]
      rfl
    rw [hmap fun y => (v ⬝ᵥ y) ^ 2]
    rw [sum_quadratic Y _ 0 0 0 0 (v 0 * v 0) (v 1 * v 1) (v 2 * v 2) (2 * (v 0 * v 1))
      (2 * (v 0 * v 2)) (2 * (v 1 * v 2))]
    · rw [hyC, hyC, hyC, hyC, hyC, hyC]
      simp only [dotProduct, mulVec, Fin.sum_univ_three]
      rw [hsym 1 0, hsym 2 0, hsym 2 1]
      ring
    · intro x
      simp only [dotProduct, Fin.sum_univ_three]
      ring
  refine ⟨m, C, hmc, ?_, hquad, fun a => ?_⟩
  · refine PosSemidef.of_dotProduct_mulVec_nonneg ?_ fun v => ?_
    · ext i j
      rw [conjTranspose_apply, star_trivial, hsym]
    · rw [star_trivial]
      have h1 : 0 ≤ X.length * (v ⬝ᵥ (C *ᵥ v)) := by
        rw [hquad]
        refine List.sum_nonneg fun y hy => ?_
        rw [List.mem_map] at hy
        obtain ⟨x, -, rfl⟩ := hy
        exact sq_nonneg _
      exact nonneg_of_mul_nonneg_right h1 hpos
  · have key : ∀ Y : List V3, (Y.map fun x => sqDist x a).sum =
        (Y.map fun x => sqDist x m).sum + 2 * (m 0 - a 0) * (Y.map fun x => x 0 - m 0).sum +
        2 * (m 1 - a 1) * (Y.map fun x => x 1 - m 1).sum +
        2 * (m 2 - a 2) * (Y.map fun x => x 2 - m 2).sum + Y.length * sqDist m a := by
      intro Y
      induction Y with
      | nil => simp
      | cons y Y ih =>
        simp only [List.map_cons, List.sum_cons, List.length_cons, ih]
        simp only [sqDist]
        push_cast
        ring
    unfold total
    rw [key X, h0, h0, h0]
    have : 0 ≤ X.length * sqDist m a := mul_nonneg hpos.le (by unfold sqDist; positivity)
    linarith

theorem edge_distance (T : Pose) (p m u : V3) (hu : u ⬝ᵥ u = 1) :
    IsDistance (OnRay m u) (T.linear *ᵥ p + T.translation)
      (len (makeEdgeResidual T p (m - u) (m + u)) / 2) := by
  have hne : m - u ≠ m + u := by
    intro h
    have h2 : (2 : ℝ) • u = 0 := by
      rw [two_smul]
      have : m + u - (m - u) = 0 := sub_eq_zero.2 h.symm
      rw [← this]
      abel
    have : u = 0 := (smul_eq_zero.1 h2).resolve_left two_ne_zero
    rw [this, zero_dotProduct] at hu
    exact zero_ne_one hu
  have hd := C52_distance T p (m - u) (m + u) hne
  have h2u : m + u - (m - u) = (2 : ℝ) • u := by
    rw [two_smul]
    abel
  have hlen : len (m + u - (m - u)) = 2 := by
    rw [h2u, len, smul_dotProduct, dotProduct_smul, hu]
    simp only [smul_eq_mul, mul_one]
    rw [show (2 : ℝ) * 2 = 2 ^ 2 by ring, Real.sqrt_sq (by norm_num)]
  rw [hlen] at hd
  have hiff : ∀ x, OnLine (m - u) (m + u) x ↔ OnRay m u x := by
    intro x
    unfold OnLine OnRay
    rw [h2u]
    constructor
    · rintro ⟨s, rfl⟩
      refine ⟨2 * s - 1, ?_⟩
      module
    · rintro ⟨s, rfl⟩
      refine ⟨(s + 1) / 2, ?_⟩
      module
  have : OnLine (m - u) (m + u) = OnRay m u := funext fun x => propext (hiff x)
  rwa [this] at hd

/-- C81: for a map with at least one point the edge block of a scan point exists: its residual has three
components and is, in length, twice the distance of the point moved by the pose from the line that fits
its neighbours best. -/
theorem C81_edge_residual {knn : Knn} (hk : KnnSpec knn) {eig : Eig} (he : EigSpec eig) (map : List V3)
    (hm : map ≠ []) (k : ℕ) (h0 : 0 < k) (T : Pose) (p : V3) :
    ∃ X a d J r, nearestKSearch knn map (T.apply p) k = .ok X ∧ BestLine X a d ∧ d ⬝ᵥ d = 1 ∧
      edgeBlock knn eig map k T p = .ok (⟨3, 7, J⟩, ⟨3, r⟩) ∧
      IsDistance (OnRay a d) (T.linear *ᵥ p + T.translation) (len r / 2) := by
  obtain ⟨X0, hX0, hX⟩ := nearestKSearch_pos hk map (T.apply p) k h0 hm
  set X := X0 ++ List.replicate (k - map.length) (map.head hm) with hXdef
  have hne : X ≠ [] := by
    intro h
    have := congrArg List.length h
    rw [hXdef, List.length_append, hX0.1, List.length_replicate, List.length_nil] at this
    have := List.length_pos_iff.2 hm
    omega
  obtain ⟨m, C, hmc, hu, hbest⟩ := C81_best_line he X hne
  set u : V3 := fun i => (eig C).2 i 2 with hudef
  refine ⟨X, m, u, makeEdgeJacobianRow (Quat.ofMatrix T.linear) p (m - u) (m + u),
    makeEdgeResidual T p (m - u) (m + u), hX, hbest, hu, ?_, ?_⟩
  · unfold edgeBlock
    simp only [hX, hmc, finite, bind, Except.bind, pure, Except.pure]
    rfl
  · exact edge_distance T p m u hu

/-! ### The hypotheses can be met -/

theorem exists_eig (C : Matrix (Fin 3) (Fin 3) ℝ) (hC : Cᵀ = C) :
    ∃ r : (Fin 3 → ℝ) × Matrix (Fin 3) (Fin 3) ℝ, r.2ᵀ * r.2 = 1 ∧
      C * r.2 = r.2 * Matrix.diagonal r.1 ∧ r.1 0 ≤ r.1 1 ∧ r.1 1 ≤ r.1 2 := by
  have hH : C.IsHermitian := by
    rw [Matrix.IsHermitian, conjTranspose_eq_transpose_of_trivial, hC]
  set U : Matrix (Fin 3) (Fin 3) ℝ := (hH.eigenvectorUnitary : Matrix (Fin 3) (Fin 3) ℝ) with hU
  set l := hH.eigenvalues with hl
  have h1 : Uᵀ * U = 1 := by
    have := (Matrix.mem_unitaryGroup_iff'.1 hH.eigenvectorUnitary.2)
    rwa [star_eq_conjTranspose, conjTranspose_eq_transpose_of_trivial] at this
  have h2 : ∀ j, C *ᵥ (fun i => U i j) = l j • fun i => U i j := by
    intro j
    exact hH.mulVec_eigenvectorBasis j
  set σ := Tuple.sort l
  have hm : Monotone (l ∘ σ) := Tuple.monotone_sort l
  refine ⟨(l ∘ σ, U.submatrix id σ), ?_, ?_, hm (by decide), hm (by decide)⟩
  · ext i j
    have := congrFun (congrFun h1 (σ i)) (σ j)
    rw [Matrix.mul_apply] at this ⊢
    rw [Matrix.one_apply] at this ⊢
    simpa using this
  · ext i j
    have := congrFun (h2 (σ j)) i
    rw [Matrix.mul_diagonal, Matrix.mul_apply]
    simp only [Matrix.submatrix_apply, id, Function.comp]
    rw [mul_comm (U i (σ j))]
    exact this

open Classical in
/-- An eigensolver. -/
noncomputable def exEig : Eig := fun C => if h : Cᵀ = C then (exists_eig C h).choose else (0, 0)

theorem exEig_spec : EigSpec exEig := by
  intro C h
  unfold exEig
  rw [dif_pos h]
  exact (exists_eig C h).choose_spec

example : ∃ m C, calcMeanAndCovariance [![1, 0, 0], ![2, 0, 1], ![3, 0, 1]] = some (m, C) ∧
    (fun i => (exEig C).2 i 2) ⬝ᵥ (fun i => (exEig C).2 i 2) = 1 ∧
    BestLine [![1, 0, 0], ![2, 0, 1], ![3, 0, 1]] m fun i => (exEig C).2 i 2 :=
  C81_best_line exEig_spec _ (by simp)

example : ∃ X a d J r, nearestKSearch exKnn [![1, 0, 0], ![2, 0, 1], ![3, 0, 1]]
      ((⟨1, ![0, 0, 1]⟩ : Pose).apply ![1, 2, 3]) (2 : ℕ) = .ok X ∧ BestLine X a d ∧ d ⬝ᵥ d = 1 ∧
    edgeBlock exKnn exEig [![1, 0, 0], ![2, 0, 1], ![3, 0, 1]] (2 : ℕ) ⟨1, ![0, 0, 1]⟩ ![1, 2, 3] =
      .ok (⟨3, 7, J⟩, ⟨3, r⟩) ∧
    IsDistance (OnRay a d) ((1 : Matrix (Fin 3) (Fin 3) ℝ) *ᵥ ![1, 2, 3] + ![0, 0, 1]) (len r / 2) :=
  C81_edge_residual exKnn_spec exEig_spec _ (by simp) 2 (by norm_num) _ _

/-- A line that does not fit best: the `y` axis, for points on the `x` axis. -/
example : ¬ BestLine [![1, 0, 0], ![-1, 0, 0]] 0 ![0, 1, 0] := by
  rintro ⟨foot, h1, h2⟩
  have h3 := h2 0 ![1, 0, 0] id (fun x hx => by
    rcases List.mem_cons.1 hx with rfl | hx
    · exact ⟨1, by simp⟩
    · rw [List.mem_singleton] at hx
      subst hx
      exact ⟨-1, by simp⟩)
  obtain ⟨s, hs⟩ := h1 ![1, 0, 0] (by simp)
  obtain ⟨t, ht⟩ := h1 ![-1, 0, 0] (by simp)
  simp only [total, List.map_cons, List.map_nil, List.sum_cons, List.sum_nil, hs, ht, id, sqDist] at h3
  simp at h3
  nlinarith [sq_nonneg s, sq_nonneg t]

end Verif.Loam
