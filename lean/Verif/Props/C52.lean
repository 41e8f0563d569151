/-
C52 edge residual, C53 surface residual, C72 the alignment residual and the local parametrisation
of poses.
-/
import Verif.Model.Residual
import Verif.Props.C47
import Mathlib.LinearAlgebra.Matrix.DotProduct
import Mathlib.Algebra.BigOperators.Field
import Mathlib.Algebra.Order.BigOperators.Ring.Finset
import Mathlib.Analysis.Calculus.FDeriv.Comp
import Mathlib.Analysis.Calculus.FDeriv.Linear
import Mathlib.Analysis.Calculus.Deriv.Pi
import Mathlib.Analysis.SpecialFunctions.Trigonometric.Deriv

set_option autoImplicit false

namespace Verif.Loc

open Matrix Verif.Rot

/-! ### Specifications -/

/-- The points of the line through `p1` and `p2`. -/
def OnLine (p1 p2 p : Fin 3 → ℝ) : Prop := ∃ s : ℝ, p = p1 + s • (p2 - p1)

/-- The points of the plane `w · x + 1 = 0`. -/
def OnPlane {n : ℕ} (w x : Fin n → ℝ) : Prop := w ⬝ᵥ x + 1 = 0

/-- Euclidean length. -/
noncomputable def len {n : ℕ} (v : Fin n → ℝ) : ℝ := Real.sqrt (v ⬝ᵥ v)

/-- `d` is the distance of `p` from the set `S`: attained, and minimal. -/
def IsDistance {n : ℕ} (S : (Fin n → ℝ) → Prop) (p : Fin n → ℝ) (d : ℝ) : Prop :=
  (∃ x, S x ∧ len (p - x) = d) ∧ ∀ x, S x → d ≤ len (p - x)

/-- The image of `p0` under the rotation `q p q*` and translation with coordinates `c`: four for the
quaternion, three for the translation. -/
noncomputable def moved (p0 : Fin 3 → ℝ) (c : Fin (4 + 3) → ℝ) : Fin 3 → ℝ :=
  sandwich p0 (fun i => c (Fin.castAdd 3 i)) + fun i => c (Fin.natAdd 4 i)

/-- Coordinates of a pose. -/
def coords (q : Quat) (t : Fin 3 → ℝ) : Fin (4 + 3) → ℝ := Fin.append (toWXYZ q) t

/-! ### Lemmas -/

theorem cross_eq (a b : Fin 3 → ℝ) : Rot.cross a b = a ⨯₃ b := rfl

theorem dot3 (a b : Fin 3 → ℝ) : a ⬝ᵥ b = a 0 * b 0 + a 1 * b 1 + a 2 * b 2 := by
  simp [dotProduct, Fin.sum_univ_succ, add_assoc]

theorem dot_self_nonneg {n : ℕ} (v : Fin n → ℝ) : 0 ≤ v ⬝ᵥ v :=
  Finset.sum_nonneg fun i _ => mul_self_nonneg _

theorem len_sq {n : ℕ} (v : Fin n → ℝ) : len v ^ 2 = v ⬝ᵥ v := Real.sq_sqrt (dot_self_nonneg v)

theorem len_eq_zero {n : ℕ} (v : Fin n → ℝ) : len v = 0 ↔ v = 0 := by
  unfold len
  rw [Real.sqrt_eq_zero (dot_self_nonneg v), dotProduct_self_eq_zero]

theorem coords_left (q : Quat) (t : Fin 3 → ℝ) : (fun i => coords q t (Fin.castAdd 3 i)) = toWXYZ q := by
  funext i; simp [coords]

theorem coords_right (q : Quat) (t : Fin 3 → ℝ) : (fun i => coords q t (Fin.natAdd 4 i)) = t := by
  funext i; simp [coords]

/-- For unit quaternions the pose moves points as the specification says. -/
theorem makePose_apply (q : Quat) (hq : q.IsUnit) (t p0 : Fin 3 → ℝ) :
    (makePose q t).apply p0 = moved p0 (coords q t) := by
  unfold moved
  rw [coords_left, coords_right, ← toRotationMatrix_sandwich q hq]
  rfl

theorem hcat_mulVec {m k l : ℕ} (A : Matrix (Fin m) (Fin k) ℝ) (B : Matrix (Fin m) (Fin l) ℝ)
    (v : Fin (k + l) → ℝ) :
    hcat A B *ᵥ v = A *ᵥ (fun i => v (Fin.castAdd l i)) + B *ᵥ fun i => v (Fin.natAdd k i) := by
  ext i
  simp [hcat, Matrix.mulVec, dotProduct, Fin.sum_univ_add]

theorem mul_hcat {m n k l : ℕ} (A : Matrix (Fin m) (Fin n) ℝ) (B : Matrix (Fin n) (Fin k) ℝ)
    (C : Matrix (Fin n) (Fin l) ℝ) : A * hcat B C = hcat (A * B) (A * C) := by
  ext i j
  refine Fin.addCases (fun j => ?_) (fun j => ?_) j <;> simp [hcat, Matrix.mul_apply]

theorem mat_comp {l m n : ℕ} (A : Matrix (Fin l) (Fin m) ℝ) (B : Matrix (Fin m) (Fin n) ℝ) :
    (mat A).comp (mat B) = mat (A * B) := by
  ext v
  simp [mat_apply, Matrix.mulVec_mulVec]

/-- Derivative of the moved point by the coordinates of the pose. -/
theorem moved_derivative (q : Quat) (t p0 : Fin 3 → ℝ) :
    HasFDerivAt (moved p0) (mat (hcat (dRpDq q p0) 1)) (coords q t) := by
  let L : (Fin (4 + 3) → ℝ) →L[ℝ] (Fin 4 → ℝ) :=
    ContinuousLinearMap.pi fun i => ContinuousLinearMap.proj (Fin.castAdd 3 i)
  let Rt : (Fin (4 + 3) → ℝ) →L[ℝ] (Fin 3 → ℝ) :=
    ContinuousLinearMap.pi fun i => ContinuousLinearMap.proj (Fin.natAdd 4 i)
  have h1 : HasFDerivAt (sandwich p0) (mat (dRpDq q p0)) (L (coords q t)) := by
    have : L (coords q t) = toWXYZ q := coords_left q t
    rw [this]
    exact C49_derivative q p0
  refine ((h1.comp (coords q t) L.hasFDerivAt).add Rt.hasFDerivAt).congr_fderiv ?_
  ext v i
  have h := congrFun (hcat_mulVec (dRpDq q p0) (1 : Matrix (Fin 3) (Fin 3) ℝ) v) i
  rw [Matrix.one_mulVec] at h
  exact h.symm

/-- Derivative of the cross product of the differences to two fixed points. -/
theorem cross_derivative (p1 p2 p : Fin 3 → ℝ) :
    HasFDerivAt (fun x : Fin 3 → ℝ => (x - p1) ⨯₃ (x - p2)) (mat (hat (p2 - p1))) p := by
  have hp : ∀ (i : Fin 3) (a : ℝ), HasFDerivAt (fun x : Fin 3 → ℝ => x i - a)
      (ContinuousLinearMap.proj (R := ℝ) (φ := fun _ : Fin 3 => ℝ) i) p := fun i a =>
    ((ContinuousLinearMap.proj (R := ℝ) (φ := fun _ : Fin 3 => ℝ) i).hasFDerivAt).sub_const a
  rw [hasFDerivAt_pi']
  intro i
  fin_cases i
  · refine (((hp 1 (p1 1)).mul (hp 2 (p2 2))).sub ((hp 2 (p1 2)).mul (hp 1 (p2 1)))).congr_fderiv ?_
    ext v
    simp [mat_apply, hat, Matrix.mulVec, dotProduct, Fin.sum_univ_succ]
    ring
  · refine (((hp 2 (p1 2)).mul (hp 0 (p2 0))).sub ((hp 0 (p1 0)).mul (hp 2 (p2 2)))).congr_fderiv ?_
    ext v
    simp [mat_apply, hat, Matrix.mulVec, dotProduct, Fin.sum_univ_succ]
    ring
  · refine (((hp 0 (p1 0)).mul (hp 1 (p2 1))).sub ((hp 1 (p1 1)).mul (hp 0 (p2 0)))).congr_fderiv ?_
    ext v
    simp [mat_apply, hat, Matrix.mulVec, dotProduct, Fin.sum_univ_succ]
    ring

/-! ### C52 -/

/-- C52: the residual vanishes exactly when the moved point is on the line. -/
theorem C52_zero_iff (T : Pose) (p0 p1 p2 : Fin 3 → ℝ) (h : p1 ≠ p2) :
    makeEdgeResidual T p0 p1 p2 = 0 ↔ OnLine p1 p2 (T.linear *ᵥ p0 + T.translation) := by
  unfold makeEdgeResidual
  simp only
  change Rot.cross ((T.linear *ᵥ p0 + T.translation) - p1) _ = 0 ↔ _
  change Rot.cross _ ((T.linear *ᵥ p0 + T.translation) - p2) = 0 ↔ _
  generalize T.linear *ᵥ p0 + T.translation = p
  have hd : (p2 - p1) ⬝ᵥ (p2 - p1) ≠ 0 := by
    rw [Ne, dotProduct_self_eq_zero, sub_eq_zero]
    exact fun e => h e.symm
  constructor
  · intro h0
    refine ⟨(p - p1) ⬝ᵥ (p2 - p1) / ((p2 - p1) ⬝ᵥ (p2 - p1)), ?_⟩
    have e0 := congrFun h0 0
    have e1 := congrFun h0 1
    have e2 := congrFun h0 2
    simp [Rot.cross] at e0 e1 e2
    ext i
    simp only [Pi.add_apply, Pi.smul_apply, smul_eq_mul]
    rw [div_mul_eq_mul_div, ← sub_eq_iff_eq_add', eq_div_iff hd, dot3, dot3]
    fin_cases i <;> simp
    · linear_combination (p2 2 - p1 2) * e1 - (p2 1 - p1 1) * e2
    · linear_combination (p2 0 - p1 0) * e2 - (p2 2 - p1 2) * e0
    · linear_combination (p2 1 - p1 1) * e0 - (p2 0 - p1 0) * e1
  · rintro ⟨s, rfl⟩
    ext i
    fin_cases i <;> simp [Rot.cross] <;> ring

/-- C52: the length of the residual is the distance of the moved point from the line times the
distance of the two points. -/
theorem C52_distance (T : Pose) (p0 p1 p2 : Fin 3 → ℝ) (h : p1 ≠ p2) :
    IsDistance (OnLine p1 p2) (T.linear *ᵥ p0 + T.translation)
      (len (makeEdgeResidual T p0 p1 p2) / len (p2 - p1)) := by
  unfold makeEdgeResidual
  simp only
  have hap : T.apply p0 = T.linear *ᵥ p0 + T.translation := rfl
  rw [hap]
  generalize T.linear *ᵥ p0 + T.translation = p
  have hd : 0 < (p2 - p1) ⬝ᵥ (p2 - p1) := by
    refine lt_of_le_of_ne (dot_self_nonneg _) (Ne.symm ?_)
    rw [Ne, dotProduct_self_eq_zero, sub_eq_zero]
    exact fun e => h e.symm
  have hl : 0 < len (p2 - p1) := Real.sqrt_pos.2 hd
  -- squared lengths
  have key : ∀ s : ℝ, (p - (p1 + s • (p2 - p1))) ⬝ᵥ (p - (p1 + s • (p2 - p1))) *
      ((p2 - p1) ⬝ᵥ (p2 - p1)) =
      Rot.cross (p - p1) (p - p2) ⬝ᵥ Rot.cross (p - p1) (p - p2) +
        ((p - p1) ⬝ᵥ (p2 - p1) - s * ((p2 - p1) ⬝ᵥ (p2 - p1))) ^ 2 := by
    intro s
    simp [dot3, Rot.cross]
    ring
  constructor
  · refine ⟨_, ⟨(p - p1) ⬝ᵥ (p2 - p1) / ((p2 - p1) ⬝ᵥ (p2 - p1)), rfl⟩, ?_⟩
    have hk := key ((p - p1) ⬝ᵥ (p2 - p1) / ((p2 - p1) ⬝ᵥ (p2 - p1)))
    rw [div_mul_cancel₀ _ hd.ne', sub_self, zero_pow two_ne_zero, add_zero] at hk
    rw [eq_div_iff hl.ne']
    unfold len
    rw [← Real.sqrt_mul (dot_self_nonneg _), hk]
  · rintro x ⟨s, rfl⟩
    rw [div_le_iff₀ hl]
    unfold len
    rw [← Real.sqrt_mul (dot_self_nonneg _), key s]
    exact Real.sqrt_le_sqrt (le_add_of_nonneg_right (sq_nonneg _))

/-- C52: the Jacobian row is the derivative of the residual by quaternion and translation: the code's
residual is the function `c ↦ (p - p1) × (p - p2)`, `p` the point moved by the pose with coordinates
`c`, and the code's matrix is the derivative of that function at the pose. -/
theorem C52_jacobian (q : Quat) (hq : q.IsUnit) (t p0 p1 p2 : Fin 3 → ℝ) :
    makeEdgeResidual (makePose q t) p0 p1 p2 =
      (moved p0 (coords q t) - p1) ⨯₃ (moved p0 (coords q t) - p2) ∧
    HasFDerivAt (fun c => (moved p0 c - p1) ⨯₃ (moved p0 c - p2))
      (mat (makeEdgeJacobianRow q p0 p1 p2)) (coords q t) := by
  constructor
  · unfold makeEdgeResidual
    simp only
    rw [makePose_apply q hq]
    rfl
  · refine ((cross_derivative p1 p2 (moved p0 (coords q t))).comp (coords q t)
      (moved_derivative q t p0)).congr_fderiv ?_
    rw [mat_comp, mul_hcat, Matrix.mul_one]
    rfl

/-- C52, `TripletCross`: for distinct points it is the vector from the first point to the foot of its
perpendicular on the line through the other two, times the squared distance of these. -/
theorem C52_triplet_cross (p0 p1 p2 : Fin 3 → ℝ) (h : p1 ≠ p2) :
    ∃ foot, OnLine p1 p2 foot ∧ IsDistance (OnLine p1 p2) p0 (len (p0 - foot)) ∧
      tripletCross p0 p1 p2 = len (p2 - p1) ^ 2 • (foot - p0) := by
  have hd : (p2 - p1) ⬝ᵥ (p2 - p1) ≠ 0 := by
    rw [Ne, dotProduct_self_eq_zero, sub_eq_zero]
    exact h.symm
  set s : ℝ := ((p0 - p1) ⬝ᵥ (p2 - p1)) / ((p2 - p1) ⬝ᵥ (p2 - p1)) with hs
  have hs' : s * ((p2 - p1) ⬝ᵥ (p2 - p1)) = (p0 - p1) ⬝ᵥ (p2 - p1) := div_mul_cancel₀ _ hd
  clear_value s
  refine ⟨p1 + s • (p2 - p1), ⟨s, rfl⟩, ⟨⟨_, ⟨s, rfl⟩, rfl⟩, ?_⟩, ?_⟩
  · rintro x ⟨r, rfl⟩
    refine Real.sqrt_le_sqrt ?_
    have hsq : 0 ≤ (r - s) ^ 2 * ((p2 - p1) ⬝ᵥ (p2 - p1)) :=
      mul_nonneg (sq_nonneg _) (dot_self_nonneg _)
    simp only [dot3, Pi.sub_apply, Pi.add_apply, Pi.smul_apply, smul_eq_mul] at hs' hsq ⊢
    linear_combination hsq + (2 * s - 2 * r) * hs'
  · rw [len_sq]
    simp only [dot3, Pi.sub_apply] at hs'
    funext i
    fin_cases i
    · simp [tripletCross, cross_eq, crossProduct, dot3]
      linear_combination -(p2 0 - p1 0) * hs'
    · simp [tripletCross, cross_eq, crossProduct, dot3]
      linear_combination -(p2 1 - p1 1) * hs'
    · simp [tripletCross, cross_eq, crossProduct, dot3]
      linear_combination -(p2 2 - p1 2) * hs'

/-- The point (0, 1, 0) and the line from (0, 0, 0) to (2, 0, 0). -/
example : tripletCross ![0, 1, 0] ![0, 0, 0] ![2, 0, 0] = ![(0 : ℝ), -4, 0] := by
  funext i
  fin_cases i <;> simp [tripletCross, cross_eq, crossProduct] <;> norm_num

/-! ### C53 -/

/-- C53: for a non-zero normal the residual exists, vanishes exactly on the plane, and its absolute
value is the distance from the plane; for the zero normal it is not finite. -/
theorem C53_distance {n : ℕ} (w x : Fin n → ℝ) :
    (w = 0 → signedPointPlaneDistance w x = none) ∧
    (w ≠ 0 → ∃ d, signedPointPlaneDistance w x = some d ∧ pointPlaneDistance w x = some |d| ∧
      (d = 0 ↔ OnPlane w x) ∧ IsDistance (OnPlane w) x |d|) := by
  have hn : Rot.norm w = len w := rfl
  constructor
  · intro hw
    unfold signedPointPlaneDistance
    rw [if_pos]
    rw [hn, len_eq_zero, hw]
  · intro hw
    have hl : 0 < len w := lt_of_le_of_ne (Real.sqrt_nonneg _) fun e => hw ((len_eq_zero w).1 e.symm)
    have hsq := len_sq w
    have h1 : signedPointPlaneDistance w x = some ((w ⬝ᵥ x + 1) / len w) := by
      unfold signedPointPlaneDistance
      rw [hn, if_neg hl.ne']
      rfl
    refine ⟨_, h1, by rw [pointPlaneDistance, h1]; rfl, ?_, ?_, ?_⟩
    · rw [div_eq_zero_iff, or_iff_left hl.ne']
      rfl
    · refine ⟨x - ((w ⬝ᵥ x + 1) / (w ⬝ᵥ w)) • w, ?_, ?_⟩
      · unfold OnPlane
        rw [dotProduct_sub, dotProduct_smul, smul_eq_mul, div_mul_cancel₀ _ (by rw [← hsq]; positivity)]
        ring
      · rw [sub_sub_cancel]
        unfold len
        rw [smul_dotProduct, dotProduct_smul, smul_eq_mul, smul_eq_mul, ← mul_assoc,
          Real.sqrt_mul (mul_self_nonneg _), Real.sqrt_mul_self_eq_abs, abs_div, abs_div,
          abs_of_nonneg (dot_self_nonneg w), abs_of_nonneg (Real.sqrt_nonneg _)]
        have : w ⬝ᵥ w = Real.sqrt (w ⬝ᵥ w) * Real.sqrt (w ⬝ᵥ w) :=
          (Real.mul_self_sqrt (dot_self_nonneg w)).symm
        have hl' : Real.sqrt (w ⬝ᵥ w) ≠ 0 := hl.ne'
        rw [div_mul_eq_mul_div, div_eq_div_iff (by rw [this]; exact mul_ne_zero hl' hl') hl']
        rw [mul_assoc, ← this]
    · intro y hy
      rw [abs_div, abs_of_pos hl, div_le_iff₀ hl]
      -- Cauchy-Schwarz
      have hxy : w ⬝ᵥ x + 1 = w ⬝ᵥ (x - y) := by
        unfold OnPlane at hy
        rw [dotProduct_sub]
        linarith
      rw [hxy]
      have cs : (w ⬝ᵥ (x - y)) ^ 2 ≤ (w ⬝ᵥ w) * ((x - y) ⬝ᵥ (x - y)) := by
        have := Finset.sum_mul_sq_le_sq_mul_sq Finset.univ w (x - y)
        simpa [dotProduct, sq] using this
      rw [← Real.sqrt_sq_eq_abs, mul_comm]
      unfold len
      rw [← Real.sqrt_mul (dot_self_nonneg _)]
      exact Real.sqrt_le_sqrt cs

/-- C53: the Jacobian row is the derivative of the residual by quaternion and translation. -/
theorem C53_jacobian (w : Fin 3 → ℝ) (hw : w ≠ 0) (q : Quat) (hq : q.IsUnit) (t p : Fin 3 → ℝ) :
    ∃ J, makeJacobianRow w q p = some J ∧
      signedPointPlaneDistance w ((makePose q t).apply p) =
        some ((w ⬝ᵥ moved p (coords q t) + 1) / len w) ∧
      HasFDerivAt (fun c => fun _ : Fin 1 => (w ⬝ᵥ moved p c + 1) / len w) (mat J) (coords q t) := by
  have hn : Rot.norm w = len w := rfl
  have hl : len w ≠ 0 := fun e => hw ((len_eq_zero w).1 e)
  let u : Matrix (Fin 1) (Fin 3) ℝ := Matrix.of fun _ i => w i / len w
  refine ⟨hcat (u * dRpDq q p) u, ?_, ?_, ?_⟩
  · unfold makeJacobianRow
    rw [hn, if_neg hl]
  · rw [makePose_apply q hq]
    unfold signedPointPlaneDistance
    rw [hn, if_neg hl]
    rfl
  · have h1 : HasFDerivAt (fun x : Fin 3 → ℝ => fun _ : Fin 1 => (w ⬝ᵥ x + 1) / len w) (mat u)
        (moved p (coords q t)) := by
      have h2 : (fun x : Fin 3 → ℝ => fun _ : Fin 1 => (w ⬝ᵥ x + 1) / len w) =
          fun x => mat u x + fun _ => 1 / len w := by
        funext x i
        simp only [mat_apply, u, Matrix.mulVec, dotProduct, Matrix.of_apply, Pi.add_apply, add_div,
          Finset.sum_div]
        congr 1
        exact Finset.sum_congr rfl fun i _ => by ring
      rw [h2]
      exact (mat u).hasFDerivAt.add_const _
    refine (h1.comp (coords q t) (moved_derivative q t p)).congr_fderiv ?_
    rw [mat_comp, mul_hcat, Matrix.mul_one]

/-! ### C72 -/

/-- C72: the rows of the point-to-point alignment are derivatives of its residual. -/
theorem C72_alignment (q : Quat) (hq : q.IsUnit) (t x y : Fin 3 → ℝ) :
    alignmentResidual (makePose q t) x y = moved x (coords q t) - y ∧
    HasFDerivAt (fun c => moved x c - y) (mat (alignmentJacobian q x)) (coords q t) := by
  constructor
  · unfold alignmentResidual
    rw [makePose_apply q hq]
  · exact (moved_derivative q t x).sub_const y

/-! Non-vacuity. -/

example : OnLine ![0, 0, 0] ![1, 0, 0] ![5, 0, 0] := ⟨5, by ext i; fin_cases i <;> simp⟩
example : IsDistance (OnPlane ![(1 : ℝ), 0]) ![0, 0] 1 := by
  obtain ⟨d, h1, -, -, h2⟩ := (C53_distance ![(1 : ℝ), 0] ![0, 0]).2 (by simp)
  have hn : Rot.norm ![(1 : ℝ), 0] = 1 := by simp [Rot.norm]
  have hd : d = 1 := by
    unfold signedPointPlaneDistance at h1
    rw [hn, if_neg one_ne_zero] at h1
    simpa [planeBias] using h1.symm
  rw [hd, abs_one] at h2
  exact h2

end Verif.Loc
