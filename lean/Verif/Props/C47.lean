/-
C47 quaternion matrices, C48 hat, C49 rotation Jacobian, C50 roll-pitch-yaw, C51 rotation vectors,
C71 matrix to quaternion and back.

The specifications use Mathlib's quaternions `ℍ[ℝ]`, its cross product `⨯₃` and its derivative.
-/
import Verif.Model.Rotation
import Mathlib.Algebra.Quaternion
import Mathlib.LinearAlgebra.CrossProduct
import Mathlib.LinearAlgebra.Matrix.ToLin
import Mathlib.Analysis.Calculus.FDeriv.Mul
import Mathlib.Analysis.Calculus.FDeriv.Add
import Mathlib.Analysis.Calculus.FDeriv.Pi
import Mathlib.Topology.Algebra.Module.FiniteDimension
import Mathlib.Tactic.FinCases
import Mathlib.Tactic.LinearCombination
import Mathlib.Tactic.Ring

set_option autoImplicit false

namespace Verif.Rot

open Matrix Quaternion

/-- The quaternion of Mathlib with the same coefficients. -/
def Quat.toH (q : Quat) : ℍ[ℝ] := ⟨q.w, q.x, q.y, q.z⟩

/-- Coefficients of a quaternion of Mathlib. -/
def coeffs (h : ℍ[ℝ]) : Fin 4 → ℝ := ![h.re, h.imI, h.imJ, h.imK]

/-- A vector as a pure quaternion. -/
def pure3 (p : Fin 3 → ℝ) : ℍ[ℝ] := ⟨0, p 0, p 1, p 2⟩

/-- The vector part. -/
def im3 (h : ℍ[ℝ]) : Fin 3 → ℝ := ![h.imI, h.imJ, h.imK]

@[simp] theorem toH_re (q : Quat) : q.toH.re = q.w := rfl
@[simp] theorem toH_imI (q : Quat) : q.toH.imI = q.x := rfl
@[simp] theorem toH_imJ (q : Quat) : q.toH.imJ = q.y := rfl
@[simp] theorem toH_imK (q : Quat) : q.toH.imK = q.z := rfl
@[simp] theorem pure3_re (p : Fin 3 → ℝ) : (pure3 p).re = 0 := rfl
@[simp] theorem pure3_imI (p : Fin 3 → ℝ) : (pure3 p).imI = p 0 := rfl
@[simp] theorem pure3_imJ (p : Fin 3 → ℝ) : (pure3 p).imJ = p 1 := rfl
@[simp] theorem pure3_imK (p : Fin 3 → ℝ) : (pure3 p).imK = p 2 := rfl

/-- Unit quaternions. -/
def Quat.IsUnit (q : Quat) : Prop := q.w ^ 2 + q.x ^ 2 + q.y ^ 2 + q.z ^ 2 = 1

theorem isUnit_iff_norm (q : Quat) : q.IsUnit ↔ Quaternion.normSq q.toH = 1 := by
  rw [Quaternion.normSq_def']
  rfl

/-! ### C47 -/

/-- Eigen's product is Hamilton's. -/
theorem toH_mul (p q : Quat) : (p.mul q).toH = p.toH * q.toH := by
  ext <;> simp [Quat.mul] <;> ring

/-- C47: both matrices multiply coefficient vectors as the Hamilton product does. -/
theorem C47_product (q p : Quat) :
    leftMultiplicationMatrix q *ᵥ toWXYZ p = coeffs (q.toH * p.toH) ∧
    rightMultiplicationMatrix q *ᵥ toWXYZ p = coeffs (p.toH * q.toH) := by
  constructor <;> ext i <;> fin_cases i <;>
    simp [leftMultiplicationMatrix, rightMultiplicationMatrix, toWXYZ, coeffs,
      Matrix.mulVec, dotProduct, Fin.sum_univ_succ] <;> ring

/-- C47: a left and a right matrix commute. -/
theorem C47_commute (p q : Quat) :
    leftMultiplicationMatrix p * rightMultiplicationMatrix q =
      rightMultiplicationMatrix q * leftMultiplicationMatrix p := by
  ext i j
  fin_cases i <;> fin_cases j <;>
    simp [leftMultiplicationMatrix, rightMultiplicationMatrix, Matrix.mul_apply, Matrix.vecMul,
      dotProduct, Fin.sum_univ_succ] <;> ring

/-- C47: the matrices of unit quaternions are orthogonal. -/
theorem C47_orthogonal (q : Quat) (hq : q.IsUnit) :
    (leftMultiplicationMatrix q)ᵀ * leftMultiplicationMatrix q = 1 ∧
    (rightMultiplicationMatrix q)ᵀ * rightMultiplicationMatrix q = 1 := by
  unfold Quat.IsUnit at hq
  constructor <;> ext i j <;> fin_cases i <;> fin_cases j <;>
    simp [leftMultiplicationMatrix, rightMultiplicationMatrix, Matrix.mul_apply, Matrix.vecMul,
      dotProduct, Fin.sum_univ_succ] <;> first | ring1 | linear_combination hq

/-- C47: the coefficient vectors and quaternions correspond. -/
theorem C47_round_trip (q : Quat) (v : Fin 4 → ℝ) :
    fromWXYZ (toWXYZ q) = q ∧ toWXYZ (fromWXYZ v) = v ∧ toWXYZ q = coeffs q.toH := by
  refine ⟨rfl, ?_, rfl⟩
  ext i
  fin_cases i <;> rfl

/-! ### C48 -/

/-- C48: the hat matrix is the cross product, skew-symmetric, with trace zero. -/
theorem C48_hat (u v : Fin 3 → ℝ) :
    hat u *ᵥ v = u ⨯₃ v ∧ (hat u)ᵀ = -hat u ∧ (hat u).trace = 0 := by
  refine ⟨?_, ?_, ?_⟩
  · ext i
    fin_cases i <;>
      simp [hat, cross_apply, Matrix.mulVec, dotProduct, Fin.sum_univ_succ] <;> ring
  · ext i j
    fin_cases i <;> fin_cases j <;> simp [hat]
  · simp [hat, Matrix.trace, Fin.sum_univ_succ]

/-! ### C49 -/

/-- A matrix as a continuous linear map. -/
noncomputable def mat {m n : ℕ} (A : Matrix (Fin m) (Fin n) ℝ) : (Fin n → ℝ) →L[ℝ] (Fin m → ℝ) :=
  LinearMap.toContinuousLinearMap A.mulVecLin

theorem mat_apply {m n : ℕ} (A : Matrix (Fin m) (Fin n) ℝ) (v : Fin n → ℝ) : mat A v = A *ᵥ v := rfl

/-- Rotation of a point by the quaternion with coefficients `c`: the vector part of `q p q*`. -/
noncomputable def sandwich (p : Fin 3 → ℝ) (c : Fin 4 → ℝ) : Fin 3 → ℝ :=
  im3 ((fromWXYZ c).toH * pure3 p * star (fromWXYZ c).toH)

theorem sandwich_apply (p : Fin 3 → ℝ) (c : Fin 4 → ℝ) : sandwich p c =
    ![(c 0 * c 0 + c 1 * c 1 - c 2 * c 2 - c 3 * c 3) * p 0 + 2 * (c 1 * c 2 - c 0 * c 3) * p 1 +
        2 * (c 1 * c 3 + c 0 * c 2) * p 2,
      2 * (c 1 * c 2 + c 0 * c 3) * p 0 + (c 0 * c 0 - c 1 * c 1 + c 2 * c 2 - c 3 * c 3) * p 1 +
        2 * (c 2 * c 3 - c 0 * c 1) * p 2,
      2 * (c 1 * c 3 - c 0 * c 2) * p 0 + 2 * (c 2 * c 3 + c 0 * c 1) * p 1 +
        (c 0 * c 0 - c 1 * c 1 - c 2 * c 2 + c 3 * c 3) * p 2] := by
  ext i
  fin_cases i <;> simp [sandwich, im3, fromWXYZ] <;> ring

/-- C49: the matrix is the derivative of the vector part of `q p q*` by the coefficients of `q`. -/
theorem C49_derivative (q : Quat) (p : Fin 3 → ℝ) :
    HasFDerivAt (sandwich p) (mat (dRpDq q p)) (toWXYZ q) := by
  have hp : ∀ i : Fin 4, HasFDerivAt (fun c : Fin 4 → ℝ => c i)
      (ContinuousLinearMap.proj (R := ℝ) (φ := fun _ : Fin 4 => ℝ) i) (toWXYZ q) := fun i =>
    (ContinuousLinearMap.proj (R := ℝ) (φ := fun _ : Fin 4 => ℝ) i).hasFDerivAt
  have hm : ∀ i j : Fin 4, HasFDerivAt (fun c : Fin 4 → ℝ => c i * c j) _ (toWXYZ q) :=
    fun i j => (hp i).mul (hp j)
  rw [funext (sandwich_apply p), hasFDerivAt_pi']
  intro i
  fin_cases i
  · refine ((((((hm 0 0).add (hm 1 1)).sub (hm 2 2)).sub (hm 3 3)).mul_const (p 0)).add
      ((((hm 1 2).sub (hm 0 3)).const_mul 2).mul_const (p 1)) |>.add
      ((((hm 1 3).add (hm 0 2)).const_mul 2).mul_const (p 2))).congr_fderiv ?_
    ext v
    simp [mat_apply, dRpDq, cross, hat, Quat.vec, toWXYZ, vecMulVec, Matrix.mulVec, dotProduct,
      Fin.sum_univ_succ, Matrix.one_apply]
    ring
  · refine (((((hm 1 2).add (hm 0 3)).const_mul 2).mul_const (p 0)).add
      (((((hm 0 0).sub (hm 1 1)).add (hm 2 2)).sub (hm 3 3)).mul_const (p 1)) |>.add
      ((((hm 2 3).sub (hm 0 1)).const_mul 2).mul_const (p 2))).congr_fderiv ?_
    ext v
    simp [mat_apply, dRpDq, cross, hat, Quat.vec, toWXYZ, vecMulVec, Matrix.mulVec, dotProduct,
      Fin.sum_univ_succ, Matrix.one_apply]
    ring
  · refine (((((hm 1 3).sub (hm 0 2)).const_mul 2).mul_const (p 0)).add
      ((((hm 2 3).add (hm 0 1)).const_mul 2).mul_const (p 1)) |>.add
      (((((hm 0 0).sub (hm 1 1)).sub (hm 2 2)).add (hm 3 3)).mul_const (p 2))).congr_fderiv ?_
    ext v
    simp [mat_apply, dRpDq, cross, hat, Quat.vec, toWXYZ, vecMulVec, Matrix.mulVec, dotProduct,
      Fin.sum_univ_succ, Matrix.one_apply]
    ring

/-- For unit quaternions the rotation matrix maps a point to the vector part of `q p q*`. -/
theorem toRotationMatrix_sandwich (q : Quat) (hq : q.IsUnit) (p : Fin 3 → ℝ) :
    q.toRotationMatrix *ᵥ p = sandwich p (toWXYZ q) := by
  unfold Quat.IsUnit at hq
  rw [sandwich_apply]
  ext i
  fin_cases i <;>
    simp [Quat.toRotationMatrix, toWXYZ, Matrix.mulVec, dotProduct, Fin.sum_univ_succ]
  · linear_combination (-p 0) * hq
  · linear_combination (-p 1) * hq
  · linear_combination (-p 2) * hq

/-- The rotation matrices of unit quaternions are rotations. -/
theorem toRotationMatrix_rotation (q : Quat) (hq : q.IsUnit) :
    q.toRotationMatrixᵀ * q.toRotationMatrix = 1 ∧ q.toRotationMatrix.det = 1 := by
  unfold Quat.IsUnit at hq
  constructor
  · ext i j
    fin_cases i <;> fin_cases j <;>
      simp [Quat.toRotationMatrix, Matrix.mul_apply, Matrix.vecMul, dotProduct, Fin.sum_univ_succ]
    · linear_combination (4 * (q.y ^ 2 + q.z ^ 2)) * hq
    · linear_combination (-4 * q.x * q.y) * hq
    · linear_combination (-4 * q.x * q.z) * hq
    · linear_combination (-4 * q.x * q.y) * hq
    · linear_combination (4 * (q.x ^ 2 + q.z ^ 2)) * hq
    · linear_combination (-4 * q.y * q.z) * hq
    · linear_combination (-4 * q.x * q.z) * hq
    · linear_combination (-4 * q.y * q.z) * hq
    · linear_combination (4 * (q.x ^ 2 + q.y ^ 2)) * hq
  · rw [Matrix.det_fin_three]
    simp [Quat.toRotationMatrix]
    linear_combination (4 * (q.x ^ 2 + q.y ^ 2 + q.z ^ 2)) * hq

/-! ### C50 -/

/-- Elementary rotations. -/
noncomputable def rotX (a : ℝ) : Matrix (Fin 3) (Fin 3) ℝ :=
  !![1, 0, 0; 0, Real.cos a, -Real.sin a; 0, Real.sin a, Real.cos a]
noncomputable def rotY (a : ℝ) : Matrix (Fin 3) (Fin 3) ℝ :=
  !![Real.cos a, 0, Real.sin a; 0, 1, 0; -Real.sin a, 0, Real.cos a]
noncomputable def rotZ (a : ℝ) : Matrix (Fin 3) (Fin 3) ℝ :=
  !![Real.cos a, -Real.sin a, 0; Real.sin a, Real.cos a, 0; 0, 0, 1]

theorem mul_isUnit (p q : Quat) (hp : p.IsUnit) (hq : q.IsUnit) : (p.mul q).IsUnit := by
  rw [isUnit_iff_norm] at *
  rw [toH_mul, map_mul, hp, hq, one_mul]

/-- The rotation matrix of a product of unit quaternions. -/
theorem toRotationMatrix_mul (p q : Quat) (hp : p.IsUnit) (hq : q.IsUnit) :
    (p.mul q).toRotationMatrix = p.toRotationMatrix * q.toRotationMatrix := by
  unfold Quat.IsUnit at hp hq
  have hw : p.w ^ 2 = 1 - p.x ^ 2 - p.y ^ 2 - p.z ^ 2 := by linear_combination hp
  have hv : q.w ^ 2 = 1 - q.x ^ 2 - q.y ^ 2 - q.z ^ 2 := by linear_combination hq
  have key : ∀ v : Fin 3 → ℝ, (p.mul q).toRotationMatrix *ᵥ v =
      (p.toRotationMatrix * q.toRotationMatrix) *ᵥ v := by
    intro v
    have hpq := mul_isUnit p q hp hq
    rw [toRotationMatrix_sandwich _ hpq, ← Matrix.mulVec_mulVec, toRotationMatrix_sandwich q hq,
      toRotationMatrix_sandwich p hp]
    unfold sandwich
    have e : ∀ r : Quat, fromWXYZ (toWXYZ r) = r := fun r => rfl
    rw [e, e, e, toH_mul, star_mul]
    have hre : ∀ (r : Quat), (r.toH * pure3 v * star r.toH).re = 0 := by
      intro r
      simp
      ring
    have e2 : pure3 (im3 (q.toH * pure3 v * star q.toH)) = q.toH * pure3 v * star q.toH := by
      ext
      · rw [hre q]; rfl
      · rfl
      · rfl
      · rfl
    rw [e2]
    simp only [mul_assoc]
  exact Matrix.ext_of_mulVec_single fun i => key _

theorem ofAngleAxis_isUnit (a : ℝ) (u : Fin 3 → ℝ) (hu : u ⬝ᵥ u = 1) :
    (Quat.ofAngleAxis a u).IsUnit := by
  have h := Real.sin_sq_add_cos_sq (a / 2)
  simp [dotProduct, Fin.sum_univ_succ] at hu
  unfold Quat.IsUnit Quat.ofAngleAxis
  simp only
  linear_combination h + Real.sin (a / 2) ^ 2 * hu

theorem ofAngleAxis_rot (a : ℝ) :
    (Quat.ofAngleAxis a ![1, 0, 0]).toRotationMatrix = rotX a ∧
    (Quat.ofAngleAxis a ![0, 1, 0]).toRotationMatrix = rotY a ∧
    (Quat.ofAngleAxis a ![0, 0, 1]).toRotationMatrix = rotZ a := by
  have h1 : Real.sin a = 2 * Real.sin (a / 2) * Real.cos (a / 2) := by
    rw [← Real.sin_two_mul]; congr 1; ring
  have h2 : Real.cos a = 1 - 2 * Real.sin (a / 2) ^ 2 := by
    have h3 : Real.cos a = Real.cos (a / 2) ^ 2 - Real.sin (a / 2) ^ 2 := by
      rw [← Real.cos_two_mul']; congr 1; ring
    linear_combination h3 + Real.sin_sq_add_cos_sq (a / 2)
  refine ⟨?_, ?_, ?_⟩ <;> ext i j <;> fin_cases i <;> fin_cases j <;>
    simp [Quat.toRotationMatrix, Quat.ofAngleAxis, rotX, rotY, rotZ, h1, h2] <;> ring

/-- C50: the quaternion is a unit quaternion, and rotates as `Rz Ry Rx`. -/
theorem C50_rpy (roll pitch yaw : ℝ) :
    (rpyToQuaternionXYZ roll pitch yaw).IsUnit ∧
    (∀ p, sandwich p (toWXYZ (rpyToQuaternionXYZ roll pitch yaw)) =
      rotZ yaw *ᵥ (rotY pitch *ᵥ (rotX roll *ᵥ p))) ∧
    (rpyToQuaternionXYZ roll pitch yaw).toRotationMatrix = rotZ yaw * rotY pitch * rotX roll := by
  have ux := ofAngleAxis_isUnit roll ![1, 0, 0] (by simp [dotProduct, Fin.sum_univ_succ])
  have uy := ofAngleAxis_isUnit pitch ![0, 1, 0] (by simp [dotProduct, Fin.sum_univ_succ])
  have uz := ofAngleAxis_isUnit yaw ![0, 0, 1] (by simp [dotProduct, Fin.sum_univ_succ])
  have uzy := mul_isUnit _ _ uz uy
  have hu : (rpyToQuaternionXYZ roll pitch yaw).IsUnit := mul_isUnit _ _ uzy ux
  have hm : (rpyToQuaternionXYZ roll pitch yaw).toRotationMatrix =
      rotZ yaw * rotY pitch * rotX roll := by
    unfold rpyToQuaternionXYZ
    rw [toRotationMatrix_mul _ _ uzy ux, toRotationMatrix_mul _ _ uz uy, (ofAngleAxis_rot yaw).2.2,
      (ofAngleAxis_rot pitch).2.1, (ofAngleAxis_rot roll).1]
  refine ⟨hu, fun p => ?_, hm⟩
  rw [← toRotationMatrix_sandwich _ hu, hm, Matrix.mulVec_mulVec, Matrix.mulVec_mulVec, Matrix.mul_assoc]

/-! ### C51 -/

theorem norm_sq {n : ℕ} (v : Fin n → ℝ) : norm v ^ 2 = v ⬝ᵥ v := by
  unfold norm
  rw [Real.sq_sqrt]
  exact Finset.sum_nonneg fun i _ => mul_self_nonneg _

/-- C51: a unit quaternion. -/
theorem C51_unit (θ : Fin 3 → ℝ) : (angleAxisToQuaternion θ).IsUnit := by
  unfold angleAxisToQuaternion
  simp only
  split_ifs with h
  · simp [Quat.IsUnit, Quat.identity]
  · have hk : norm θ ≠ 0 := by intro h0; rw [h0] at h; norm_num at h
    have h1 := norm_sq θ
    simp [dotProduct, Fin.sum_univ_succ] at h1
    have h2 := Real.sin_sq_add_cos_sq (norm θ / 2)
    unfold Quat.IsUnit
    simp only
    field_simp
    linear_combination norm θ ^ 2 * h2 - Real.sin (norm θ / 2) ^ 2 * h1

/-- C51: (near-)zero vectors give the identity. -/
theorem C51_near_zero (θ : Fin 3 → ℝ) (h : norm θ < 1 / 100000000) :
    angleAxisToQuaternion θ = ⟨1, 0, 0, 0⟩ := by
  unfold angleAxisToQuaternion
  simp only
  rw [if_pos h]
  rfl

/-- C51: otherwise the rotation is the one of Rodrigues' formula, by the angle `‖θ‖` about the axis
`u = θ / ‖θ‖`. -/
theorem C51_rodrigues (θ : Fin 3 → ℝ) (h : 1 / 100000000 ≤ norm θ) (p : Fin 3 → ℝ) :
    let u := (norm θ)⁻¹ • θ
    sandwich p (toWXYZ (angleAxisToQuaternion θ)) =
      Real.cos (norm θ) • p + Real.sin (norm θ) • (u ⨯₃ p) +
        ((1 - Real.cos (norm θ)) * (u ⬝ᵥ p)) • u := by
  intro u
  have hk : norm θ ≠ 0 := by intro h0; rw [h0] at h; norm_num at h
  have hu : u ⬝ᵥ u = 1 := by
    simp only [u, smul_dotProduct, dotProduct_smul, smul_eq_mul, ← norm_sq]
    field_simp
  have hq : angleAxisToQuaternion θ = ⟨Real.cos (norm θ / 2), u 0 * Real.sin (norm θ / 2),
      u 1 * Real.sin (norm θ / 2), u 2 * Real.sin (norm θ / 2)⟩ := by
    unfold angleAxisToQuaternion
    simp only
    rw [if_neg (not_lt.2 h)]
    simp [u, div_eq_inv_mul]
  have h1 : Real.sin (norm θ) = 2 * Real.sin (norm θ / 2) * Real.cos (norm θ / 2) := by
    rw [← Real.sin_two_mul]; congr 1; ring
  have h2 : Real.cos (norm θ) = 1 - 2 * Real.sin (norm θ / 2) ^ 2 := by
    have h3 : Real.cos (norm θ) = Real.cos (norm θ / 2) ^ 2 - Real.sin (norm θ / 2) ^ 2 := by
      rw [← Real.cos_two_mul']; congr 1; ring
    linear_combination h3 + Real.sin_sq_add_cos_sq (norm θ / 2)
  have h3 := Real.sin_sq_add_cos_sq (norm θ / 2)
  rw [hq, sandwich_apply, cross_apply, h1, h2]
  generalize Real.sin (norm θ / 2) = s at *
  generalize Real.cos (norm θ / 2) = c at *
  simp [dotProduct, Fin.sum_univ_succ] at hu
  clear_value u
  ext i
  fin_cases i <;> simp [toWXYZ, dotProduct, Fin.sum_univ_succ, Matrix.vecHead, Matrix.vecTail]
  · linear_combination p 0 * h3 - s ^ 2 * p 0 * hu
  · linear_combination p 1 * h3 - s ^ 2 * p 1 * hu
  · linear_combination p 2 * h3 - s ^ 2 * p 2 * hu

/-- C51: opposite vectors give inverse quaternions. -/
theorem C51_opposite (θ : Fin 3 → ℝ) :
    (angleAxisToQuaternion (-θ)).toH = star (angleAxisToQuaternion θ).toH ∧
    (angleAxisToQuaternion θ).toH * (angleAxisToQuaternion (-θ)).toH = 1 := by
  have hs : (angleAxisToQuaternion (-θ)).toH = star (angleAxisToQuaternion θ).toH := by
    have hn : norm (-θ) = norm θ := by simp [norm]
    unfold angleAxisToQuaternion
    simp only [hn]
    split_ifs
    · ext <;> simp [Quat.identity]
    · ext <;> simp [neg_div]
  refine ⟨hs, ?_⟩
  rw [hs, Quaternion.self_mul_star, (isUnit_iff_norm _).1 (C51_unit θ)]
  rfl

/-! ### C71 -/

/-- Rotations. -/
def IsRotation (R : Matrix (Fin 3) (Fin 3) ℝ) : Prop := Rᵀ * R = 1 ∧ R.det = 1

/-- The equations of a rotation matrix: orthonormal columns and rows, and each entry is its own
cofactor. -/
theorem rotation_equations (R : Matrix (Fin 3) (Fin 3) ℝ) (hR : IsRotation R) :
    (∀ i j, ∑ k, R k i * R k j = if i = j then 1 else 0) ∧
    (∀ i j, ∑ k, R i k * R j k = if i = j then 1 else 0) ∧
    ∀ i j, R i j = R.adjugate j i := by
  obtain ⟨h1, h2⟩ := hR
  have h3 : R * Rᵀ = 1 := mul_eq_one_comm.1 h1
  refine ⟨fun i j => ?_, fun i j => ?_, fun i j => ?_⟩
  · have := congrFun (congrFun h1 i) j
    simpa [Matrix.mul_apply, Matrix.one_apply] using this
  · have := congrFun (congrFun h3 i) j
    simpa [Matrix.mul_apply, Matrix.one_apply] using this
  · have h4 : R.adjugate = Rᵀ := by
      have h5 : R * R.adjugate = 1 := by rw [Matrix.mul_adjugate, h2, one_smul]
      calc R.adjugate = (Rᵀ * R) * R.adjugate := by rw [h1, one_mul]
        _ = Rᵀ * (R * R.adjugate) := by rw [Matrix.mul_assoc]
        _ = Rᵀ := by rw [h5, Matrix.mul_one]
    rw [h4]
    rfl

/-- A quaternion whose products are those of the matrix. -/
theorem of_products (R : Matrix (Fin 3) (Fin 3) ℝ) (q : Quat)
    (ww : 4 * (q.w * q.w) = 1 + R 0 0 + R 1 1 + R 2 2)
    (xx : 4 * (q.x * q.x) = 1 + R 0 0 - R 1 1 - R 2 2)
    (yy : 4 * (q.y * q.y) = 1 - R 0 0 + R 1 1 - R 2 2)
    (zz : 4 * (q.z * q.z) = 1 - R 0 0 - R 1 1 + R 2 2)
    (wx : 4 * (q.w * q.x) = R 2 1 - R 1 2) (wy : 4 * (q.w * q.y) = R 0 2 - R 2 0)
    (wz : 4 * (q.w * q.z) = R 1 0 - R 0 1) (xy : 4 * (q.x * q.y) = R 0 1 + R 1 0)
    (xz : 4 * (q.x * q.z) = R 0 2 + R 2 0) (yz : 4 * (q.y * q.z) = R 1 2 + R 2 1) :
    q.IsUnit ∧ q.toRotationMatrix = R := by
  constructor
  · unfold Quat.IsUnit
    linear_combination (ww + xx + yy + zz) / 4
  · ext i j
    fin_cases i <;> fin_cases j <;> simp [Quat.toRotationMatrix] <;> linarith

/-- Numbers whose pairwise products with one of them are known. -/
theorem pivot (r N a b c n : ℝ) (hr : 0 < r) (hN : r * r = N) (h : a * b = N * n)
    (hc : c = (a * ((1 / 2) / r)) * (b * ((1 / 2) / r))) : 4 * c = n := by
  have hr0 : r ≠ 0 := hr.ne'
  subst hN
  have : 4 * c = (a * b) / (r * r) := by rw [hc]; field_simp; ring
  rw [this, h]
  field_simp

/-- C71: converting a rotation matrix to a quaternion gives a unit quaternion with that rotation
matrix. -/
theorem C71_matrix_to_quaternion (R : Matrix (Fin 3) (Fin 3) ℝ) (hR : IsRotation R) :
    (Quat.ofMatrix R).IsUnit ∧ (Quat.ofMatrix R).toRotationMatrix = R := by
  obtain ⟨hc, hr, ha⟩ := rotation_equations R hR
  have c00 := hc 0 0; have c01 := hc 0 1; have c02 := hc 0 2
  have c11 := hc 1 1; have c12 := hc 1 2; have c22 := hc 2 2
  have r00 := hr 0 0; have r01 := hr 0 1; have r02 := hr 0 2
  have r11 := hr 1 1; have r12 := hr 1 2; have r22 := hr 2 2
  have a00 := ha 0 0; have a01 := ha 0 1; have a02 := ha 0 2
  have a10 := ha 1 0; have a11 := ha 1 1; have a12 := ha 1 2
  have a20 := ha 2 0; have a21 := ha 2 1; have a22 := ha 2 2
  clear hc hr ha
  rw [Matrix.adjugate_fin_three] at a00 a01 a02 a10 a11 a12 a20 a21 a22
  simp [Fin.sum_univ_succ] at c00 c01 c02 c11 c12 c22 r00 r01 r02 r11 r12 r22 a00 a01 a02 a10 a11 a12 a20 a21 a22
  by_cases ht : 0 < R 0 0 + R 1 1 + R 2 2
  · have hN : 0 < R 0 0 + R 1 1 + R 2 2 + 1 := by linarith
    have hs := Real.mul_self_sqrt hN.le
    have hp := Real.sqrt_pos.2 hN
    have hq : Quat.ofMatrix R = ⟨1 / 2 * Real.sqrt (R 0 0 + R 1 1 + R 2 2 + 1),
        (R 2 1 - R 1 2) * ((1 / 2) / Real.sqrt (R 0 0 + R 1 1 + R 2 2 + 1)),
        (R 0 2 - R 2 0) * ((1 / 2) / Real.sqrt (R 0 0 + R 1 1 + R 2 2 + 1)),
        (R 1 0 - R 0 1) * ((1 / 2) / Real.sqrt (R 0 0 + R 1 1 + R 2 2 + 1))⟩ := by
      simp only [Quat.ofMatrix, if_pos ht]
    rw [hq]
    generalize Real.sqrt (R 0 0 + R 1 1 + R 2 2 + 1) = r at *
    apply of_products
    · simp only; linarith
    · exact pivot r _ (R 2 1 - R 1 2) (R 2 1 - R 1 2) _ _ hp hs (by linarith) rfl
    · exact pivot r _ (R 0 2 - R 2 0) (R 0 2 - R 2 0) _ _ hp hs (by linarith) rfl
    · exact pivot r _ (R 1 0 - R 0 1) (R 1 0 - R 0 1) _ _ hp hs (by linarith) rfl
    · simp only; field_simp; ring
    · simp only; field_simp; ring
    · simp only; field_simp; ring
    · exact pivot r _ (R 2 1 - R 1 2) (R 0 2 - R 2 0) _ _ hp hs (by linarith) rfl
    · exact pivot r _ (R 2 1 - R 1 2) (R 1 0 - R 0 1) _ _ hp hs (by linarith) rfl
    · exact pivot r _ (R 0 2 - R 2 0) (R 1 0 - R 0 1) _ _ hp hs (by linarith) rfl
  · have ht' := not_lt.1 ht
    by_cases h01 : R 0 0 < R 1 1
    · by_cases h12 : R 1 1 < R 2 2
      · have hN : 0 < R 2 2 - R 0 0 - R 1 1 + 1 := by linarith
        have hs := Real.mul_self_sqrt hN.le
        have hp := Real.sqrt_pos.2 hN
        have hq : Quat.ofMatrix R = ⟨(R 1 0 - R 0 1) * ((1 / 2) / Real.sqrt (R 2 2 - R 0 0 - R 1 1 + 1)),
            (R 0 2 + R 2 0) * ((1 / 2) / Real.sqrt (R 2 2 - R 0 0 - R 1 1 + 1)),
            (R 1 2 + R 2 1) * ((1 / 2) / Real.sqrt (R 2 2 - R 0 0 - R 1 1 + 1)),
            1 / 2 * Real.sqrt (R 2 2 - R 0 0 - R 1 1 + 1)⟩ := by
          simp only [Quat.ofMatrix, if_neg ht, if_pos h01, if_pos h12]
          rfl
        rw [hq]
        generalize Real.sqrt (R 2 2 - R 0 0 - R 1 1 + 1) = r at *
        apply of_products
        · exact pivot r _ (R 1 0 - R 0 1) (R 1 0 - R 0 1) _ _ hp hs (by linarith) rfl
        · exact pivot r _ (R 0 2 + R 2 0) (R 0 2 + R 2 0) _ _ hp hs (by linarith) rfl
        · exact pivot r _ (R 1 2 + R 2 1) (R 1 2 + R 2 1) _ _ hp hs (by linarith) rfl
        · simp only; linarith
        · exact pivot r _ (R 1 0 - R 0 1) (R 0 2 + R 2 0) _ _ hp hs (by linarith) rfl
        · exact pivot r _ (R 1 0 - R 0 1) (R 1 2 + R 2 1) _ _ hp hs (by linarith) rfl
        · simp only; field_simp; ring
        · exact pivot r _ (R 0 2 + R 2 0) (R 1 2 + R 2 1) _ _ hp hs (by linarith) rfl
        · simp only; field_simp; ring
        · simp only; field_simp; ring
      · have hN : 0 < R 1 1 - R 2 2 - R 0 0 + 1 := by linarith
        have hs := Real.mul_self_sqrt hN.le
        have hp := Real.sqrt_pos.2 hN
        have hq : Quat.ofMatrix R = ⟨(R 0 2 - R 2 0) * ((1 / 2) / Real.sqrt (R 1 1 - R 2 2 - R 0 0 + 1)),
            (R 0 1 + R 1 0) * ((1 / 2) / Real.sqrt (R 1 1 - R 2 2 - R 0 0 + 1)),
            1 / 2 * Real.sqrt (R 1 1 - R 2 2 - R 0 0 + 1),
            (R 2 1 + R 1 2) * ((1 / 2) / Real.sqrt (R 1 1 - R 2 2 - R 0 0 + 1))⟩ := by
          simp only [Quat.ofMatrix, if_neg ht, if_pos h01, if_neg h12]
          rfl
        rw [hq]
        generalize Real.sqrt (R 1 1 - R 2 2 - R 0 0 + 1) = r at *
        apply of_products
        · exact pivot r _ (R 0 2 - R 2 0) (R 0 2 - R 2 0) _ _ hp hs (by linarith) rfl
        · exact pivot r _ (R 0 1 + R 1 0) (R 0 1 + R 1 0) _ _ hp hs (by linarith) rfl
        · simp only; linarith
        · exact pivot r _ (R 2 1 + R 1 2) (R 2 1 + R 1 2) _ _ hp hs (by linarith) rfl
        · exact pivot r _ (R 0 2 - R 2 0) (R 0 1 + R 1 0) _ _ hp hs (by linarith) rfl
        · simp only; field_simp; ring
        · exact pivot r _ (R 0 2 - R 2 0) (R 2 1 + R 1 2) _ _ hp hs (by linarith) rfl
        · simp only; field_simp; ring
        · exact pivot r _ (R 0 1 + R 1 0) (R 2 1 + R 1 2) _ _ hp hs (by linarith) rfl
        · simp only; field_simp; ring
    · by_cases h02 : R 0 0 < R 2 2
      · have hN : 0 < R 2 2 - R 0 0 - R 1 1 + 1 := by linarith
        have hs := Real.mul_self_sqrt hN.le
        have hp := Real.sqrt_pos.2 hN
        have hq : Quat.ofMatrix R = ⟨(R 1 0 - R 0 1) * ((1 / 2) / Real.sqrt (R 2 2 - R 0 0 - R 1 1 + 1)),
            (R 0 2 + R 2 0) * ((1 / 2) / Real.sqrt (R 2 2 - R 0 0 - R 1 1 + 1)),
            (R 1 2 + R 2 1) * ((1 / 2) / Real.sqrt (R 2 2 - R 0 0 - R 1 1 + 1)),
            1 / 2 * Real.sqrt (R 2 2 - R 0 0 - R 1 1 + 1)⟩ := by
          simp only [Quat.ofMatrix, if_neg ht, if_neg h01, if_pos h02]
          rfl
        rw [hq]
        generalize Real.sqrt (R 2 2 - R 0 0 - R 1 1 + 1) = r at *
        apply of_products
        · exact pivot r _ (R 1 0 - R 0 1) (R 1 0 - R 0 1) _ _ hp hs (by linarith) rfl
        · exact pivot r _ (R 0 2 + R 2 0) (R 0 2 + R 2 0) _ _ hp hs (by linarith) rfl
        · exact pivot r _ (R 1 2 + R 2 1) (R 1 2 + R 2 1) _ _ hp hs (by linarith) rfl
        · simp only; linarith
        · exact pivot r _ (R 1 0 - R 0 1) (R 0 2 + R 2 0) _ _ hp hs (by linarith) rfl
        · exact pivot r _ (R 1 0 - R 0 1) (R 1 2 + R 2 1) _ _ hp hs (by linarith) rfl
        · simp only; field_simp; ring
        · exact pivot r _ (R 0 2 + R 2 0) (R 1 2 + R 2 1) _ _ hp hs (by linarith) rfl
        · simp only; field_simp; ring
        · simp only; field_simp; ring
      · have hN : 0 < R 0 0 - R 1 1 - R 2 2 + 1 := by linarith
        have hs := Real.mul_self_sqrt hN.le
        have hp := Real.sqrt_pos.2 hN
        have hq : Quat.ofMatrix R = ⟨(R 2 1 - R 1 2) * ((1 / 2) / Real.sqrt (R 0 0 - R 1 1 - R 2 2 + 1)),
            1 / 2 * Real.sqrt (R 0 0 - R 1 1 - R 2 2 + 1),
            (R 1 0 + R 0 1) * ((1 / 2) / Real.sqrt (R 0 0 - R 1 1 - R 2 2 + 1)),
            (R 2 0 + R 0 2) * ((1 / 2) / Real.sqrt (R 0 0 - R 1 1 - R 2 2 + 1))⟩ := by
          simp only [Quat.ofMatrix, if_neg ht, if_neg h01, if_neg h02]
          rfl
        rw [hq]
        generalize Real.sqrt (R 0 0 - R 1 1 - R 2 2 + 1) = r at *
        apply of_products
        · exact pivot r _ (R 2 1 - R 1 2) (R 2 1 - R 1 2) _ _ hp hs (by linarith) rfl
        · simp only; linarith
        · exact pivot r _ (R 1 0 + R 0 1) (R 1 0 + R 0 1) _ _ hp hs (by linarith) rfl
        · exact pivot r _ (R 2 0 + R 0 2) (R 2 0 + R 0 2) _ _ hp hs (by linarith) rfl
        · simp only; field_simp; ring
        · exact pivot r _ (R 2 1 - R 1 2) (R 1 0 + R 0 1) _ _ hp hs (by linarith) rfl
        · exact pivot r _ (R 2 1 - R 1 2) (R 2 0 + R 0 2) _ _ hp hs (by linarith) rfl
        · simp only; field_simp; ring
        · simp only; field_simp; ring
        · exact pivot r _ (R 1 0 + R 0 1) (R 2 0 + R 0 2) _ _ hp hs (by linarith) rfl

/-! Non-vacuity. -/

example : (⟨3 / 5, 0, 4 / 5, 0⟩ : Quat).IsUnit := by norm_num [Quat.IsUnit]
example : IsRotation (⟨3 / 5, 0, 4 / 5, 0⟩ : Quat).toRotationMatrix :=
  toRotationMatrix_rotation _ (by norm_num [Quat.IsUnit])
/-- A half turn, where the trace is negative. -/
example : IsRotation !![-1, 0, 0; 0, 1, 0; 0, 0, -1] := by
  constructor
  · ext i j
    fin_cases i <;> fin_cases j <;> simp [Matrix.mul_apply, Fin.sum_univ_succ]
  · simp [Matrix.det_fin_three]
example : (1 : ℝ) / 100000000 ≤ norm ![0, 0, 1] := by
  have : norm ![0, 0, 1] = 1 := by simp [norm, dotProduct, Fin.sum_univ_succ]
  rw [this]; norm_num

end Verif.Rot
