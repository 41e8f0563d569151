/-
C94 the rows of a linear residual, C95 moving a point that carries further values.
-/
import Verif.Props.C52

set_option autoImplicit false

namespace Verif.Loc

open Matrix Verif.Rot

/-! ### C94 -/

/-- C94: lists of different lengths are refused; otherwise there is one row per point, in order, and the
row is the derivative of `coeff · (R p + t)` by quaternion and translation. -/
theorem C94_rows (points coeffs : List (Fin 3 → ℝ)) (q : Quat) (hq : q.IsUnit) (t : Fin 3 → ℝ) :
    (points.length ≠ coeffs.length → makeJacobian points coeffs q = .error .assertFail) ∧
    (points.length = coeffs.length → ∃ rows, makeJacobian points coeffs q = .ok rows ∧
      rows.length = points.length ∧
      ∀ (i : ℕ) (p c : Fin 3 → ℝ), points[i]? = some p → coeffs[i]? = some c →
        ∃ row : Fin (4 + 3) → ℝ, rows[i]? = some row ∧
          c ⬝ᵥ (q.toRotationMatrix *ᵥ p + t) = c ⬝ᵥ moved p (coords q t) ∧
          HasFDerivAt (fun x => fun _ : Fin 1 => c ⬝ᵥ moved p x) (mat (Matrix.of fun _ : Fin 1 => row))
            (coords q t)) := by
  unfold makeJacobian
  refine ⟨fun h => if_neg h, fun h => ?_⟩
  rw [if_pos h]
  refine ⟨_, rfl, by simp [h], fun i p c hp hc => ?_⟩
  refine ⟨fillJacobianRow (dRpDq q p) c, by rw [List.getElem?_zipWith, hp, hc], ?_, ?_⟩
  · have := (C72_alignment q hq t p 0).1
    rw [sub_zero, alignmentResidual, sub_zero] at this
    rw [← this]
    rfl
  · have h1 := (C72_alignment q hq t p 0).2
    have h2 : (mat (Matrix.of fun _ : Fin 1 => fillJacobianRow (dRpDq q p) c)) =
        (mat (Matrix.of fun _ : Fin 1 => c)).comp (mat (alignmentJacobian q p)) := by
      ext v i
      show ((Matrix.of fun _ : Fin 1 => fillJacobianRow (dRpDq q p) c) *ᵥ v) i =
        ((Matrix.of fun _ : Fin 1 => c) *ᵥ (alignmentJacobian q p *ᵥ v)) i
      rw [mulVec_mulVec]
      congr 1
      congr 1
      ext a j
      unfold fillJacobianRow alignmentJacobian
      show Fin.append (c ᵥ* dRpDq q p) c j = c ⬝ᵥ fun k => hcat (dRpDq q p) 1 k j
      refine Fin.addCases (fun j => ?_) (fun j => ?_) j
      · simp [hcat, vecMul, dotProduct]
      · simp [hcat, dotProduct, Matrix.one_apply]
    rw [h2]
    have h3 := (mat (Matrix.of fun _ : Fin 1 => c)).hasFDerivAt (x := moved p (coords q t) - 0)
    have h4 := h3.comp (coords q t) h1
    refine h4.congr_of_eventuallyEq (Filter.Eventually.of_forall fun x => ?_)
    funext i
    simp [mat_apply, mulVec, dotProduct]

example : ∃ rows, makeJacobian [![1, 0, 0], ![0, 2, 0]] [![0, 1, 0], ![1, 1, 1]] ⟨1, 0, 0, 0⟩ = .ok rows ∧
    rows.length = 2 := by
  obtain ⟨rows, h1, h2, -⟩ := (C94_rows [![1, 0, 0], ![0, 2, 0]] [![0, 1, 0], ![1, 1, 1]] ⟨1, 0, 0, 0⟩
    (by unfold Quat.IsUnit; norm_num) 0).2 rfl
  exact ⟨rows, h1, h2⟩

/-! ### C95 -/

/-- C95: vectors with fewer than three entries are refused; otherwise the first three entries are moved by
the pose, and all others are kept. -/
theorem C95_moves (T : Pose) (p : List ℝ) :
    (p.length < 3 → transformXYZ T p = .error .assertFail) ∧
    (3 ≤ p.length → ∃ p', transformXYZ T p = .ok p' ∧ p'.length = p.length ∧
      (∀ i, 3 ≤ i → p'[i]? = p[i]?) ∧
      ∀ x y : Fin 3 → ℝ, (∀ j : Fin 3, p[j.val]? = some (x j)) → (∀ j : Fin 3, p'[j.val]? = some (y j)) →
        y = T.linear *ᵥ x + T.translation) := by
  match p with
  | [] => exact ⟨fun _ => rfl, fun h => by simp at h⟩
  | [_] => exact ⟨fun _ => rfl, fun h => by simp at h⟩
  | [_, _] => exact ⟨fun _ => rfl, fun h => by simp at h⟩
  | a :: b :: c :: tail =>
    refine ⟨fun h => by simp only [List.length_cons] at h; omega, fun _ => ⟨_, rfl, by simp, ?_, ?_⟩⟩
    · intro i hi
      obtain ⟨k, rfl⟩ : ∃ k, i = k + 3 := ⟨i - 3, by omega⟩
      rfl
    · intro x y hx hy
      have hx' : x = ![a, b, c] := by
        funext j
        have := hx j
        fin_cases j <;> simpa using this.symm
      subst hx'
      funext j
      have := hy j
      fin_cases j <;> simpa [Pose.apply] using this.symm

/-- C95: moving by one pose after another is moving by their product. -/
theorem C95_compose (S T : Pose) (p : List ℝ) :
    (do transformXYZ S (← transformXYZ T p)) =
      transformXYZ ⟨S.linear * T.linear, S.linear *ᵥ T.translation + S.translation⟩ p := by
  match p with
  | [] => rfl
  | [_] => rfl
  | [_, _] => rfl
  | a :: b :: c :: tail =>
    have h : ∀ v : Fin 3 → ℝ, ![v 0, v 1, v 2] = v := fun v => by
      funext j
      fin_cases j <;> rfl
    simp only [transformXYZ, bind, Except.bind, Pose.apply, h]
    rw [mulVec_add, mulVec_mulVec, add_assoc]

/-- C95: for a rigid pose the inverse pose undoes it. -/
theorem C95_inverse (T : Pose) (hT : IsRotation T.linear) (p : List ℝ) (h : 3 ≤ p.length) :
    (do transformXYZ ⟨T.linearᵀ, -(T.linearᵀ *ᵥ T.translation)⟩ (← transformXYZ T p)) = .ok p := by
  rw [C95_compose, hT.1]
  match p with
  | [] => simp at h
  | [_] => simp at h
  | [_, _] => simp at h
  | a :: b :: c :: tail => simp [transformXYZ, Pose.apply]

/-- A point with curvature. -/
example : transformXYZ ⟨1, ![1, 2, 3]⟩ [10, 20, 30, 5] = .ok [11, 22, 33, 5] := by
  simp [transformXYZ, Pose.apply]
  norm_num

end Verif.Loc
