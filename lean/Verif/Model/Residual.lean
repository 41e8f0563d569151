/-
Residuals and Jacobian rows of `localization`: `edge.cpp`, `surface.hpp`, `jacobian.cpp`,
`alignment.cpp`.
-/
import Verif.Model.Rotation
import Verif.Model.Lib
import Verif.Basic
import Mathlib.Data.Fin.Tuple.Basic

set_option autoImplicit false

namespace Verif.Loc

open Matrix Verif.Rot

/-- Horizontal concatenation `(Matrix() << A, B).finished()`. -/
def hcat {m k l : ℕ} (A : Matrix (Fin m) (Fin k) ℝ) (B : Matrix (Fin m) (Fin l) ℝ) :
    Matrix (Fin m) (Fin (k + l)) ℝ := Matrix.of fun i => Fin.append (A i) (B i)

/-- `localization/src/edge.cpp` 51-57. -/
def tripletCross (p0 p1 p2 : Fin 3 → ℝ) : Fin 3 → ℝ :=
  cross (p2 - p1) (cross (p0 - p1) (p0 - p2))

/-- `localization/src/edge.cpp` 66-75. -/
def makeEdgeJacobianRow (q : Quat) (p0 p1 p2 : Fin 3 → ℝ) : Matrix (Fin 3) (Fin (4 + 3)) ℝ :=
  let K := hat (p2 - p1)
  hcat (K * dRpDq q p0) K

/-- `localization/src/edge.cpp` 77-85. -/
def makeEdgeResidual (T : Pose) (p0 p1 p2 : Fin 3 → ℝ) : Fin 3 → ℝ :=
  let p := T.apply p0
  cross (p - p1) (p - p2)

/-- `localization/include/lidar_feature_localization/surface.hpp` 47. -/
def planeBias : ℝ := 1

/-- `surface.hpp` 49-53. `none` is the result of a division by zero. The assertion on the sizes holds
by typing. -/
noncomputable def signedPointPlaneDistance {n : ℕ} (w x : Fin n → ℝ) : Option ℝ :=
  if Rot.norm w = 0 then none else some ((w ⬝ᵥ x + planeBias) / Rot.norm w)

/-- `surface.hpp` 63-66. -/
noncomputable def pointPlaneDistance {n : ℕ} (w x : Fin n → ℝ) : Option ℝ :=
  (signedPointPlaneDistance w x).map abs

/-- `surface.hpp` 68-77. For `w = 0` each distance is infinite or NaN: `1 / 0 = inf` here, since
`w · x + 1 = 1`; infinity exceeds 0.2. -/
noncomputable def checkPointsDistributeAlongPlane {n : ℕ} (X : List (Fin n → ℝ)) (w : Fin n → ℝ) :
    Bool :=
  X.all fun x => match pointPlaneDistance w x with
    | some d => !decide (2 / 10 < d)
    | none => false

/-- `surface.hpp` 85-93. `none`: division by zero. -/
noncomputable def makeJacobianRow (w : Fin 3 → ℝ) (q : Quat) (p : Fin 3 → ℝ) :
    Option (Matrix (Fin 1) (Fin (4 + 3)) ℝ) :=
  if Rot.norm w = 0 then none
  else
    let u : Matrix (Fin 1) (Fin 3) ℝ := Matrix.of fun _ i => w i / Rot.norm w
    some (hcat (u * dRpDq q p) u)

/-- `localization/src/jacobian.cpp` 35-43: the row that is written. -/
def fillJacobianRow (drpdq : Matrix (Fin 3) (Fin 4) ℝ) (coeff : Fin 3 → ℝ) : Fin (4 + 3) → ℝ :=
  Fin.append (coeff ᵥ* drpdq) coeff

/-- `localization/src/jacobian.cpp` 45-57. -/
def makeJacobian (points coeffs : List (Fin 3 → ℝ)) (q : Quat) : Res (List (Fin (4 + 3) → ℝ)) :=
  if points.length = coeffs.length then
    .ok (List.zipWith (fun p c => fillJacobianRow (dRpDq q p) c) points coeffs)
  else .error .assertFail

/-- `localization/src/alignment.cpp` 34-46, one point. -/
def alignmentJacobian (q : Quat) (x : Fin 3 → ℝ) : Matrix (Fin 3) (Fin (4 + 3)) ℝ :=
  hcat (dRpDq q x) 1

/-- `localization/src/alignment.cpp` 48-64, one point. -/
def alignmentResidual (T : Pose) (x y : Fin 3 → ℝ) : Fin 3 → ℝ := T.apply x - y

/-- `localization/src/edge.cpp` 38-41. Mean of the rows; division by zero for no rows is `none`. -/
noncomputable def center {n : ℕ} (X : List (Fin n → ℝ)) : Option (Fin n → ℝ) :=
  if X.length = 0 then none else some fun j => (X.map fun x => x j).sum / X.length

/-- `localization/src/edge.cpp` 43-49. -/
noncomputable def calcMeanAndCovariance {n : ℕ} (X : List (Fin n → ℝ)) :
    Option ((Fin n → ℝ) × Matrix (Fin n) (Fin n) ℝ) := do
  let mean ← center X
  let D := X.map fun x => x - mean
  return (mean, Matrix.of fun i j => (D.map fun d => d i * d j).sum / X.length)

/-- `localization/src/edge.cpp` 93-97. -/
noncomputable def principalIsReliable (eigenvalues : Fin 3 → ℝ) : Bool :=
  let sorted := Lib.sortThreeValues (eigenvalues 0, eigenvalues 1, eigenvalues 2)
  decide (sorted.2.1 * 3 < sorted.2.2)

/-- `lib/src/eigen.cpp` 64-73. -/
def transformXYZ (T : Pose) (p0 : List ℝ) : Res (List ℝ) :=
  match p0 with
  | x :: y :: z :: tail =>
    let h := T.apply ![x, y, z]
    .ok (h 0 :: h 1 :: h 2 :: tail)
  | _ => .error .assertFail

end Verif.Loc
