/-
Point-to-point alignment (`localization/src/alignment.cpp`) and the free functions of
`localization/src/jacobian.cpp`, on whole lists of points.
-/
import Verif.Model.Residual
import Verif.Model.Optimizer

set_option autoImplicit false

namespace Verif.Loc

open Matrix Verif.Rot Verif.Opt

/-- `alignment.cpp` 34-46 `MakeJacobian`. The points are the rows of a matrix with three columns. -/
def alignmentJacobians (q : Quat) (points : List (Fin 3 → ℝ)) : List DMat :=
  points.map fun p => ⟨3, 7, alignmentJacobian q p⟩

/-- `alignment.cpp` 48-64 `MakeResidual`. The assertion on the columns holds by typing. -/
def alignmentResiduals (T : Pose) (source target : List (Fin 3 → ℝ)) : Res (List DVec) :=
  if source.length = target.length then
    .ok (List.zipWith (fun x y => ⟨3, alignmentResidual T x y⟩) source target)
  else .error .assertFail

/-- `alignment.cpp` 66-76 `AlignmentProblem::Make`. `point_to_map.rotation()` is the linear part
(Eigen, for isometries). -/
noncomputable def alignmentMake (source target : List (Fin 3 → ℝ)) : Problem := fun T => do
  let q := Quat.ofMatrix T.linear
  let jacobians := alignmentJacobians q source
  let residuals ← alignmentResiduals T source target
  return (jacobians, residuals)

end Verif.Loc
