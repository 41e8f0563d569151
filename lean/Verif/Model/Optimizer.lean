/-
Robust weights, weighted update and the optimiser loop of `localization`: `robust.cpp`,
`degenerate.cpp`, `optimizer.cpp`, `optimizer.hpp`, `optimization_result.hpp`.

Numbers are real. `nth` is `std::nth_element` (see `Model/Lib.lean`); `llt S b` is Eigen's
`S.llt().solve(b)`; both are parameters which the theorems constrain only by their specification.
-/
import Verif.Model.Rotation
import Verif.Model.Lib
import Verif.Basic
import Mathlib.Analysis.Matrix.Spectrum

set_option autoImplicit false

namespace Verif.Opt

open Matrix Verif.Rot

/-- `std::nth_element` on vectors of doubles. -/
abbrev Nth := List ℝ → ℕ → List ℝ

/-- `S.llt().solve(b)` (Eigen). -/
abbrev Llt := Matrix (Fin 6) (Fin 6) ℝ → (Fin 6 → ℝ) → Fin 6 → ℝ

/-- `localization/src/robust.cpp` 37-41. -/
noncomputable def medianAbsoluteDeviation (nth : Nth) (v : List ℝ) : Res ℝ := do
  let median ← Lib.median nth v
  Lib.median nth (v.map fun x => |x - median|)

/-- `localization/src/robust.cpp` 43-51. -/
noncomputable def scale (nth : Nth) (v : List ℝ) : Res ℝ := do
  let mad ← medianAbsoluteDeviation nth v
  return 1.482602218505602 * mad

/-- `localization/src/robust.cpp` 53-60. -/
noncomputable def huber (e k : ℝ) : ℝ := if e < k * k then e else 2 * k * Real.sqrt e - k * k

/-- `localization/src/robust.cpp` 62-69. -/
noncomputable def huberDerivative (e k : ℝ) : ℝ := if e < k * k then 1 else k / Real.sqrt e

/-- Default argument `k` of `localization/include/lidar_feature_localization/robust.hpp`. -/
noncomputable def huberK : ℝ := 1.345

/-- `Eigen::MatrixXd`. -/
structure DMat where
  rows : ℕ
  cols : ℕ
  data : Matrix (Fin rows) (Fin cols) ℝ

/-- `Eigen::VectorXd`. -/
structure DVec where
  size : ℕ
  data : Fin size → ℝ

/-- The symmetric matrix that `SelfAdjointEigenSolver` (Eigen) works on: it reads the lower triangle
only. -/
def lowerSymmetric {n : ℕ} (C : Matrix (Fin n) (Fin n) ℝ) : Matrix (Fin n) (Fin n) ℝ :=
  Matrix.of fun i j => if j ≤ i then C i j else C j i

theorem lowerSymmetric_isHermitian {n : ℕ} (C : Matrix (Fin n) (Fin n) ℝ) :
    (lowerSymmetric C).IsHermitian := by
  ext i j
  simp only [conjTranspose_apply, lowerSymmetric, of_apply, star_trivial]
  rcases lt_trichotomy i j with h | h | h
  · rw [if_pos h.le, if_neg (not_le.2 h)]
  · subst h; rfl
  · rw [if_neg (not_le.2 h), if_pos h.le]

/-- `localization/src/degenerate.cpp` 32-37, default threshold from
`localization/include/lidar_feature_localization/degenerate.hpp` 34. Eigen's solver is replaced by
the exact eigenvalues. -/
noncomputable def isDegenerate {n : ℕ} (C : Matrix (Fin n) (Fin n) ℝ) (threshold : ℝ := 1 / 10) : Prop :=
  ∃ i, |(lowerSymmetric_isHermitian C).eigenvalues i| < threshold

/-- `localization/src/optimizer.cpp` 35-38. -/
def checkConvergence (dq : Quat) (dt : Fin 3 → ℝ) : Prop :=
  Rot.norm dq.vec < 1 / 1000 ∧ Rot.norm dt < 1 / 1000

/-- The loop of `localization/src/optimizer.cpp` 56-67 over the remaining blocks; the accumulator is
`(D, A, b)`. Eigen's assertion on the sizes in `J.transpose() * r` is included. -/
noncomputable def accumulate : List ℝ → List DMat → List DVec →
    Matrix (Fin 7) (Fin 7) ℝ × Matrix (Fin 7) (Fin 7) ℝ × (Fin 7 → ℝ) →
    Res (Matrix (Fin 7) (Fin 7) ℝ × Matrix (Fin 7) (Fin 7) ℝ × (Fin 7 → ℝ))
  | w :: ws, ⟨m, n, J⟩ :: Js, ⟨l, r⟩ :: rs, (D, A, b) =>
    if hn : n = 7 then
      if hm : l = m then
        let J' : Matrix (Fin m) (Fin 7) ℝ := hn ▸ J
        let r' : Fin m → ℝ := hm ▸ r
        accumulate ws Js rs (D + J'ᵀ * J', A + w • (J'ᵀ * J'), b + w • (J'ᵀ *ᵥ r'))
      else .error .assertFail
    else .error .assertFail
  | _, [], _, acc => .ok acc
  | _, _ :: _, _, _ => .error .assertFail

open Classical in
/-- `localization/src/optimizer.cpp` 40-72. -/
noncomputable def weightedUpdate (llt : Llt) (M : Matrix (Fin 7) (Fin 6) ℝ) (weights : List ℝ)
    (jacobians : List DMat) (residuals : List DVec) : Res (Fin 6 → ℝ) :=
  if weights.length = jacobians.length then
    if weights.length = residuals.length then do
      let (D, A, b) ← accumulate weights jacobians residuals (0, 0, 0)
      if isDegenerate D then return 0
      return -llt (Mᵀ * A * M) (Mᵀ *ᵥ b)
    else .error .assertFail
  else .error .assertFail

/-- `localization/src/optimizer.cpp` 74-85. -/
noncomputable def makeM (q : Quat) : Matrix (Fin 7) (Fin 6) ℝ :=
  let L := leftMultiplicationMatrix q
  let Q : Matrix (Fin 4) (Fin 3) ℝ := (1 / 2 : ℝ) • L.submatrix id Fin.succ
  (Matrix.fromBlocks Q 0 0 (1 : Matrix (Fin 3) (Fin 3) ℝ)).submatrix
    (finSumFinEquiv (m := 4) (n := 3)).symm (finSumFinEquiv (m := 3) (n := 3)).symm

/-- `localization/src/optimizer.cpp` 87-98. -/
noncomputable def calcUpdate (llt : Llt) (q : Quat) (weights : List ℝ) (jacobians : List DMat)
    (residuals : List DVec) : Res (Quat × (Fin 3 → ℝ)) := do
  let dx ← weightedUpdate llt (makeM q) weights jacobians residuals
  let dq := angleAxisToQuaternion fun i => dx (Fin.castAdd 3 i)
  let dt : Fin 3 → ℝ := fun i => dx (Fin.natAdd 3 i)
  return (dq, dt)

/-- `localization/src/optimizer.cpp` 100-108. -/
def computeErrors (residuals : List DVec) : List ℝ := residuals.map fun r => r.data ⬝ᵥ r.data

/-- `localization/src/optimizer.cpp` 110-118. -/
noncomputable def normalizeErrorScale (nth : Nth) (errors : List ℝ) : Res (List ℝ × ℝ) := do
  let s ← scale nth errors
  return (errors.map fun e => e / (s + 1 / 10 ^ 16), s)

/-- `localization/src/optimizer.cpp` 120-128. -/
noncomputable def computeWeights (normalized : List ℝ) : List ℝ :=
  normalized.map fun e => huberDerivative e huberK

/-- The five messages of `optimization_result.hpp` 48-79. -/
inductive Message where
  | emptyInput
  | largerError
  | largerScale
  | converged
  | maximumIteration
  deriving DecidableEq

/-- `localization/include/lidar_feature_localization/optimization_result.hpp` 37-45. -/
structure Result where
  pose : Pose
  message : Message
  iteration : ℤ
  error : ℝ
  errorScale : ℝ
  success : Bool

/-- `std::numeric_limits<double>::max()`. -/
def dblMax : ℝ := (2 ^ 53 - 1) * 2 ^ 971

/-- `problem_.Make(x, pose)` for a fixed scan `x`; can fail. -/
abbrev Problem := Pose → Res (List DMat × List DVec)

open Classical in
/-- The loop of `localization/include/lidar_feature_localization/optimizer.hpp` 82-126 with `n`
iterations left; `iter` is the loop counter, `max_iter = iter + n`. -/
noncomputable def runLoop (nth : Nth) (llt : Llt) (make : Problem) :
    ℕ → ℤ → Quat → (Fin 3 → ℝ) → ℝ → ℝ → Res Result
  | 0, iter, q, t, prevScale, prevError =>
    .ok ⟨makePose q t, .maximumIteration, iter, prevError, prevScale, false⟩
  | n + 1, iter, q, t, prevScale, prevError => do
    let (jacobians, residuals) ← make (makePose q t)
    if residuals.length = 0 then
      return ⟨makePose q t, .emptyInput, iter, 0, 0, false⟩
    let errors := computeErrors residuals
    let (normalized, scale) ← normalizeErrorScale nth errors
    let error := errors.sum
    if prevError < error then
      return ⟨makePose q t, .largerError, iter, error, scale, true⟩
    if prevScale < scale then
      return ⟨makePose q t, .largerScale, iter, error, scale, true⟩
    let weights := computeWeights normalized
    let (dq, dt) ← calcUpdate llt q weights jacobians residuals
    let q := q.mul dq
    let t := t + dt
    if checkConvergence dq dt then
      return ⟨makePose q t, .converged, iter, error, scale, true⟩
    runLoop nth llt make n (iter + 1) q t scale error

/-- `optimizer.hpp` 71-129. For a negative limit the loop is not entered and the result carries the
limit itself as iteration number. -/
noncomputable def run (nth : Nth) (llt : Llt) (make : Problem) (maxIter : ℤ) (initial : Pose) :
    Res Result :=
  let q := Quat.ofMatrix initial.linear
  let t := initial.translation
  if maxIter < 0 then .ok ⟨makePose q t, .maximumIteration, maxIter, dblMax, dblMax, false⟩
  else runLoop nth llt make maxIter.toNat 0 q t dblMax dblMax

end Verif.Opt
