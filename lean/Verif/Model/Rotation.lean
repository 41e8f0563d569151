/-
`rotationlib` and `localization/src/posevec.cpp`: quaternions, rotations, poses.

Numbers are real. Eigen's own operations that the code calls are transcribed from Eigen's
documentation (they are not part of `/repo`); this is said at each of them.
-/
import Mathlib.Analysis.SpecialFunctions.Trigonometric.Basic
import Mathlib.Data.Matrix.Mul
import Mathlib.LinearAlgebra.Matrix.Notation
import Mathlib.LinearAlgebra.Matrix.Trace

set_option autoImplicit false

namespace Verif.Rot

open Matrix

/-- `Eigen::Quaterniond`. -/
@[ext] structure Quat where
  w : ℝ
  x : ℝ
  y : ℝ
  z : ℝ

/-- `q.vec()` (Eigen). -/
def Quat.vec (q : Quat) : Fin 3 → ℝ := ![q.x, q.y, q.z]

/-- `a.cross(b)` (Eigen). -/
def cross (a b : Fin 3 → ℝ) : Fin 3 → ℝ :=
  ![a 1 * b 2 - a 2 * b 1, a 2 * b 0 - a 0 * b 2, a 0 * b 1 - a 1 * b 0]

/-- `v.norm()` (Eigen). -/
noncomputable def norm {n : ℕ} (v : Fin n → ℝ) : ℝ := Real.sqrt (v ⬝ᵥ v)

/-- `rotationlib/src/quaternion.cpp` 35-38. -/
def fromWXYZ (v : Fin 4 → ℝ) : Quat := ⟨v 0, v 1, v 2, v 3⟩

/-- `rotationlib/src/quaternion.cpp` 40-43. -/
def toWXYZ (q : Quat) : Fin 4 → ℝ := ![q.w, q.x, q.y, q.z]

/-- `rotationlib/src/quaternion.cpp` 45-60. -/
def leftMultiplicationMatrix (q : Quat) : Matrix (Fin 4) (Fin 4) ℝ :=
  !![q.w, -q.x, -q.y, -q.z;
     q.x, q.w, -q.z, q.y;
     q.y, q.z, q.w, -q.x;
     q.z, -q.y, q.x, q.w]

/-- `rotationlib/src/quaternion.cpp` 62-77. -/
def rightMultiplicationMatrix (q : Quat) : Matrix (Fin 4) (Fin 4) ℝ :=
  !![q.w, -q.x, -q.y, -q.z;
     q.x, q.w, q.z, -q.y;
     q.y, -q.z, q.w, q.x;
     q.z, q.y, -q.x, q.w]

/-- `a * b` of quaternions (Eigen, `quat_product`). -/
def Quat.mul (a b : Quat) : Quat :=
  ⟨a.w * b.w - a.x * b.x - a.y * b.y - a.z * b.z,
   a.w * b.x + a.x * b.w + a.y * b.z - a.z * b.y,
   a.w * b.y + a.y * b.w + a.z * b.x - a.x * b.z,
   a.w * b.z + a.z * b.w + a.x * b.y - a.y * b.x⟩

/-- `Eigen::Quaterniond::Identity()`. -/
def Quat.identity : Quat := ⟨1, 0, 0, 0⟩

/-- `q.toRotationMatrix()` (Eigen; meant for unit quaternions, does not normalise). -/
def Quat.toRotationMatrix (q : Quat) : Matrix (Fin 3) (Fin 3) ℝ :=
  !![1 - (2 * q.y * q.y + 2 * q.z * q.z), 2 * q.y * q.x - 2 * q.z * q.w,
       2 * q.z * q.x + 2 * q.y * q.w;
     2 * q.y * q.x + 2 * q.z * q.w, 1 - (2 * q.x * q.x + 2 * q.z * q.z),
       2 * q.z * q.y - 2 * q.x * q.w;
     2 * q.z * q.x - 2 * q.y * q.w, 2 * q.z * q.y + 2 * q.x * q.w,
       1 - (2 * q.x * q.x + 2 * q.y * q.y)]

/-- `Eigen::Quaterniond(Eigen::AngleAxisd(angle, axis))` (Eigen). -/
noncomputable def Quat.ofAngleAxis (angle : ℝ) (axis : Fin 3 → ℝ) : Quat :=
  ⟨Real.cos (angle / 2), Real.sin (angle / 2) * axis 0, Real.sin (angle / 2) * axis 1,
   Real.sin (angle / 2) * axis 2⟩

/-- `Eigen::Quaterniond(matrix)` (Eigen, Shoemake's method; divisions are by positive numbers for
rotation matrices, see `C71`). -/
noncomputable def Quat.ofMatrix (m : Matrix (Fin 3) (Fin 3) ℝ) : Quat :=
  let t := m 0 0 + m 1 1 + m 2 2
  if 0 < t then
    let r := Real.sqrt (t + 1)
    let s := (1 / 2) / r
    ⟨1 / 2 * r, (m 2 1 - m 1 2) * s, (m 0 2 - m 2 0) * s, (m 1 0 - m 0 1) * s⟩
  else
    let i : Fin 3 := if m 0 0 < m 1 1 then 1 else 0
    let i : Fin 3 := if m i i < m 2 2 then 2 else i
    let j := i + 1
    let k := j + 1
    let r := Real.sqrt (m i i - m j j - m k k + 1)
    let s := (1 / 2) / r
    let w := (m k j - m j k) * s
    let c : Fin 3 → ℝ := fun l =>
      if l = i then 1 / 2 * r else if l = j then (m j i + m i j) * s else (m k i + m i k) * s
    ⟨w, c 0, c 1, c 2⟩

/-- `rotationlib/src/quaternion.cpp` 79-86. -/
noncomputable def rpyToQuaternionXYZ (roll pitch yaw : ℝ) : Quat :=
  ((Quat.ofAngleAxis yaw ![0, 0, 1]).mul (Quat.ofAngleAxis pitch ![0, 1, 0])).mul
    (Quat.ofAngleAxis roll ![1, 0, 0])

/-- `rotationlib/src/hat.cpp` 35-43. -/
def hat (v : Fin 3 → ℝ) : Matrix (Fin 3) (Fin 3) ℝ :=
  !![0, -v 2, v 1;
     v 2, 0, -v 0;
     -v 1, v 0, 0]

/-- `rotationlib/src/jacobian/quaternion.cpp` 35-52. -/
def dRpDq (q : Quat) (p : Fin 3 → ℝ) : Matrix (Fin 3) (Fin 4) ℝ :=
  let first : Fin 3 → ℝ := q.w • p + cross q.vec p
  let right : Matrix (Fin 3) (Fin 3) ℝ :=
    (q.vec ⬝ᵥ p) • 1 + vecMulVec q.vec p - vecMulVec p q.vec - q.w • hat p
  (2 : ℝ) • Matrix.of fun i => Fin.cons (first i) (right i)

/-- `localization/src/posevec.cpp` 32-44. -/
noncomputable def angleAxisToQuaternion (θ : Fin 3 → ℝ) : Quat :=
  let k := norm θ
  if k < 1 / 100000000 then Quat.identity
  else
    let u : Fin 3 → ℝ := fun i => θ i / k
    let xyz : Fin 3 → ℝ := fun i => u i * Real.sin (k / 2)
    ⟨Real.cos (k / 2), xyz 0, xyz 1, xyz 2⟩

/-- `Eigen::Isometry3d`: linear part and translation. -/
@[ext] structure Pose where
  linear : Matrix (Fin 3) (Fin 3) ℝ
  translation : Fin 3 → ℝ

/-- `transform * p` (Eigen). -/
def Pose.apply (T : Pose) (p : Fin 3 → ℝ) : Fin 3 → ℝ := T.linear *ᵥ p + T.translation

/-- `localization/src/posevec.cpp` 46-54. -/
def makePose (q : Quat) (t : Fin 3 → ℝ) : Pose := ⟨q.toRotationMatrix, t⟩

end Verif.Rot
