/-
The functions of tf2 that `ekf_localizer` calls to read an orientation: `tf2::getYaw` (`tf2/utils.h`,
`tf2/impl/utils.h`; called in `pose_measurement.cpp` 60 and `ekf_localizer.cpp`) and
`tf2::Matrix3x3(q).getRPY` (`tf2/LinearMath/Matrix3x3.h`; called in `ekf_localizer.cpp` 47-55).

tf2 is not part of /repo: these definitions follow its known behaviour. They are one value of the
parameter structure `Tf2`, over which the model of the node is generic. Exact numbers; `none` is a
result that is not finite.
-/
import Verif.Model.Measurement
import Mathlib.Analysis.SpecialFunctions.Trigonometric.Inverse

set_option autoImplicit false

namespace Verif.Ekf

open Matrix

/-- `tf2::Quaternion::length2`. -/
def Quat.length2 (q : Quat) : ℝ := q.x * q.x + q.y * q.y + q.z * q.z + q.w * q.w

/-- `tf2::impl::getYaw`. For the zero quaternion `sarg` is NaN, both comparisons are false and the last
branch is taken. -/
noncomputable def tf2GetYaw (q : Quat) : ℝ :=
  let normal := atan2 (2 * (q.x * q.y + q.w * q.z)) (q.w * q.w + q.x * q.x - q.y * q.y - q.z * q.z)
  if q.length2 = 0 then normal
  else
    let sarg := -2 * (q.x * q.z - q.w * q.y) / q.length2
    if sarg ≤ -(99999 / 100000) then -2 * atan2 q.y q.x
    else if 99999 / 100000 ≤ sarg then 2 * atan2 q.y q.x
    else normal

/-- `tf2::Matrix3x3::setRotation`; the entries are NaN for the zero quaternion. -/
noncomputable def tf2Matrix (q : Quat) : Option (Matrix (Fin 3) (Fin 3) ℝ) :=
  if q.length2 = 0 then none
  else
    let s := 2 / q.length2
    let xs := q.x * s; let ys := q.y * s; let zs := q.z * s
    let wx := q.w * xs; let wy := q.w * ys; let wz := q.w * zs
    let xx := q.x * xs; let xy := q.x * ys; let xz := q.x * zs
    let yy := q.y * ys; let yz := q.y * zs; let zz := q.z * zs
    some !![1 - (yy + zz), xy - wz, xz + wy;
            xy + wz, 1 - (xx + zz), yz - wx;
            xz - wy, yz + wx, 1 - (xx + yy)]

/-- The roll of `tf2::Matrix3x3::getRPY` (`getEulerYPR`, first solution). -/
noncomputable def tf2Roll (m : Matrix (Fin 3) (Fin 3) ℝ) : ℝ :=
  if 1 ≤ |m 2 0| then atan2 (m 2 1) (m 2 2)
  else
    let pitch := -Real.arcsin (m 2 0)
    atan2 (m 2 1 / Real.cos pitch) (m 2 2 / Real.cos pitch)

/-- The pitch of `tf2::Matrix3x3::getRPY`. -/
noncomputable def tf2Pitch (m : Matrix (Fin 3) (Fin 3) ℝ) : ℝ :=
  if 1 ≤ |m 2 0| then if m 2 0 < 0 then Real.pi / 2 else -(Real.pi / 2)
  else -Real.arcsin (m 2 0)

/-- The functions together. -/
noncomputable def tf2 : Tf2 where
  getYaw q := some (tf2GetYaw q)
  getRoll q := (tf2Matrix q).map tf2Roll
  getPitch q := (tf2Matrix q).map tf2Pitch

end Verif.Ekf
