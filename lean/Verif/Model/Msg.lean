/-
Messages (`lib/src/ros_msg.cpp`) and the remaining small functions of `lib` (`eigen.cpp`, `eigen.hpp`,
`pcl_utils.cpp`, `pcl_utils.hpp`, `random.cpp`) and of `localization` (`filter.hpp`).

Strings and times are plain values; message fields that no function of `ros_msg.cpp` sets keep their
defaults and are not modelled.
-/
import Verif.Model.Residual

set_option autoImplicit false

namespace Verif.Msg

open Matrix Verif.Rot

/-- `geometry_msgs/Point` and `geometry_msgs/Vector3`. -/
structure Point where
  x : ℝ
  y : ℝ
  z : ℝ

/-- `geometry_msgs/Quaternion`, in the order of the message. -/
structure Quaternion where
  x : ℝ
  y : ℝ
  z : ℝ
  w : ℝ

/-- `geometry_msgs/Pose`. -/
structure PoseMsg where
  position : Point
  orientation : Quaternion

/-- `std_msgs/Header`; the stamp in nanoseconds. -/
structure Header where
  stamp : ℤ
  frame : String

/-- A message with a header. -/
structure Stamped (α : Type) where
  header : Header
  content : α

/-- `geometry_msgs/PoseWithCovariance`. -/
structure PoseCov where
  pose : PoseMsg
  covariance : Fin 36 → ℝ

/-- `geometry_msgs/TransformStamped`. -/
structure TransformStamped where
  header : Header
  child : String
  translation : Point
  rotation : Quaternion

/-- `geometry_msgs/Twist`. -/
structure Twist where
  linear : Point
  angular : Point

/-! ### `ros_msg.cpp` -/

/-- `MakePoint` (91-98) and `MakeVector3` (115-122). -/
def makePoint (p : Fin 3 → ℝ) : Point := ⟨p 0, p 1, p 2⟩

/-- `ToVector3d` (100-108). -/
def toVector3d (p : Point) : Fin 3 → ℝ := ![p.x, p.y, p.z]

/-- `ToQuaterniond` (110-113): the constructor of Eigen takes `w` first. -/
def toQuaterniond (q : Quaternion) : Quat := ⟨q.w, q.x, q.y, q.z⟩

/-- The message of a quaternion (`tf2::toMsg`). -/
def ofQuat (q : Quat) : Quaternion := ⟨q.x, q.y, q.z, q.w⟩

/-- `GetIsometry3d` (33-38), that is `tf2::fromMsg`: the rotation matrix of the quaternion, which is
not normalised, and the position. -/
def getIsometry3d (m : PoseMsg) : Pose := makePose (toQuaterniond m.orientation) (toVector3d m.position)

/-- `MakePose` (40-43), that is `tf2::toMsg`. Versions of tf2 differ in the sign of the quaternion: `flip`
says for which quaternions it is reversed. -/
noncomputable def makePoseMsg (flip : Quat → Bool) (T : Pose) : PoseMsg :=
  let q := Quat.ofMatrix T.linear
  ⟨makePoint T.translation, ofQuat (if flip q then ⟨-q.w, -q.x, -q.y, -q.z⟩ else q)⟩

/-- `MakePoseStamped` (45-53). -/
noncomputable def makePoseStamped (flip : Quat → Bool) (T : Pose) (stamp : ℤ) (frame : String) :
    Stamped PoseMsg := ⟨⟨stamp, frame⟩, makePoseMsg flip T⟩

/-- `MakePoseWithCovariance` (55-63); `init` are the contents of the uninitialised array in
`FromEigenCovariance`. -/
noncomputable def makePoseWithCovariance (flip : Quat → Bool) (init : Fin 36 → ℝ) (T : Pose)
    (covariance : Matrix (Fin 6) (Fin 6) ℝ) : PoseCov :=
  ⟨makePoseMsg flip T, Lib.fromEigenCovariance init covariance⟩

/-- `MakePoseWithCovarianceStamped` (65-76). -/
noncomputable def makePoseWithCovarianceStamped (flip : Quat → Bool) (init : Fin 36 → ℝ) (T : Pose)
    (covariance : Matrix (Fin 6) (Fin 6) ℝ) (stamp : ℤ) (frame : String) : Stamped PoseCov :=
  ⟨⟨stamp, frame⟩, makePoseWithCovariance flip init T covariance⟩

/-- `MakeTransformStamped` (78-89), `tf2::eigenToTransform` with the quaternion of the linear part. -/
noncomputable def makeTransformStamped (T : Pose) (stamp : ℤ) (frame child : String) : TransformStamped :=
  ⟨⟨stamp, frame⟩, child, makePoint T.translation, ofQuat (Quat.ofMatrix T.linear)⟩

/-- `MakeTwist` (124-132). -/
def makeTwist (linear angular : Fin 3 → ℝ) : Twist := ⟨makePoint linear, makePoint angular⟩

/-- `MakeTwistStamped` (134-145). -/
def makeTwistStamped (linear angular : Fin 3 → ℝ) (stamp : ℤ) (frame : String) : Stamped Twist :=
  ⟨⟨stamp, frame⟩, makeTwist linear angular⟩

/-- The fields of `visualization_msgs/Marker` that are used: header, type, `scale.x`, colour, points.
The type is `LINE_LIST` (5) or the default 0. -/
structure Marker where
  header : Header
  type : ℕ
  width : ℝ
  color : ℝ × ℝ × ℝ × ℝ
  points : List Point

/-- `InitLines` (147-154); numbers of a new message are 0. -/
def initLines (stamp : ℤ) (frame : String) : Marker := ⟨⟨stamp, frame⟩, 5, 0, (0, 0, 0, 0), []⟩

/-- `SetWidth` (156-160). -/
noncomputable def setWidth (m : Marker) (width : ℝ) : Res Marker :=
  if 0 ≤ width ∧ width ≤ 1 then .ok { m with width := width } else .error .assertFail

/-- `SetColor` (162-178). -/
noncomputable def setColor (m : Marker) (r g b a : ℝ) : Res Marker :=
  if 0 ≤ r ∧ r ≤ 1 then
    if 0 ≤ g ∧ g ≤ 1 then
      if 0 ≤ b ∧ b ≤ 1 then
        if 0 ≤ a ∧ a ≤ 1 then .ok { m with color := (r, g, b, a) }
        else .error .assertFail
      else .error .assertFail
    else .error .assertFail
  else .error .assertFail

/-- `AddLine` (180-188). -/
def addLine (m : Marker) (start stop : Fin 3 → ℝ) : Marker :=
  { m with points := m.points ++ [makePoint start] ++ [makePoint stop] }

/-! ### `eigen.cpp`, `eigen.hpp` -/

/-- `MakeIsometry3d` (`eigen.cpp` 55-62). -/
noncomputable def makeIsometry3d (q : Quat) (t : Fin 3 → ℝ) : Res Pose :=
  if |Real.sqrt (q.w ^ 2 + q.x ^ 2 + q.y ^ 2 + q.z ^ 2) - 1| < 1 / 1000000 then .ok ⟨q.toRotationMatrix, t⟩
  else .error .assertFail

/-- `HorizontalStack` (`eigen.hpp` 57-65): an `n k` by `m` matrix, written block by block. Entries that no
block writes would be those of the uninitialised matrix `init`. -/
def horizontalStack {n m : ℕ} (init : ℕ → ℕ → ℝ) (matrices : List (Matrix (Fin n) (Fin m) ℝ)) : ℕ → ℕ → ℝ :=
  (matrices.zipIdx).foldl (fun X p => fun r c =>
    if h : p.2 * n ≤ r ∧ r < p.2 * n + n ∧ c < m then p.1 ⟨r - p.2 * n, by omega⟩ ⟨c, h.2.2⟩ else X r c) init

/-- `VectorsToEigen` (`eigen.hpp` 47-55): the vectors become rows. -/
def vectorsToEigen {n : ℕ} (init : ℕ → ℕ → ℝ) (vectors : List (Fin n → ℝ)) : ℕ → ℕ → ℝ :=
  (vectors.zipIdx).foldl (fun X p => fun r c =>
    if h : r = p.2 ∧ c < n then p.1 ⟨c, h.2⟩ else X r c) init

/-! ### `pcl_utils` -/

/-- `ThrowsIfPointCloudIsEmpty` (`pcl_utils.hpp` 46-52). -/
def throwsIfPointCloudIsEmpty {P : Type} (cloud : List P) : Res Unit :=
  if cloud.length = 0 then .error .invalidArgument else .ok ()

/-- `Get` (`pcl_utils.cpp` 37-46): `at` throws outside the cloud; a negative index is converted to a huge
unsigned one. -/
def get (cloud : List (Fin 3 → ℝ)) (indices : List ℤ) : Res (List (Fin 3 → ℝ)) :=
  indices.mapM fun i => atI cloud i

/-! ### `filter.hpp` -/

/-- The loop of `Filter` (`localization/include/lidar_feature_localization/filter.hpp` 42-47) over the
indices; `values[i]` is unchecked. -/
def filterLoop {α : Type} (flags : List Bool) (values : List α) (indices : List ℕ) (filtered : List α) :
    Res (List α) :=
  indices.foldlM (fun acc i => do
    match flags[i]? with
    | none => .error .undefinedBehaviour
    | some false => .ok acc
    | some true =>
      match values[i]? with
      | none => .error .undefinedBehaviour
      | some v => .ok (acc ++ [v])) filtered

/-- `Filter` (34-49). -/
def filter {α : Type} (flags : List Bool) (values : List α) : Res (List α) :=
  if flags.length = values.length then filterLoop flags values (List.range flags.length) []
  else .error .assertFail

/-! ### `random.cpp` -/

/-- `RandomizedUniqueIndices` (36-42); `shuffle` is `std::shuffle` with some random state. -/
def randomizedUniqueIndices (shuffle : List ℕ → List ℕ) (size : ℕ) : List ℕ :=
  let v := List.range size
  shuffle v

/-- `SampleStandardDeviation` (44-48). `none` stands for NaN: 0/0 for a single value, and the mean of no
values (Eigen asserts there). -/
noncomputable def sampleStandardDeviation (v : List ℝ) : Res (Option ℝ) :=
  if v.length = 0 then .error .assertFail
  else
    let n : ℝ := v.length
    let mean := v.sum / n
    let squares := (v.map fun x => (x - mean) ^ 2).sum
    .ok (if n - 1 = 0 then none else some (Real.sqrt (squares / (n - 1))))

end Verif.Msg
