/-
The map builder (`mapping/include/lidar_feature_mapping/map.hpp`) and the centre of the map
(`map_tf_generator/src/map_tf_generator_node.cpp`) on numbers that may be NaN. `Model/Mapping` is the same code on
numbers proper.

`none` is NaN; numbers are exact and there are no infinities. Products of matrices multiply zeros too, as Eigen's
do, so that `0 * NaN` is NaN.
-/
import Verif.Model.Mapping
import Verif.Model.EkfNaN

set_option autoImplicit false

namespace Verif.MappingNaN

open Verif.EkfNaN
open Verif.Extraction.NaN (Number)

/-- A `geometry_msgs::msg::Pose`: orientation (w, x, y, z) and position. -/
structure PoseMsg where
  w : Number
  x : Number
  y : Number
  z : Number
  position : Vec 3

/-- `Eigen::Isometry3d`. -/
structure Pose where
  linear : Mat 3 3
  translation : Vec 3

/-- `q.toRotationMatrix()` (Eigen) as `Verif.Rot.Quat.toRotationMatrix`: an entry is NaN if one of the components
that occur in it is. -/
def toRotationMatrix (w x y z : Number) : Mat 3 3 :=
  ![![do return 1 - (2 * (← y) * (← y) + 2 * (← z) * (← z)), do return 2 * (← y) * (← x) - 2 * (← z) * (← w),
      do return 2 * (← z) * (← x) + 2 * (← y) * (← w)],
    ![do return 2 * (← y) * (← x) + 2 * (← z) * (← w), do return 1 - (2 * (← x) * (← x) + 2 * (← z) * (← z)),
      do return 2 * (← z) * (← y) - 2 * (← x) * (← w)],
    ![do return 2 * (← z) * (← x) - 2 * (← y) * (← w), do return 2 * (← z) * (← y) + 2 * (← x) * (← w),
      do return 1 - (2 * (← x) * (← x) + 2 * (← y) * (← y))]]

/-- `GetIsometry3d` (`lib/src/ros_msg.cpp` 33-38), that is `tf2::fromMsg`. -/
def getIsometry3d (m : PoseMsg) : Pose := ⟨toRotationMatrix m.w m.x m.y m.z, m.position⟩

/-- The vector part of `Eigen::Quaterniond(matrix)`. On a matrix of numbers it is that of
`Verif.Rot.Quat.ofMatrix`. If all entries are NaN, no comparison holds, and all components are computed from
entries. Anything if only some entries are NaN. -/
structure ToQuaternion where
  vec : Mat 3 3 → Vec 3
  regular : ∀ M : Matrix (Fin 3) (Fin 3) ℝ, vec (ofMat M) = ofVec (Verif.Rot.Quat.ofMatrix M).vec
  nan : ∀ (M : Mat 3 3), (∀ i j, M i j = none) → ∀ i, vec M i = none

/-- `v.norm() < threshold`: false if the norm is NaN. -/
noncomputable def normBelow (v : Vec 3) (threshold : ℝ) : Bool :=
  match sum fun i => mul (v i) (v i) with
  | some s => decide (Real.sqrt s < threshold)
  | none => false

/-- `PoseDiffIsSufficientlySmall` (`map.hpp` 49-59), with `Isometry3d::inverse` and the product of two of them. -/
noncomputable def poseDiffIsSufficientlySmall (lib : ToQuaternion) (pose0 pose1 : Pose)
    (translationThreshold rotationThreshold : ℝ) : Bool :=
  let inverseLinear := transpose pose0.linear
  let inverseTranslation : Vec 3 := fun i => (mulVec inverseLinear pose0.translation i).map (- ·)
  let linear := mulMat inverseLinear pose1.linear
  let translation := addVec (mulVec inverseLinear pose1.translation) inverseTranslation
  normBelow translation translationThreshold && normBelow (lib.vec linear) rotationThreshold

/-- A point of a cloud: its coordinates and whatever else the point type carries. -/
structure Pt (P : Type) where
  xyz : Vec 3
  other : P

/-- A `pcl::PointCloud`: `is_dense` and the points. Simplification: without `width`, `height` and the header. -/
structure Cloud (P : Type) where
  dense : Bool
  points : List (Pt P)

variable {P : Type}

/-- `pcl::isFinite` of a point, as used by `pcl::transformPointCloud`. -/
def Pt.finite (p : Pt P) : Bool := decide (∀ i, (p.xyz i).isSome)

/-- A point transformed. -/
def Pt.transform (T : Pose) (p : Pt P) : Pt P :=
  { p with xyz := addVec (mulVec T.linear p.xyz) T.translation }

/-- `TransformPointCloud` (`lib/include/lidar_feature_library/pcl_utils.hpp` 75-83), that is
`pcl::transformPointCloud`: all points of a dense cloud are transformed; of other clouds those whose coordinates are
finite. -/
def transformPointCloud (T : Pose) (c : Cloud P) : Cloud P :=
  ⟨c.dense, c.points.map fun p => if c.dense || p.finite then p.transform T else p⟩

/-- `operator+=` of clouds: the points are appended; dense if both are. -/
def Cloud.append (a b : Cloud P) : Cloud P := ⟨a.dense && b.dense, a.points ++ b.points⟩

/-- `MapBuilder` (97-153): `map_` and `prev_transform_`. -/
structure MapBuilder (P : Type) where
  map : Cloud P
  prev : Pose

/-- The constructor (101-102): an empty cloud, which is dense, and a pose that is not initialised. -/
def MapBuilder.new (garbage : Pose) : MapBuilder P := ⟨⟨true, []⟩, garbage⟩

/-- `Callback` (104-133). -/
noncomputable def MapBuilder.callback (lib : ToQuaternion) (b : MapBuilder P) (cloud : Cloud P) (m : PoseMsg) :
    MapBuilder P :=
  let transform := getIsometry3d m
  if cloud.points.length = 0 then b
  else
    let small := poseDiffIsSufficientlySmall lib b.prev transform Verif.Mapping.translationThreshold
      Verif.Mapping.rotationThreshold
    if decide (b.map.points.length ≠ 0) && small then b
    else ⟨b.map.append (transformPointCloud transform cloud), transform⟩

/-- The callbacks of a history of pairs of messages. -/
noncomputable def MapBuilder.run (lib : ToQuaternion) (b : MapBuilder P) (h : List (Cloud P × PoseMsg)) :
    MapBuilder P := h.foldl (fun b cm => b.callback lib cm.1 cm.2) b

/-- `onPointCloud` (`map_tf_generator_node.cpp` 54-90): the translation broadcast. `sum` is an `unsigned int`, the
number of points modulo `2^32`; dividing by zero gives NaN or an infinity, here NaN. -/
noncomputable def onPointCloud (points : List (Vec 3)) : Vec 3 :=
  let sum := points.length % 2 ^ 32
  let coordinate := (points.take sum).foldl addVec (fun _ => some 0)
  fun i => if sum = 0 then none else (coordinate i).map (· / (sum : ℝ))

end Verif.MappingNaN
