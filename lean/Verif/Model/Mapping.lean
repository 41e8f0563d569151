/-
Recent scans, odometry, the map builder, the path generator and the map centroid
(`localization/include/lidar_feature_localization/{recent_scans,point_cloud_map,odometry}.hpp`,
`mapping/include/lidar_feature_mapping/map.hpp`, `path_generator/include/path_generator/
path_generator.hpp`, `map_tf_generator/src/map_tf_generator_node.cpp`).
-/
import Verif.Model.Rotation
import Verif.Basic

set_option autoImplicit false

namespace Verif.Mapping

open Verif Verif.Rot Matrix

/-- A point of a cloud: its coordinates and whatever else the point type carries. -/
structure Pt (P : Type) where
  xyz : Fin 3 → ℝ
  other : P

/-- A `pcl::PointCloud`: its points. Simplifications: `width`, `height`, `is_dense` and the header
are not modelled; coordinates are exact and finite (`pcl::transformPointCloud` leaves non-finite
points of non-dense clouds alone). -/
abbrev Cloud (P : Type) := List (Pt P)

variable {P : Type}

/-- `TransformPointCloud` (`lib/include/lidar_feature_library/pcl_utils.hpp` 75-83), that is
`pcl::transformPointCloud`: coordinates are transformed, the other fields are copied. -/
def transformPointCloud (T : Pose) (c : Cloud P) : Cloud P :=
  c.map fun p => { p with xyz := T.apply p.xyz }

/-! ### Recent scans -/

/-- `MergeClouds` (`recent_scans.hpp` 43-52); `+=` of clouds appends the points. -/
def mergeClouds (scans : List (Cloud P)) : Cloud P :=
  scans.foldl (fun merged scan => merged ++ scan) []

/-- `static_cast<int>` of a `size_t` (76): reduction modulo `2^32` into the range of `int`. -/
def toInt (n : ℕ) : ℤ := Int.bmod n (2 ^ 32)

/-- `RecentScans` (55-88): `scans_`. -/
structure RecentScans (P : Type) where
  scans : List (Cloud P)

/-- The constructor (59). -/
def RecentScans.new : RecentScans P := ⟨[]⟩

/-- `Add` (61-67). -/
def RecentScans.add (r : RecentScans P) (T : Pose) (scan : Cloud P) : RecentScans P :=
  ⟨r.scans ++ [transformPointCloud T scan]⟩

/-- `IsEmpty` (69-72). -/
def RecentScans.isEmpty (r : RecentScans P) : Bool := r.scans.length = 0

/-- `GetRecent` (74-79). The range `[end() - n_recent, end())` is undefined behaviour if `n_recent`
is negative or larger than the number of scans. -/
def RecentScans.getRecent (r : RecentScans P) (n : ℤ) : Res (Cloud P) :=
  let nRecent := min n (toInt r.scans.length)
  if nRecent < 0 ∨ (r.scans.length : ℤ) < nRecent then .error .undefinedBehaviour
  else .ok (mergeClouds (r.scans.drop (r.scans.length - nRecent.toNat)))

/-- `GetAll` (81-84). -/
def RecentScans.getAll (r : RecentScans P) : Cloud P := mergeClouds r.scans

/-! ### Odometry -/

/-- `Odometry` (`odometry.hpp` 42-73) with `PointCloudMap` (`point_cloud_map.hpp` 38-65) as its map:
`pose_` and `map_`. -/
structure Odometry (P : Type) where
  pose : Pose
  map : RecentScans P

/-- The constructor (46-50) with an empty map. -/
def Odometry.new : Odometry P := ⟨⟨1, 0⟩, RecentScans.new⟩

/-- `Update` (52-63). `nLocal` is `n_local_scans_` of the map, `updater local scan pose` stands for
`PoseUpdaterClass(local)(scan, pose)`. -/
def Odometry.update (nLocal : ℤ) (updater : Cloud P → Cloud P → Pose → Res Pose) (o : Odometry P)
    (scan : Cloud P) : Res (Odometry P) :=
  if o.map.isEmpty then .ok { o with map := o.map.add o.pose scan }
  else do
    let recent ← o.map.getRecent nLocal
    let pose ← updater recent scan o.pose
    .ok ⟨pose, o.map.add pose scan⟩

/-! ### The map builder -/

/-- `Isometry3d::inverse`: the transposed linear part and the translation that goes with it. -/
def Pose.inverse (T : Pose) : Pose := ⟨T.linearᵀ, -(T.linearᵀ *ᵥ T.translation)⟩

/-- Product of two `Isometry3d`. -/
def Pose.mul (A B : Pose) : Pose := ⟨A.linear * B.linear, A.linear *ᵥ B.translation + A.translation⟩

/-- `GetIsometry3d` (`lib/src/ros_msg.cpp` 33-38), that is `tf2::fromMsg`: the rotation matrix of the
message's quaternion, which is not normalised, and the position. -/
def getIsometry3d (q : Quat) (position : Fin 3 → ℝ) : Pose := makePose q position

/-- `PoseDiffIsSufficientlySmall` (`map.hpp` 49-59). `rotation()` of an `Isometry3d` is its linear
part. -/
def poseDiffIsSufficientlySmall (pose0 pose1 : Pose) (translationThreshold rotationThreshold : ℝ) :
    Prop :=
  let d := Pose.mul (Pose.inverse pose0) pose1
  Rot.norm d.translation < translationThreshold ∧
    Rot.norm (Quat.ofMatrix d.linear).vec < rotationThreshold

/-- `translation_threshold`, `rotation_threshold` (89-90). -/
noncomputable def translationThreshold : ℝ := 1
noncomputable def rotationThreshold : ℝ := 1 / 10

/-- `MapBuilder` (97-153): the points of `map_` and `prev_transform_`. -/
structure MapBuilder (P : Type) where
  map : Cloud P
  prev : Pose

/-- The constructor (101-102) leaves `prev_transform_` uninitialised: it contains anything. -/
def MapBuilder.new (garbage : Pose) : MapBuilder P := ⟨[], garbage⟩

open scoped Classical in
/-- `Callback` (104-133). The cloud and the pose are the contents of the two messages. Reading the
uninitialised member is modelled as reading an unknown pose. -/
noncomputable def MapBuilder.callback (b : MapBuilder P) (cloud : Cloud P) (transform : Pose) :
    MapBuilder P :=
  if cloud.length = 0 then b
  else
    let small := poseDiffIsSufficientlySmall b.prev transform translationThreshold rotationThreshold
    if b.map.length ≠ 0 ∧ small then b
    else ⟨b.map ++ transformPointCloud transform cloud, transform⟩

/-- `SaveMap` (135-149): the file written, if any. -/
def MapBuilder.saveMap (b : MapBuilder P) (filename : String) : Option (String × Cloud P) :=
  if b.map.length = 0 then none else some (filename, b.map)

/-! ### The path generator -/

/-- `nav_msgs/Path` with headers `H` and poses `Q`. -/
structure Path (H Q : Type) where
  header : H
  poses : List (H × Q)

/-- `PathGenerator` (`path_generator.hpp` 44-69): `path_` and what has been published. -/
structure PathGenerator (H Q : Type) where
  path : Path H Q
  published : List (Path H Q)

/-- `Publish` (54-64), called with the header and the pose of each message by both callbacks
(85-88, 108-111). -/
def PathGenerator.publish {H Q : Type} (g : PathGenerator H Q) (header : H) (pose : Q) :
    PathGenerator H Q :=
  let path : Path H Q := ⟨header, g.path.poses ++ [(header, pose)]⟩
  ⟨path, g.published ++ [path]⟩

/-- A generator as constructed: a default header and no poses. -/
def PathGenerator.new {H Q : Type} (default : H) : PathGenerator H Q := ⟨⟨default, []⟩, []⟩

/-! ### The centroid of the map -/

/-- `onPointCloud` (`map_tf_generator_node.cpp` 54-90): the translation broadcast, `none` standing
for NaN. `sum` is an `unsigned int`, the number of points modulo `2^32`; the rotation is the
identity. Points are finite and sums exact. -/
noncomputable def onPointCloud (points : List (Fin 3 → ℝ)) : Option (Fin 3 → ℝ) :=
  let sum := points.length % 2 ^ 32
  let coordinate := (points.take sum).foldl (fun c p => c + p) 0
  if sum = 0 then none else some (fun i => coordinate i / (sum : ℝ))

end Verif.Mapping
