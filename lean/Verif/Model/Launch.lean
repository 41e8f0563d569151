/-
The launch files: `lidar_feature_launch/launch/{localization,mapping,odometry}.launch.py`, with the
topics, message types and qualities of service of the programs they start.
-/
import Mathlib.Init

set_option autoImplicit false

namespace Verif.Launch

/-- A topic name: absolute (`/a/b`) or relative (`a/b`). Simplification: no private names (`~`) and
no substitutions (`{node}`); the code has none. -/
structure Name where
  absolute : Bool
  path : List String
deriving DecidableEq, Repr

/-- The absolute name `/s`. -/
def abs (s : String) : Name := ⟨true, [s]⟩

/-- The relative name `s`. -/
def rel (s : String) : Name := ⟨false, [s]⟩

/-- The full name of a topic for a node in the namespace `ns` (ROS naming rules, library). -/
def Name.resolve (ns : List String) (n : Name) : List String :=
  if n.absolute then n.path else ns ++ n.path

/-- Remapping (library): both sides of a rule are resolved; the first rule that matches the resolved
name replaces it. -/
def remap (ns : List String) (rules : List (Name × Name)) (n : Name) : List String :=
  match rules.find? fun r => decide (r.1.resolve ns = n.resolve ns) with
  | some r => r.2.resolve ns
  | none => n.resolve ns

/-- The message types exchanged. -/
inductive MsgType where
  | pointCloud2 | odometry | poseStamped | poseWithCovarianceStamped | twistWithCovarianceStamped
  | path
deriving DecidableEq, Repr

/-- A publisher or a subscription of a program, with the parts of the quality of service that decide
whether two ends match, and the number of messages that are kept (`none`: all of them, `KEEP_ALL`). -/
structure Endpoint where
  topic : Name
  type : MsgType
  reliable : Bool
  transientLocal : Bool
  depth : Option Nat
deriving DecidableEq, Repr

/-- An executable of a package and its ends. -/
structure Program where
  package : String
  executable : String
  subscriptions : List Endpoint
  publishers : List Endpoint
deriving DecidableEq, Repr

/-- `convert.py` 147-158, 176-181. -/
def converter : Program where
  package := "point_type_converter"
  executable := "listener"
  subscriptions := [⟨abs "points_raw", .pointCloud2, false, false, none⟩]
  publishers := [⟨abs "points_converted", .pointCloud2, true, false, none⟩]

/-- `feature_extraction.cpp` 73-82; `qos.hpp` 34-35. A number as quality of service means reliable,
volatile and so many messages; `SensorDataQoS` means five. -/
def extraction : Program where
  package := "lidar_feature_extraction"
  executable := "lidar_feature_extraction"
  subscriptions := [⟨rel "points_raw", .pointCloud2, true, false, some 5⟩]
  publishers := [⟨rel "colored_scan", .pointCloud2, true, false, some 1⟩,
    ⟨rel "scan_edge", .pointCloud2, true, false, some 5⟩,
    ⟨rel "scan_surface", .pointCloud2, true, false, some 5⟩]

/-- `localization/.../subscriber.hpp` 77, 86-103. -/
def localization : Program where
  package := "lidar_feature_localization"
  executable := "lidar_feature_localization"
  subscriptions := [⟨rel "scan_edge", .pointCloud2, true, false, none⟩,
    ⟨rel "scan_surface", .pointCloud2, true, false, none⟩,
    ⟨rel "optimization_start_odom", .odometry, true, false, some 5⟩,
    ⟨rel "optimization_start_pose", .poseStamped, true, false, some 5⟩]
  publishers := [⟨rel "estimated_pose", .poseWithCovarianceStamped, true, false, some 10⟩]

/-- `map_loader.cpp` 71-72; `qos.hpp` 36-37. -/
def mapLoader : Program where
  package := "lidar_feature_map_loader"
  executable := "lidar_feature_map_loader"
  subscriptions := []
  publishers := [⟨rel "map_topic", .pointCloud2, true, true, some 5⟩]

/-- `ekf_localizer.cpp` 120-129. -/
def ekfLocalizer : Program where
  package := "ekf_localizer"
  executable := "ekf_localizer"
  subscriptions := [⟨rel "initialpose", .poseWithCovarianceStamped, true, false, some 1⟩,
    ⟨rel "in_pose_with_covariance", .poseWithCovarianceStamped, true, false, some 1⟩,
    ⟨rel "in_twist_with_covariance", .twistWithCovarianceStamped, true, false, some 1⟩]
  publishers := [⟨rel "ekf_odom", .odometry, true, false, some 1⟩]

/-- `mapping.cpp` 67-68, 92-93. -/
def mapping : Program where
  package := "lidar_feature_mapping"
  executable := "lidar_feature_mapping"
  subscriptions := [⟨rel "scan_edge", .pointCloud2, true, false, some 5⟩,
    ⟨rel "pose", .poseStamped, true, false, some 5⟩]
  publishers := []

/-- `path_generator.hpp` 50, 102-104 and `path_generator/src/node.cpp`. -/
def pathGenerator : Program where
  package := "path_generator"
  executable := "path_generator"
  subscriptions := [⟨rel "pose", .poseWithCovarianceStamped, true, false, none⟩]
  publishers := [⟨rel "path", .path, true, true, some 5⟩]

/-- `map_tf_generator_node.cpp` 40-42; `qos.hpp` 36-37. -/
def mapTfGenerator : Program where
  package := "map_tf_generator"
  executable := "map_tf_generator"
  subscriptions := [⟨abs "pointcloud_map", .pointCloud2, true, true, some 5⟩]
  publishers := []

/-- The program `rviz2` with `rviz/lidar_feature_localization.rviz`: its displays (67-83, 86-122,
127-157, 167-189, 201-223, 235-257, 269-291) and the tool that sets an initial pose (309-318).
Simplification: without the tools for goals and points, whose topics no program here reads. -/
def rvizLocalization : Program where
  package := "rviz2"
  executable := "rviz2"
  subscriptions := [⟨abs "pose", .poseStamped, true, false, some 5⟩,
    ⟨abs "ekf_odom", .odometry, true, false, some 5⟩,
    ⟨abs "lidar_feature_pose", .poseWithCovarianceStamped, true, false, some 5⟩,
    ⟨abs "scan_edge", .pointCloud2, true, false, some 5⟩,
    ⟨abs "scan_surface", .pointCloud2, true, false, some 5⟩,
    ⟨abs "edge_map", .pointCloud2, true, true, some 5⟩,
    ⟨abs "surface_map", .pointCloud2, true, true, some 5⟩]
  publishers := [⟨abs "initialpose", .poseWithCovarianceStamped, true, false, some 5⟩]

/-- The same with `rviz/lidar_feature_debug.rviz` (31-54, 65-88, 94-118). -/
def rvizDebug : Program where
  package := "rviz2"
  executable := "rviz2"
  subscriptions := [⟨abs "edge_map", .pointCloud2, true, true, some 5⟩,
    ⟨abs "colored_scan", .pointCloud2, true, false, some 5⟩,
    ⟨abs "estimated_path", .path, true, false, some 5⟩]
  publishers := []

/-- `odometry.cpp` and `subscriber.hpp` 193-206, both commented out. -/
def odometry : Program where
  package := "lidar_feature_localization"
  executable := "lidar_feature_odometry"
  subscriptions := [⟨rel "scan_edge", .pointCloud2, true, false, some 5⟩]
  publishers := [⟨rel "estimated_pose", .poseStamped, true, false, some 10⟩]

/-- The executables the build installs. `localization/CMakeLists.txt` 33-36 builds
`lidar_feature_localization` only; `point_type_converter/setup.py` 23;
`path_generator/CMakeLists.txt` 15; `map_tf_generator/CMakeLists.txt` 26-29; the other packages build
one executable each. -/
def built : List (String × String) :=
  [converter, extraction, localization, mapLoader, ekfLocalizer, mapping, pathGenerator,
    mapTfGenerator].map fun p => (p.package, p.executable)

/-- A `Node` action: the program, the `namespace` argument and the `remappings`. -/
structure Node where
  program : Program
  namespace' : List String
  remappings : List (Name × Name)

/-- Launching (library): a node whose executable cannot be found stops the launch. -/
def launch (nodes : List Node) : Option (List Node) :=
  if nodes.all fun n => built.contains (n.program.package, n.program.executable) then some nodes
  else none

/-- The full topic of an end of a node, when the launch file is included in the namespace `ns`
(`[]` when it is run by itself). -/
def Node.topic (ns : List String) (n : Node) (e : Endpoint) : List String :=
  remap (ns ++ n.namespace') n.remappings e.topic

/-- Whether messages flow from a publisher to a subscription (library: same topic, same type, and the
publisher offers at least the quality asked for). -/
def Delivers (ns : List String) (a : Node) (p : Endpoint) (b : Node) (s : Endpoint) : Prop :=
  a.topic ns p = b.topic ns s ∧ p.type = s.type ∧ (s.reliable = true → p.reliable = true) ∧
    (s.transientLocal = true → p.transientLocal = true)

instance (ns : List String) (a : Node) (p : Endpoint) (b : Node) (s : Endpoint) :
    Decidable (Delivers ns a p b s) := by unfold Delivers; infer_instance

/-- The `LaunchConfiguration`s of `localization.launch.py` 42-73 that reach a node. -/
structure LocalizationArgs where
  initialPose : Name
  twist : Name
  sensorPoints : Name
  lidarFeaturePose : Name
  edgeMap : Name
  surfaceMap : Name
  ekfOdometry : Name

/-- Their defaults. -/
def LocalizationArgs.default : LocalizationArgs where
  initialPose := abs "initialpose3d"
  twist := abs "twist"
  sensorPoints := abs "points_raw"
  lidarFeaturePose := abs "lidar_feature_pose"
  edgeMap := abs "edge_map"
  surfaceMap := abs "surface_map"
  ekfOdometry := abs "ekf_odom"

/-- `localization.launch.py` 77-85. -/
def converterNode (sensorPoints : Name) : Node :=
  ⟨converter, [], [(rel "points_raw", sensorPoints), (rel "points_converted", abs "points_converted")]⟩

/-- `localization.launch.py` 87-101. -/
def extractionNode : Node :=
  ⟨extraction, [], [(rel "points_raw", abs "points_converted"), (rel "colored_scan", abs "colored_scan"),
    (rel "curvature_scan", abs "curvature_scan"), (rel "scan_edge", abs "scan_edge"),
    (rel "scan_surface", abs "scan_surface")]⟩

/-- `localization.launch.py` 103-112. -/
def localizationNode (a : LocalizationArgs) : Node :=
  ⟨localization, [], [(rel "scan_edge", abs "scan_edge"), (rel "optimization_start_odom", a.ekfOdometry),
    (rel "estimated_pose", a.lidarFeaturePose)]⟩

/-- `localization.launch.py` 114-124 and 126-136. -/
def mapLoaderNode (topic : Name) : Node := ⟨mapLoader, [], [(rel "map_topic", topic)]⟩

/-- `localization.launch.py` 138-149. -/
def ekfNode (a : LocalizationArgs) : Node :=
  ⟨ekfLocalizer, [], [(rel "initialpose", a.initialPose), (rel "ekf_odom", a.ekfOdometry),
    (rel "in_pose_with_covariance", a.lidarFeaturePose), (rel "in_twist_with_covariance", a.twist)]⟩

/-- `localization.launch.py` 151-158. -/
def localizationLaunch (a : LocalizationArgs) : Option (List Node) :=
  launch [converterNode a.sensorPoints, extractionNode, localizationNode a, mapLoaderNode a.edgeMap,
    mapLoaderNode a.surfaceMap, ekfNode a]

/-- `mapping.launch.py` 64-78. -/
def mappingExtractionNode : Node :=
  ⟨extraction, [], [(rel "points_raw", abs "points_converted"), (rel "colored_scan", abs "colored_scan"),
    (rel "curvature_scan", abs "curvature_scan"), (rel "scan_edge", abs "scan_edge")]⟩

/-- `mapping.launch.py` 80-89. -/
def mappingNode (pose : Name) : Node :=
  ⟨mapping, ["lidar_feature_mapping"], [(rel "scan_edge", abs "scan_edge"), (rel "pose", pose)]⟩

/-- `mapping.launch.py` 52-95. -/
def mappingLaunch (sensorPoints pose : Name) : Option (List Node) :=
  launch [converterNode sensorPoints, mappingExtractionNode, mappingNode pose]

/-- `odometry.launch.py` 53-57: no remappings. -/
def odometryConverterNode : Node := ⟨converter, [], []⟩

/-- `odometry.launch.py` 59-72. -/
def odometryExtractionNode (sensorPoints : Name) : Node :=
  ⟨extraction, [], [(rel "points_raw", sensorPoints), (rel "colored_scan", abs "colored_scan"),
    (rel "curvature_scan", abs "curvature_scan"), (rel "scan_edge", abs "scan_edge")]⟩

/-- `odometry.launch.py` 74-82. -/
def odometryNode (pose : Name) : Node :=
  ⟨odometry, [], [(rel "scan_edge", abs "scan_edge"), (rel "estimated_pose", pose)]⟩

/-- `odometry.launch.py` 84-92. -/
def pathNode (pose path : Name) : Node := ⟨pathGenerator, [], [(rel "pose", pose), (rel "path", path)]⟩

/-- `odometry.launch.py` 52-99. -/
def odometryLaunch (sensorPoints pose path : Name) : Option (List Node) :=
  launch [odometryConverterNode, odometryExtractionNode sensorPoints, odometryNode pose,
    pathNode pose path]

/-- `map_tf_generator.launch.xml` 7-8. -/
def mapTfNode (points : Name) : Node := ⟨mapTfGenerator, [], [(rel "pointcloud_map", points)]⟩

/-- `map_tf_generator.launch.xml` 1-13. -/
def mapTfLaunch (points : Name) : Option (List Node) := launch [mapTfNode points]

/-- A viewer started by itself. -/
def viewer (view : Program) : Node := ⟨view, [], []⟩

end Verif.Launch
