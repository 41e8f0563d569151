/-
The parameters of the nodes: `extraction/include/lidar_feature_extraction/hyper_parameter.hpp`,
`ekf_localizer/include/ekf_localizer/ekf_localizer.hpp` 141-171, `map_loader/src/map_loader.cpp` 58-62,
`map_tf_generator/src/map_tf_generator_node.cpp` 37-38 and
`lidar_feature_launch/config/lidar_feature_extraction.param.yaml`.

`rclcpp::Node::declare_parameter(name, default)` is modelled from its documentation: the value is the
override of that name (parameter file, launch file or command line) if there is one, otherwise the
default; an override of another type than the default's is refused with `InvalidParameterTypeException`.
Overrides without a declaration are ignored. Decimal constants are exact.
-/
import Verif.Model.Callback
import Verif.Model.EkfNode
import Verif.Model.Apps
import Verif.Model.Frames

set_option autoImplicit false

namespace Verif.Param

/-- A `double` as given by a user: YAML has `.inf`, `-.inf` and `.nan`. -/
inductive Dbl where
  | finite (r : ℝ)
  | inf
  | negInf
  | nan

/-- `rclcpp::ParameterValue`; the types that no node of the repository declares are one case. -/
inductive Value where
  | bool (b : Bool)
  /-- `int64_t`. -/
  | int (i : ℤ)
  | double (d : Dbl)
  | string (s : String)
  | other

/-- The overrides given to a node. -/
abbrev Overrides := String → Option Value

/-- Why a constructor does not return. -/
inductive StartErr where
  /-- `rclcpp::exceptions::InvalidParameterTypeException`. -/
  | wrongType (name : String)
  | failed (e : Err)
  deriving DecidableEq

abbrev Start (α : Type) := Except StartErr α

/-- Conversion of the `int64_t` of a parameter to `int`: modulo 2³² into [-2³¹, 2³¹). -/
def toInt (i : ℤ) : ℤ := (i + 2147483648) % 4294967296 - 2147483648

/-- `declare_parameter(name, default)` with an `int` default, assigned to an `int`. -/
def declareInt (o : Overrides) (name : String) (default : ℤ) : Start ℤ :=
  match o name with
  | none => .ok default
  | some (.int i) => .ok (toInt i)
  | some _ => .error (.wrongType name)

/-- `declare_parameter(name, default)` with a `double` default. -/
def declareDouble (o : Overrides) (name : String) (default : ℝ) : Start Dbl :=
  match o name with
  | none => .ok (.finite default)
  | some (.double d) => .ok d
  | some _ => .error (.wrongType name)

/-- `declare_parameter(name, default)` with a `bool` default. -/
def declareBool (o : Overrides) (name : String) (default : Bool) : Start Bool :=
  match o name with
  | none => .ok default
  | some (.bool b) => .ok b
  | some _ => .error (.wrongType name)

/-- `declare_parameter(name, default)` with a string default. -/
def declareString (o : Overrides) (name : String) (default : String) : Start String :=
  match o name with
  | none => .ok default
  | some (.string s) => .ok s
  | some _ => .error (.wrongType name)

/-- `x > 0` for a `double`; false for NaN. -/
def Dbl.positive : Dbl → Prop
  | .finite r => 0 < r
  | .inf => True
  | .negInf => False
  | .nan => False

/-- The members of `HyperParameters` (`hyper_parameter.hpp` 56-64). -/
structure Hyper where
  padding : ℤ
  neighborDegreeThreshold : Dbl
  distanceDiffThreshold : Dbl
  parallelBeamMinRangeRatio : Dbl
  edgeThreshold : Dbl
  surfaceThreshold : Dbl
  minRange : Dbl
  maxRange : Dbl
  nBlocks : ℤ

open Classical in
/-- `assert(c)`. -/
noncomputable def check (c : Prop) : Start Unit :=
  if c then .ok () else .error (.failed .assertFail)

/-- The constructor of `HyperParameters` (`hyper_parameter.hpp` 34-54). -/
noncomputable def hyperParameters (o : Overrides) : Start Hyper := do
  let padding ← declareInt o "convolution_padding" 5
  let degree ← declareDouble o "neighbor_degree_threshold" 2
  let diff ← declareDouble o "distance_diff_threshold" (3 / 10)
  let ratio ← declareDouble o "parallel_beam_min_range_ratio" (2 / 100)
  let edge ← declareDouble o "edge_threshold" (5 / 100)
  let surface ← declareDouble o "surface_threshold" (5 / 100)
  let minRange ← declareDouble o "min_range" (1 / 10)
  let maxRange ← declareDouble o "max_range" 100
  let nBlocks ← declareInt o "n_blocks" 6
  check (0 < padding)
  check degree.positive
  check diff.positive
  check ratio.positive
  check edge.positive
  check surface.positive
  check minRange.positive
  check maxRange.positive
  check (0 < nBlocks)
  .ok ⟨padding, degree, diff, ratio, edge, surface, minRange, maxRange, nBlocks⟩

/-- The parameters as the extraction model takes them (`Model/Callback.lean`), with the threshold of
`neighbor_degree_threshold`; `none` if one of the `double`s is not finite, which that model does not
cover. -/
def Hyper.finite? (h : Hyper) : Option (ℝ × Extraction.HyperParameters ℝ) :=
  match h.neighborDegreeThreshold, h.distanceDiffThreshold, h.parallelBeamMinRangeRatio,
    h.edgeThreshold, h.surfaceThreshold, h.minRange, h.maxRange with
  | .finite degree, .finite diff, .finite ratio, .finite edge, .finite surface, .finite lo,
    .finite hi => some (degree, ⟨h.padding, diff, ratio, edge, surface, lo, hi, h.nBlocks⟩)
  | _, _, _, _, _, _, _ => none

/-- The members of `EKFParameters` (`ekf_localizer.hpp` 159-170). -/
structure EkfHyper where
  defaultFrequency : Dbl
  extendStateStep : ℤ
  poseFrame : String
  poseSmoothing : ℤ
  poseGate : Dbl
  twistGate : Dbl
  twistSmoothing : ℤ
  yawCov : Dbl
  enableYawBias : Bool
  yawBiasCov : Dbl
  vxCov : Dbl
  wzCov : Dbl

/-- The constructor of `EKFParameters` (`ekf_localizer.hpp` 143-157). -/
noncomputable def ekfParameters (o : Overrides) : Start EkfHyper := do
  let frequency ← declareDouble o "predict_frequency" 50
  let steps ← declareInt o "extend_state_step" 50
  let frame ← declareString o "pose_frame_id" "map"
  let poseSmoothing ← declareInt o "pose_smoothing_steps" 5
  let poseGate ← declareDouble o "pose_gate_dist" 10000
  let twistGate ← declareDouble o "twist_gate_dist" 10000
  let twistSmoothing ← declareInt o "twist_smoothing_steps" 2
  let yaw ← declareDouble o "proc_stddev_yaw_c" (5 / 1000)
  let enable ← declareBool o "enable_yaw_bias_estimation" true
  let bias ← declareDouble o "proc_stddev_yaw_bias_c" (1 / 1000)
  let vx ← declareDouble o "proc_stddev_vx_c" 5
  let wz ← declareDouble o "proc_stddev_wz_c" 1
  .ok ⟨frequency, steps, frame, poseSmoothing, poseGate, twistGate, twistSmoothing, yaw, enable, bias, vx,
    wz⟩

/-- The parameters as the model of the node takes them (`Model/EkfNode.lean`), with the number of kept
states; `none` if a `double` is not finite or the number of states is not positive, which that model
does not cover. -/
def EkfHyper.finite? (h : EkfHyper) : Option (ℕ × Ekf.EkfParams) :=
  match h.defaultFrequency, h.poseGate, h.twistGate, h.yawCov, h.yawBiasCov, h.vxCov, h.wzCov with
  | .finite frequency, .finite poseGate, .finite twistGate, .finite yaw, .finite bias, .finite vx,
    .finite wz =>
    if 0 < h.extendStateStep then
      some (h.extendStateStep.toNat,
        ⟨frequency, h.poseFrame.toList, h.poseSmoothing, poseGate, twistGate, h.twistSmoothing, yaw,
          h.enableYawBias, bias, vx, wz⟩)
    else none
  | _, _, _, _, _, _, _ => none

/-- Creating the filter with `n` states of dimension `d` and reading the newest state
(`time_delay_kalman_filter.cpp` 19-29, 141-151), as the timer callback does after an initial pose: only
the sizes. Eigen asserts that a size is not negative and that an index is below the size. The product
is not taken modulo 2³². -/
def latestState (d n : ℤ) : Res Unit :=
  if n * d < 0 then .error .assertFail
  else if n * d < d then .error .assertFail
  else .ok ()

/-- The constructor of `MapLoaderNode` (`map_loader.cpp` 55-75): the messages it publishes. -/
def mapLoaderNode {P : Type} (fs : Apps.Fs P) (o : Overrides) : Start (List (Apps.MapMsg P)) := do
  let name ← declareString o "pcd_filename" ""
  match Apps.mapLoader fs name with
  | .ok messages => .ok messages
  | .error e => .error (.failed e)

/-- The node of `map_tf_generator_node.cpp`: what it sends for a map. -/
noncomputable def mapTfNode (o : Overrides) (points : List (Fin 3 → ℝ)) :
    Start Frames.StaticTransform := do
  let mapFrame ← declareString o "map_frame" "map"
  let viewerFrame ← declareString o "viewer_frame" "viewer"
  .ok (Frames.broadcastViewer mapFrame viewerFrame points)

/-- `lidar_feature_launch/config/lidar_feature_extraction.param.yaml`. -/
noncomputable def shippedFile : Overrides := fun name =>
  [("convolution_padding", Value.int 2),
   ("neighbor_degree_threshold", .double (.finite 3)),
   ("distance_diff_threshold", .double (.finite (3 / 10))),
   ("parallel_beam_min_range_ratio", .double (.finite (2 / 100))),
   ("edge_threshold", .double (.finite 50)),
   ("min_range", .double (.finite (1 / 10))),
   ("max_range", .double (.finite 1000)),
   ("n_blocks", .int 6)].lookup name

end Verif.Param
