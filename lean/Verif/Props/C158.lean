/-
C158: the parameters and topics that the README of the Kalman filter node lists (`ekf_localizer/README.md`
40-142) and those of the node.
-/
import Verif.Props.C128
import Verif.Model.Launch

set_option autoImplicit false

namespace Verif.Param

/-! ### Specification -/

/-- Specification: the parameters of the README with the defaults it gives (110-140). -/
noncomputable def readme : List (String × Value) :=
  [("show_debug_info", .bool false),
   ("predict_frequency", .double (.finite 50)),
   ("tf_rate", .double (.finite 10)),
   ("extend_state_step", .int 50),
   ("enable_yaw_bias_estimation", .bool true),
   ("pose_additional_delay", .double (.finite 0)),
   ("pose_measure_uncertainty_time", .double (.finite 0.01)),
   ("pose_smoothing_steps", .int 5),
   ("pose_gate_dist", .double (.finite 10000)),
   ("twist_additional_delay", .double (.finite 0)),
   ("twist_smoothing_steps", .int 2),
   ("twist_gate_dist", .double (.finite 10000)),
   ("proc_stddev_vx_c", .double (.finite 2)),
   ("proc_stddev_wz_c", .double (.finite 0.2)),
   ("proc_stddev_yaw_c", .double (.finite 0.005)),
   ("proc_stddev_yaw_bias_c", .double (.finite 0.001))]

/-- Specification: the overrides with this value for one name. -/
def withValue (o : Overrides) (name : String) (v : Value) : Overrides :=
  fun k => if k = name then some v else o k

/-- Specification: the node heeds a name if some value given for it makes a difference. -/
def Heeded (name : String) : Prop :=
  ∃ o v, ekfParameters (withValue o name v) ≠ ekfParameters o

/-- Specification: the default in the README is the node's: giving it is the same as giving nothing. -/
def DefaultAsSaid (name : String) (v : Value) : Prop :=
  ∀ o : Overrides, o name = none → ekfParameters (withValue o name v) = ekfParameters o

/-- The node starts without any override. -/
noncomputable def plain : EkfHyper :=
  ⟨.finite 50, 50, "map", 5, .finite 10000, .finite 10000, 2, .finite (5 / 1000), true, .finite (1 / 1000),
    .finite 5, .finite 1⟩

theorem plain_starts : ekfParameters (fun _ => none) = .ok plain := rfl

/-- C158: the names the node heeds are the twelve of `ekfNames` and no others. -/
theorem C158_heeded (name : String) : Heeded name ↔ name ∈ ekfNames := by
  constructor
  · rintro ⟨o, v, h⟩
    by_contra hn
    refine h ((C128_other_names _ _).2 fun k hk => ?_)
    rw [withValue, if_neg]
    rintro rfl
    exact hn hk
  · intro h
    refine ⟨fun _ => none, .other, ?_⟩
    rw [plain_starts]
    simp only [ekfNames, List.mem_cons, List.not_mem_nil, or_false] at h
    rcases h with rfl | rfl | rfl | rfl | rfl | rfl | rfl | rfl | rfl | rfl | rfl | rfl <;>
      simp [ekfParameters, withValue, declareDouble, declareInt, declareString, declareBool, bind, Except.bind]

/-- C158, violated: five of the parameters in the README have no effect, whatever value they are given and
whatever else is set. Among them are the two delays that it recommends for correcting wrong stamps. -/
theorem C158_ignored_violated : ∀ name ∈ ["show_debug_info", "tf_rate", "pose_additional_delay",
    "pose_measure_uncertainty_time", "twist_additional_delay"],
    (∃ v, (name, v) ∈ readme) ∧ ∀ o v, ekfParameters (withValue o name v) = ekfParameters o := by
  intro name h
  have hn : name ∉ ekfNames ∧ ∃ v, (name, v) ∈ readme := by
    simp only [List.mem_cons, List.not_mem_nil, or_false] at h
    rcases h with rfl | rfl | rfl | rfl | rfl <;> simp [ekfNames, readme]
  refine ⟨hn.2, fun o v => ?_⟩
  by_contra hne
  exact hn.1 ((C158_heeded name).1 ⟨o, v, hne⟩)

/-- C158, what holds: the defaults of the README are those of the node, but for those of the noise of the two
speeds. (Of the five parameters that have no effect this says nothing new.) -/
theorem C158_defaults_partial : ∀ e ∈ readme, e.1 ≠ "proc_stddev_vx_c" → e.1 ≠ "proc_stddev_wz_c" →
    DefaultAsSaid e.1 e.2 := by
  intro e he h1 h2 o ho
  have e5 : (0.005 : ℝ) = 5 / 1000 := by norm_num
  have e1 : (0.001 : ℝ) = 1 / 1000 := by norm_num
  simp only [readme, List.mem_cons, List.not_mem_nil, or_false] at he
  rcases he with rfl | rfl | rfl | rfl | rfl | rfl | rfl | rfl | rfl | rfl | rfl | rfl | rfl | rfl | rfl | rfl
  all_goals first
    | exact absurd rfl h1
    | exact absurd rfl h2
    | simp [ekfParameters, withValue, declareDouble, declareInt, declareString, declareBool, ho, toInt, e5, e1]

/-- C158, violated: the noise of the two speeds is not that of the README if nothing is given: a node that starts
works with 5 and 1, and giving the values of the README makes a difference. -/
theorem C158_defaults_violated (o : Overrides) (h : EkfHyper) (hs : ekfParameters o = .ok h) :
    (o "proc_stddev_vx_c" = none → h.vxCov = .finite 5 ∧
      ekfParameters (withValue o "proc_stddev_vx_c" (.double (.finite 2))) ≠ .ok h) ∧
    (o "proc_stddev_wz_c" = none → h.wzCov = .finite 1 ∧
      ekfParameters (withValue o "proc_stddev_wz_c" (.double (.finite 0.2))) ≠ .ok h) := by
  simp only [ekfParameters, bind_ok] at hs
  obtain ⟨a, ha, b, hb, c, hc, d, hd, e, he, f, hf, g, hg, i, hi, j, hj, k, hk, l, hl, m, hm, hh⟩ := hs
  constructor
  · intro ho
    rw [declareDouble, ho] at hl
    cases hl
    cases hh
    refine ⟨rfl, fun hne => ?_⟩
    simp only [ekfParameters, bind_ok] at hne
    obtain ⟨_, -, _, -, _, -, _, -, _, -, _, -, _, -, _, -, _, -, _, -, l', hl', _, -, hh⟩ := hne
    simp only [declareDouble, withValue, if_true, Except.ok.injEq] at hl'
    subst hl'
    simp only [Except.ok.injEq, EkfHyper.mk.injEq, Dbl.finite.injEq] at hh
    norm_num at hh
  · intro ho
    rw [declareDouble, ho] at hm
    cases hm
    cases hh
    refine ⟨rfl, fun hne => ?_⟩
    simp only [ekfParameters, bind_ok] at hne
    obtain ⟨_, -, _, -, _, -, _, -, _, -, _, -, _, -, _, -, _, -, _, -, _, -, m', hm', hh⟩ := hne
    simp only [declareDouble, withValue, if_true, Except.ok.injEq] at hm'
    subst hm'
    simp only [Except.ok.injEq, EkfHyper.mk.injEq, Dbl.finite.injEq] at hh
    norm_num at hh

end Verif.Param

namespace Verif.Launch

/-! ### Topics -/

/-- Specification: the topics of the README (42-82). -/
def readmeInputs : List (Name × MsgType) :=
  [(rel "measured_pose_with_covariance", .poseWithCovarianceStamped),
   (rel "measured_twist_with_covariance", .twistWithCovarianceStamped),
   (rel "initialpose", .poseWithCovarianceStamped)]

/-- Specification: the names of the topics on which the README says that something is published. -/
def readmeOutputs : List Name :=
  [rel "ekf_odom", rel "ekf_pose", rel "ekf_pose_with_covariance", rel "ekf_pose_with_covariance_without_yawbias",
   rel "ekf_twist", rel "ekf_twist_with_covariance"]

/-- Specification: the node started without remappings. -/
def plainNode : Node := ⟨ekfLocalizer, [], []⟩

/-- C158, inputs: of what is published reliably on the topics of the README, in the namespace of the node,
exactly the initial poses arrive. So measured poses and twists do not arrive, in any namespace (violated). -/
theorem C158_inputs_violated (ns : List String) (sender : Node) (hs : sender.namespace' = [])
    (hr : sender.remappings = []) (e : Endpoint) (he : (e.topic, e.type) ∈ readmeInputs) (hq : e.reliable = true) :
    (∃ s ∈ ekfLocalizer.subscriptions, Delivers ns sender e plainNode s) ↔ e.topic = rel "initialpose" := by
  obtain ⟨t, ty, r, tl, d⟩ := e
  simp only at he hq
  subst hq
  simp only [readmeInputs, List.mem_cons, Prod.mk.injEq, List.not_mem_nil, or_false] at he
  rcases he with ⟨rfl, rfl⟩ | ⟨rfl, rfl⟩ | ⟨rfl, rfl⟩ <;>
    simp [ekfLocalizer, Delivers, Node.topic, plainNode, hs, hr, remap, Name.resolve, rel]

/-- C158, inputs: what arrives of all that is published reliably under a simple name in the namespace of the node:
exactly initial poses, and poses and twists on topics with other names than in the README. -/
theorem C158_inputs_instead (ns : List String) (sender : Node) (hs : sender.namespace' = [])
    (hr : sender.remappings = []) (e : Endpoint) (t : String) (ht : e.topic = rel t) (hq : e.reliable = true) :
    (∃ s ∈ ekfLocalizer.subscriptions, Delivers ns sender e plainNode s) ↔
      (t, e.type) ∈ [("initialpose", MsgType.poseWithCovarianceStamped),
        ("in_pose_with_covariance", MsgType.poseWithCovarianceStamped),
        ("in_twist_with_covariance", MsgType.twistWithCovarianceStamped)] := by
  obtain ⟨t', ty, r, tl, d⟩ := e
  simp only at ht hq
  subst ht hq
  simp [ekfLocalizer, Delivers, Node.topic, plainNode, hs, hr, remap, Name.resolve, rel]

/-- C158, outputs: of the topics of the README the node publishes on `ekf_odom` only (violated). -/
theorem C158_outputs_violated (ns : List String) : ∀ n ∈ readmeOutputs,
    ((∃ e ∈ ekfLocalizer.publishers, plainNode.topic ns e = n.resolve ns) ↔ n = rel "ekf_odom") := by
  intro n hn
  simp only [readmeOutputs, List.mem_cons, List.not_mem_nil, or_false] at hn
  rcases hn with rfl | rfl | rfl | rfl | rfl | rfl <;>
    simp [ekfLocalizer, Node.topic, plainNode, remap, Name.resolve, rel]

end Verif.Launch

/-! Non-vacuity. -/

open Verif.Launch in
example : ∃ e : Endpoint, e.topic = rel "in_pose_with_covariance" ∧ e.type = .poseWithCovarianceStamped ∧
    e.reliable = true := ⟨⟨rel "in_pose_with_covariance", .poseWithCovarianceStamped, true, false, some 1⟩, rfl, rfl, rfl⟩

open Verif.Param in
example : Heeded "pose_gate_dist" ∧ ¬ Heeded "pose_additional_delay" := by
  rw [C158_heeded, C158_heeded]
  simp [ekfNames]

open Verif.Param in
example : plain.vxCov = .finite 5 :=
  ((C158_defaults_violated (fun _ => none) plain plain_starts).1 rfl).1

open Verif.Param in
example : DefaultAsSaid "pose_smoothing_steps" (.int 5) :=
  C158_defaults_partial ("pose_smoothing_steps", .int 5) (by simp [readme]) (by decide) (by decide)

open Verif.Launch in
example : ¬ ∃ s ∈ ekfLocalizer.subscriptions, Delivers ["car"] ⟨⟨"p", "q", [], []⟩, [], []⟩
    ⟨rel "measured_pose_with_covariance", .poseWithCovarianceStamped, true, false, some 1⟩ plainNode s := by
  rw [C158_inputs_violated ["car"] _ rfl rfl _ (by simp [readmeInputs]) rfl]
  simp [rel]
