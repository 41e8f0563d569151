/-
The filter (`ekf_localizer`) and the localizer (`localization`) running together as
`lidar_feature_launch/launch/localization.launch.py` 104-150 connects them: the odometry of the filter
is the `optimization_start_odom` of the localizer, the `estimated_pose` of the localizer is the
`in_pose_with_covariance` of the filter (see `C105` for the names).

Each of the two is the model of its node. A message that has been sent may be delivered at any time
later, more than once, out of order, or never: every delivery is an event of its own that names the
message. Delivering a message with numbers that are not finite to the localizer is not modelled.
-/
import Verif.Model.EkfNode
import Verif.Model.Store
import Verif.Model.Msg

set_option autoImplicit false

namespace Verif.Loop

open Matrix Verif.Rot Verif.Opt

/-- `MakePoseFromXYZRPY` (`ekf_localizer.cpp` 57-65); `none` if an argument is not finite. -/
noncomputable def makePoseFromXYZRPY (e : Ekf.Estimate) : Option Pose :=
  match e.z, e.roll, e.pitch with
  | some z, some roll, some pitch =>
    some ⟨(rpyToQuaternionXYZ roll pitch e.yaw).toRotationMatrix, ![e.x, e.y, z]⟩
  | _, _, _ => none

/-- What the localizer reads of an odometry message (`ekf_localizer.cpp` 67-94, `subscriber.hpp`
111-115): the stamp and the pose, which was made with `MakePose`. `none` for the other outputs. -/
noncomputable def odometryOf (flip : Quat → Bool) : Ekf.Output → Option (ℤ × Option Msg.PoseMsg)
  | .odometry stamp _ _ pose _ _ _ _ =>
    some (stamp, (makePoseFromXYZRPY pose).map (Msg.makePoseMsg flip))
  | .transform .. => none

/-- What the filter reads of the pose message of the localizer (`subscriber.hpp` 157-169): it was made
with `MakePoseWithCovarianceStamped`, `init` being the contents of the uninitialised array there. `none`
for the other outputs. -/
noncomputable def poseOf (flip : Quat → Bool) (init : Fin 36 → ℝ) : Store.Output ℤ → Option Ekf.PoseMsg
  | .pose stamp frame pose [c0, c1, c2, c3, c4, c5] =>
    let m := Msg.makePoseWithCovarianceStamped flip init pose
      (Matrix.diagonal ![c0, c1, c2, c3, c4, c5]) stamp frame
    let q := m.content.pose.orientation
    some ⟨m.header.frame.toList, m.header.stamp, some m.content.pose.position.x,
      some m.content.pose.position.y, some m.content.pose.position.z, ⟨q.w, q.x, q.y, q.z⟩,
      m.content.covariance⟩
  | _ => none

/-- The two nodes and everything that the filter has published; what the localizer has published is in
its own state. -/
structure State (N : ℕ) (Scan : Type) where
  filter : Ekf.NodeState N
  sent : List Ekf.Output
  localizer : Store.Node ℤ Scan

/-- After both have started. -/
noncomputable def State.new (N : ℕ) (p : Ekf.EkfParams) (Scan : Type) : State N Scan :=
  ⟨Ekf.NodeState.make N p, [], Store.Node.new ℤ Scan⟩

/-- What happens. -/
inductive Event (Scan : Type) where
  /-- something reaches the filter that the localizer has not sent -/
  | filter (e : Ekf.Event)
  /-- an action of the localizer, other than handling odometry of the filter -/
  | localizer (a : Store.Act ℤ Scan)
  /-- the `i`-th message published by the localizer reaches the filter -/
  | toFilter (i : ℕ)
  /-- the `i`-th message published by the filter reaches the localizer -/
  | toLocalizer (i : ℕ)

section
variable {N : ℕ} {Scan : Type} (hN : 0 < N) (tf : Ekf.Tf2) (p : Ekf.EkfParams)
variable (run : Scan → Pose → Res Result) (flip : Quat → Bool) (init : Fin 36 → ℝ)

/-- One event of the filter. -/
noncomputable def filterStep (s : State N Scan) (e : Ekf.Event) : Res (State N Scan) := do
  let (f, out) ← Ekf.step hN tf p s.filter e
  pure { s with filter := f, sent := s.sent ++ out }

/-- One action of the localizer; a second is `1e9` nanoseconds (`subscriber.hpp` 146). -/
noncomputable def localizerStep (s : State N Scan) (a : Store.Act ℤ Scan) : Res (State N Scan) := do
  let n ← Store.step run 1000000000 s.localizer a
  pure { s with localizer := n }

/-- One event. A message that does not exist or is not of the type subscribed to has no effect. -/
noncomputable def step (s : State N Scan) : Event Scan → Res (State N Scan)
  | .filter e => filterStep hN tf p s e
  | .localizer a => localizerStep run s a
  | .toFilter i =>
    match s.localizer.outputs[i]? with
    | none => .ok s
    | some o =>
      match poseOf flip init o with
      | none => .ok s
      | some m => filterStep hN tf p s (.pose m)
  | .toLocalizer i =>
    match s.sent[i]? with
    | none => .ok s
    | some o =>
      match odometryOf flip o with
      | none => .ok s
      | some (_, none) => .error .notModelled
      | some (stamp, some m) => localizerStep run s (.insert stamp (Msg.getIsometry3d m))

/-- A sequence of events. -/
noncomputable def exec (s : State N Scan) : List (Event Scan) → Res (State N Scan)
  | [] => .ok s
  | e :: es => do
    let s ← step hN tf p run flip init s e
    exec s es

end

end Verif.Loop
