/-
Model of the warnings of the node `EKFLocalizer`: `ekf_localizer/include/ekf_localizer/warning.hpp`,
`ekf_localizer/src/check.cpp`, and the places that use them in `pose_measurement.cpp`,
`twist_measurement.cpp` and `ekf_localizer.cpp`.

The logging macros of `rclcpp` and `rcutils` are modelled from their known definition: the message is a
`printf` format, and a throttled macro keeps its state in static variables. The text that
`fmt::format` makes of a number is a parameter. The log level is taken to be the default, at which
warnings are shown. Strings have no character with code 0.
-/
import Verif.Model.EkfNode
import Verif.Model.Printf

set_option autoImplicit false

namespace Verif.Ekf

open Matrix Verif.Kalman

/-- The text of numbers: `{}` of a `double` and of an `int`, `{:10.9f}` of a `double`. -/
structure Fmt where
  real : ℝ → List Char
  int : ℤ → List Char
  fixed : ℝ → List Char

/-- A call of `WarnThrottle` (`warning.hpp` 46-54), with its duration in milliseconds, or of `Warn`
or `Error` (36-44). -/
inductive Request where
  | throttled (ms : ℤ) (text : List Char)
  | always (text : List Char)

/-- The static variables of the one throttled macro (`warning.hpp` 50-53): its duration, in
nanoseconds, set when the macro is first reached, and the time of the last line shown. All `Warning`
objects of the process share them. -/
structure Throttle where
  duration : Option ℤ
  last : ℤ

/-- The static variables at the start of the program. -/
def Throttle.init : Throttle := ⟨none, 0⟩

/-- `RCLCPP_WARN_THROTTLE` at the clock reading `now`, in nanoseconds. -/
def Throttle.warn (t : Throttle) (now ms : ℤ) (text : List Char) : Res (Throttle × Option (List Char)) :=
  let d := match t.duration with
    | some d => d
    | none => ms * 1000000
  if now ≥ t.last + d then do
    let line ← printf text
    .ok (⟨some d, now⟩, some line)
  else .ok (⟨some d, t.last⟩, none)

/-- A request, the clock reading if it is throttled, and the line shown, if one is. -/
structure Entry where
  request : Request
  reading : Option ℤ
  line : Option (List Char)

/-- The log during a callback: the static variables, the number of clock readings made for throttled
warnings, and the requests made, in order. -/
structure Log where
  throttle : Throttle
  readings : ℕ
  entries : List Entry

/-- A request. `clk k` is the `k`-th reading of `*(node_->get_clock())` for a throttled warning during
the callback. -/
def Log.add (clk : ℕ → ℤ) (l : Log) : Request → Res Log
  | .throttled ms text => do
    let (t, line) ← l.throttle.warn (clk l.readings) ms text
    .ok ⟨t, l.readings + 1, l.entries ++ [⟨.throttled ms text, some (clk l.readings), line⟩]⟩
  | .always text => do
    let line ← printf text
    .ok ⟨l.throttle, l.readings, l.entries ++ [⟨.always text, none, some line⟩]⟩

/-- A request made only on a condition. -/
def Log.addIf (clk : ℕ → ℤ) (l : Log) (c : Bool) (r : Request) : Res Log :=
  if c then l.add clk r else .ok l

/-- `check.cpp` 21-28. -/
def delayTimeWarning (fmt : Fmt) (delay : ℝ) : Request :=
  .throttled 1000 ("The time stamp is inappropriate (delay = ".toList ++ fmt.real delay ++
    " [s]), set delay to 0[s].".toList)

/-- `check.cpp` 30-37. -/
def delayStepWarning (fmt : Fmt) (delayStep stateStep : ℤ) : Request :=
  .throttled 1000 ("The delay step ".toList ++ fmt.int delayStep ++
    " should be less than the maximum state step ".toList ++ fmt.int stateStep ++ ".".toList)

/-- `check.cpp` 39-47. -/
def frameIdWarning (frame expected : List Char) : Request :=
  .throttled 2000 ("frame_id is ".toList ++ frame ++ " while ".toList ++ expected ++
    " is expected".toList)

/-- `check.cpp` 49-55. -/
def mahalanobisGateWarning : Request :=
  .throttled 2000 "[EKF] Mahalanobis distance is over limit. Ignore measurement data.".toList

/-- `check.cpp` 57-60. -/
def nanInfWarning : Request := .always "[EKF] The measurement matrix includes NaN or Inf.".toList

/-- The message of the exception caught in `pose_measurement.cpp` 111-113 and `twist_measurement.cpp`
107-109: that of `time_delay_kalman_filter.cpp` 121 or 131. -/
def updateWarning {N : ℕ} (delayStep : ℤ) : Request :=
  if delayStep ≥ N then .always "The delay step is larger than the maximum allowed value".toList
  else .always "The kalman gain contains nan or inf".toList

/-- The body of the loops `pose_measurement.cpp` 82-113 and `twist_measurement.cpp` 78-109 with its
warnings: `processMeasurement` and the log. `expected` is the expected frame. -/
noncomputable def processLogged {N h : ℕ} (fmt : Fmt) (clk : ℕ → ℤ) (hN : 0 < N) (sing : Bool)
    (stateOf : (Fin 6 → ℝ) → (Fin h → ℝ))
    (covOf : Matrix (Fin 6) (Fin 6) ℝ → Matrix (Fin h) (Fin h) ℝ) (C : Matrix (Fin h) (Fin 6) ℝ)
    (gateDist : ℝ) (now : ℤ) (dt : ℝ) (frame expected : List Char) (stamp : ℤ)
    (y : Fin h → Option ℝ) (R : Matrix (Fin h) (Fin h) ℝ) (fl : TimeDelayKalmanFilter ℝ N 6 × Log) :
    Res (TimeDelayKalmanFilter ℝ N 6 × Log) := do
  let f := fl.1
  let l ← fl.2.addIf clk (decide (frame ≠ expected)) (frameIdWarning frame expected)
  let delay : ℝ := computeDelayTime now stamp
  let l ← l.addIf clk (decide (now < stamp)) (delayTimeWarning fmt delay)
  let delayStep ← computeDelayStep delay dt
  if !checkDelayStep delayStep N then do
    let l ← l.add clk (delayStepWarning fmt delayStep N)
    pure (f, l)
  else
    match allFinite y with
    | none => do
      let l ← l.add clk nanInfWarning
      pure (f, l)
    | some y => do
      let x ← f.getX delayStep
      if !mahalanobisGate sing gateDist (stateOf x) y (covOf (f.getLatestP hN)) then do
        let l ← l.add clk mahalanobisGateWarning
        pure (f, l)
      else
        match f.update y C R delayStep with
        | .ok f' => pure (f', l)
        | .error .invalidArgument => do
          let l ← l.add clk (updateWarning (N := N) delayStep)
          pure (f, l)
        | .error e => .error e

/-- One iteration of `PoseMeasurement::Update` with its warnings; the expected frame is the parameter
`pose_frame_id` (`ekf_localizer.cpp` 139-141). -/
noncomputable def processPoseLogged {N : ℕ} (fmt : Fmt) (clk : ℕ → ℤ) (hN : 0 < N) (tf : Tf2)
    (sing : PoseMsg → Bool) (p : EkfParams) (now : ℤ) (dt : ℝ) (m : PoseMsg) :
    TimeDelayKalmanFilter ℝ N 6 × Log → Res (TimeDelayKalmanFilter ℝ N 6 × Log) :=
  processLogged fmt clk hN (sing m) getPoseState poseCovariance poseMeasurementMatrix p.poseGate now dt
    m.frame p.poseFrame m.stamp (poseMeasurementVector tf m)
    (poseMeasurementCovariance m.cov (toSizeT p.poseSmoothing))

/-- One iteration of `TwistMeasurement::Update` with its warnings. -/
noncomputable def processTwistLogged {N : ℕ} (fmt : Fmt) (clk : ℕ → ℤ) (hN : 0 < N)
    (sing : TwistMsg → Bool) (p : EkfParams) (now : ℤ) (dt : ℝ) (m : TwistMsg) :
    TimeDelayKalmanFilter ℝ N 6 × Log → Res (TimeDelayKalmanFilter ℝ N 6 × Log) :=
  processLogged fmt clk hN (sing m) getTwistState twistCovariance twistMeasurementMatrix p.twistGate now
    dt m.frame "base_link".toList m.stamp (twistMeasurementVector m)
    (twistMeasurementCovariance m.cov (toSizeT p.twistSmoothing))

/-- The message of `update_interval.cpp` 30-34, shown in `ekf_localizer.cpp` 188. -/
def jumpBackWarning (fmt : Fmt) (now last : ℝ) : Request :=
  .always ("Detected jump back in time. current time = ".toList ++ fmt.fixed now ++
    ", last time = ".toList ++ fmt.fixed last)

/-- `ekf_localizer.cpp` 176-233 with its warnings: `timerCallback` and the log. -/
noncomputable def timerLogged {N : ℕ} (fmt : Fmt) (clk : ℕ → ℤ) (hN : 0 < N) (tf : Tf2) (p : EkfParams)
    (s : NodeState N) (l : Log) (tInterval tPose tTwist tTf tOdom : ℤ) (singPose : PoseMsg → Bool)
    (singTwist : TwistMsg → Bool) : Res (NodeState N × List Output × Log) :=
  match s.ekf with
  | none => .ok (s, [], l)
  | some f =>
    match s.interval.compute ((tInterval : ℝ) / 1000000000) with
    | (.error .invalidArgument, iv) => do
      let l ← match s.interval.lastTime with
        | some last => l.add clk (jumpBackWarning fmt ((tInterval : ℝ) / 1000000000) last)
        | none => .ok l
      .ok ({ s with interval := iv }, [], l)
    | (.error e, _) => .error e
    | (.ok dt, iv) => do
      let f := predictStep hN p dt f
      let ((f, l), poseQ) ← updateAll (processPoseLogged fmt clk hN tf singPose p tPose dt) s.poseQ (f, l)
      let ((f, l), twistQ) ← updateAll (processTwistLogged fmt clk hN singTwist p tTwist dt) s.twistQ (f, l)
      pure ({ s with ekf := some f, interval := iv, poseQ := poseQ, twistQ := twistQ },
        publish hN p s f tTf tOdom, l)

/-- One callback with its warnings, and the lines it shows. Only the timer gives warnings; the error
message of `ekf_localizer.cpp` 241-244 is followed by undefined behaviour, which is the result of
`step`. -/
noncomputable def stepLogged {N : ℕ} (fmt : Fmt) (clk : ℕ → ℤ) (hN : 0 < N) (tf : Tf2) (p : EkfParams)
    (s : NodeState N) (t : Throttle) : Event → Res (NodeState N × List Output × Log)
  | .timer t1 t2 t3 t4 t5 sp st => timerLogged fmt clk hN tf p s ⟨t, 0, []⟩ t1 t2 t3 t4 t5 sp st
  | e => do
    let (s, o) ← step hN tf p s e
    pure (s, o, ⟨t, 0, []⟩)

/-- A sequence of callbacks, each with the clock readings for its throttled warnings: the node and the
static variables afterwards, everything published, and the log of every callback. -/
noncomputable def runLogged {N : ℕ} (fmt : Fmt) (hN : 0 < N) (tf : Tf2) (p : EkfParams) :
    NodeState N → Throttle → List (Event × (ℕ → ℤ)) → Res (NodeState N × List Output × List Log)
  | s, _, [] => .ok (s, [], [])
  | s, t, (e, clk) :: es => do
    let (s, o, l) ← stepLogged fmt clk hN tf p s t e
    let (s, os, ls) ← runLogged fmt hN tf p s l.throttle es
    pure (s, o ++ os, l :: ls)

end Verif.Ekf
