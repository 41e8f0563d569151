/-
The stamped store of prior poses, the localizer and the node that uses them
(`localization/include/lidar_feature_localization/{stamp_sorted_objects,localizer,subscriber}.hpp`).
-/
import Mathlib.Algebra.Order.Ring.Defs
import Mathlib.Algebra.Group.Basic
import Verif.Model.Optimizer

set_option autoImplicit false

namespace Verif.Store

open Verif

variable {K V : Type}

/-- `std::map<double, Object>` (`stamp_sorted_objects.hpp` 109) as the list of its entries from
`begin()` to `end()`. That the keys increase strictly is not part of the type: it is proved to be
kept by every operation (`Props/C54.lean`). An iterator is the number of entries before it, so
`begin()` is `0` and `end()` is the length. Time stamps are exact numbers in any linear order, not
`double`s; a NaN stamp cannot occur because stamps come from integer nanoseconds. -/
abbrev Store (K V : Type) := List (K × V)

section Map

variable [LinearOrder K]

/-- `Insert` (45-50): `objects_[timestamp] = object`, which overwrites the entry of an equal key or
creates one at the place the order demands. -/
def insert (t : K) (v : V) : Store K V → Store K V
  | [] => [(t, v)]
  | e :: rest =>
    if t < e.1 then (t, v) :: e :: rest
    else if e.1 < t then e :: insert t v rest
    else (e.1, v) :: rest

/-- `objects_.lower_bound(timestamp)` (57): the first entry whose key is not less. -/
def lowerBound (t : K) (s : Store K V) : ℕ := s.findIdx fun e => decide (¬ e.1 < t)

/-- `objects_.upper_bound(timestamp)` (91): the first entry whose key is greater. -/
def upperBound (t : K) (s : Store K V) : ℕ := s.findIdx fun e => decide (t < e.1)

/-- `std::prev` of an iterator (60, 69, 97, 99, 101): undefined for `begin()`. -/
def prev (i : ℕ) : Res ℕ := if i = 0 then .error .undefinedBehaviour else .ok (i - 1)

/-- `*it`: undefined for `end()`. -/
def deref (s : Store K V) (i : ℕ) : Res (K × V) :=
  match s[i]? with
  | some e => .ok e
  | none => .error .undefinedBehaviour

/-- `GetClosest` (52-78). -/
def getClosest [Sub K] (t : K) (s : Store K V) : Res (K × V) := do
  let g1 := lowerBound t s
  if g1 = s.length then
    let last ← prev s.length
    deref s last
  else if g1 = 0 then
    deref s 0
  else
    let g0 ← prev g1
    let e0 ← deref s g0
    let e1 ← deref s g1
    let d0 := t - e0.1
    let d1 := e1.1 - t
    .ok (if d0 < d1 then e0 else e1)

/-- `Size` (80-84). -/
def size (s : Store K V) : ℕ := s.length

/-- The loop of `RemoveOlderThan` (100-104): as long as `curr` is not `boundary`, the entry at
`curr` is erased and `curr` becomes the entry before it. `prev(curr)` is taken before the
erasure. -/
def removeLoop (boundary : ℕ) : ℕ → Store K V → Res (Store K V)
  | 0, s => if boundary = 0 then .ok s else .error .undefinedBehaviour
  | curr + 1, s =>
    if boundary = curr + 1 then .ok s else removeLoop boundary curr (s.eraseIdx (curr + 1))

/-- `RemoveOlderThan` (86-105). -/
def removeOlderThan (t : K) (s : Store K V) : Res (Store K V) := do
  let g := upperBound t s
  if g = s.length then .ok s
  else
    let boundary ← prev g
    let curr ← prev s.length
    removeLoop boundary curr s

end Map

/-! ### The localizer -/

open Verif.Rot Verif.Opt

/-- `Localizer` (`localizer.hpp` 49-98). The optimiser and its problem are constants of the object
and are parameters of `update`. -/
structure Localizer where
  isInitialized : Bool
  pose : Pose

/-- The constructor (57-66): not initialised, identity pose. -/
def Localizer.new : Localizer := ⟨false, ⟨1, 0⟩⟩

/-- `Init` (68-72). -/
def Localizer.init (_l : Localizer) (initial : Pose) : Localizer := ⟨true, initial⟩

/-- `Update` (74-80), with `run scan pose` standing for `optimizer_.Run(scan, pose)`. Returns the
new state and the value returned by the method. -/
def Localizer.update {Scan : Type} (run : Scan → Pose → Res Result) (l : Localizer) (scan : Scan) :
    Res (Localizer × Bool) := do
  let result ← run scan l.pose
  .ok (⟨l.isInitialized, result.pose⟩, result.success)

/-- `Get` (82-85). -/
def Localizer.get (l : Localizer) : Pose := l.pose

/-! ### The node -/

/-- A published `PoseWithCovarianceStamped` or a broadcast transform (`subscriber.hpp` 157-173):
stamp, frame, child frame (transform only), pose and the diagonal of the covariance (pose only). -/
inductive Output (K : Type) where
  | pose (stamp : K) (frame : String) (pose : Pose) (covariance : List ℝ)
  | transform (stamp : K) (frame child : String) (pose : Pose)

/-- A synchronised pair of an edge and a surface message (128-130): they carry the same stamp
(`ExactTime`), the clouds are opaque here. -/
structure ScanMsg (K Scan : Type) where
  stamp : K
  scan : Scan

/-- The place in `PoseUpdateCallback` (128-176) that the thread running it has reached, between two
calls that lock the store. -/
inductive Pc (K V Scan : Type) where
  /-- not running -/
  | idle
  /-- after `Size()` returned something other than zero (134) -/
  | sized (m : ScanMsg K Scan)
  /-- after `GetClosest` (145) -/
  | got (m : ScanMsg K Scan) (prior : K × V)
  /-- after `RemoveOlderThan` (146) -/
  | removed (m : ScanMsg K Scan) (prior : K × V)

/-- The node. -/
structure Node (K Scan : Type) where
  store : Store K Pose
  localizer : Localizer
  pc : Pc K Pose Scan
  outputs : List (Output K)

/-- The node after construction. -/
def Node.new (K Scan : Type) : Node K Scan := ⟨[], Localizer.new, .idle, []⟩

variable [LinearOrder K] [Add K] [Sub K] {Scan : Type}

/-- One atomic action of the node. `SetOptimizationStartPose` (123-126) is one locked call.
`PoseUpdateCallback` is cut at the three locked calls. -/
inductive Act (K Scan : Type) where
  /-- a prior pose message is handled -/
  | insert (t : K) (p : Pose)
  /-- the pose-update callback starts and calls `Size()` -/
  | size (m : ScanMsg K Scan)
  /-- it calls `GetClosest` -/
  | closest
  /-- it calls `RemoveOlderThan` -/
  | remove
  /-- it runs the localizer and publishes -/
  | publish

/-- The effect of one action. The two prior callbacks are in callback groups of their own (95, 101)
and may run between any two locked calls of the pose-update callback; the pose-update callback is
never run twice at once (its subscriptions are in the node's default, mutually exclusive, group).
An action that is not enabled at the current place has no effect: schedules with such actions are
the same as those without them.

`second` stands for `1e9`, one second in nanoseconds (146). -/
noncomputable def step (run : Scan → Pose → Res Result) (second : K) (n : Node K Scan) :
    Act K Scan → Res (Node K Scan)
  | .insert t p => .ok { n with store := insert t p n.store }
  | .size m =>
    match n.pc with
    | .idle => if size n.store = 0 then .ok n else .ok { n with pc := .sized m }
    | _ => .ok n
  | .closest =>
    match n.pc with
    | .sized m => do
      let prior ← getClosest m.stamp n.store
      .ok { n with pc := .got m prior }
    | _ => .ok n
  | .remove =>
    match n.pc with
    | .got m prior => do
      let store ← removeOlderThan (m.stamp + second) n.store
      .ok { n with store := store, pc := .removed m prior }
    | _ => .ok n
  | .publish =>
    match n.pc with
    | .removed m prior => do
      let r ← (n.localizer.init prior.2).update run m.scan
      let pose := r.1.get
      .ok { n with
        localizer := r.1
        pc := .idle
        outputs := n.outputs ++
          [.pose m.stamp "map" pose [1, 1, 1, 1 / 10, 1 / 10, 1 / 10],
           .transform m.stamp "map" "lidar_feature_base_link" pose] }
    | _ => .ok n

/-- A schedule. -/
noncomputable def exec (run : Scan → Pose → Res Result) (second : K) : Node K Scan → List (Act K Scan) →
    Res (Node K Scan)
  | n, [] => .ok n
  | n, a :: rest => do
    let n ← step run second n a
    exec run second n rest

/-- `PoseUpdateCallback` run without interruption. -/
noncomputable def poseUpdateCallback (run : Scan → Pose → Res Result) (second : K) (n : Node K Scan)
    (m : ScanMsg K Scan) : Res (Node K Scan) :=
  exec run second n [.size m, .closest, .remove, .publish]

end Verif.Store
