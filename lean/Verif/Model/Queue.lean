/-
Model of `ekf_localizer/include/ekf_localizer/aged_message_queue.hpp` 20-65 and of the message
loops `ekf_localizer/src/pose_measurement.cpp` 81-82, `twist_measurement.cpp` 77-78.
-/
import Verif.Basic

set_option autoImplicit false

namespace Verif.Ekf

variable {α : Type}

/-- `aged_message_queue.hpp` 62-64: the two parallel `std::queue`s, front first, and the maximal
age. -/
structure AgedQueue (α : Type) where
  maxAge : ℤ
  msgs : List α
  ages : List ℤ

/-- `aged_message_queue.hpp` 24-27: the constructor. -/
def AgedQueue.make (maxAge : ℤ) : AgedQueue α := ⟨maxAge, [], []⟩

/-- `aged_message_queue.hpp` 29-32. -/
def AgedQueue.size (q : AgedQueue α) : ℕ := q.msgs.length

/-- `aged_message_queue.hpp` 34-38. -/
def AgedQueue.push (q : AgedQueue α) (m : α) : AgedQueue α :=
  ⟨q.maxAge, q.msgs ++ [m], q.ages ++ [0]⟩

/-- `aged_message_queue.hpp` 40-53; `front` and `pop` of an empty `std::queue` are undefined. -/
def AgedQueue.pop (q : AgedQueue α) : Res (α × AgedQueue α) :=
  match q.msgs, q.ages with
  | m :: ms, a :: as =>
    let age := a + 1
    if age < q.maxAge then .ok (m, ⟨q.maxAge, ms ++ [m], as ++ [age]⟩)
    else .ok (m, ⟨q.maxAge, ms, as⟩)
  | _, _ => .error .undefinedBehaviour

/-- `aged_message_queue.hpp` 55-59. -/
def AgedQueue.clear (q : AgedQueue α) : AgedQueue α := ⟨q.maxAge, [], []⟩

/-- Calls of the public methods. -/
inductive QueueOp (α : Type) where
  | push (m : α)
  | pop
  | clear

/-- A sequence of calls: the messages handed out by the pops, in order, and the queue afterwards. -/
def AgedQueue.run : AgedQueue α → List (QueueOp α) → Res (List α × AgedQueue α)
  | q, [] => .ok ([], q)
  | q, .push m :: ops => (q.push m).run ops
  | q, .clear :: ops => q.clear.run ops
  | q, .pop :: ops => do
    let (m, q') ← q.pop
    let (ms, q'') ← q'.run ops
    pure (m :: ms, q'')

/-- The loop `for (size_t i = 0; i < messages_.size(); ++i) { messages_.pop(); ... }` of
`PoseMeasurement::Update` (`pose_measurement.cpp` 81-82) and `TwistMeasurement::Update`
(`twist_measurement.cpp` 77-78): the messages considered, in order, and the queue afterwards. The
bound is re-evaluated in every iteration. The first argument bounds the number of iterations; the
size of the queue at the start is enough, as popping never enlarges the queue. -/
def AgedQueue.tickLoop : ℕ → ℕ → AgedQueue α → Res (List α × AgedQueue α)
  | 0, _, q => .ok ([], q)
  | fuel + 1, i, q =>
    if i < q.size then do
      let (m, q') ← q.pop
      let (ms, q'') ← tickLoop fuel (i + 1) q'
      pure (m :: ms, q'')
    else .ok ([], q)

/-- One call of `Update`. -/
def AgedQueue.tick (q : AgedQueue α) : Res (List α × AgedQueue α) := q.tickLoop q.size 0

end Verif.Ekf
