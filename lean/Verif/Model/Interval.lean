/-
Model of `ekf_localizer/include/ekf_localizer/update_interval.hpp`,
`ekf_localizer/src/update_interval.cpp` and `ekf_localizer/include/ekf_localizer/delay.hpp`.
-/
import Verif.Basic
import Mathlib.Algebra.Order.Field.Basic
import Mathlib.Algebra.Order.Floor.Ring
import Mathlib.Order.WithBot

set_option autoImplicit false

namespace Verif.Ekf

section Interval
variable {K : Type} [Field K] [LinearOrder K]

/-- A frequency, possibly `+inf`: the IEEE quotient `1.0 / d` of `update_interval.cpp` 37 for a
non-negative `d` (`⊤` stands for `+inf`, the quotient by `+0.0`). -/
def recipNonneg (d : K) : WithTop K := if d = 0 then ⊤ else ((1 / d : K) : WithTop K)

/-- `update_interval.hpp` 22-25: `1.0 / std::max(frequency, 0.1)`; `1.0 / inf` is `0.0`. -/
def computeInterval : WithTop K → K
  | ⊤ => 0
  | (f : K) => 1 / max f (1 / 10)

/-- `update_interval.hpp` 40-42: the members. -/
structure UpdateInterval (K : Type) where
  defaultFrequency : K
  lastTime : Option K

/-- `update_interval.hpp` 33-36: the constructor. -/
def UpdateInterval.make (defaultFrequency : K) : UpdateInterval K := ⟨defaultFrequency, none⟩

/-- `update_interval.cpp` 22-40: the result (or exception) and the object afterwards. -/
def UpdateInterval.compute (u : UpdateInterval K) (t : K) : Res K × UpdateInterval K :=
  match u.lastTime with
  | none => (.ok (computeInterval (u.defaultFrequency : WithTop K)), ⟨u.defaultFrequency, some t⟩)
  | some last =>
    if t < last then (.error .invalidArgument, u)
    else (.ok (computeInterval (recipNonneg (t - last))), ⟨u.defaultFrequency, some t⟩)

/-- The object after a sequence of calls with the given clock readings (exceptions are caught by
the caller, `ekf_localizer.cpp` 187-190). -/
def UpdateInterval.after (u : UpdateInterval K) : List K → UpdateInterval K
  | [] => u
  | t :: ts => (u.compute t).2.after ts

end Interval

section Delay
variable {K : Type} [Field K] [LinearOrder K] [FloorRing K]

/-- `std::round`/`roundf`: nearest integer, halves away from zero. -/
def roundHalfAway (x : K) : ℤ := if 0 ≤ x then ⌊x + 1 / 2⌋ else -⌊-x + 1 / 2⌋

/-- `delay.hpp` 21-26: the difference of two stamps (nanoseconds) in seconds. Exact instead of
`double`. -/
def computeDelayTime (current stamp : ℤ) : K := ((current - stamp : ℤ) : K) / 1000000000

/-- `delay.hpp` 28-31. The quotient is exact (the code narrows it to `float`). A quotient by zero is
infinite or NaN, and converting such a value or one outside the range of `int` to `int` is
undefined. -/
def computeDelayStep (delay dt : K) : Res ℤ :=
  if dt = 0 then .error .undefinedBehaviour
  else
    let r := roundHalfAway (max delay 0 / dt)
    if -2147483648 ≤ r ∧ r ≤ 2147483647 then .ok r else .error .undefinedBehaviour

/-- `check.cpp` 83-90 (the warning is not modelled). -/
def checkDelayStep (delayStep maxDelayStep : ℤ) : Bool := decide (delayStep < maxDelayStep)

end Delay

end Verif.Ekf
