/-
`Simple1DFilter` (`ekf_localizer/include/ekf_localizer/ekf_localizer.hpp` 55-103) in floating-point
arithmetic: the functions of `Model/Filter1D.lean`, where the result of every operation passes through
the rounding function `fl`. Simplifications: no overflow and no underflow, and the compiler does not
contract a product and a sum to one operation.
-/
import Verif.Model.Filter1D

set_option autoImplicit false

namespace Verif.Ekf.Rounded

variable (fl : ℝ → ℝ)

/-- `ekf_localizer.hpp` 82: `(time - latest_time_).seconds()`, the nanoseconds as a `double`, divided by
`1e9`. -/
noncomputable def elapsed (f : Simple1DFilter) (time : ℤ) : ℝ :=
  fl (fl ((time - f.latest : ℤ) : ℝ) / 1000000000)

/-- `ekf_localizer.hpp` 83-84: the deviation after the prediction step. -/
noncomputable def predicted (f : Simple1DFilter) (s : ℝ) (time : ℤ) : ℝ :=
  let procD := fl (f.proc * elapsed fl f time)
  fl (Real.sqrt (fl (fl (s * s) + fl (procD * procD))))

/-- `ekf_localizer.hpp` 87: the gain; `none` is NaN, here of `0 / 0`. -/
noncomputable def gain (s o : ℝ) : Option ℝ :=
  let denominator := fl (fl (s * s) + fl (o * o))
  if denominator = 0 then none else some (fl (fl (s * s) / denominator))

/-- `std::sqrt`; NaN for a negative argument. -/
noncomputable def sqrt (x : ℝ) : Option ℝ := if x < 0 then none else some (fl (Real.sqrt x))

/-- `ekf_localizer.hpp` 74-93. -/
noncomputable def update (f : Simple1DFilter) (obs obsStddev : Option ℝ) (time : ℤ) : Simple1DFilter :=
  if !f.initialized then f.init obs obsStddev time
  else
    let s1 : Option ℝ := do return predicted fl f (← f.stddev) time
    let k : Option ℝ := do gain fl (← s1) (← obsStddev)
    ⟨true, do return fl ((← f.x) + fl ((← k) * fl ((← obs) - (← f.x)))),
      do return fl ((← sqrt fl (fl (1 - (← k)))) * (← s1)), f.proc, time⟩

/-- A sequence of calls of `update`. -/
noncomputable def run (f : Simple1DFilter) (obs : List Obs) : Simple1DFilter :=
  obs.foldl (fun f o => update fl f o.1 o.2.1 o.2.2) f

end Verif.Ekf.Rounded
