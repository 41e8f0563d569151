/-
Model of `Simple1DFilter`, `ekf_localizer/include/ekf_localizer/ekf_localizer.hpp` 55-103.

A number that may be NaN or infinite is `Option ℝ`, `none` standing for NaN and the infinities.
Every operation below with such an operand gives such a result again in IEEE arithmetic: for `x_`,
`inf + g * (obs - inf)` is NaN. Overflow is not modelled. Times are nanoseconds.
-/
import Verif.Basic
import Mathlib.Analysis.SpecialFunctions.Pow.Real

set_option autoImplicit false

namespace Verif.Ekf

/-- `ekf_localizer.hpp` 97-102: the members. `latest` is meaningless until initialised. -/
structure Simple1DFilter where
  initialized : Bool
  x : Option ℝ
  stddev : Option ℝ
  proc : ℝ
  latest : ℤ

/-- `ekf_localizer.hpp` 58-65 and `set_proc_stddev`, 94. -/
noncomputable def Simple1DFilter.make (proc : ℝ) : Simple1DFilter :=
  ⟨false, some 0, some 1000000000, proc, 0⟩

/-- `ekf_localizer.hpp` 66-73. -/
def Simple1DFilter.init (f : Simple1DFilter) (obs obsStddev : Option ℝ) (time : ℤ) :
    Simple1DFilter :=
  ⟨true, obs, obsStddev, f.proc, time⟩

/-- `ekf_localizer.hpp` 84: the deviation after the prediction step. -/
noncomputable def Simple1DFilter.predicted (f : Simple1DFilter) (s : ℝ) (time : ℤ) : ℝ :=
  let dt : ℝ := ((time - f.latest : ℤ) : ℝ) / 1000000000
  let procD := f.proc * dt
  Real.sqrt (s * s + procD * procD)

/-- `ekf_localizer.hpp` 74-93. A gain `0 / 0` is NaN, and so are then `x_` and `stddev_`. -/
noncomputable def Simple1DFilter.update (f : Simple1DFilter) (obs obsStddev : Option ℝ)
    (time : ℤ) : Simple1DFilter :=
  if !f.initialized then f.init obs obsStddev time
  else
    match f.stddev, obsStddev with
    | some s, some o =>
      let s1 := f.predicted s time
      if s1 * s1 + o * o = 0 then ⟨true, none, none, f.proc, time⟩
      else
        let gain := s1 * s1 / (s1 * s1 + o * o)
        ⟨true, do return (← f.x) + gain * ((← obs) - (← f.x)), some (Real.sqrt (1 - gain) * s1),
          f.proc, time⟩
    | _, _ => ⟨true, none, none, f.proc, time⟩

/-- `ekf_localizer.hpp` 95. -/
def Simple1DFilter.getX (f : Simple1DFilter) : Option ℝ := f.x

/-- An observation with its standard deviation and stamp. -/
abbrev Obs := Option ℝ × Option ℝ × ℤ

/-- A sequence of calls of `update`. -/
noncomputable def Simple1DFilter.run (f : Simple1DFilter) (obs : List Obs) : Simple1DFilter :=
  obs.foldl (fun f o => f.update o.1 o.2.1 o.2.2) f

end Verif.Ekf
