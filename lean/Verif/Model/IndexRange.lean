/-
Model of `extraction/src/index_range.cpp` and
`extraction/include/lidar_feature_extraction/index_range.hpp`.
-/
import Verif.Basic
import Mathlib.Data.Rat.Floor

set_option autoImplicit false

namespace Verif.Extraction

/-- `static_cast<int>(x)` of a `double`: truncation towards zero. Simplification: no overflow of
`int`. -/
def truncToInt (x : ℚ) : ℤ := if 0 ≤ x then ⌊x⌋ else ⌈x⌉

/-- `index_range.hpp` 37-57: the members `start_index_`, `end_index_`, `n_blocks_`. -/
structure IndexRange where
  start : ℤ
  stop : ℤ
  nBlocks : ℤ
  deriving DecidableEq, Repr

/-- `index_range.cpp` 32-41: the constructor throws if there are fewer indices than blocks. -/
def IndexRange.make (start stop nBlocks : ℤ) : Res IndexRange :=
  if stop - start < nBlocks then .error .invalidArgument else .ok ⟨start, stop, nBlocks⟩

/-- `index_range.hpp` 59-66 `PaddedIndexRange`. -/
def PaddedIndexRange.make (size nBlocks padding : ℤ) : Res IndexRange :=
  IndexRange.make padding (size - padding) nBlocks

/-- `index_range.cpp` 60-66 `Boundary`: `static_cast<int>(s * (1. - j / n) + e * j / n)`, where the
result of every floating-point operation is passed through the rounding function `rnd`
(`rnd = id` is exact arithmetic). The conversions of `int` to `double` are exact. -/
def IndexRange.boundaryWith (rnd : ℚ → ℚ) (r : IndexRange) (j : ℤ) : ℤ :=
  let s : ℚ := r.start
  let e : ℚ := r.stop
  let n : ℚ := r.nBlocks
  truncToInt (rnd (rnd (s * rnd (1 - rnd (j / n))) + rnd (rnd (e * j) / n)))

/-- `index_range.cpp` 68-79 `ThrowExceptionIfOutOfRange`. -/
def IndexRange.check (r : IndexRange) (j : ℤ) : Res Unit :=
  if j ≥ r.nBlocks then .error .outOfRange
  else if j < 0 then .error .outOfRange
  else .ok ()

/-- `index_range.cpp` 48-52 `Begin`. -/
def IndexRange.beginWith (rnd : ℚ → ℚ) (r : IndexRange) (j : ℤ) : Res ℤ := do
  r.check j
  pure (r.boundaryWith rnd j)

/-- `index_range.cpp` 54-58 `End`. -/
def IndexRange.endWith (rnd : ℚ → ℚ) (r : IndexRange) (j : ℤ) : Res ℤ := do
  r.check j
  pure (r.boundaryWith rnd (j + 1))

/-- `Begin` in exact arithmetic. -/
abbrev IndexRange.begin' (r : IndexRange) (j : ℤ) : Res ℤ := r.beginWith id j

/-- `End` in exact arithmetic. -/
abbrev IndexRange.end' (r : IndexRange) (j : ℤ) : Res ℤ := r.endWith id j

end Verif.Extraction
