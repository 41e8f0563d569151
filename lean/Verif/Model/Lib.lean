/-
Model of `lib/src/algorithm.cpp` 33-49, `lib/src/stats.cpp` 34-67, `lib/src/eigen.cpp` 33-53.
-/
import Verif.Basic
import Mathlib.Algebra.Field.Defs
import Mathlib.Order.Defs.LinearOrder
import Mathlib.Data.List.FinRange
import Mathlib.Logic.Function.Basic

set_option autoImplicit false

namespace Verif.Lib

variable {K : Type}

/-- `algorithm.cpp` 33-49 `SortThreeValues`. Simplification: no NaN. -/
def sortThreeValues [LinearOrder K] (v : K × K × K) : K × K × K :=
  let (a, b, c) := v
  let (a, b) := if a > b then (b, a) else (a, b)
  let (b, c) := if b > c then (c, b) else (b, c)
  let (a, b) := if a > b then (b, a) else (a, b)
  (a, b, c)

/-- `stats.cpp` 34-55 `Median_`. `nth l n` is the vector after `std::nth_element` with pivot
position `n`; the second call of the even case works on the vector left by the first.
Simplification: exact arithmetic, no NaN. -/
def median [Field K] (nth : List K → ℕ → List K) (v : List K) : Res K :=
  if v.length = 0 then .error .invalidArgument
  else if v.length % 2 = 1 then
    let n := (v.length - 1) / 2
    atI (nth v n) n
  else do
    let n := v.length / 2
    let v0 := nth v n
    let e0 ← atI v0 n
    let v1 := nth v0 (n - 1)
    let e1 ← atI v1 ((n : ℤ) - 1)
    pure ((e0 + e1) / 2)

/-- `eigen.cpp` 33-42 `GetEigenCovariance`. A `std::array<double, 36>` is a function on `Fin 36`. -/
def getEigenCovariance (covariance : Fin 36 → K) (i j : Fin 6) : K :=
  covariance ⟨i.val * 6 + j.val, by omega⟩

/-- `eigen.cpp` 44-53 `FromEigenCovariance`: 36 assignments to an uninitialised array `init`. -/
def fromEigenCovariance (init : Fin 36 → K) (covariance : Fin 6 → Fin 6 → K) : Fin 36 → K :=
  (List.finRange 6).foldl (fun array i =>
    (List.finRange 6).foldl (fun array j =>
      Function.update array ⟨i.val * 6 + j.val, by omega⟩ (covariance i j)) array) init

end Verif.Lib
