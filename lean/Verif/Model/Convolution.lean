/-
Model of `extraction/src/convolution.cpp` and `extraction/src/curvature.cpp`.
-/
import Verif.Basic
import Mathlib.Algebra.Ring.Defs

set_option autoImplicit false

namespace Verif.Extraction

variable {K : Type*} [CommRing K]

/-- `extraction/include/lidar_feature_extraction/math.hpp` 43-53 `InnerProduct`: the loop from
`first1` to `last1` (first list) with `first2` running along (second list), accumulating in `sum`.
Reading past the end of the second range is undefined behaviour.
Simplification: exact arithmetic. -/
def innerProductLoop (sum : K) : List K → List K → Res K
  | [], _ => .ok sum
  | a :: as, b :: bs => innerProductLoop (sum + a * b) as bs
  | _ :: _, [] => .error .undefinedBehaviour

/-- `math.hpp` 43-53: the loop starts with `sum = 0.`. -/
def innerProduct (xs ys : List K) : Res K := innerProductLoop 0 xs ys

/-- `extraction/src/convolution.cpp` 35-66 `Convolution1D`. The result vector is value-initialised
(line 50), then three loops write to it with `operator[]` (lines 52-63), so an index outside the
vector would be undefined behaviour (`setU`). `iter .. iter + weight.size()` is the sublist of
length `weight.length` starting at `i`. -/
def convolution1D (input weight : List K) : Res (List K) :=
  if input.length < weight.length then .error .invalidArgument
  else if weight.length % 2 ≠ 1 then .error .assertFail
  else do
    let padding := (weight.length - 1) / 2
    let convolutionSize := input.length - padding * 2
    let result := List.replicate input.length (0 : K)
    let result ← (List.range padding).foldlM (fun r i => do
      let x ← pure 0
      setU r (0 + i) x) result
    let result ← (List.range convolutionSize).foldlM (fun r i => do
      let x ← innerProduct ((input.drop i).take weight.length) weight
      setU r (padding + i) x) result
    (List.range padding).foldlM (fun r i => do
      let x ← pure 0
      setU r (convolutionSize + padding + i) x) result

/-- `extraction/src/curvature.cpp` 36-42 `MakeWeight`: asserts `padding > 0`; all ones of length
`2 * padding + 1` with `-2 * padding` in the middle. -/
def makeWeight (padding : Int) : Res (List K) :=
  if padding > 0 then
    setI (List.replicate (padding * 2 + 1).toNat (1 : K)) padding (-2 * (padding : K))
  else .error .assertFail

/-- `extraction/src/curvature.cpp` 44-50 `CalcCurvature`: squares of the convolution. -/
def calcCurvature (range : List K) (padding : Int) : Res (List K) := do
  let weight ← makeWeight padding
  let weighted ← convolution1D range weight
  pure (weighted.map fun v => v * v)

end Verif.Extraction
