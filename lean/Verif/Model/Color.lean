/-
Model of `extraction/src/color_points.cpp` and
`extraction/include/lidar_feature_extraction/color_points.hpp`.
-/
import Verif.Model.Neighbor
import Mathlib.Algebra.Order.Field.Basic
import Mathlib.Algebra.Order.Floor.Defs

set_option autoImplicit false

namespace Verif.Extraction

/-- An RGB colour, each channel a `uint8_t`. -/
structure RGB where
  r : Fin 256
  g : Fin 256
  b : Fin 256
  deriving DecidableEq, Repr

/-- `color_points.cpp` 39-68 `LabelToColor`. The final `throw` is unreachable for the eight
enumerators, the only values of the type that occur in the model. -/
def labelToColor : PointLabel → RGB
  | .default => ⟨255, 255, 255⟩
  | .edge => ⟨255, 0, 0⟩
  | .edgeNeighbor => ⟨255, 63, 0⟩
  | .surface => ⟨255, 0, 0⟩
  | .surfaceNeighbor => ⟨255, 63, 0⟩
  | .outOfRange => ⟨127, 127, 127⟩
  | .occluded => ⟨255, 0, 255⟩
  | .parallelBeam => ⟨0, 255, 0⟩

/-- `static_cast<uint8_t>` of a `double`: truncation towards zero; undefined behaviour if the
truncated value does not fit. -/
def toUint8 {K : Type} [Field K] [LinearOrder K] [FloorRing K] (x : K) : Res (Fin 256) :=
  let t : ℤ := if 0 ≤ x then ⌊x⌋ else ⌈x⌉
  if h : 0 ≤ t ∧ t < 256 then .ok ⟨t.toNat, by omega⟩ else .error .undefinedBehaviour

/-- `color_points.cpp` 70-75 `ValueToColor`. `std::clamp` with `max < min` is undefined behaviour;
a zero denominator gives infinity or NaN, whose conversion is undefined behaviour.
Simplification: exact arithmetic. -/
def valueToColor {K : Type} [Field K] [LinearOrder K] [FloorRing K] (value lo hi : K) : Res RGB :=
  if hi < lo then .error .undefinedBehaviour
  else
    let v := if value < lo then lo else if hi < value then hi else value
    if hi - lo = 0 then .error .undefinedBehaviour
    else do
      let c ← toUint8 (255 * v / (hi - lo))
      pure ⟨c, c, c⟩

/-- `color_points.hpp` 60-74 `ColorPointsByLabel` (with `MakeXYZRGB`, 45-58): a coloured point is the
input point (its coordinates) with the colour. -/
def colorPointsByLabel {P : Type} (ref : MappedPoints P) (labels : List PointLabel) :
    Res (List (P × RGB)) :=
  if ref.size ≠ labels.length then .error .assertFail
  else (List.range labels.length).mapM fun (i : ℕ) => do
    let p ← ref.at i
    let l ← atI labels i
    pure (p, labelToColor l)

/-- `color_points.hpp` 76-92 `ColorPointsByValue`. -/
def colorPointsByValue {P K : Type} [Field K] [LinearOrder K] [FloorRing K] (ref : MappedPoints P)
    (values : List K) (lo hi : K) : Res (List (P × RGB)) :=
  if ref.size ≠ values.length then .error .assertFail
  else (List.range values.length).mapM fun (i : ℕ) => do
    let p ← ref.at i
    let v ← atI values i
    let c ← valueToColor v lo hi
    pure (p, c)

end Verif.Extraction
