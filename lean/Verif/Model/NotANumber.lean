/-
The angle comparator of `extraction/include/lidar_feature_extraction/ring.hpp` 54-99 on coordinates
that may be NaN.
-/
import Mathlib.Data.Real.Basic
import Verif.Model.Ring

set_option autoImplicit false

namespace Verif.Extraction.NaN

open Verif.Extraction

/-- A C++ `float` or `double` that is a number (`some`) or NaN (`none`). Simplification: numbers are
exact, there is no infinity. -/
abbrev Number := Option ℝ

/-- IEEE 754: an operation on NaN is NaN. -/
noncomputable def mul (a b : Number) : Number :=
  match a, b with
  | some x, some y => some (x * y)
  | _, _ => none

/-- As `mul`. -/
noncomputable def add (a b : Number) : Number :=
  match a, b with
  | some x, some y => some (x + y)
  | _, _ => none

/-- As `mul`. -/
noncomputable def sub (a b : Number) : Number :=
  match a, b with
  | some x, some y => some (x - y)
  | _, _ => none

/-- IEEE 754: `==` is false if one side is NaN. -/
noncomputable def eq (a b : Number) : Bool :=
  match a, b with
  | some x, some y => decide (x = y)
  | _, _ => false

/-- `<`, false if one side is NaN. -/
noncomputable def lt (a b : Number) : Bool :=
  match a, b with
  | some x, some y => decide (x < y)
  | _, _ => false

/-- `>=`, false if one side is NaN; not the negation of `<`. -/
noncomputable def ge (a b : Number) : Bool :=
  match a, b with
  | some x, some y => decide (x ≥ y)
  | _, _ => false

/-- The constant `0` the code compares with. -/
noncomputable def zero : Number := some 0

/-- `ring.hpp` 54-99 `AHasSmallerPolarAngleThanB`, branch by branch; `>` is `<` with the sides
exchanged. -/
noncomputable def lessAngle (a b : PointXYZIR Number) : Bool :=
  if eq a.x b.x && eq a.y b.y then false
  else
    let lena := add (mul a.x a.x) (mul a.y a.y)
    let lenb := add (mul b.x b.x) (mul b.y b.y)
    if eq lena zero then
      if eq b.y zero then lt b.x zero else lt zero b.y
    else if eq lenb zero then lt a.y zero
    else if eq a.y zero then ge a.x zero && ge b.y zero
    else if eq b.y zero then !(ge b.x zero && ge a.y zero)
    else if lt zero (mul a.y b.y) then lt zero (sub (mul a.x b.y) (mul a.y b.x))
    else lt a.y zero

end Verif.Extraction.NaN
