/-
Time stamps as `double`s: `localization/include/lidar_feature_localization/subscriber.hpp` 67-70
and the arithmetic on them in `stamp_sorted_objects.hpp`. `Verif/Model/Store.lean` has the same
operations on exact stamps.
-/
import Mathlib.Algebra.Order.Ring.Int
import Mathlib.Data.Nat.Log
import Verif.Model.Store

set_option autoImplicit false

namespace Verif.Store

/-- The distance of neighbouring doubles at an integer `t`: 53 significant bits. -/
def spacing (t : ℤ) : ℤ := 2 ^ (Nat.log 2 t.natAbs - 52)

/-- Division by `u` rounded to the nearest integer, to the even one of two equally near. -/
def divNearestEven (t u : ℤ) : ℤ :=
  let q := t / u
  let r := t % u
  if 2 * r < u then q
  else if u < 2 * r then q + 1
  else if q % 2 = 0 then q else q + 1

/-- `static_cast<double>` of a 64-bit integer (`subscriber.hpp` 69), rounding to nearest, ties to
even (the default of IEEE 754). The value of the double is an integer again, so it is given as one.
The same function rounds the exact difference of two such doubles, as subtraction does. -/
def toDouble (t : ℤ) : ℤ := spacing t * divNearestEven t (spacing t)

variable {V : Type}

/-- `subscriber.hpp` 125: `prior_poses_.Insert(Nanoseconds(stamp), ...)`. -/
def insertNanoseconds (t : ℤ) (v : V) (s : Store ℤ V) : Store ℤ V := insert (toDouble t) v s

/-- `GetClosest` (`stamp_sorted_objects.hpp` 52-78) in double arithmetic: 72 and 73 subtract
doubles. -/
def getClosestDouble (t : ℤ) (s : Store ℤ V) : Res (ℤ × V) := do
  let g1 := lowerBound t s
  if g1 = s.length then
    let last ← prev s.length
    deref s last
  else if g1 = 0 then
    deref s 0
  else
    let g0 ← prev g1
    let e0 ← deref s g0
    let e1 ← deref s g1
    let d0 := toDouble (t - e0.1)
    let d1 := toDouble (e1.1 - t)
    .ok (if d0 < d1 then e0 else e1)

/-- `subscriber.hpp` 144-145: the prior for a message stamped `t`. -/
def priorFor (t : ℤ) (s : Store ℤ V) : Res (ℤ × V) := getClosestDouble (toDouble t) s

end Verif.Store
