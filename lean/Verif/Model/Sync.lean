/-
The exact-time synchroniser that pairs messages by their stamps, as used by
`localization/include/lidar_feature_localization/subscriber.hpp` 72-75, 88, 105-108 and
`mapping/src/mapping.cpp` 52-55, 69-75.

This is library code (`message_filters`, `sync_policies/exact_time.h`: `add`, `checkTuple`,
`clearOldTuples`), not part of the repository. It is modelled from its known behaviour because the
two nodes cannot be described without it.
-/
import Verif.Basic
import Mathlib.Algebra.Order.Ring.Int

set_option autoImplicit false

namespace Verif.Sync

variable {A B : Type}

/-- The messages waiting, by stamp: the entries of a `std::map` from `begin()` to `end()`. -/
abbrev Pending (A B : Type) := List (ℤ × Option A × Option B)

/-- `tuples_[stamp]` changed by `f`; a missing entry is created empty, at its place in the order. -/
def upsert (t : ℤ) (f : Option A × Option B → Option A × Option B) : Pending A B → Pending A B
  | [] => [(t, f (none, none))]
  | e :: rest =>
    if t < e.1 then (t, f (none, none)) :: e :: rest
    else if e.1 < t then e :: upsert t f rest
    else (e.1, f e.2) :: rest

/-- The entry of a stamp. -/
def lookup (t : ℤ) (s : Pending A B) : Option (Option A × Option B) :=
  (s.find? fun e => decide (e.1 = t)).map Prod.snd

/-- The queue limit: as long as there are more than `q` entries, the oldest is dropped; `0` means no
limit. -/
def trim (q : ℕ) (s : Pending A B) : Pending A B := if q = 0 then s else s.drop (s.length - q)

/-- `checkTuple` for the stamp `t`: a complete entry is given to the callback and removed together
with all older ones; then the limit is applied. Returns what is given to the callback. -/
def checkTuple (q : ℕ) (t : ℤ) (s : Pending A B) : List (ℤ × A × B) × Pending A B :=
  match lookup t s with
  | some (some a, some b) => ([(t, a, b)], trim q (s.filter fun e => decide (t < e.1)))
  | _ => ([], trim q s)

/-- A message on one of the two topics. -/
inductive Event (A B : Type) where
  | left (t : ℤ) (a : A)
  | right (t : ℤ) (b : B)

/-- The stamp of a message. -/
def Event.stamp : Event A B → ℤ
  | .left t _ => t
  | .right t _ => t

/-- `add`: a message arrives; of two messages with one stamp on one topic the later replaces the
earlier. -/
def add (q : ℕ) (s : Pending A B) : Event A B → List (ℤ × A × B) × Pending A B
  | .left t a => checkTuple q t (upsert t (fun x => (some a, x.2)) s)
  | .right t b => checkTuple q t (upsert t (fun x => (x.1, some b)) s)

/-- All calls of the callback for a sequence of messages, in order. -/
def calls (q : ℕ) : Pending A B → List (Event A B) → List (ℤ × A × B)
  | _, [] => []
  | s, e :: es => (add q s e).1 ++ calls q (add q s e).2 es

/-- `Exact(10)` (`subscriber.hpp` 88). -/
def localizationQueue : ℕ := 10

/-- `Exact(1000)` (`mapping.cpp` 69). -/
def mappingQueue : ℕ := 1000

end Verif.Sync
