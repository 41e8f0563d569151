/-
Model of `extraction/include/lidar_feature_extraction/ring.hpp` 54-147 and
`extraction/src/ring.cpp` 36-59.
-/
import Verif.Basic
import Mathlib.Algebra.Field.Defs
import Mathlib.Order.Defs.LinearOrder

set_option autoImplicit false

namespace Verif.Extraction

/-- The fields of `PointXYZIR` (`lib/include/lidar_feature_library/point_type.hpp`) the extraction
reads. Simplification: coordinates are exact numbers (no NaN, infinity or negative zero). -/
structure PointXYZIR (K : Type) where
  x : K
  y : K
  z : K
  ring : ℤ
  deriving DecidableEq

/-- `ring.hpp` 54-99 `AHasSmallerPolarAngleThanB`, branch by branch. -/
def lessAngle {K : Type} [Field K] [LinearOrder K] (a b : PointXYZIR K) : Bool :=
  if a.x = b.x ∧ a.y = b.y then false
  else
    let lena := a.x * a.x + a.y * a.y
    let lenb := b.x * b.x + b.y * b.y
    if lena = 0 then
      if b.y = 0 then decide (b.x < 0) else decide (b.y > 0)
    else if lenb = 0 then decide (a.y < 0)
    else if a.y = 0 then decide (a.x ≥ 0) && decide (b.y ≥ 0)
    else if b.y = 0 then !(decide (b.x ≥ 0) && decide (a.y ≥ 0))
    else if a.y * b.y > 0 then decide (a.x * b.y - a.y * b.x > 0)
    else decide (a.y < 0)

variable {P : Type}

/-- What `std::sort` requires of its comparator on the elements of the sequence: a strict weak
order. Otherwise the behaviour is undefined. -/
def StrictWeakOn (lt : ℕ → ℕ → Bool) (l : List ℕ) : Prop :=
  (∀ a ∈ l, lt a a = false) ∧
  (∀ a ∈ l, ∀ b ∈ l, ∀ c ∈ l, lt a b = true → lt b c = true → lt a c = true) ∧
  (∀ a ∈ l, ∀ b ∈ l, ∀ c ∈ l, lt a b = false → lt b a = false → lt b c = false → lt c b = false →
    lt a c = false ∧ lt c a = false)

instance (lt : ℕ → ℕ → Bool) (l : List ℕ) : Decidable (StrictWeakOn lt l) := by
  unfold StrictWeakOn; infer_instance

/-- The comparison of two indices in `SortByAtan2` (`ring.hpp` 107-109); `less` stands for the
comparator of points. Only used on valid indices. -/
def lessIndex (less : P → P → Bool) (cloud : List P) (i j : ℕ) : Bool :=
  match cloud[i]?, cloud[j]? with
  | some a, some b => less a b
  | _, _ => false

/-- `ring.hpp` 101-112 `SortByAtan2`. `sort` stands for `std::sort`, constrained in the theorems
only by what the standard promises. `iter.at` throws for an index outside the cloud. -/
def sortByAtan2 (sort : (ℕ → ℕ → Bool) → List ℕ → List ℕ) (less : P → P → Bool) (cloud : List P)
    (indices : List ℕ) : Res (List ℕ) :=
  if ¬ ∀ i ∈ indices, i < cloud.length then .error .outOfRange
  else if StrictWeakOn (lessIndex less cloud) indices then
    .ok (sort (lessIndex less cloud) indices)
  else .error .undefinedBehaviour

/-- `std::unordered_map<int, std::vector<int>>` as an association list. The iteration order of the
map is unspecified; loops whose result depends on it take a reordering as a parameter. -/
abbrev Rings := List (ℤ × List ℕ)

/-- `point_indices[ring].push_back(i)` (`ring.hpp` 122). -/
def pushIndex (ring : ℤ) (i : ℕ) : Rings → Rings
  | [] => [(ring, [i])]
  | (r, is) :: rest => if r = ring then (r, is ++ [i]) :: rest else (r, is) :: pushIndex ring i rest

/-- `ring.hpp` 119-124: the loop from index `i` on. -/
def makePointIndicesLoop (ringOf : P → ℤ) : List P → ℕ → Rings → Rings
  | [], _, rings => rings
  | p :: ps, i, rings => makePointIndicesLoop ringOf ps (i + 1) (pushIndex (ringOf p) i rings)

/-- `ring.hpp` 114-125 `MakePointIndices`. -/
def makePointIndices (ringOf : P → ℤ) (cloud : List P) : Rings :=
  makePointIndicesLoop ringOf cloud 0 []

/-- `ring.hpp` 131-139 `SortEachRingByAngle`. -/
def sortEachRingByAngle (sort : (ℕ → ℕ → Bool) → List ℕ → List ℕ) (less : P → P → Bool)
    (cloud : List P) (rings : Rings) : Res Rings :=
  rings.mapM fun ri => do
    let indices ← sortByAtan2 sort less cloud ri.2
    pure (ri.1, indices)

/-- `ring.hpp` 141-147 `ExtractAngleSortedRings`. -/
def extractAngleSortedRings (sort : (ℕ → ℕ → Bool) → List ℕ → List ℕ) (less : P → P → Bool)
    (ringOf : P → ℤ) (cloud : List P) : Res Rings :=
  sortEachRingByAngle sort less cloud (makePointIndices ringOf cloud)

/-- `extraction/src/ring.cpp` 46-59 `RemoveSparseRings`. -/
def removeSparseRings (rings : Rings) (nMinPoints : ℤ) : Rings :=
  rings.filter fun ri => !decide ((ri.2.length : ℤ) < nMinPoints)

end Verif.Extraction
