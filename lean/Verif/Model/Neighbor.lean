/-
Model of `extraction/include/lidar_feature_extraction/mapped_points.hpp` and `neighbor.hpp`.
The point type `P` and the pairwise test `IsNeighborXY` are parameters here; the test itself is
modelled in `Verif/Model/Geometry.lean`.
-/
import Verif.Model.Fill

set_option autoImplicit false

namespace Verif.Extraction

variable {P : Type}

/-- `mapped_points.hpp` 40-72: a cloud seen through a list of indices. -/
structure MappedPoints (P : Type) where
  cloud : List P
  indices : List ℕ

/-- `mapped_points.hpp` 53-56. -/
def MappedPoints.size (m : MappedPoints P) : ℤ := m.indices.length

/-- `mapped_points.hpp` 58-61; both `at` are bounds-checked. -/
def MappedPoints.at (m : MappedPoints P) (i : ℤ) : Res P := do
  let j ← atI m.indices i
  atI m.cloud j

/-- `mapped_points.hpp` 63-67: the iterator pair must delimit a valid sub-range, otherwise the
behaviour is undefined. -/
def MappedPoints.slice (m : MappedPoints P) (b e : ℤ) : Res (MappedPoints P) :=
  if 0 ≤ b ∧ b ≤ e ∧ e ≤ m.size then
    .ok ⟨m.cloud, (m.indices.drop b.toNat).take (e - b).toNat⟩
  else .error .undefinedBehaviour

/-- `neighbor.hpp` 64-113: the members of `NeighborCheckXY`; `isNb` stands for `IsNeighborXY` with
the given threshold. -/
structure NeighborCheckXY (P : Type) where
  ref : MappedPoints P
  isNb : P → P → Res Bool

/-- `neighbor.hpp` 68-76: the constructor. -/
def NeighborCheckXY.make (ref : MappedPoints P) (isNb : P → P → Res Bool) :
    Res (NeighborCheckXY P) :=
  if ref.size < 2 then .error .invalidArgument else .ok ⟨ref, isNb⟩

/-- `neighbor.hpp` 88-91. -/
def NeighborCheckXY.size (n : NeighborCheckXY P) : ℤ := n.ref.size

/-- `neighbor.hpp` 99-109. -/
def NeighborCheckXY.checkIndex (n : NeighborCheckXY P) (i : ℤ) : Res Unit :=
  if i < 0 then .error .outOfRange
  else if i ≥ n.size then .error .outOfRange
  else .ok ()

/-- `neighbor.hpp` 78-86. -/
def NeighborCheckXY.call (n : NeighborCheckXY P) (i j : ℤ) : Res Bool := do
  n.checkIndex i
  n.checkIndex j
  let p1 ← n.ref.at i
  let p2 ← n.ref.at j
  n.isNb p1 p2

/-- The object seen as its base class. -/
def NeighborCheckXY.base (n : NeighborCheckXY P) : NeighborCheck := ⟨n.size, n.call⟩

/-- `neighbor.hpp` 93-96. -/
def NeighborCheckXY.slice (n : NeighborCheckXY P) (b e : ℤ) : Res (NeighborCheckXY P) := do
  let ref ← n.ref.slice b e
  NeighborCheckXY.make ref n.isNb

end Verif.Extraction
