/-
The scan matching problem of `localization`: nearest neighbours (`kdtree.cpp`), edge and surface blocks
(`edge.hpp`, `surface.hpp`), and their combination (`loam_optimization_problem.hpp`).

Numbers are real. Four library calls are parameters, which the theorems constrain only by a
specification: nanoflann's `findNeighbors` (`Knn`), Eigen's `computeDirect` (`Eig`), Eigen's
`householderQr().solve` (`Qr`), and PCL's `VoxelGrid` filter (a function from clouds to clouds).
The only instantiation in the repository is `PointToVector = PointXYZToVector`
(`localization/app/localization.cpp` 49-51, `point_to_vector.hpp` 69-82): points are vectors of
dimension 3, and the conversions `Convert`, `PointCloudToMatrix` (`pointcloud_to_matrix.hpp`) and
`GetXYZ` (`edge.cpp` 87-91) are the identity. `float` coordinates become `double` without loss.
-/
import Verif.Model.Residual
import Verif.Model.Optimizer

set_option autoImplicit false

namespace Verif.Loam

open Matrix Verif.Rot Verif.Opt Verif.Loc

/-- A point. -/
abbrev V3 := Fin 3 → ℝ

/-- `kdtree_->index->findNeighbors(result, query)` for a `KNNResultSet` of capacity `k`
(`kdtree.cpp` 50-55): the indices that the search writes to the front of the index array. -/
abbrev Knn := List V3 → V3 → ℕ → List ℕ

/-- `solver.computeDirect(C)` (`edge.hpp` 111-112): eigenvalues and, as columns, eigenvectors. -/
abbrev Eig := Matrix (Fin 3) (Fin 3) ℝ → (Fin 3 → ℝ) × Matrix (Fin 3) (Fin 3) ℝ

/-- `A.householderQr().solve(b)` (`math.hpp` 39): `A` given by its rows. -/
abbrev Qr := List V3 → List ℝ → V3

/-- `lib/src/eigen.cpp` 91-100 `GetRows`. Eigen asserts the row number. -/
def getRows {α : Type*} (matrix : List α) (indices : List ℕ) : Res (List α) :=
  indices.mapM fun index => match matrix[index]? with
    | some row => .ok row
    | none => .error .assertFail

/-- `localization/src/kdtree.cpp` 42-63 `NearestKSearch`. The array of indices has `n_neighbors`
elements, all zero; the search overwrites as many of them, from the front, as it finds points. A
negative number of neighbours is no size of a vector; for zero `&indices[0]` is an access out of bounds.
Simplification: the second result, the distances, is left out, no caller reads it. -/
def nearestKSearch (knn : Knn) (map : List V3) (query : V3) (nNeighbors : ℤ) : Res (List V3) :=
  if nNeighbors < 0 then .error .lengthError
  else if nNeighbors = 0 then .error .undefinedBehaviour
  else
    let zeros : List ℕ := List.replicate nNeighbors.toNat 0
    let found := knn map query nNeighbors.toNat
    getRows map (found ++ zeros.drop found.length)

/-- A division by zero gives NaN or an infinity, which the model does not follow further. -/
def finite {α : Type*} : Option α → Res α
  | some a => .ok a
  | none => .error .notModelled

/-- `localization/include/lidar_feature_localization/edge.hpp` 102-117, one pass of the loop: Jacobian
and residual for one point of the scan. -/
noncomputable def edgeBlock (knn : Knn) (eig : Eig) (map : List V3) (nNeighbors : ℤ) (T : Pose)
    (p0 : V3) : Res (DMat × DVec) := do
  let q := Quat.ofMatrix T.linear
  let query := T.apply p0
  let X ← nearestKSearch knn map query nNeighbors
  let (mean, covariance) ← finite (calcMeanAndCovariance X)
  let eigenvectors := (eig covariance).2
  let principal : V3 := fun i => eigenvectors i 2
  let p1 := mean - principal
  let p2 := mean + principal
  return (⟨3, 7, makeEdgeJacobianRow q p0 p1 p2⟩, ⟨3, makeEdgeResidual T p0 p1 p2⟩)

/-- `edge.hpp` 88-121 `Edge::Make`. `point_to_map.rotation()` is the linear part (Eigen, for
isometries); converted to a quaternion in `edgeBlock`. -/
noncomputable def edgeMake (knn : Knn) (eig : Eig) (map : List V3) (nNeighbors : ℤ) (scan : List V3)
    (T : Pose) : Res (List DMat × List DVec) := do
  let blocks ← scan.mapM (edgeBlock knn eig map nNeighbors T)
  return (blocks.map Prod.fst, blocks.map Prod.snd)

/-- `localization/include/lidar_feature_localization/math.hpp` 36-40 `SolveLinear`. -/
def solveLinear (qr : Qr) (A : List V3) (b : List ℝ) : Res V3 :=
  if A.length = b.length then .ok (qr A b) else .error .assertFail

/-- `localization/include/lidar_feature_localization/surface.hpp` 79-83
`EstimatePlaneCoefficients`. -/
def estimatePlaneCoefficients (qr : Qr) (X : List V3) : Res V3 :=
  solveLinear qr X (List.replicate X.length (-planeBias))

/-- `surface.hpp` 126-137, one pass of the loop; the residual is the vector with one element of lines
55-61. -/
noncomputable def surfaceBlock (knn : Knn) (qr : Qr) (map : List V3) (nNeighbors : ℤ) (T : Pose)
    (p : V3) : Res (DMat × DVec) := do
  let q := Quat.ofMatrix T.linear
  let pointOnMap := T.apply p
  let X ← nearestKSearch knn map pointOnMap nNeighbors
  let w ← estimatePlaneCoefficients qr X
  let J ← finite (makeJacobianRow w q p)
  let d ← finite (signedPointPlaneDistance w pointOnMap)
  return (⟨1, 7, J⟩, ⟨1, fun _ => d⟩)

/-- `surface.hpp` 106-140 `Surface::Make`. `downsample` is `Downsample(scan, 1.0)`
(`lib/include/lidar_feature_library/downsample.hpp`), PCL's voxel grid filter. -/
noncomputable def surfaceMake (knn : Knn) (qr : Qr) (downsample : List V3 → List V3) (map : List V3)
    (nNeighbors : ℤ) (scan : List V3) (T : Pose) : Res (List DMat × List DVec) := do
  let blocks ← (downsample scan).mapM (surfaceBlock knn qr map nNeighbors T)
  return (blocks.map Prod.fst, blocks.map Prod.snd)

/-- The library functions that the problem calls. -/
structure Libs where
  knn : Knn
  eig : Eig
  qr : Qr
  downsample : List V3 → List V3

/-- `localization/include/lidar_feature_localization/loam_optimization_problem.hpp` 61-84 `Make`. -/
noncomputable def make (L : Libs) (edgeMap surfaceMap : List V3) (nNeighbors : ℤ)
    (edgeScan surfaceScan : List V3) (T : Pose) : Res (List DMat × List DVec) := do
  let edge ← edgeMake L.knn L.eig edgeMap nNeighbors edgeScan T
  let surface ← surfaceMake L.knn L.qr L.downsample surfaceMap nNeighbors surfaceScan T
  return (edge.1 ++ surface.1, edge.2 ++ surface.2)

/-- `localization/include/lidar_feature_localization/localizer.hpp` 46. -/
def nNeighbors : ℤ := 15

end Verif.Loam
