/-
C106: the extraction looks at x, y and ring of the points only.
-/
import Mathlib.Data.List.FinRange
import Verif.Lemmas.Natural
import Verif.Props.C19

set_option autoImplicit false

namespace Verif.Extraction

variable {P Q K : Type}

/-- A message whose points are given by their positions in the input, with the points put in. -/
def CloudMsg.mapP {α β : Type} (f : α → β) (m : CloudMsg α) : CloudMsg β :=
  ⟨m.stamp, m.frame, m.points.map f⟩

/-- The effect of a callback given by positions in the input, with the points put in. -/
def CallbackEffect.mapP (f : P → Q) (e : CallbackEffect P) : CallbackEffect Q where
  shutdown := e.shutdown
  colored := e.colored.mapP fun q => (f q.1, q.2)
  edge := e.edge.mapP f
  surface := e.surface.mapP f

theorem callback_map [Field K] [LinearOrder K] (plat : Platform K) (hp : HyperParameters K)
    (f : P → Q) (geo : Geometry Q K) (stamp : ℤ) (isDense ringAvailable : Bool) (cloud : List P) :
    callback plat hp geo stamp isDense ringAvailable (cloud.map f) =
      Except.map (CallbackEffect.mapP f)
        (callback plat hp (geo.comap f) stamp isDense ringAvailable cloud) := by
  simp only [callback, extractClouds_map, bind, Except.bind]
  cases extractClouds plat hp (geo.comap f) cloud with
  | error e => rfl
  | ok c =>
    simp [Except.map, pure, Except.pure, CallbackEffect.mapP, CloudMsg.mapP, Clouds.mapP,
      Function.comp_def]

/-- C106: let two clouds have the same number of points, and corresponding points the same x, y and
ring (heights may differ in any way). Then the callback does the same for both: it fails for both in
the same way, or publishes for both the points at the same positions, in the same order and in the
same colours, on all three topics. -/
theorem C106_heights_ignored (plat : Platform ℝ) (hp : HyperParameters ℝ) (degreeThreshold : ℝ)
    (stamp : ℤ) (isDense ringAvailable : Bool) (n : ℕ) (c c' : Fin n → PointXYZIR ℝ)
    (hx : ∀ i, (c i).x = (c' i).x) (hy : ∀ i, (c i).y = (c' i).y)
    (hr : ∀ i, (c i).ring = (c' i).ring) :
    ∃ o : Res (CallbackEffect (Fin n)),
      callback plat hp (nodeGeometry degreeThreshold) stamp isDense ringAvailable (List.ofFn c) =
        Except.map (CallbackEffect.mapP c) o ∧
      callback plat hp (nodeGeometry degreeThreshold) stamp isDense ringAvailable (List.ofFn c') =
        Except.map (CallbackEffect.mapP c') o := by
  have hgeo : (nodeGeometry degreeThreshold).comap c = (nodeGeometry degreeThreshold).comap c' := by
    simp only [Geometry.comap, nodeGeometry, isNeighborXY, lessAngle, hx, hy, hr]
  refine ⟨callback plat hp ((nodeGeometry degreeThreshold).comap c) stamp isDense ringAvailable
    (List.finRange n), ?_, ?_⟩
  · rw [List.ofFn_eq_map, callback_map]
  · rw [List.ofFn_eq_map, callback_map, hgeo]

/-- C106, other fields: the extraction treats points as opaque. Whatever is attached to the points,
the result for the points with attachment is the result for the points, with the attachment
carried along. -/
theorem C106_attachments_carried {A : Type} [Field K] [LinearOrder K] (plat : Platform K)
    (hp : HyperParameters K) (geo : Geometry P K) (stamp : ℤ) (isDense ringAvailable : Bool)
    (cloud : List (P × A)) :
    callback plat hp geo stamp isDense ringAvailable (cloud.map Prod.fst) =
      Except.map (CallbackEffect.mapP Prod.fst)
        (callback plat hp (geo.comap Prod.fst) stamp isDense ringAvailable cloud) :=
  callback_map plat hp Prod.fst geo stamp isDense ringAvailable cloud

/-! Non-vacuity: over the rationals with the geometry of C19, the cloud of C19 with other heights
gives the same result with these heights, and the result is not empty. -/

example : (callback exPlat19 exHp19 exGeo19 42 true true
    (exCloud19.map fun p => { p with z := p.x + 7 })).map
    (fun e => (e.edge.points, e.surface.points)) =
    .ok ([⟨0, 9, 7, 1⟩], [⟨3, 7, 10, 1⟩, ⟨-2, 8, 5, 1⟩]) := by decide +kernel

end Verif.Extraction
