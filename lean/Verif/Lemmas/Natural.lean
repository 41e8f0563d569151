/-
The extraction looks at points through the geometry only: naturality in the point type.
-/
import Verif.Model.Geometry

set_option autoImplicit false

namespace Verif.Extraction

variable {P Q K : Type}

/-- The same ring over the images of the points. -/
def MappedPoints.mapP (f : P → Q) (m : MappedPoints P) : MappedPoints Q := ⟨m.cloud.map f, m.indices⟩

/-- A geometry seen through a map of points. -/
def Geometry.comap (f : P → Q) (g : Geometry Q K) : Geometry P K where
  norm p := g.norm (f p)
  isNb p q := g.isNb (f p) (f q)
  less p q := g.less (f p) (f q)
  ringOf p := g.ringOf (f p)

/-- The images of the clouds. -/
def Clouds.mapP (f : P → Q) (c : Clouds P K) : Clouds Q K where
  edge := c.edge.map fun q => (f q.1, q.2)
  surface := c.surface.map fun q => (f q.1, q.2)
  colored := c.colored.map fun q => (f q.1, q.2)

theorem atI_map {α β : Type} (f : α → β) (l : List α) (i : ℤ) :
    atI (l.map f) i = Except.map f (atI l i) := by
  simp only [atI, List.getElem?_map]
  split_ifs
  · rfl
  · cases l[i.toNat]? <;> rfl

theorem mapP_at (f : P → Q) (m : MappedPoints P) (i : ℤ) :
    (m.mapP f).at i = Except.map f (m.at i) := by
  simp only [MappedPoints.at, MappedPoints.mapP, bind, Except.bind]
  cases atI m.indices i with
  | error e => rfl
  | ok j => exact atI_map f m.cloud j

theorem call_mapP (f : P → Q) (m : MappedPoints P) (isNb : Q → Q → Res Bool) (i j : ℤ) :
    NeighborCheckXY.call ⟨m.mapP f, isNb⟩ i j =
      NeighborCheckXY.call ⟨m, fun p q => isNb (f p) (f q)⟩ i j := by
  have hs : NeighborCheckXY.size ⟨m.mapP f, isNb⟩ =
      NeighborCheckXY.size ⟨m, fun p q => isNb (f p) (f q)⟩ := rfl
  simp only [NeighborCheckXY.call, NeighborCheckXY.checkIndex, hs, mapP_at, bind, Except.bind]
  split_ifs <;> try rfl
  simp only
  cases m.at i with
  | error e => rfl
  | ok a => cases m.at j <;> rfl

theorem base_mapP (f : P → Q) (m : MappedPoints P) (isNb : Q → Q → Res Bool) :
    NeighborCheckXY.base ⟨m.mapP f, isNb⟩ = NeighborCheckXY.base ⟨m, fun p q => isNb (f p) (f q)⟩ := by
  unfold NeighborCheckXY.base
  congr 1
  funext i j
  exact call_mapP f m isNb i j

theorem rangeCall_mapP (f : P → Q) (m : MappedPoints P) (norm : Q → K) :
    Range.call ⟨m.mapP f, norm⟩ = Range.call ⟨m, fun p => norm (f p)⟩ := by
  funext i
  simp only [Range.call, mapP_at, bind, Except.bind]
  cases m.at i <;> rfl

theorem assignBlock_mapP [LE K] [DecidableLE K] (f : P → Q) (m : MappedPoints P)
    (isNb : Q → Q → Res Bool) (argsort : List K → List ℕ) (ep : ℤ) (et : K) (sp : ℤ) (st : K)
    (labels : List PointLabel) (curvature : List K) (b e : ℤ) :
    assignBlock argsort ep et sp st labels curvature ⟨m.mapP f, isNb⟩ b e =
      assignBlock argsort ep et sp st labels curvature ⟨m, fun p q => isNb (f p) (f q)⟩ b e := by
  unfold assignBlock
  split_ifs with h
  · have hs : (m.mapP f).size = m.size := rfl
    simp only [NeighborCheckXY.slice, MappedPoints.slice, hs]
    split_ifs with h2
    · have hm : (⟨(m.mapP f).cloud, ((m.mapP f).indices.drop b.toNat).take (e - b).toNat⟩ :
          MappedPoints Q) =
          MappedPoints.mapP f ⟨m.cloud, (m.indices.drop b.toNat).take (e - b).toNat⟩ := rfl
      have hz : ∀ (r : MappedPoints P), (r.mapP f).size = r.size := fun _ => rfl
      simp only [bind, Except.bind, hm]
      simp only [NeighborCheckXY.make, hz]
      split_ifs
      · rfl
      · simp only [base_mapP]
    · rfl
  · rfl

theorem assignLabel_mapP [LE K] [DecidableLE K] (f : P → Q) (m : MappedPoints P)
    (isNb : Q → Q → Res Bool) (rnd : ℚ → ℚ) (argsort : List K → List ℕ) (ep : ℤ) (et : K) (sp : ℤ)
    (st : K) (labels : List PointLabel) (curvature : List K) (r : IndexRange) :
    assignLabel rnd argsort ep et sp st labels curvature ⟨m.mapP f, isNb⟩ r =
      assignLabel rnd argsort ep et sp st labels curvature ⟨m, fun p q => isNb (f p) (f q)⟩ r := by
  unfold assignLabel
  simp only [assignBlock_mapP]
  rfl

section
variable [Field K] [LinearOrder K]

theorem fromLeftStep_mapP (f : P → Q) (m : MappedPoints P) (isNb : Q → Q → Res Bool) (norm : Q → K)
    (padding : ℕ) (t : K) :
    fromLeftStep ⟨m.mapP f, isNb⟩ ⟨m.mapP f, norm⟩ padding t =
      fromLeftStep ⟨m, fun p q => isNb (f p) (f q)⟩ ⟨m, fun p => norm (f p)⟩ padding t := by
  funext labels i
  simp only [fromLeftStep, call_mapP, rangeCall_mapP, base_mapP]

theorem fromRightStep_mapP (f : P → Q) (m : MappedPoints P) (isNb : Q → Q → Res Bool) (norm : Q → K)
    (padding : ℕ) (t : K) :
    fromRightStep ⟨m.mapP f, isNb⟩ ⟨m.mapP f, norm⟩ padding t =
      fromRightStep ⟨m, fun p q => isNb (f p) (f q)⟩ ⟨m, fun p => norm (f p)⟩ padding t := by
  funext labels i
  simp only [fromRightStep, call_mapP, rangeCall_mapP, base_mapP]

theorem labelOccludedPoints_mapP (f : P → Q) (m : MappedPoints P) (isNb : Q → Q → Res Bool)
    (norm : Q → K) (labels : List PointLabel) (padding : ℕ) (t : K) :
    labelOccludedPoints labels ⟨m.mapP f, isNb⟩ ⟨m.mapP f, norm⟩ padding t =
      labelOccludedPoints labels ⟨m, fun p q => isNb (f p) (f q)⟩ ⟨m, fun p => norm (f p)⟩ padding
        t := by
  simp only [labelOccludedPoints, fromLeft, fromRight, fromLeftStep_mapP, fromRightStep_mapP]

theorem interval_mapP (f : P → Q) (m : MappedPoints P) (norm : Q → K) (b e : ℤ) :
    Range.interval ⟨m.mapP f, norm⟩ b e = Range.interval ⟨m, fun p => norm (f p)⟩ b e := by
  simp only [Range.interval, rangeCall_mapP]

theorem ringLabels_mapP (plat : Platform K) (hp : HyperParameters K) (f : P → Q)
    (m : MappedPoints P) (isNb : Q → Q → Res Bool) (norm : Q → K) :
    ringLabels plat hp ⟨m.mapP f, isNb⟩ ⟨m.mapP f, norm⟩ =
      ringLabels plat hp ⟨m, fun p q => isNb (f p) (f q)⟩ ⟨m, fun p => norm (f p)⟩ := by
  have hs : Range.size (⟨m.mapP f, norm⟩ : Range Q K) = Range.size ⟨m, fun p => norm (f p)⟩ := rfl
  have hz : (m.mapP f).size = m.size := rfl
  have hi : (m.mapP f).indices = m.indices := rfl
  simp only [ringLabels, hs, hz, hi, interval_mapP, assignLabel_mapP, labelOccludedPoints_mapP,
    labelOutOfRange, labelParallelBeamPoints, rangeCall_mapP]

theorem mapM_map {α β γ : Type} (g : α → Res β) (h : β → γ) (l : List α) :
    l.mapM (fun a => Except.map h (g a)) = Except.map (List.map h) (l.mapM g) := by
  induction l with
  | nil => rfl
  | cons a l ih =>
    simp only [List.mapM_cons, bind, Except.bind, ih]
    cases g a with
    | error e => rfl
    | ok b => cases l.mapM g <;> rfl

theorem getByIndices_mapP (f : P → Q) (m : MappedPoints P) (l : List ℕ) :
    getByIndices l (m.mapP f).at = Except.map (List.map f) (getByIndices l m.at) := by
  have h : (m.mapP f).at = fun i => Except.map f (m.at i) := funext fun i => mapP_at f m i
  rw [h]
  exact mapM_map (fun i : ℕ => m.at i) f l

theorem colorPointsByLabel_mapP (f : P → Q) (m : MappedPoints P) (labels : List PointLabel) :
    colorPointsByLabel (m.mapP f) labels =
      Except.map (List.map fun q => (f q.1, q.2)) (colorPointsByLabel m labels) := by
  have hz : (m.mapP f).size = m.size := rfl
  simp only [colorPointsByLabel, hz]
  split_ifs
  · rfl
  · rw [← mapM_map]
    congr 1
    funext i
    simp only [mapP_at, bind, Except.bind]
    cases m.at (i : ℤ) with
    | error e => rfl
    | ok p => cases atI labels (i : ℤ) <;> rfl

theorem appendXYZIR_mapP (f : P → Q) (out : List (P × K)) (points : List P) (c : List K) :
    appendXYZIR (out.map fun q => (f q.1, q.2)) (points.map f) c =
      Except.map (List.map fun q => (f q.1, q.2)) (appendXYZIR out points c) := by
  simp only [appendXYZIR, List.length_map]
  split_ifs
  · rfl
  · simp only [Except.map, List.map_append]
    congr 2
    rw [List.zip_map_left]
    rfl

theorem ringBody_mapP (plat : Platform K) (hp : HyperParameters K) (f : P → Q) (m : MappedPoints P)
    (isNb : Q → Q → Res Bool) (norm : Q → K) (out : Clouds P K) :
    ringBody plat hp ⟨m.mapP f, isNb⟩ ⟨m.mapP f, norm⟩ (out.mapP f) =
      Except.map (Clouds.mapP f)
        (ringBody plat hp ⟨m, fun p q => isNb (f p) (f q)⟩ ⟨m, fun p => norm (f p)⟩ out) := by
  simp only [ringBody, ringLabels_mapP, bind, Except.bind]
  cases ringLabels plat hp ⟨m, fun p q => isNb (f p) (f q)⟩ ⟨m, fun p => norm (f p)⟩ with
  | error e => rfl
  | ok lc =>
    simp only [getByIndices_mapP, colorPointsByLabel_mapP]
    cases getByIndices (getIndicesByValue lc.1 .edge) m.at with
    | error e => rfl
    | ok ep =>
      simp only [Except.map]
      cases getByIndices (getIndicesByValue lc.1 .edge) (atI lc.2) with
      | error e => rfl
      | ok ec =>
        simp only
        cases getByIndices (getIndicesByValue lc.1 .surface) m.at with
        | error e => rfl
        | ok sp =>
          simp only
          cases getByIndices (getIndicesByValue lc.1 .surface) (atI lc.2) with
          | error e => rfl
          | ok sc =>
            simp only [Clouds.mapP, appendXYZIR_mapP]
            cases appendXYZIR out.edge ep ec with
            | error e => rfl
            | ok oe =>
              simp only [Except.map]
              cases appendXYZIR out.surface sp sc with
              | error e => rfl
              | ok os =>
                simp only
                cases colorPointsByLabel m lc.1 with
                | error e => rfl
                | ok oc =>
                  simp [pure, Except.pure]

theorem processRing_mapP (plat : Platform K) (hp : HyperParameters K) (f : P → Q)
    (geo : Geometry Q K) (cloud : List P) (out : Clouds P K) (ring : ℤ × List ℕ) :
    processRing plat hp geo (cloud.map f) (out.mapP f) ring =
      Except.map (Clouds.mapP f) (processRing plat hp (geo.comap f) cloud out ring) := by
  have hm : (⟨cloud.map f, ring.2⟩ : MappedPoints Q) = MappedPoints.mapP f ⟨cloud, ring.2⟩ := rfl
  have hz : (MappedPoints.mapP f ⟨cloud, ring.2⟩).size =
      (⟨cloud, ring.2⟩ : MappedPoints P).size := rfl
  simp only [processRing, hm, NeighborCheckXY.make, hz]
  split_ifs
  · rfl
  · simp only [bind, Except.bind, ringBody_mapP, Geometry.comap]
    cases ringBody plat hp ⟨⟨cloud, ring.2⟩, fun p q => geo.isNb (f p) (f q)⟩
      ⟨⟨cloud, ring.2⟩, fun p => geo.norm (f p)⟩ out with
    | error e => cases e <;> rfl
    | ok c => rfl

omit [Field K] [LinearOrder K] in
theorem makePointIndices_map (ringOf : Q → ℤ) (f : P → Q) (cloud : List P) :
    makePointIndices ringOf (cloud.map f) = makePointIndices (fun p => ringOf (f p)) cloud := by
  unfold makePointIndices
  generalize (0 : ℕ) = i
  generalize ([] : Rings) = r
  induction cloud generalizing i r with
  | nil => rfl
  | cons p ps ih => simp only [List.map_cons, makePointIndicesLoop]; exact ih _ _

theorem extractAngleSortedRings_map (sort : (ℕ → ℕ → Bool) → List ℕ → List ℕ) (less : Q → Q → Bool)
    (ringOf : Q → ℤ) (f : P → Q) (cloud : List P) :
    extractAngleSortedRings sort less ringOf (cloud.map f) =
      extractAngleSortedRings sort (fun p q => less (f p) (f q)) (fun p => ringOf (f p)) cloud := by
  have hl : lessIndex less (cloud.map f) = lessIndex (fun p q => less (f p) (f q)) cloud := by
    funext i j
    simp only [lessIndex, List.getElem?_map]
    cases cloud[i]? <;> cases cloud[j]? <;> rfl
  simp only [extractAngleSortedRings, sortEachRingByAngle, makePointIndices_map, sortByAtan2, hl,
    List.length_map]

/-- Naturality of the extraction: renaming the points renames the points of the result. -/
theorem extractClouds_map (plat : Platform K) (hp : HyperParameters K) (f : P → Q)
    (geo : Geometry Q K) (cloud : List P) :
    extractClouds plat hp geo (cloud.map f) =
      Except.map (Clouds.mapP f) (extractClouds plat hp (geo.comap f) cloud) := by
  have hr : extractAngleSortedRings plat.sort geo.less geo.ringOf (cloud.map f) =
      extractAngleSortedRings plat.sort (geo.comap f).less (geo.comap f).ringOf cloud :=
    extractAngleSortedRings_map plat.sort geo.less geo.ringOf f cloud
  simp only [extractClouds, hr, bind, Except.bind]
  cases extractAngleSortedRings plat.sort (geo.comap f).less (geo.comap f).ringOf cloud with
  | error e => rfl
  | ok rings =>
    simp only
    generalize plat.order (removeSparseRings rings (hp.padding + 1)) = rs
    have h0 : (⟨[], [], []⟩ : Clouds Q K) = Clouds.mapP f ⟨[], [], []⟩ := rfl
    rw [h0]
    generalize (⟨[], [], []⟩ : Clouds P K) = c
    induction rs generalizing c with
    | nil => rfl
    | cons r rs ih =>
      simp only [List.foldlM_cons, bind, Except.bind, processRing_mapP]
      cases processRing plat hp (geo.comap f) cloud c r with
      | error e => rfl
      | ok c' => exact ih c'

end

end Verif.Extraction
