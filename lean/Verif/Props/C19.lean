/-
C19: the extraction callback returns and rings do not influence each other.
-/
import Verif.Props.C17
import Verif.Model.Geometry

set_option autoImplicit false

namespace Verif.Extraction

variable {P K : Type} [Field K] [LinearOrder K]

/-- The assumptions of C17 and C18 about points hold for the geometry of the node. -/
theorem nodeGeometry_ok (degreeThreshold : ℝ) : GeometryOK (nodeGeometry degreeThreshold) where
  norm_nonneg _ := Real.sqrt_nonneg _
  nb_symm p q := C22_neighbor_symmetric _ p q
  nb_err p q e h := (((C22_neighbor_at_origin _ p q).2 e).1 h).1

/-- C17 for the node, in terms of coordinates: published points lie, seen from above, between the minimal
and the maximal distance from the sensor, and the curvature compared with the thresholds is that of these
distances. -/
theorem C17_node {plat : Platform ℝ} {hp : HyperParameters ℝ} (degreeThreshold : ℝ)
    {cloud : List (PointXYZIR ℝ)} (hv : hp.Valid) (hplat : PlatformOK plat hp.nBlocks cloud.length)
    {stamp : ℤ} {isDense ringAvailable : Bool} {eff : CallbackEffect (PointXYZIR ℝ)}
    (h : callback plat hp (nodeGeometry degreeThreshold) stamp isDense ringAvailable cloud = .ok eff) :
    let distance := fun p : PointXYZIR ℝ => Real.sqrt (p.x ^ 2 + p.y ^ 2)
    (∀ q ∈ eff.edge.points, hp.minRange ≤ distance q ∧ distance q ≤ hp.maxRange ∧
      ∃ (r : ℤ) (idx : List ℕ) (k : ℕ), IsDenseRing hp (nodeGeometry degreeThreshold) cloud r idx ∧
        (ringPoints cloud idx)[k]? = some q ∧
        hp.edgeThreshold ≤ smoothness (rangeAt distance (ringPoints cloud idx)) hp.padding.toNat k) ∧
    (∀ q ∈ eff.surface.points, hp.minRange ≤ distance q ∧ distance q ≤ hp.maxRange ∧
      ∃ (r : ℤ) (idx : List ℕ) (k : ℕ), IsDenseRing hp (nodeGeometry degreeThreshold) cloud r idx ∧
        (ringPoints cloud idx)[k]? = some q ∧
        smoothness (rangeAt distance (ringPoints cloud idx)) hp.padding.toNat k ≤ hp.surfaceThreshold) := by
  intro distance
  have hd : (nodeGeometry degreeThreshold).norm = distance := by
    funext p
    simp only [nodeGeometry, xyNorm, distance, sq]
  obtain ⟨h1, h2⟩ := C17_published_features (nodeGeometry_ok degreeThreshold) hv hplat h
  constructor
  · intro q hq
    obtain ⟨r, idx, k, hr, hk, hf, hc⟩ := h1 q hq
    have hin := hf.in_range
    rw [hd] at hin hc
    have e : rangeAt distance (ringPoints cloud idx) k = distance q := by simp [rangeAt, hk]
    rw [e] at hin
    exact ⟨hin.1, hin.2, r, idx, k, hr, hk, hc⟩
  · intro q hq
    obtain ⟨r, idx, k, hr, hk, hf, hc⟩ := h2 q hq
    have hin := hf.in_range
    rw [hd] at hin hc
    have e : rangeAt distance (ringPoints cloud idx) k = distance q := by simp [rangeAt, hk]
    rw [e] at hin
    exact ⟨hin.1, hin.2, r, idx, k, hr, hk, hc⟩

theorem callback_of_rings [IsStrictOrderedRing K] {plat : Platform K} {hp : HyperParameters K}
    {geo : Geometry P K} {cloud : List P} (hgeo : GeometryOK geo) (hv : hp.Valid)
    (hplat : PlatformOK plat hp.nBlocks cloud.length) {rings : Rings}
    (h : extractAngleSortedRings plat.sort geo.less geo.ringOf cloud = .ok rings)
    (stamp : ℤ) (isDense ringAvailable : Bool) :
    ∃ eff, callback plat hp geo stamp isDense ringAvailable cloud = .ok eff ∧
      (eff.colored.stamp = stamp ∧ eff.edge.stamp = stamp ∧ eff.surface.stamp = stamp) ∧
      (eff.shutdown = true ↔ isDense = false ∨ ringAvailable = false) := by
  simp only [callback, extractClouds_eq hgeo hv hplat h, bind, Except.bind, pure, Except.pure]
  refine ⟨_, rfl, ⟨rfl, rfl, rfl⟩, ?_⟩
  cases isDense <;> cases ringAvailable <;> simp

/-- C19, no exception: with positive parameters the callback returns normally and publishes three
clouds with the stamp of the input, for every cloud without two different points of one ring on the
positive x half-axis (points at the origin, zero ranges, rings of any size are all allowed). Missing:
the excluded clouds, see `C19_callback_violated`. -/
theorem C19_callback_returns_partial {plat : Platform ℝ} {hp : HyperParameters ℝ}
    (degreeThreshold : ℝ) {cloud : List (PointXYZIR ℝ)} (hv : hp.Valid)
    (hplat : PlatformOK plat hp.nBlocks cloud.length)
    (haxis : ∀ a ∈ cloud, ∀ b ∈ cloud, a.ring = b.ring → ¬ SamePositiveAxis a b)
    (stamp : ℤ) (isDense ringAvailable : Bool) :
    ∃ eff, callback plat hp (nodeGeometry degreeThreshold) stamp isDense ringAvailable cloud =
        .ok eff ∧
      (eff.colored.stamp = stamp ∧ eff.edge.stamp = stamp ∧ eff.surface.stamp = stamp) ∧
      (eff.shutdown = true ↔ isDense = false ∨ ringAvailable = false) := by
  obtain ⟨rings, h⟩ := (C20_rings_defined_partial (sort := plat.sort) cloud).1.2 haxis
  exact callback_of_rings (nodeGeometry_ok _) hv hplat h stamp isDense ringAvailable

/-- C19, violation: on a cloud with two different points of one ring on the positive x half-axis
the callback has undefined behaviour (`std::sort` with an inconsistent comparator). -/
theorem C19_callback_violated (plat : Platform ℝ) (hp : HyperParameters ℝ) (degreeThreshold : ℝ)
    (stamp : ℤ) (isDense ringAvailable : Bool) :
    callback plat hp (nodeGeometry degreeThreshold) stamp isDense ringAvailable
      [⟨1, 0, 0, 7⟩, ⟨2, 0, 0, 7⟩] = .error .undefinedBehaviour := by
  have h := C20_rings_defined_violated plat.sort
  simp only [callback, extractClouds, nodeGeometry, h, bind, Except.bind]

/-- C19, exactly: a failing callback is undefined behaviour, never an exception. -/
theorem C19_only_failure_is_comparator {plat : Platform ℝ} {hp : HyperParameters ℝ}
    (degreeThreshold : ℝ) {cloud : List (PointXYZIR ℝ)} (hv : hp.Valid)
    (hplat : PlatformOK plat hp.nBlocks cloud.length) (stamp : ℤ) (isDense ringAvailable : Bool)
    (e : Err) (h : callback plat hp (nodeGeometry degreeThreshold) stamp isDense ringAvailable
      cloud = .error e) :
    e = .undefinedBehaviour ∧ ∃ a ∈ cloud, ∃ b ∈ cloud, a.ring = b.ring ∧ SamePositiveAxis a b := by
  by_cases haxis : ∀ a ∈ cloud, ∀ b ∈ cloud, a.ring = b.ring → ¬ SamePositiveAxis a b
  · obtain ⟨eff, h', -⟩ := C19_callback_returns_partial degreeThreshold hv hplat haxis stamp isDense
      ringAvailable
    rw [h'] at h; cases h
  · constructor
    · cases hr : extractAngleSortedRings plat.sort lessAngle PointXYZIR.ring cloud with
      | ok rings => exact absurd ((C20_rings_defined_partial (sort := plat.sort) cloud).1.1 ⟨_, hr⟩) haxis
      | error e' =>
        have := (C20_rings_defined_partial (sort := plat.sort) cloud).2 e' hr
        simp only [callback, extractClouds, nodeGeometry, hr, bind, Except.bind] at h
        injection h with h
        rw [← h, this]
    · push Not at haxis
      obtain ⟨a, ha, b, hb, hab, hs⟩ := haxis
      exact ⟨a, ha, b, hb, hab, hs⟩

/-- What the points of one ring, in the order of their angles, add to the clouds. -/
def ownContribution (plat : Platform K) (hp : HyperParameters K) (geo : Geometry P K)
    (pts : List P) : Clouds P K :=
  contribution plat hp geo pts (List.range pts.length)

theorem callback_contributions [IsStrictOrderedRing K] (plat : Platform K)
    (hp : HyperParameters K) (geo : Geometry P K) (hgeo : GeometryOK geo) (hv : hp.Valid)
    (cloud : List P) (stamp : ℤ) (isDense ringAvailable : Bool) (eff : CallbackEffect P)
    (hplat : PlatformOK plat hp.nBlocks cloud.length)
    (h : callback plat hp geo stamp isDense ringAvailable cloud = .ok eff) :
    ∃ rings : Rings, (rings.map Prod.fst).Nodup ∧
      (∀ r idx, (r, idx) ∈ rings → IsDenseRing hp geo cloud r idx ∧
        (ownContribution plat hp geo (ringPoints cloud idx) = ⟨[], [], []⟩ ∨
          (ownContribution plat hp geo (ringPoints cloud idx)).colored.map Prod.fst =
            ringPoints cloud idx)) ∧
      (∀ p ∈ cloud, hp.padding < (cloud.filter fun q => geo.ringOf q = geo.ringOf p).length →
        geo.ringOf p ∈ rings.map Prod.fst) ∧
      eff.edge.points = rings.flatMap
        (fun ri => (ownContribution plat hp geo (ringPoints cloud ri.2)).edge.map Prod.fst) ∧
      eff.surface.points = rings.flatMap
        (fun ri => (ownContribution plat hp geo (ringPoints cloud ri.2)).surface.map Prod.fst) ∧
      eff.colored.points = rings.flatMap
        (fun ri => (ownContribution plat hp geo (ringPoints cloud ri.2)).colored) := by
  simp only [ownContribution]
  obtain ⟨rings, out, h1, h2, h3, h4, h5⟩ := callback_clouds h
  rw [extractClouds_eq hgeo hv hplat h1] at h2
  injection h2 with h2
  subst h2
  obtain ⟨hdense, hkeys⟩ := denseRings (hp := hp) hplat.sort hplat.order h1
  have hpart := (C20_rings_sorted hplat.sort geo.less geo.ringOf cloud rings h1).1
  have hcov : ∀ p ∈ cloud, hp.padding < (cloud.filter fun q => geo.ringOf q = geo.ringOf p).length →
      geo.ringOf p ∈ (plat.order (removeSparseRings rings (hp.padding + 1))).map Prod.fst := by
    intro p hp' hlen
    obtain ⟨i, hi⟩ := List.mem_iff_getElem?.1 hp'
    obtain ⟨idx, hidx⟩ := hpart.cover i p hi
    refine List.mem_map.2 ⟨_, (hplat.order _).mem_iff.2
      (((C20_remove_sparse rings (hp.padding + 1)).2 _ _).2 ⟨hidx, ?_⟩), rfl⟩
    have hperm : idx.Perm (ringIndices geo.ringOf cloud (geo.ringOf p)) := by
      refine (List.perm_ext_iff_of_nodup (hpart.nodup _ _ hidx) (List.nodup_range.filter _)).2 ?_
      intro j
      exact (hpart.mem _ _ hidx j).trans mem_ringIndices.symm
    rw [hperm.length_eq, ringIndices_length]
    omega
  generalize plat.order (removeSparseRings rings (hp.padding + 1)) = rs at *
  have hsame : ∀ ring ∈ rs, contribution plat hp geo cloud ring.2 =
      contribution plat hp geo (ringPoints cloud ring.2)
        (List.range (ringPoints cloud ring.2).length) := by
    intro ring hring
    refine contribution_congr ⟨(hdense ring hring).bounds, fun i hi => List.mem_range.1 hi, ?_⟩
      plat hp geo
    apply List.ext_getElem?
    intro k
    rw [(ringPoints_getElem? (fun i hi => List.mem_range.1 hi)).2]
    by_cases hk : k < (ringPoints cloud ring.2).length
    · simp [hk]
    · rw [List.getElem?_eq_none (not_lt.1 hk), List.getElem?_eq_none (by simpa using hk)]; rfl
  have hmap : ∀ {α : Type} (f : Clouds P K → List α),
      rs.flatMap (fun r => f (contribution plat hp geo cloud r.2)) =
      rs.flatMap (fun ri => f (contribution plat hp geo (ringPoints cloud ri.2)
        (List.range (ringPoints cloud ri.2).length))) := by
    intro α f
    rw [List.flatMap_def, List.flatMap_def]
    congr 1
    apply List.map_congr_left
    intro r hr
    rw [hsame r hr]
  refine ⟨rs, hkeys, ?_, hcov, ?_, ?_, ?_⟩
  · intro r idx hr
    have hd := hdense _ hr
    refine ⟨hd, ?_⟩
    have hle := nodup_length_le hd.nodup hd.bounds
    have hspec := ringLabels_spec (plat := plat) hgeo hv hplat.argsort
        (hplat.arith.mono hv.2.2.2.2.2.2.2.le (by omega)) hd.bounds
        (lt_of_le_of_lt hle hplat.size)
    have := hsame _ hr
    simp only at this ⊢ hspec
    rw [← this]
    simp only [contribution]
    cases hl : ringLabels plat hp ⟨⟨cloud, idx⟩, geo.isNb⟩ ⟨⟨cloud, idx⟩, geo.norm⟩ with
    | error e => exact Or.inl rfl
    | ok lc =>
      right
      rw [hl] at hspec
      have hlen : lc.1.length = (ringPoints cloud idx).length := by
        rw [hspec.1, (ringPoints_getElem? hd.bounds).1]
      simp only [colorPoints, hlen]
      have : ∀ n, n ≤ (ringPoints cloud idx).length →
          ((List.range n).filterMap fun k => ((ringPoints cloud idx)[k]?).bind fun p =>
            (lc.1[k]?).map fun l => (p, labelToColor l)).map Prod.fst =
          (ringPoints cloud idx).take n := by
        intro n
        induction n with
        | zero => intro _; simp
        | succ n ih =>
          intro hn
          rw [List.range_succ, List.filterMap_append, List.map_append, ih (by omega),
            List.take_succ]
          congr 1
          have e1 : (ringPoints cloud idx)[n]? = some ((ringPoints cloud idx)[n]'(by omega)) :=
            List.getElem?_eq_getElem _
          have e2 : lc.1[n]? = some (lc.1[n]'(by omega)) := List.getElem?_eq_getElem _
          simp [e1, e2]
      rw [this _ le_rfl, List.take_length]
  · rw [h3, ← hmap (fun c => c.edge.map Prod.fst)]
    simp only [List.map_flatMap]
  · rw [h4, ← hmap (fun c => c.surface.map Prod.fst)]
    simp only [List.map_flatMap]
  · rw [h5, ← hmap Clouds.colored]

/-- C19, independence: what is published is the concatenation, over the dense rings, of a function
of the points of that ring alone; a ring that cannot be processed adds nothing to any of the
clouds, otherwise it adds all its points to the coloured cloud. -/
theorem C19_rings_independent [IsStrictOrderedRing K] (plat : Platform K) (hp : HyperParameters K)
    (geo : Geometry P K) (hgeo : GeometryOK geo) (hv : hp.Valid) :
    ∃ F : List P → Clouds P K, ∀ (cloud : List P) (stamp : ℤ) (isDense ringAvailable : Bool)
      (eff : CallbackEffect P), PlatformOK plat hp.nBlocks cloud.length →
      callback plat hp geo stamp isDense ringAvailable cloud = .ok eff →
      ∃ rings : Rings, (rings.map Prod.fst).Nodup ∧
        (∀ r idx, (r, idx) ∈ rings → IsDenseRing hp geo cloud r idx ∧
          (F (ringPoints cloud idx) = ⟨[], [], []⟩ ∨
            (F (ringPoints cloud idx)).colored.map Prod.fst = ringPoints cloud idx)) ∧
        (∀ p ∈ cloud, hp.padding < (cloud.filter fun q => geo.ringOf q = geo.ringOf p).length →
          geo.ringOf p ∈ rings.map Prod.fst) ∧
        eff.edge.points =
          rings.flatMap (fun ri => (F (ringPoints cloud ri.2)).edge.map Prod.fst) ∧
        eff.surface.points =
          rings.flatMap (fun ri => (F (ringPoints cloud ri.2)).surface.map Prod.fst) ∧
        eff.colored.points = rings.flatMap (fun ri => (F (ringPoints cloud ri.2)).colored) := by
  exact ⟨ownContribution plat hp geo, fun cloud stamp isDense ringAvailable eff hplat h =>
    callback_contributions plat hp geo hgeo hv cloud stamp isDense ringAvailable eff hplat h⟩

/-! Non-vacuity: a concrete run over ℚ that publishes an edge and surfaces, and admissible platforms. -/

/-- Points on the upper half plane, ranges in the 1-norm, all consecutive points neighbours. -/
def exGeo19 : Geometry (PointXYZIR ℚ) ℚ where
  norm p := |p.x| + |p.y|
  isNb _ _ := .ok true
  less := lessAngle
  ringOf p := p.ring

/-- Exact arithmetic, insertion sorts, hash map in reverse order. -/
def exPlat19 : Platform ℚ := ⟨id, exArgsort, exSort, List.reverse⟩

def exHp19 : HyperParameters ℚ := ⟨1, 1, 1 / 2, 3, 1 / 10, 1, 100, 1⟩

/-- One ring of nine points (unsorted) with a dent, one of two points. -/
def exCloud19 : List (PointXYZIR ℚ) :=
  [⟨4, 6, 0, 1⟩, ⟨2, 8, 0, 1⟩, ⟨3, 7, 0, 1⟩, ⟨1, 9, 0, 1⟩, ⟨0, 9, 0, 1⟩, ⟨-1, 9, 0, 1⟩,
    ⟨-2, 8, 0, 1⟩, ⟨-3, 7, 0, 1⟩, ⟨-4, 6, 0, 1⟩, ⟨5, 5, 0, 2⟩, ⟨0, 0, 0, 2⟩]

theorem exGeo19_ok : GeometryOK exGeo19 where
  norm_nonneg p := add_nonneg (abs_nonneg _) (abs_nonneg _)
  nb_symm _ _ := rfl
  nb_err _ _ _ h := by cases h

theorem exPlat19_ok (nBlocks : ℤ) (n : ℕ) (h : n < 2 ^ 64) : PlatformOK exPlat19 nBlocks n where
  argsort := exArgsort_isArgsort
  sort := exSort_isSort
  order := fun _ => List.reverse_perm _
  arith := Or.inl rfl
  size := h

example : exHp19.Valid := by unfold HyperParameters.Valid; decide +kernel
example : (callback exPlat19 exHp19 exGeo19 42 true true exCloud19).map
    (fun e => (e.edge.points, e.surface.points)) =
    .ok ([⟨0, 9, 0, 1⟩], [⟨3, 7, 0, 1⟩, ⟨-2, 8, 0, 1⟩]) := by decide +kernel

/-- An admissible real-number platform exists for every cloud size: the theorems above are not
vacuous over ℝ either. -/
example : ∃ plat : Platform ℝ, PlatformOK plat 6 1000 := by
  classical
  have : ∀ l : List ℝ, ∃ idx : List ℕ, idx.Perm (List.range l.length) ∧
      idx.Pairwise fun i j => ∀ a b, l[i]? = some a → l[j]? = some b → a ≤ b := by
    intro l
    refine ⟨(List.range l.length).mergeSort (fun i j => decide (l.getD i 0 ≤ l.getD j 0)),
      List.mergeSort_perm _ _, ?_⟩
    refine (List.pairwise_mergeSort (le := fun i j => decide (l.getD i 0 ≤ l.getD j 0)) ?_ ?_ _).imp ?_
    · intro a b c h1 h2
      simp only [decide_eq_true_eq] at *
      exact le_trans h1 h2
    · intro a b
      simp only [Bool.or_eq_true, decide_eq_true_eq]
      exact le_total _ _
    · intro i j h a b ha hb
      simpa [List.getD, ha, hb] using h
  choose f hf using this
  exact ⟨⟨id, f, exSort, id⟩, hf, exSort_isSort, fun _ => List.Perm.refl _, Or.inl rfl, by norm_num⟩

example : ∀ a ∈ [(⟨1, 0, 0, 7⟩ : PointXYZIR ℝ), ⟨2, 1, 0, 7⟩, ⟨0, 0, 0, 7⟩, ⟨2, 0, 0, 8⟩],
    ∀ b ∈ [(⟨1, 0, 0, 7⟩ : PointXYZIR ℝ), ⟨2, 1, 0, 7⟩, ⟨0, 0, 0, 7⟩, ⟨2, 0, 0, 8⟩],
    a.ring = b.ring → ¬ SamePositiveAxis a b := by
  simp [SamePositiveAxis]

end Verif.Extraction
