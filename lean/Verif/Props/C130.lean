/-
C130: rounding does not change what is extracted, unless a comparison is close to a tie.
-/
import Verif.Lemmas.RoundedCurvature
import Verif.Lemmas.RoundedRing
import Verif.Props.C110

set_option autoImplicit false

namespace Verif.Extraction

/-- Specification: the distance of a point from the sensor, seen from above. -/
noncomputable def distanceXY (p : PointXYZIR ℝ) : ℝ := Real.sqrt (p.x ^ 2 + p.y ^ 2)

/-- Specification: in a ring, given in the order of the angles, no comparison is close to a tie.
The margins are relative: about `4·10⁻¹⁶` for ranges, `10⁻¹⁵` for jumps, `10⁻⁷` for the beam ratio,
which the code stores in a `float`, `2.4·10⁻⁷` radians for the angle between consecutive points, and
for the curvature the bound `smoothnessError`. -/
structure ClearRing (hp : HyperParameters ℝ) (degrees : ℝ) (pts : List (PointXYZIR ℝ)) : Prop where
  range : ∀ p ∈ pts, 1 / 2 ^ 51 * distanceXY p < |distanceXY p - hp.minRange| ∧
    1 / 2 ^ 51 * distanceXY p < |distanceXY p - hp.maxRange|
  angle : ∀ (k : ℕ) (p q : PointXYZIR ℝ), pts[k]? = some p → pts[k + 1]? = some q →
    1 / 2 ^ 22 < angleXY p q ∧ angleXY p q < Real.pi - 1 / 2 ^ 22 ∧
    1 / 2 ^ 22 < |angleXY p q - degrees * Real.pi / 180|
  jump : ∀ p q, Adjacent pts p q →
    1 / 2 ^ 50 * (distanceXY p + distanceXY q + hp.distanceDiffThreshold) <
      |distanceXY q - (distanceXY p + hp.distanceDiffThreshold)|
  ratio : ∀ p q, Adjacent pts p q → 1 / 2 ^ 23 * (distanceXY p + distanceXY q) <
    |(|distanceXY p - distanceXY q|) - hp.parallelBeamMinRangeRatio * distanceXY q|
  smooth : ∃ R, (∀ p ∈ pts, distanceXY p ≤ R) ∧
    let r := rangeAt distanceXY pts
    let n := hp.padding.toNat
    let error := fun i => smoothnessError n R (deviation r n i)
    ∀ i, n ≤ i → i + n < pts.length →
      error i < |smoothness r n i - hp.edgeThreshold| ∧
      error i < |smoothness r n i - hp.surfaceThreshold| ∧
      ∀ j, n ≤ j → j + n < pts.length → i ≠ j →
        error i + error j < |smoothness r n i - smoothness r n j|

/-- C130, ranges: the range computed in floating-point arithmetic differs from the distance of the
point by at most two units in the last place. -/
theorem C130_range {A : Arith} (hA : A.Correct) (p : PointXYZIR ℝ) :
    |Rounded.xyNorm A p.x p.y - distanceXY p| ≤ 1 / 2 ^ 51 * distanceXY p := by
  have := xyNorm_near hA p.x p.y
  rw [Near, xyNorm_eq] at this
  exact this

theorem map_eq_rangeAt {P : Type} (norm : P → ℝ) (pts : List P) :
    pts.map norm = (List.range pts.length).map (rangeAt norm pts) := by
  apply List.ext_getElem
  · simp
  · intro i h1 h2
    simp at h1
    simp [rangeAt, h1]

/-- C130, curvature: if all points of a ring are at most `R` away, the curvature computed in
floating-point arithmetic differs from the LOAM smoothness by at most `smoothnessError`. -/
theorem C130_curvature {A : Arith} (hA : A.Correct) {R : ℝ} (pts : List (PointXYZIR ℝ)) (n : ℕ)
    (hn : 0 < n) (hlen : 2 * n + 1 ≤ pts.length) (hR : ∀ p ∈ pts, distanceXY p ≤ R) :
    ∃ out, Rounded.calcCurvature A (pts.map fun p => Rounded.xyNorm A p.x p.y) n = .ok out ∧
      out.length = pts.length ∧
      ∀ i, n ≤ i → i + n < pts.length → ∃ c, out[i]? = some c ∧
        |c - smoothness (rangeAt distanceXY pts) n i| ≤
          smoothnessError n R (deviation (rangeAt distanceXY pts) n i) := by
  rw [map_eq_rangeAt]
  refine calcCurvature_near hA _ _ _ _ hn hlen ?_ ?_
  · intro i hi
    rw [rangeAt_eq _ hi]
    exact ⟨Real.sqrt_nonneg _, hR _ (List.getElem_mem hi)⟩
  · intro i hi
    rw [rangeAt_eq _ hi, rangeAt_eq _ hi]
    exact C130_range hA _

theorem lt_of_apart {a b a' b' ea eb : ℝ} (ha : |a' - a| ≤ ea) (hb : |b' - b| ≤ eb)
    (h : ea + eb < |a - b|) : a < b ↔ a' < b' := by
  have ha := abs_le.1 ha
  have hb := abs_le.1 hb
  rcases lt_abs.1 h with h | h
  · constructor <;> intro _ <;> linarith
  · constructor <;> intro _ <;> linarith

theorem ClearRing.same {A : Arith} (hA : A.Correct) {hp : HyperParameters ℝ} (hv : hp.Valid)
    {degrees : ℝ} (h0 : 0 ≤ degrees) (h1 : degrees ≤ 180) {pts : List (PointXYZIR ℝ)}
    (hpos : ∀ p ∈ pts, 0 < distanceXY p) (h : ClearRing hp degrees pts) :
    SameDecisions A hp (nodeGeometry degrees).norm (Rounded.nodeGeometry A degrees).norm
      (nodeGeometry degrees).isNb (Rounded.nodeGeometry A degrees).isNb pts := by
  have hmem : ∀ p q, Adjacent pts p q → p ∈ pts ∧ q ∈ pts := by
    rintro p q ⟨k, ⟨a, b⟩ | ⟨a, b⟩⟩
    · exact ⟨List.mem_of_getElem? a, List.mem_of_getElem? b⟩
    · exact ⟨List.mem_of_getElem? b, List.mem_of_getElem? a⟩
  have hnorm : ∀ p : PointXYZIR ℝ, xyNorm p.x p.y = distanceXY p := fun p => xyNorm_eq _ _
  have hnear : ∀ p : PointXYZIR ℝ, Near (distanceXY p) (Rounded.xyNorm A p.x p.y) :=
    fun p => C130_range hA p
  have hnn : ∀ p : PointXYZIR ℝ, 0 ≤ distanceXY p := fun p => Real.sqrt_nonneg _
  have hfun : (nodeGeometry degrees).norm = distanceXY := funext hnorm
  rw [hfun]
  refine ⟨?_, ?_, ?_, ?_, ?_⟩
  · intro p q hpq
    obtain ⟨m1, m2⟩ := hmem p q hpq
    have hang : 1 / 2 ^ 22 < angleXY p q ∧ angleXY p q < Real.pi - 1 / 2 ^ 22 ∧
        1 / 2 ^ 22 < |angleXY p q - degrees * Real.pi / 180| := by
      obtain ⟨k, ⟨a, b⟩ | ⟨a, b⟩⟩ := hpq
      · exact h.angle k p q a b
      · have := h.angle k q p a b
        have e : angleXY q p = angleXY p q := by
          simp only [angleXY]
          congr 1
          rw [mul_comm q.x, mul_comm q.y, mul_comm (Real.sqrt (q.x ^ 2 + q.y ^ 2))]
        rwa [e] at this
    exact (decide_neighbor hA (by rw [hnorm]; exact hpos p m1) (by rw [hnorm]; exact hpos q m2) h0 h1
      hang.1 hang.2.1 hang.2.2).symm
  · intro p q hpq
    exact decide_jump hA (hnn p) (hnn q) hv.2.1.le (hnear p) (hnear q) (h.jump p q hpq)
  · intro p hp'
    have d1 := decide_range (hnear p) (h.range p hp').1
    have d2 := decide_range (hnear p) (h.range p hp').2
    have e : (Rounded.nodeGeometry A degrees).norm p = Rounded.xyNorm A p.x p.y := rfl
    simp only [isInInclusiveRange, e, d1.1, d2.2]
  · intro p q hpq
    exact decide_ratio hA (hnn p) (hpos q (hmem p q hpq).2) (hnear p) (hnear q) (h.ratio p q hpq)
  · obtain ⟨n, hn⟩ := Int.eq_ofNat_of_zero_le hv.1.le
    have hn0 : 0 < n := by have := hv.1; omega
    have hnt : hp.padding.toNat = n := by omega
    obtain ⟨R, hR, hs⟩ := h.smooth
    simp only [hnt] at hs
    have e : (Rounded.nodeGeometry A degrees).norm = fun p => Rounded.xyNorm A p.x p.y := rfl
    rw [hn, e]
    by_cases hlen : pts.length < 2 * n + 1
    · exact Or.inl ⟨.invalidArgument, C02_curvature_rejects _ n hn0 (by simpa using hlen),
        calcCurvature_short A _ n hn0 (by simpa using hlen)⟩
    · right
      obtain ⟨c, hc, hcl, hcv⟩ := C02_curvature_values (rangeAt distanceXY pts) pts.length n hn0
        (by omega)
      obtain ⟨c', hc', hcl', hcv'⟩ := C130_curvature hA pts n hn0 (by omega) hR
      rw [← map_eq_rangeAt] at hc
      refine ⟨c, c', hc, hc', by omega, ?_⟩
      intro b e hb he
      have hval : ∀ (i : ℕ) (a a' : ℝ), ((c.drop b).take (e - b))[i]? = some a →
          ((c'.drop b).take (e - b))[i]? = some a' → n ≤ b + i ∧ b + i + n < pts.length ∧
          a = smoothness (rangeAt distanceXY pts) n (b + i) ∧
          |a' - smoothness (rangeAt distanceXY pts) n (b + i)| ≤
            smoothnessError n R (deviation (rangeAt distanceXY pts) n (b + i)) := by
        intro i a a' g g'
        rw [List.getElem?_take] at g g'
        split_ifs at g g' with hi
        rw [List.getElem?_drop] at g g'
        have k1 : n ≤ b + i := by omega
        have k2 : b + i + n < pts.length := by omega
        rw [hcv _ (by omega), if_pos ⟨k1, k2⟩] at g
        obtain ⟨x, hx, hxe⟩ := hcv' (b + i) k1 k2
        obtain rfl : x = a' := Option.some.inj (hx.symm.trans g')
        exact ⟨k1, k2, (Option.some.inj g).symm, hxe⟩
      refine ⟨by simp [hcl, hcl'], ?_, ?_, ?_⟩
      · intro i j a b1 a' b1' g1 g2 g3 g4
        obtain ⟨k1, k2, k3, k4⟩ := hval i a a' g1 g3
        obtain ⟨l1, l2, l3, l4⟩ := hval j b1 b1' g2 g4
        rcases eq_or_ne i j with rfl | hij
        · obtain rfl : a = b1 := Option.some.inj (g1.symm.trans g2)
          obtain rfl : a' = b1' := Option.some.inj (g3.symm.trans g4)
          simp
        · rw [← k3] at k4
          rw [← l3] at l4
          refine lt_of_apart k4 l4 ?_
          rw [k3, l3]
          exact (hs _ k1 k2).2.2 _ l1 l2 (by omega)
      · intro i a a' g1 g3
        obtain ⟨k1, k2, k3, k4⟩ := hval i a a' g1 g3
        have := (hs _ k1 k2).1
        rw [← k3] at k4 this
        rw [← not_lt, ← not_lt]
        refine not_congr (lt_of_apart (eb := 0) k4 (by simp) ?_)
        simpa using this
      · intro i a a' g1 g3
        obtain ⟨k1, k2, k3, k4⟩ := hval i a a' g1 g3
        have := (hs _ k1 k2).2.1
        rw [← k3] at k4 this
        rw [← not_lt, ← not_lt]
        refine not_congr (lt_of_apart (ea := 0) (by simp) k4 ?_)
        rw [abs_sub_comm]
        simpa using this

/-- C130: the callback in floating-point arithmetic publishes exactly the same points, in the same
order and the same colours, or fails in the same way, as in exact arithmetic, if no comparison is
close to a tie: no point lies at the origin, two points of one ring on the same side of the x axis lie
at the same place or in directions further apart than the rounding of a `float`, and the rings, in the
order of the angles, are clear. -/
theorem C130_extraction_partial {A : Arith} (hA : A.Correct) {plat : Platform ℝ}
    {hp : HyperParameters ℝ} (hv : hp.Valid) {degrees : ℝ} (h0 : 0 ≤ degrees) (h1 : degrees ≤ 180)
    {cloud : List (PointXYZIR ℝ)} (hplat : PlatformOK plat hp.nBlocks cloud.length)
    (hargsort : ComparesOnly plat.argsort) (hsort : SortLocal plat.sort)
    (hpos : ∀ p ∈ cloud, 0 < distanceXY p)
    (hdir : ∀ a ∈ cloud, ∀ b ∈ cloud, a.ring = b.ring → 0 < a.y * b.y → a.x = b.x ∧ a.y = b.y ∨
      1 / 2 ^ 24 * (|a.x * b.y| + |a.y * b.x|) < |a.x * b.y - a.y * b.x|)
    (hclear : ∀ (r : ℤ) (pts : List (PointXYZIR ℝ)), pts.Perm (cloud.filter fun q => q.ring = r) →
      pts.Pairwise (fun a b => atan2 a ≤ atan2 b) → ClearRing hp degrees pts)
    (stamp : ℤ) (isDense ringAvailable : Bool) :
    Rounded.callback A plat hp degrees stamp isDense ringAvailable cloud =
      callback plat hp (nodeGeometry degrees) stamp isDense ringAvailable cloud := by
  have hmain : RelRes Clouds.Alike (extractClouds plat hp (nodeGeometry degrees) cloud)
      (Rounded.extractClouds A plat hp (Rounded.nodeGeometry A degrees) cloud) := by
    refine extractClouds_same hplat hargsort hsort hv rfl ?_ ?_
    · intro a ha b hb hab
      have e : ∀ p : PointXYZIR ℝ, xyNorm p.x p.y = distanceXY p := fun p => xyNorm_eq _ _
      exact (decide_less hA (by rw [e]; exact hpos a ha) (by rw [e]; exact hpos b hb)
        (hdir a ha b hb hab)).symm
    · intro rings hr ring hring
      obtain ⟨hpart, hang⟩ := C20_angles_nondecreasing_partial hplat.sort cloud rings hr
      refine ClearRing.same hA hv h0 h1 ?_ (hclear ring.1 _ ?_ ?_)
      · intro p hp'
        obtain ⟨i, -, hi⟩ := List.mem_filterMap.1 hp'
        exact hpos p (List.mem_of_getElem? hi)
      · rw [← ringPoints_ringIndices PointXYZIR.ring cloud ring.1]
        refine List.Perm.filterMap _ ?_
        exact (List.perm_ext_iff_of_nodup (hpart.nodup _ _ hring) (List.nodup_range.filter _)).2
          fun j => (hpart.mem _ _ hring j).trans mem_ringIndices.symm
      · rw [ringPoints, List.pairwise_filterMap]
        refine (hang _ _ hring).imp ?_
        intro i j hij a ha b hb
        exact hij a b ha hb
  simp only [Rounded.callback, callback, bind, Except.bind]
  rcases hmain with ⟨e, g1, g2⟩ | ⟨o, o', g1, g2, g3, g4, g5⟩
  · rw [g1, g2]
  · rw [g1, g2]
    simp only [pure, Except.pure, g3, g4, g5]

/-- C130, violation: two points at the same place need not be neighbours. In exact arithmetic the angle
between `(2, 3)` and itself is `0`, so it is a neighbour of itself for every positive threshold; in
floating-point arithmetic the cosine comes out greater than `1`, the angle is NaN, and the test
fails for every threshold. -/
theorem C130_same_direction_violated {A : Arith} (hA : A.Correct) (t : ℝ) (z w : ℝ) (r : ℤ) :
    (0 < t → isNeighborXY t ⟨2, 3, z, r⟩ ⟨2, 3, w, r⟩ = .ok true) ∧
    Rounded.isNeighborXY A t ⟨2, 3, z, r⟩ ⟨2, 3, w, r⟩ = .ok false := by
  have h13 : (0 : ℝ) ≤ 13 := by norm_num
  have hsq := Real.sq_sqrt h13
  have hs0 := Real.sqrt_nonneg (13 : ℝ)
  constructor
  · intro ht
    have e : xyNorm 2 3 = Real.sqrt 13 := by rw [xyNorm]; norm_num
    have hne : Real.sqrt 13 ≠ 0 := by
      intro h; rw [h] at hsq; norm_num at hsq
    have e2 : (2 * 2 + 3 * 3 : ℝ) / (Real.sqrt 13 * Real.sqrt 13) = 1 := by
      rw [← sq (Real.sqrt 13), hsq]; norm_num
    simp only [isNeighborXY, calcRadian, e, hne, and_self, mul_self_eq_zero, if_false, bind,
      Except.bind, e2, Real.arccos_one, ht, decide_true, pure, Except.pure]
  · have d4 : A.dbl (2 * 2) = 4 := by
      rw [show (2 * 2 : ℝ) = 4 by norm_num]
      exact hA.dbl.exact ⟨4, 0, by norm_num, by norm_num⟩
    have d9 : A.dbl (3 * 3) = 9 := by
      rw [show (3 * 3 : ℝ) = 9 by norm_num]
      exact hA.dbl.exact ⟨9, 0, by norm_num, by norm_num⟩
    have d13 : A.dbl (4 + 9) = 13 := by
      rw [show (4 + 9 : ℝ) = 13 by norm_num]
      exact hA.dbl.exact ⟨13, 0, by norm_num, by norm_num⟩
    have dn : A.dbl (Real.sqrt 13) = ((8118979690322419 : ℤ) : ℝ) * 2 ^ (-51 : ℤ) := by
      refine hA.dbl.eq_of (by norm_num) _ _ (by norm_num) (by norm_num) ?_
      rw [abs_lt]
      constructor
      · have : (8118979690322419 - 1 / 2 : ℝ) * 2 ^ (-51 : ℤ) < Real.sqrt 13 := by
          apply Real.lt_sqrt_of_sq_lt
          norm_num
        norm_num at this ⊢
        linarith
      · have : Real.sqrt 13 < (8118979690322419 + 1 / 2 : ℝ) * 2 ^ (-51 : ℤ) := by
          rw [Real.sqrt_lt' (by norm_num)]
          norm_num
        norm_num at this ⊢
        linarith
    have dp : A.dbl (((8118979690322419 : ℤ) : ℝ) * 2 ^ (-51 : ℤ) *
        (((8118979690322419 : ℤ) : ℝ) * 2 ^ (-51 : ℤ))) =
        ((7318349394477055 : ℤ) : ℝ) * 2 ^ (-49 : ℤ) := by
      refine hA.dbl.eq_of (by norm_num) _ _ (by norm_num) (by norm_num) ?_
      rw [abs_lt]
      constructor <;> norm_num
    have dq : A.dbl (13 / (((7318349394477055 : ℤ) : ℝ) * 2 ^ (-49 : ℤ))) =
        ((4503599627370497 : ℤ) : ℝ) * 2 ^ (-52 : ℤ) := by
      refine hA.dbl.eq_of (by norm_num) _ _ (by norm_num) (by norm_num) ?_
      rw [abs_lt]
      constructor <;> norm_num
    have hnorm : Rounded.xyNorm A 2 3 = ((8118979690322419 : ℤ) : ℝ) * 2 ^ (-51 : ℤ) := by
      simp only [Rounded.xyNorm, d4, d9, d13, dn]
    have n1 : ((8118979690322419 : ℤ) : ℝ) * 2 ^ (-51 : ℤ) ≠ 0 := by norm_num
    have n2 : ((7318349394477055 : ℤ) : ℝ) * 2 ^ (-49 : ℤ) ≠ 0 := by norm_num
    have n3 : (1 : ℝ) < ((4503599627370497 : ℤ) : ℝ) * 2 ^ (-52 : ℤ) := by norm_num
    simp only [Rounded.isNeighborXY, Rounded.calcRadian, hnorm, d4, d9, d13, dp, dq, n1, n2, n3,
      and_self, if_false, or_true, if_true, bind, Except.bind, pure, Except.pure]

/-- Three points of one ring, less than 60 cm apart, in nearly the same direction. -/
noncomputable def exCloud130 : List (PointXYZIR ℝ) :=
  [⟨9631 / 1024, 15296 / 1024, 0, 0⟩, ⟨9614 / 1024, 15269 / 1024, 0, 0⟩,
    ⟨9597 / 1024, 15242 / 1024, 0, 0⟩]

theorem flt_pos {A : Arith} (hA : A.Correct) {x : ℝ} (hx : 0 < x) : 0 < A.flt x := by
  have h := (rel_bounds hA.flt.error hx.le).1
  have : (0 : ℝ) < (1 - 1 / 2 ^ 24) * x := mul_pos (by norm_num) hx
  linarith

theorem lessAngle_upper {A : Arith} (hA : A.Correct) {a b : PointXYZIR ℝ} (hne : a.y ≠ b.y)
    (ha : 0 < a.y) (hb : 0 < b.y) : Rounded.lessAngle A a b =
      decide (A.flt (A.flt (a.x * b.y) - A.flt (a.y * b.x)) > 0) := by
  have hlen : ∀ p : PointXYZIR ℝ, 0 < p.y → A.flt (A.flt (p.x * p.x) + A.flt (p.y * p.y)) ≠ 0 := by
    intro p hp
    have h1 := flt_pos hA (mul_pos hp hp)
    have h2 : 0 ≤ A.flt (p.x * p.x) := by
      have h := (rel_bounds hA.flt.error (mul_self_nonneg p.x)).1
      have : (0 : ℝ) ≤ (1 - 1 / 2 ^ 24) * (p.x * p.x) :=
        mul_nonneg (by norm_num) (mul_self_nonneg _)
      linarith
    exact (flt_pos hA (by linarith)).ne'
  have h3 := flt_pos hA (mul_pos ha hb)
  simp only [Rounded.lessAngle, hne, and_false, if_false, hlen a ha, hlen b hb, ha.ne', hb.ne',
    gt_iff_lt, h3, if_true]

/-- C130, violation: with the comparator in `float`, `std::sort` is called without a strict weak order
also for points off the x axis: each of the three points is equivalent to the next, the first and
the last are not equivalent. The behaviour of the callback is undefined, whatever the parameters;
in exact arithmetic the points are sorted. -/
theorem C130_sort_violated {A : Arith} (hA : A.Correct) (plat : Platform ℝ)
    (hp : HyperParameters ℝ) (degrees : ℝ) (stamp : ℤ) (isDense ringAvailable : Bool) :
    Rounded.callback A plat hp degrees stamp isDense ringAvailable exCloud130 =
      .error .undefinedBehaviour ∧
    ∃ rings, extractAngleSortedRings plat.sort lessAngle PointXYZIR.ring exCloud130 = .ok rings := by
  have f01 : A.flt ((9631 / 1024 : ℝ) * (15269 / 1024)) = ((9190984 : ℤ) : ℝ) * 2 ^ (-16 : ℤ) := by
    refine hA.flt.eq_of (by norm_num) _ _ (by norm_num) (by norm_num) ?_
    rw [abs_lt]; constructor <;> norm_num
  have f01' : A.flt ((15296 / 1024 : ℝ) * (9614 / 1024)) = ((9190984 : ℤ) : ℝ) * 2 ^ (-16 : ℤ) := by
    refine hA.flt.eq_of (by norm_num) _ _ (by norm_num) (by norm_num) ?_
    rw [abs_lt]; constructor <;> norm_num
  have f12 : A.flt ((9614 / 1024 : ℝ) * (15242 / 1024)) = ((9158537 : ℤ) : ℝ) * 2 ^ (-16 : ℤ) := by
    refine hA.flt.eq_of (by norm_num) _ _ (by norm_num) (by norm_num) ?_
    rw [abs_lt]; constructor <;> norm_num
  have f12' : A.flt ((15269 / 1024 : ℝ) * (9597 / 1024)) = ((9158537 : ℤ) : ℝ) * 2 ^ (-16 : ℤ) := by
    refine hA.flt.eq_of (by norm_num) _ _ (by norm_num) (by norm_num) ?_
    rw [abs_lt]; constructor <;> norm_num
  have f20 : A.flt ((9597 / 1024 : ℝ) * (15296 / 1024)) = ((9174732 : ℤ) : ℝ) * 2 ^ (-16 : ℤ) := by
    refine hA.flt.eq_of (by norm_num) _ _ (by norm_num) (by norm_num) ?_
    rw [abs_lt]; constructor <;> norm_num
  have f20' : A.flt ((15242 / 1024 : ℝ) * (9631 / 1024)) = ((9174731 : ℤ) : ℝ) * 2 ^ (-16 : ℤ) := by
    refine hA.flt.eq_of (by norm_num) _ _ (by norm_num) (by norm_num) ?_
    rw [abs_lt]; constructor <;> norm_num
  have fz : A.flt 0 = 0 := hA.flt.exact ⟨0, 0, by simp, by simp⟩
  have f10 : A.flt ((9614 / 1024 : ℝ) * (15296 / 1024)) = ((9190984 : ℤ) : ℝ) * 2 ^ (-16 : ℤ) := by
    rw [mul_comm]; exact f01'
  have f10' : A.flt ((15269 / 1024 : ℝ) * (9631 / 1024)) = ((9190984 : ℤ) : ℝ) * 2 ^ (-16 : ℤ) := by
    rw [mul_comm]; exact f01
  have f21 : A.flt ((9597 / 1024 : ℝ) * (15269 / 1024)) = ((9158537 : ℤ) : ℝ) * 2 ^ (-16 : ℤ) := by
    rw [mul_comm]; exact f12'
  have f21' : A.flt ((15242 / 1024 : ℝ) * (9614 / 1024)) = ((9158537 : ℤ) : ℝ) * 2 ^ (-16 : ℤ) := by
    rw [mul_comm]; exact f12
  constructor
  · have l01 : lessIndex (Rounded.lessAngle A) exCloud130 0 1 = false := by
      show Rounded.lessAngle A _ _ = false
      rw [lessAngle_upper hA (by norm_num) (by norm_num) (by norm_num)]
      simp only [f01, f01', sub_self, fz, gt_iff_lt, lt_irrefl, decide_false]
    have l10 : lessIndex (Rounded.lessAngle A) exCloud130 1 0 = false := by
      show Rounded.lessAngle A _ _ = false
      rw [lessAngle_upper hA (by norm_num) (by norm_num) (by norm_num)]
      simp only [f10, f10', sub_self, fz, gt_iff_lt, lt_irrefl, decide_false]
    have l12 : lessIndex (Rounded.lessAngle A) exCloud130 1 2 = false := by
      show Rounded.lessAngle A _ _ = false
      rw [lessAngle_upper hA (by norm_num) (by norm_num) (by norm_num)]
      simp only [f12, f12', sub_self, fz, gt_iff_lt, lt_irrefl, decide_false]
    have l21 : lessIndex (Rounded.lessAngle A) exCloud130 2 1 = false := by
      show Rounded.lessAngle A _ _ = false
      rw [lessAngle_upper hA (by norm_num) (by norm_num) (by norm_num)]
      simp only [f21, f21', sub_self, fz, gt_iff_lt, lt_irrefl, decide_false]
    have l20 : lessIndex (Rounded.lessAngle A) exCloud130 2 0 = true := by
      show Rounded.lessAngle A _ _ = true
      rw [lessAngle_upper hA (by norm_num) (by norm_num) (by norm_num)]
      simp only [f20, f20', gt_iff_lt, decide_eq_true_eq]
      exact flt_pos hA (by norm_num)
    have hidx : makePointIndices (Rounded.nodeGeometry A degrees).ringOf exCloud130 =
        [(0, [0, 1, 2])] := rfl
    have hnot : ¬ StrictWeakOn (lessIndex (Rounded.lessAngle A) exCloud130) [0, 1, 2] := by
      rintro ⟨-, -, h⟩
      have := (h 0 (by simp) 1 (by simp) 2 (by simp) l01 l10 l12 l21).2
      rw [l20] at this
      simp at this
    have hin : ∀ i ∈ [0, 1, 2], i < exCloud130.length := by
      intro i hi
      have : exCloud130.length = 3 := rfl
      fin_cases hi <;> omega
    have hless : (Rounded.nodeGeometry A degrees).less = Rounded.lessAngle A := rfl
    simp only [Rounded.callback, Rounded.extractClouds, extractAngleSortedRings,
      sortEachRingByAngle, hidx, List.mapM_cons, sortByAtan2, hless, if_neg (not_not.2 hin),
      if_neg hnot, bind, Except.bind]
  · refine (C20_rings_defined_partial exCloud130).1.2 ?_
    intro a ha b hb _ h
    have hy : ∀ p ∈ exCloud130, p.y ≠ 0 := by
      intro p hp
      simp only [exCloud130, List.mem_cons, List.not_mem_nil, or_false] at hp
      rcases hp with rfl | rfl | rfl <;> norm_num
    exact hy a ha h.1

/-- The size of the error of the curvature for the shipped `padding` of 5 and ranges up to 100 m: below
`10⁻¹⁰` for a point with deviation 1 m. -/
example : smoothnessError 5 100 1 < 1 / 10 ^ 10 := by
  norm_num [smoothnessError, deviationError]

theorem cmpSort_isArgsort : IsArgsort (cmpSort (K := ℝ)) := by
  intro l
  have hv : ∀ i, i < l.length → l[i]? = some (l.getD i 0) := by
    intro i hi; simp [hi]
  have hle : ∀ i j, i < l.length → j < l.length → (valueLE l i j = true ↔ l.getD i 0 ≤ l.getD j 0) := by
    intro i j hi hj
    simp only [valueLE, hv i hi, hv j hj]
    simp
  have hperm := List.perm_insertionSort (fun i j => valueLE l i j = true) (List.range l.length)
  refine ⟨hperm, ?_⟩
  have htot : Std.Total fun i j => valueLE l i j = true := ⟨by
    intro i j
    by_cases hi : i < l.length <;> by_cases hj : j < l.length
    · rw [hle i j hi hj, hle j i hj hi]; exact le_total _ _
    all_goals
      simp only [valueLE, hv, hi, hj, List.getElem?_eq_none, not_lt.1, not_false_eq_true,
        decide_eq_true_eq]
      omega⟩
  have htrans : IsTrans ℕ fun i j => valueLE l i j = true := ⟨by
    intro i j k h1 h2
    by_cases hi : i < l.length <;> by_cases hj : j < l.length <;> by_cases hk : k < l.length
    · rw [hle i j hi hj] at h1
      rw [hle j k hj hk] at h2
      rw [hle i k hi hk]
      exact h1.trans h2
    all_goals
      simp only [valueLE, hv, hi, hj, hk, List.getElem?_eq_none, not_lt.1, not_false_eq_true,
        decide_eq_true_eq] at h1 h2 ⊢
      omega⟩
  refine List.Pairwise.imp_of_mem ?_
    (List.pairwise_insertionSort (fun i j => valueLE l i j = true) (List.range l.length))
  intro i j hi hj h a b ha hb
  have hi' := List.mem_range.1 (hperm.subset hi)
  have hj' := List.mem_range.1 (hperm.subset hj)
  rw [hle i j hi' hj'] at h
  rw [hv i hi', Option.some.injEq] at ha
  rw [hv j hj', Option.some.injEq] at hb
  rwa [← ha, ← hb]

/-- `exSort` looks at comparisons of elements only. -/
theorem exSort_local : SortLocal exSort := by
  intro lt lt' l h
  have : (fun a b : {x // x ∈ l} => lt b.1 a.1 = false) = fun a b => lt' b.1 a.1 = false := by
    funext a b
    rw [h b.1 b.2 a.1 a.2]
  simp only [exSort]
  congr 2

theorem arccos_clear {c : ℝ} (h1 : 1 / 100 ≤ c) (h2 : c ≤ 99 / 100) :
    1 / 2 ^ 22 < Real.arccos c ∧ Real.arccos c < Real.pi - 1 / 2 ^ 22 ∧
      1 / 2 ^ 22 < |Real.arccos c - 90 * Real.pi / 180| := by
  have hc := Real.cos_arccos (by linarith : -1 ≤ c) (by linarith : c ≤ 1)
  have hn := Real.arccos_nonneg c
  have hs : c ≤ Real.pi / 2 - Real.arccos c := by
    have e : Real.sin (Real.pi / 2 - Real.arccos c) = c := by rw [Real.sin_pi_div_two_sub, hc]
    have hle : 0 ≤ Real.pi / 2 - Real.arccos c := by
      have := Real.arccos_le_pi_div_two.2 (by linarith : 0 ≤ c)
      linarith
    have := Real.sin_le hle
    rwa [e] at this
  have hl : 1 / 2 ^ 22 < Real.arccos c := by
    have := Real.one_sub_sq_div_two_le_cos (x := Real.arccos c)
    rw [hc] at this
    by_contra hcon
    have h3 : Real.arccos c ≤ 1 / 2 ^ 22 := not_lt.1 hcon
    have h4 : Real.arccos c ^ 2 ≤ (1 / 2 ^ 22) ^ 2 := pow_le_pow_left₀ hn h3 2
    norm_num at h4
    linarith
  refine ⟨hl, ?_, ?_⟩
  · have := Real.pi_pos
    have h5 : (1 : ℝ) / 2 ^ 22 < 1 / 100 := by norm_num
    linarith
  · rw [abs_of_nonpos (by linarith)]
    have h5 : (1 : ℝ) / 2 ^ 22 < 1 / 100 := by norm_num
    linarith

/-- A ring of four points at 15 m, 10 m, 13 m and 5 m, in the order of the angles. -/
def exRing130 : List (PointXYZIR ℝ) := [⟨12, 9, 0, 0⟩, ⟨6, 8, 0, 0⟩, ⟨5, 12, 0, 0⟩, ⟨-3, 4, 0, 0⟩]

/-- The same points as a cloud in another order. -/
def exCloudClear : List (PointXYZIR ℝ) := [⟨5, 12, 0, 0⟩, ⟨12, 9, 0, 0⟩, ⟨-3, 4, 0, 0⟩, ⟨6, 8, 0, 0⟩]

noncomputable def exHp130 : HyperParameters ℝ := ⟨1, 1 / 2, 1 / 10, 100, 80, 1, 100, 1⟩

theorem distanceXY_of {p : PointXYZIR ℝ} {d : ℝ} (hd : 0 ≤ d) (h : p.x ^ 2 + p.y ^ 2 = d ^ 2) :
    distanceXY p = d := by rw [distanceXY, h, Real.sqrt_sq hd]

theorem exRing130_clear : ClearRing exHp130 90 exRing130 := by
  have d0 : distanceXY ⟨12, 9, 0, 0⟩ = 15 := distanceXY_of (by norm_num) (by norm_num)
  have d1 : distanceXY ⟨6, 8, 0, 0⟩ = 10 := distanceXY_of (by norm_num) (by norm_num)
  have d2 : distanceXY ⟨5, 12, 0, 0⟩ = 13 := distanceXY_of (by norm_num) (by norm_num)
  have d3 : distanceXY ⟨-3, 4, 0, 0⟩ = 5 := distanceXY_of (by norm_num) (by norm_num)
  have hmem : ∀ p ∈ exRing130, p = ⟨12, 9, 0, 0⟩ ∨ p = ⟨6, 8, 0, 0⟩ ∨ p = ⟨5, 12, 0, 0⟩ ∨
      p = ⟨-3, 4, 0, 0⟩ := by
    intro p hp
    simpa only [exRing130, List.mem_cons, List.not_mem_nil, or_false] using hp
  have hnext : ∀ (k : ℕ) (p q : PointXYZIR ℝ), exRing130[k]? = some p → exRing130[k + 1]? = some q →
      (p = ⟨12, 9, 0, 0⟩ ∧ q = ⟨6, 8, 0, 0⟩) ∨ (p = ⟨6, 8, 0, 0⟩ ∧ q = ⟨5, 12, 0, 0⟩) ∨
      (p = ⟨5, 12, 0, 0⟩ ∧ q = ⟨-3, 4, 0, 0⟩) := by
    intro k p q h1 h2
    match k with
    | 0 => exact Or.inl ⟨(Option.some.inj h1).symm, (Option.some.inj h2).symm⟩
    | 1 => exact Or.inr (Or.inl ⟨(Option.some.inj h1).symm, (Option.some.inj h2).symm⟩)
    | 2 => exact Or.inr (Or.inr ⟨(Option.some.inj h1).symm, (Option.some.inj h2).symm⟩)
    | k + 3 =>
      have : exRing130.length = 4 := rfl
      rw [List.getElem?_eq_none (by omega)] at h2
      simp at h2
  have hadj : ∀ (R : PointXYZIR ℝ → PointXYZIR ℝ → Prop), R ⟨12, 9, 0, 0⟩ ⟨6, 8, 0, 0⟩ →
      R ⟨6, 8, 0, 0⟩ ⟨12, 9, 0, 0⟩ → R ⟨6, 8, 0, 0⟩ ⟨5, 12, 0, 0⟩ → R ⟨5, 12, 0, 0⟩ ⟨6, 8, 0, 0⟩ →
      R ⟨5, 12, 0, 0⟩ ⟨-3, 4, 0, 0⟩ → R ⟨-3, 4, 0, 0⟩ ⟨5, 12, 0, 0⟩ →
      ∀ p q, Adjacent exRing130 p q → R p q := by
    rintro R a b c d e f p q ⟨k, ⟨h1, h2⟩ | ⟨h1, h2⟩⟩
    · rcases hnext k p q h1 h2 with ⟨rfl, rfl⟩ | ⟨rfl, rfl⟩ | ⟨rfl, rfl⟩ <;> assumption
    · rcases hnext k q p h1 h2 with ⟨rfl, rfl⟩ | ⟨rfl, rfl⟩ | ⟨rfl, rfl⟩ <;> assumption
  refine ⟨?_, ?_, ?_, ?_, 15, ?_, ?_⟩
  · intro p hp
    rcases hmem p hp with rfl | rfl | rfl | rfl <;> simp only [d0, d1, d2, d3, exHp130] <;>
      norm_num [abs_of_pos, abs_of_neg]
  · intro k p q h1 h2
    have hang : ∀ {a b : PointXYZIR ℝ} {x y c : ℝ}, distanceXY a = x → distanceXY b = y →
        (a.x * b.x + a.y * b.y) / (x * y) = c → angleXY a b = Real.arccos c := by
      rintro a b x y c rfl rfl rfl
      rfl
    rcases hnext k p q h1 h2 with ⟨rfl, rfl⟩ | ⟨rfl, rfl⟩ | ⟨rfl, rfl⟩
    · rw [hang d0 d1 rfl]
      exact arccos_clear (by norm_num) (by norm_num)
    · rw [hang d1 d2 rfl]
      exact arccos_clear (by norm_num) (by norm_num)
    · rw [hang d2 d3 rfl]
      exact arccos_clear (by norm_num) (by norm_num)
  · apply hadj <;> simp only [d0, d1, d2, d3, exHp130] <;> norm_num [abs_of_pos, abs_of_neg]
  · apply hadj <;> simp only [d0, d1, d2, d3, exHp130] <;> norm_num [abs_of_pos, abs_of_neg]
  · intro p hp
    rcases hmem p hp with rfl | rfl | rfl | rfl <;> simp only [d0, d1, d2, d3] <;> norm_num
  · have r0 : rangeAt distanceXY exRing130 0 = 15 := d0
    have r1 : rangeAt distanceXY exRing130 1 = 10 := d1
    have r2 : rangeAt distanceXY exRing130 2 = 13 := d2
    have r3 : rangeAt distanceXY exRing130 3 = 5 := d3
    have hp1 : exHp130.padding.toNat = 1 := rfl
    have v1 : deviation (rangeAt distanceXY exRing130) 1 1 = 8 := by
      rw [deviation, show Finset.Icc (1 - 1) (1 + 1) = ({0, 1, 2} : Finset ℕ) from rfl]
      simp [r0, r1, r2]; norm_num
    have v2 : deviation (rangeAt distanceXY exRing130) 1 2 = -11 := by
      rw [deviation, show Finset.Icc (2 - 1) (2 + 1) = ({1, 2, 3} : Finset ℕ) from rfl]
      simp [r1, r2, r3]; norm_num
    have e1 : smoothnessError 1 15 8 < 1 / 100 := by norm_num [smoothnessError, deviationError]
    have e2 : smoothnessError 1 15 (-11) < 1 / 100 := by norm_num [smoothnessError, deviationError]
    have s1 : smoothness (rangeAt distanceXY exRing130) 1 1 = 64 := by
      rw [smoothness_eq, v1]; norm_num
    have s2 : smoothness (rangeAt distanceXY exRing130) 1 2 = 121 := by
      rw [smoothness_eq, v2]; norm_num
    have hl : exRing130.length = 4 := rfl
    have ht : exHp130.edgeThreshold = 100 ∧ exHp130.surfaceThreshold = 80 := ⟨rfl, rfl⟩
    have a1 : (1 : ℝ) < |64 - 100| ∧ (1 : ℝ) < |64 - 80| ∧ (1 : ℝ) < |64 - 121| ∧
        (1 : ℝ) < |121 - 100| ∧ (1 : ℝ) < |121 - 80| ∧ (1 : ℝ) < |121 - 64| := by
      norm_num [abs_of_pos, abs_of_neg]
    obtain ⟨b1, b2, b3, b4, b5, b6⟩ := a1
    intro r n error i hi1 hi2
    simp only [r, n, error, hp1, hl] at hi1 hi2 ⊢
    have hi : i = 1 ∨ i = 2 := by omega
    rw [ht.1, ht.2]
    rcases hi with rfl | rfl
    · rw [v1, s1]
      refine ⟨by linarith, by linarith, ?_⟩
      intro j hj1 hj2 hne
      obtain rfl : j = 2 := by omega
      rw [v2, s2]
      linarith
    · rw [v2, s2]
      refine ⟨by linarith, by linarith, ?_⟩
      intro j hj1 hj2 hne
      obtain rfl : j = 1 := by omega
      rw [v1, s1]
      linarith

theorem perm_four {α : Type} (a b c d : α) : [c, a, d, b].Perm [a, b, c, d] :=
  (List.Perm.swap a c [d, b]).trans
    (List.Perm.cons a (List.perm_append_comm (l₁ := [c, d]) (l₂ := [b])))

/-- The hypotheses of the theorem are met by a cloud, a platform and an arithmetic. -/
example : ∃ (A : Arith) (plat : Platform ℝ), A.Correct ∧
    Rounded.callback A plat exHp130 90 42 true true exCloudClear =
      callback plat exHp130 (nodeGeometry 90) 42 true true exCloudClear := by
  obtain ⟨A, hA⟩ := exists_correct
  have hmem : ∀ p ∈ exCloudClear, p = ⟨5, 12, 0, 0⟩ ∨ p = ⟨12, 9, 0, 0⟩ ∨ p = ⟨-3, 4, 0, 0⟩ ∨
      p = ⟨6, 8, 0, 0⟩ := by
    intro p hp
    simpa only [exCloudClear, List.mem_cons, List.not_mem_nil, or_false] using hp
  refine ⟨A, ⟨id, cmpSort, exSort, id⟩, hA, ?_⟩
  refine C130_extraction_partial hA ?_ (by norm_num) (by norm_num) ⟨cmpSort_isArgsort, exSort_isSort,
    fun _ => List.Perm.refl _, Or.inl rfl, by
      have : exCloudClear.length = 4 := rfl
      omega⟩ cmpSort_comparesOnly exSort_local ?_ ?_ ?_ _ _ _
  · norm_num [HyperParameters.Valid, exHp130]
  · intro p hp
    rcases hmem p hp with rfl | rfl | rfl | rfl <;> exact Real.sqrt_pos.2 (by norm_num)
  · intro a ha b hb _ _
    rcases hmem a ha with rfl | rfl | rfl | rfl <;> rcases hmem b hb with rfl | rfl | rfl | rfl
    all_goals first
      | exact Or.inl ⟨rfl, rfl⟩
      | (right; norm_num [abs_of_pos, abs_of_neg])
  · intro r pts hperm hsorted
    by_cases hr : r = 0
    · subst hr
      have hf : (exCloudClear.filter fun q => q.ring = 0) = exCloudClear := by
        rw [List.filter_eq_self]
        intro p hp
        rcases hmem p hp with rfl | rfl | rfl | rfl <;> rfl
      rw [hf] at hperm
      have hax : ∀ a ∈ exCloudClear, ∀ b, ¬ SamePositiveAxis a b := by
        intro a ha b h
        rcases hmem a ha with rfl | rfl | rfl | rfl <;> exact absurd h.1 (by norm_num)
      have hperm' : exRing130.Perm pts := by
        refine List.Perm.trans (List.Perm.symm ?_) hperm.symm
        exact perm_four _ _ _ _
      have hring : exRing130.Pairwise fun a b => lessAngle a b = true ∧ lessAngle b a = false := by
        simp only [exRing130, List.pairwise_cons, List.mem_cons, List.not_mem_nil, or_false,
          forall_eq_or_imp, forall_eq, List.Pairwise.nil, and_true, lessAngle]
        norm_num
      have : exRing130 = pts := by
        refine sorted_unique (less := lessAngle) hperm' (hring.imp fun h => Or.inl h.1)
          (hring.imp fun h => h.2) ?_
        refine List.Pairwise.imp_of_mem ?_ hsorted
        intro a b ha hb hab
        have hb' : b ∈ exCloudClear := hperm.subset hb
        rw [Bool.eq_false_iff]
        intro hcon
        rw [C21_comparator_partial b a (hax b hb' a)] at hcon
        linarith
      rw [← this]
      exact exRing130_clear
    · have hf : (exCloudClear.filter fun q => q.ring = r) = [] := by
        rw [List.filter_eq_nil_iff]
        intro p hp
        have : p.ring = 0 := by rcases hmem p hp with rfl | rfl | rfl | rfl <;> rfl
        rw [this]
        simpa using fun h : (0 : ℤ) = r => hr h.symm
      rw [hf] at hperm
      obtain rfl := List.perm_nil.1 hperm
      refine ⟨by simp, by simp, ?_, ?_, 0, by simp, ?_⟩
      · rintro p q ⟨k, h | h⟩ <;> simp at h
      · rintro p q ⟨k, h | h⟩ <;> simp at h
      · intro r n error i _ hi
        simp at hi

end Verif.Extraction
