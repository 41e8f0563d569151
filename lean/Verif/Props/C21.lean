/-
C21, C22: the angle comparator and the neighbour test.
-/
import Verif.Model.Geometry
import Mathlib.Analysis.SpecialFunctions.Complex.Arg
import Mathlib.Geometry.Euclidean.Angle.Unoriented.Basic
import Mathlib.Analysis.InnerProductSpace.PiL2

set_option autoImplicit false

namespace Verif.Extraction

/-- Specification: `atan2(y, x)`, in `(-π, π]`, `0` at the origin. -/
noncomputable def atan2 (p : PointXYZIR ℝ) : ℝ := Complex.arg ⟨p.x, p.y⟩

/-- Specification: two different points of the open positive x half-axis. -/
def SamePositiveAxis (a b : PointXYZIR ℝ) : Prop :=
  a.y = 0 ∧ b.y = 0 ∧ 0 < a.x ∧ 0 < b.x ∧ a.x ≠ b.x

/-- C21, violation: the comparator is not the order of `atan2`: of the two points `(1,0)` and
`(2,0)` each is "smaller" than the other, so it is not even asymmetric. -/
theorem C21_comparator_violated :
    ∃ a b : PointXYZIR ℝ, atan2 a = atan2 b ∧ lessAngle a b = true ∧ lessAngle b a = true := by
  refine ⟨⟨1, 0, 0, 0⟩, ⟨2, 0, 0, 0⟩, ?_, ?_, ?_⟩
  · have h1 : atan2 ⟨1, 0, 0, 0⟩ = 0 := by
      rw [atan2, Complex.arg_eq_zero_iff]; simp
    have h2 : atan2 ⟨2, 0, 0, 0⟩ = 0 := by
      rw [atan2, Complex.arg_eq_zero_iff]; simp
    rw [h1, h2]
  · norm_num [lessAngle]
  · norm_num [lessAngle]

theorem sumSq_eq_zero {x y : ℝ} : x * x + y * y = 0 ↔ x = 0 ∧ y = 0 := by
  constructor
  · intro h
    have hx := mul_self_nonneg x
    have hy := mul_self_nonneg y
    exact ⟨mul_self_eq_zero.1 (by linarith), mul_self_eq_zero.1 (by linarith)⟩
  · rintro ⟨rfl, rfl⟩; simp

/-- In one open half plane the sign of the determinant decides. -/
theorem arg_lt_arg_iff_det {a b : ℂ} (h : 0 < a.im * b.im) :
    a.arg < b.arg ↔ 0 < a.re * b.im - a.im * b.re := by
  have ha : a ≠ 0 := by rintro rfl; simp at h
  have hb : b ≠ 0 := by rintro rfl; simp at h
  have hna : 0 < ‖a‖ := norm_pos_iff.2 ha
  have hnb : 0 < ‖b‖ := norm_pos_iff.2 hb
  have hs : Real.sin (b.arg - a.arg) = (a.re * b.im - a.im * b.re) / (‖a‖ * ‖b‖) := by
    rw [Real.sin_sub, Complex.sin_arg, Complex.sin_arg, Complex.cos_arg ha, Complex.cos_arg hb]
    field_simp
  have hrange : -Real.pi < b.arg - a.arg ∧ b.arg - a.arg < Real.pi := by
    have hpi := Real.pi_pos
    rcases pos_and_pos_or_neg_and_neg_of_mul_pos h with ⟨h1, h2⟩ | ⟨h1, h2⟩
    · have a1 := Complex.arg_nonneg_iff.2 h1.le
      have b1 := Complex.arg_nonneg_iff.2 h2.le
      have a2 := Complex.arg_lt_pi_iff.2 (Or.inr h1.ne')
      have b2 := Complex.arg_lt_pi_iff.2 (Or.inr h2.ne')
      constructor <;> linarith
    · have a1 := Complex.arg_neg_iff.2 h1
      have b1 := Complex.arg_neg_iff.2 h2
      have a2 := Complex.neg_pi_lt_arg a
      have b2 := Complex.neg_pi_lt_arg b
      constructor <;> linarith
  have hsign : 0 < Real.sin (b.arg - a.arg) ↔ 0 < b.arg - a.arg := by
    constructor
    · intro h0
      by_contra hc
      exact absurd h0 (not_lt.2 (Real.sin_nonpos_of_nonpos_of_neg_pi_le (not_lt.1 hc) hrange.1.le))
    · intro h0
      exact Real.sin_pos_of_pos_of_lt_pi h0 hrange.2
  rw [← sub_pos, ← hsign, hs]
  exact div_pos_iff_of_pos_right (mul_pos hna hnb)

/-- C21, what holds: except for two different points of the positive x half-axis, the comparator
is the order of `atan2`. -/
theorem C21_comparator_partial (a b : PointXYZIR ℝ) (h : ¬ SamePositiveAxis a b) :
    lessAngle a b = true ↔ atan2 a < atan2 b := by
  unfold lessAngle
  by_cases heq : a.x = b.x ∧ a.y = b.y
  · simp [heq, atan2]
  simp only [if_neg heq, sumSq_eq_zero]
  by_cases ha0 : a.x = 0 ∧ a.y = 0
  · have h0 : atan2 a = 0 := Complex.arg_eq_zero_iff.2 ⟨ha0.1.ge, ha0.2⟩
    rw [if_pos ha0, h0]
    by_cases hb : b.y = 0
    · rw [if_pos hb, decide_eq_true_iff]
      rcases lt_trichotomy b.x 0 with hx | hx | hx
      · have : atan2 b = Real.pi := Complex.arg_eq_pi_iff.2 ⟨hx, hb⟩
        simp [this, hx, Real.pi_pos]
      · exact absurd ⟨by rw [ha0.1, hx], by rw [ha0.2, hb]⟩ heq
      · have : atan2 b = 0 := Complex.arg_eq_zero_iff.2 ⟨hx.le, hb⟩
        simp [this, hx.le]
    · rw [if_neg hb, decide_eq_true_iff]
      constructor
      · intro hy
        refine lt_of_le_of_ne (Complex.arg_nonneg_iff.2 hy.le) ?_
        intro hc
        exact hb (Complex.arg_eq_zero_iff.1 hc.symm).2
      · intro hy
        exact lt_of_le_of_ne (Complex.arg_nonneg_iff.1 hy.le) (Ne.symm hb)
  rw [if_neg ha0]
  by_cases hb0 : b.x = 0 ∧ b.y = 0
  · have h0 : atan2 b = 0 := Complex.arg_eq_zero_iff.2 ⟨hb0.1.ge, hb0.2⟩
    rw [if_pos hb0, h0, decide_eq_true_iff]
    exact (Complex.arg_neg_iff (z := ⟨a.x, a.y⟩)).symm
  rw [if_neg hb0]
  by_cases hay : a.y = 0
  · rw [if_pos hay]
    have hax : a.x ≠ 0 := fun hc => ha0 ⟨hc, hay⟩
    rcases lt_or_gt_of_ne hax with hx | hx
    · have : atan2 a = Real.pi := Complex.arg_eq_pi_iff.2 ⟨hx, hay⟩
      rw [this]
      have h2 : atan2 b ≤ Real.pi := Complex.arg_le_pi _
      simp [not_le.2 hx, not_lt.2 h2]
    · have : atan2 a = 0 := Complex.arg_eq_zero_iff.2 ⟨hx.le, hay⟩
      rw [this]
      simp only [hx.le, ge_iff_le, decide_true, Bool.true_and, decide_eq_true_iff]
      by_cases hby : b.y = 0
      · have hbx : b.x ≠ 0 := fun hc => hb0 ⟨hc, hby⟩
        rcases lt_or_gt_of_ne hbx with hbx | hbx
        · have : atan2 b = Real.pi := Complex.arg_eq_pi_iff.2 ⟨hbx, hby⟩
          simp [this, hby, Real.pi_pos]
        · exact absurd ⟨hay, hby, hx, hbx, fun hc => heq ⟨hc, by rw [hay, hby]⟩⟩ h
      · constructor
        · intro hy
          refine lt_of_le_of_ne (Complex.arg_nonneg_iff.2 hy) ?_
          intro hc
          exact hby (Complex.arg_eq_zero_iff.1 hc.symm).2
        · intro hy
          exact Complex.arg_nonneg_iff.1 hy.le
  rw [if_neg hay]
  by_cases hby : b.y = 0
  · rw [if_pos hby]
    have hbx : b.x ≠ 0 := fun hc => hb0 ⟨hc, hby⟩
    rcases lt_or_gt_of_ne hbx with hx | hx
    · have : atan2 b = Real.pi := Complex.arg_eq_pi_iff.2 ⟨hx, hby⟩
      rw [this]
      have : atan2 a < Real.pi := Complex.arg_lt_pi_iff.2 (Or.inr hay)
      simp [this, hx]
    · have : atan2 b = 0 := Complex.arg_eq_zero_iff.2 ⟨hx.le, hby⟩
      rw [this]
      have : atan2 a < 0 ↔ a.y < 0 := Complex.arg_neg_iff
      simp [this, hx.le]
  rw [if_neg hby]
  by_cases hs : a.y * b.y > 0
  · rw [if_pos hs, decide_eq_true_iff]
    exact (arg_lt_arg_iff_det (a := ⟨a.x, a.y⟩) (b := ⟨b.x, b.y⟩) hs).symm
  · rw [if_neg hs, decide_eq_true_iff]
    have hs' : a.y * b.y < 0 := lt_of_le_of_ne (not_lt.1 hs) (mul_ne_zero hay hby)
    rcases mul_neg_iff.1 hs' with ⟨h1, h2⟩ | ⟨h1, h2⟩
    · have a1 : 0 ≤ atan2 a := Complex.arg_nonneg_iff.2 h1.le
      have b1 : atan2 b < 0 := Complex.arg_neg_iff.2 h2
      constructor
      · intro hc; linarith
      · intro hc; linarith
    · have a1 : atan2 a < 0 := Complex.arg_neg_iff.2 h1
      have b1 : 0 ≤ atan2 b := Complex.arg_nonneg_iff.2 h2.le
      exact ⟨fun _ => by linarith, fun _ => h1⟩

/-- C21, consequence: on the points of a ring without two different points of the positive x
half-axis, the comparator is a strict weak order, as `std::sort` requires; with two such points it
is not. -/
theorem C21_strict_weak_partial (cloud : List (PointXYZIR ℝ)) (indices : List ℕ)
    (hin : ∀ i ∈ indices, i < cloud.length) :
    StrictWeakOn (lessIndex lessAngle cloud) indices ↔
      ∀ i ∈ indices, ∀ j ∈ indices, ∀ a b, cloud[i]? = some a → cloud[j]? = some b →
        ¬ SamePositiveAxis a b := by
  constructor
  · rintro ⟨h1, h2, -⟩ i hi j hj a b ha hb ⟨hay, hby, hax, hbx, hne⟩
    have hab : lessIndex lessAngle cloud i j = true := by
      simp only [lessIndex, ha, hb]
      simp [lessAngle, hay, hby, hax.ne', hbx.ne', hax.le, hne]
    have hba : lessIndex lessAngle cloud j i = true := by
      simp only [lessIndex, ha, hb]
      simp [lessAngle, hay, hby, hax.ne', hbx.ne', hbx.le, hne.symm]
    have := h2 i hi j hj i hi hab hba
    rw [h1 i hi] at this
    cases this
  · intro h
    have key : ∀ i ∈ indices, ∀ j ∈ indices, ∃ a b, cloud[i]? = some a ∧ cloud[j]? = some b ∧
        (lessIndex lessAngle cloud i j = true ↔ atan2 a < atan2 b) := by
      intro i hi j hj
      refine ⟨cloud[i]'(hin i hi), cloud[j]'(hin j hj), by simp, by simp, ?_⟩
      have ha : cloud[i]? = some (cloud[i]'(hin i hi)) := by simp
      have hb : cloud[j]? = some (cloud[j]'(hin j hj)) := by simp
      simp only [lessIndex, ha, hb]
      exact C21_comparator_partial _ _ (h i hi j hj _ _ ha hb)
    refine ⟨fun i hi => ?_, fun i hi j hj k hk h1 h2 => ?_, fun i hi j hj k hk h1 h2 h3 h4 => ?_⟩
    · obtain ⟨a, b, ha, hb, hab⟩ := key i hi i hi
      rw [ha] at hb; injection hb with hb; subst hb
      rw [← Bool.not_eq_true, hab]; exact lt_irrefl _
    · obtain ⟨a, b, ha, hb, hab⟩ := key i hi j hj
      obtain ⟨b', c, hb', hc, hbc⟩ := key j hj k hk
      obtain ⟨a', c', ha', hc', hac⟩ := key i hi k hk
      rw [ha] at ha'; injection ha' with ha'; subst ha'
      rw [hb] at hb'; injection hb' with hb'; subst hb'
      rw [hc] at hc'; injection hc' with hc'; subst hc'
      rw [hac]; exact (hab.1 h1).trans (hbc.1 h2)
    · obtain ⟨a, b, ha, hb, hab⟩ := key i hi j hj
      obtain ⟨b1, a1, hb1, ha1, hba⟩ := key j hj i hi
      obtain ⟨b', c, hb', hc, hbc⟩ := key j hj k hk
      obtain ⟨c1, b2, hc1, hb2, hcb⟩ := key k hk j hj
      obtain ⟨a', c', ha', hc', hac⟩ := key i hi k hk
      obtain ⟨c2, a2, hc2, ha2, hca⟩ := key k hk i hi
      simp only [ha, hb, hc, Option.some.injEq] at *
      subst ha' hb' hc' hb1 ha1 hc1 hb2 hc2 ha2
      rw [← Bool.not_eq_true] at h1 h2 h3 h4
      rw [hab, not_lt] at h1
      rw [hba, not_lt] at h2
      rw [hbc, not_lt] at h3
      rw [hcb, not_lt] at h4
      rw [← Bool.not_eq_true, ← Bool.not_eq_true, hac, hca, not_lt, not_lt]
      exact ⟨h3.trans h1, h2.trans h4⟩

/-- Specification: the horizontal direction of a point as a vector of the plane. -/
noncomputable def horizontal (p : PointXYZIR ℝ) : EuclideanSpace ℝ (Fin 2) := !₂[p.x, p.y]

theorem norm_horizontal (p : PointXYZIR ℝ) : ‖horizontal p‖ = xyNorm p.x p.y := by
  rw [EuclideanSpace.norm_eq]
  simp [horizontal, xyNorm, pow_two]

theorem horizontal_eq_zero {p : PointXYZIR ℝ} : horizontal p = 0 ↔ xyNorm p.x p.y = 0 := by
  rw [← norm_eq_zero, norm_horizontal]

/-- C22: two points off the origin are neighbours exactly when the angle between their horizontal
directions is below the threshold. -/
theorem C22_neighbor_is_angle (threshold : ℝ) (p q : PointXYZIR ℝ) (hp : horizontal p ≠ 0)
    (hq : horizontal q ≠ 0) :
    isNeighborXY threshold p q =
      .ok (decide (InnerProductGeometry.angle (horizontal p) (horizontal q) < threshold)) := by
  rw [Ne, horizontal_eq_zero] at hp hq
  have hang : InnerProductGeometry.angle (horizontal p) (horizontal q) =
      Real.arccos ((p.x * q.x + p.y * q.y) / (xyNorm p.x p.y * xyNorm q.x q.y)) := by
    rw [InnerProductGeometry.angle, norm_horizontal, norm_horizontal]
    congr 2
    simp [horizontal, PiLp.inner_apply, Fin.sum_univ_two, mul_comm]
  simp only [isNeighborXY, calcRadian, hp, hq, false_and, if_false, mul_eq_zero, or_self, hang,
    bind, Except.bind, pure, Except.pure]

/-- C22: the test gives the same outcome in either argument order. -/
theorem C22_neighbor_symmetric (threshold : ℝ) (p q : PointXYZIR ℝ) :
    isNeighborXY threshold p q = isNeighborXY threshold q p := by
  have : calcRadian p.x p.y q.x q.y = calcRadian q.x q.y p.x p.y := by
    simp only [calcRadian, mul_comm (xyNorm q.x q.y), and_comm (a := xyNorm q.x q.y = 0),
      mul_comm q.x, mul_comm q.y]
  simp only [isNeighborXY, this]

/-- C22: a point at the origin is no neighbour of one off the origin; two points at the origin
raise `invalid_argument`; this is the only failure. -/
theorem C22_neighbor_at_origin (threshold : ℝ) (p q : PointXYZIR ℝ) :
    (horizontal p = 0 → horizontal q ≠ 0 → isNeighborXY threshold p q = .ok false) ∧
    (∀ e, isNeighborXY threshold p q = .error e ↔
      e = .invalidArgument ∧ horizontal p = 0 ∧ horizontal q = 0) := by
  simp only [Ne, horizontal_eq_zero]
  constructor
  · intro h1 h2
    simp [isNeighborXY, calcRadian, h1, h2, bind, Except.bind, pure, Except.pure]
  · intro e
    simp only [isNeighborXY, calcRadian]
    by_cases h : xyNorm p.x p.y = 0 ∧ xyNorm q.x q.y = 0
    · simp [h, bind, Except.bind, eq_comm]
    · by_cases h2 : xyNorm p.x p.y * xyNorm q.x q.y = 0
      · simp [h, h2, bind, Except.bind, pure, Except.pure]
      · simp [h, h2, bind, Except.bind, pure, Except.pure]

/-- C22: the node's test: two points off the origin are neighbours exactly when the angle between
their horizontal directions, in degrees (a full turn, `2π`, is 360), is below the parameter
`neighbor_degree_threshold`. -/
theorem C22_node_threshold (degrees : ℝ) (p q : PointXYZIR ℝ) (hp : horizontal p ≠ 0)
    (hq : horizontal q ≠ 0) :
    (nodeGeometry degrees).isNb p q = .ok true ↔
      360 * (InnerProductGeometry.angle (horizontal p) (horizontal q) / (2 * Real.pi)) <
        degrees := by
  simp only [nodeGeometry]
  rw [C22_neighbor_is_angle _ p q hp hq]
  have hpi := Real.pi_pos
  have e1 : 360 * (InnerProductGeometry.angle (horizontal p) (horizontal q) / (2 * Real.pi)) =
      180 * InnerProductGeometry.angle (horizontal p) (horizontal q) / Real.pi := by
    field_simp; ring
  rw [e1, div_lt_iff₀ hpi]
  rw [Except.ok.injEq, decide_eq_true_iff, degreeToRadian, lt_div_iff₀ (by norm_num)]
  constructor <;> intro h <;> linarith

/-! Non-vacuity. -/
example : ¬ SamePositiveAxis ⟨1, 0, 0, 0⟩ ⟨1, 1, 0, 0⟩ := by rintro ⟨-, h, -⟩; norm_num at h
example : ¬ SamePositiveAxis ⟨-1, 0, 0, 0⟩ ⟨-2, 0, 0, 0⟩ := by rintro ⟨-, -, h, -⟩; norm_num at h
example : horizontal ⟨1, 0, 5, 0⟩ ≠ 0 := by
  rw [Ne, horizontal_eq_zero]; simp [xyNorm]
example : horizontal ⟨0, 0, 5, 0⟩ = 0 := by
  rw [horizontal_eq_zero]; simp [xyNorm]

end Verif.Extraction
