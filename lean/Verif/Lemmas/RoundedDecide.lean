/-
The comparisons of the extraction in floating-point arithmetic come out as in exact arithmetic
unless they are close to a tie.
-/
import Verif.Lemmas.Rounding
import Mathlib.Analysis.SpecialFunctions.Trigonometric.Inverse
import Mathlib.Analysis.Real.Pi.Bounds

set_option autoImplicit false

namespace Verif.Extraction

/-- `x'` is `x` up to a relative error of `2⁻⁵¹`. -/
def Near (x x' : ℝ) : Prop := |x' - x| ≤ 1 / 2 ^ 51 * x

theorem rel_bounds {f : ℝ → ℝ} {u : ℝ} (hf : ∀ x, |f x - x| ≤ u * |x|) {x : ℝ} (hx : 0 ≤ x) :
    (1 - u) * x ≤ f x ∧ f x ≤ (1 + u) * x := by
  have h := abs_le.1 (hf x)
  rw [abs_of_nonneg hx] at h
  constructor <;> linarith [h.1, h.2]

theorem xyNorm_near {A : Arith} (hA : A.Correct) (x y : ℝ) :
    Near (xyNorm x y) (Rounded.xyNorm A x y) := by
  have hf := hA.dbl.error
  set u : ℝ := 1 / 2 ^ 53 with hu
  clear_value u
  have hu0 : 0 ≤ u := by rw [hu]; positivity
  have hu1 : u ≤ 1 := by rw [hu]; norm_num
  have hx := rel_bounds hf (mul_self_nonneg x)
  have hy := rel_bounds hf (mul_self_nonneg y)
  have hs0 : 0 ≤ x * x + y * y := add_nonneg (mul_self_nonneg x) (mul_self_nonneg y)
  have h0 : 0 ≤ A.dbl (x * x) + A.dbl (y * y) := by
    have := mul_nonneg (sub_nonneg.2 hu1) (mul_self_nonneg x)
    have := mul_nonneg (sub_nonneg.2 hu1) (mul_self_nonneg y)
    linarith [hx.1, hy.1]
  have hs := rel_bounds hf h0
  set r := xyNorm x y with hr
  have hr0 : 0 ≤ r := Real.sqrt_nonneg _
  have hrr : x * x + y * y = r * r := (Real.mul_self_sqrt hs0).symm
  have hup : A.dbl (A.dbl (x * x) + A.dbl (y * y)) ≤ ((1 + u) * r) ^ 2 := by
    have : A.dbl (x * x) + A.dbl (y * y) ≤ (1 + u) * (r * r) := by rw [← hrr]; linarith [hx.2, hy.2]
    have := mul_le_mul_of_nonneg_left this (by linarith : 0 ≤ 1 + u)
    calc _ ≤ _ := hs.2
      _ ≤ _ := this
      _ = _ := by ring
  have hlo : ((1 - u) * r) ^ 2 ≤ A.dbl (A.dbl (x * x) + A.dbl (y * y)) := by
    have : (1 - u) * (r * r) ≤ A.dbl (x * x) + A.dbl (y * y) := by rw [← hrr]; linarith [hx.1, hy.1]
    have := mul_le_mul_of_nonneg_left this (sub_nonneg.2 hu1)
    calc ((1 - u) * r) ^ 2 = _ := by ring
      _ ≤ _ := this
      _ ≤ _ := hs.1
  have hsq := rel_bounds hf (Real.sqrt_nonneg (A.dbl (A.dbl (x * x) + A.dbl (y * y))))
  have h1 : Real.sqrt (A.dbl (A.dbl (x * x) + A.dbl (y * y))) ≤ (1 + u) * r :=
    (Real.sqrt_le_left (by positivity)).2 hup
  have h2 : (1 - u) * r ≤ Real.sqrt (A.dbl (A.dbl (x * x) + A.dbl (y * y))) := Real.le_sqrt_of_sq_le hlo
  have h3 := mul_le_mul_of_nonneg_left h1 (by linarith : 0 ≤ 1 + u)
  have h4 := mul_le_mul_of_nonneg_left h2 (sub_nonneg.2 hu1)
  unfold Near Rounded.xyNorm
  rw [abs_le]
  have hc1 : (1 + u) * (1 + u) ≤ 1 + 1 / 2 ^ 51 := by rw [hu]; norm_num
  have hc2 : 1 - 1 / 2 ^ 51 ≤ (1 - u) * (1 - u) := by rw [hu]; norm_num
  have h5 := mul_le_mul_of_nonneg_right hc1 hr0
  have h6 := mul_le_mul_of_nonneg_right hc2 hr0
  rw [mul_assoc] at h5 h6
  constructor
  · linarith [hsq.1]
  · linarith [hsq.2]

theorem Near.nonneg {x x' : ℝ} (h : Near x x') (hx : 0 ≤ x) : 0 ≤ x' := by
  have := (abs_le.1 h).1
  have h2 : 1 / 2 ^ 51 * x ≤ x := by
    have : (1 : ℝ) / 2 ^ 51 ≤ 1 := by norm_num
    nlinarith
  linarith

/-- The comparison of a range with a bound. -/
theorem decide_range {r r' m : ℝ} (h : Near r r') (hm : 1 / 2 ^ 51 * r < |r - m|) :
    (m ≤ r' ↔ m ≤ r) ∧ (r' ≤ m ↔ r ≤ m) := by
  have h' := abs_le.1 h
  rcases lt_abs.1 hm with hm | hm
  · constructor <;> constructor <;> intro _ <;> linarith
  · constructor <;> constructor <;> intro _ <;> linarith

/-- The comparison of the occlusion filter. -/
theorem decide_jump {A : Arith} (hA : A.Correct) {r0 r0' r1 r1' t : ℝ} (h0 : 0 ≤ r0) (h1 : 0 ≤ r1)
    (ht : 0 ≤ t) (n0 : Near r0 r0') (n1 : Near r1 r1')
    (hm : 1 / 2 ^ 50 * (r0 + r1 + t) < |r1 - (r0 + t)|) :
    r1' > A.dbl (r0' + t) ↔ r1 > r0 + t := by
  have e0 := abs_le.1 n0
  have e1 := abs_le.1 n1
  have h0' := n0.nonneg h0
  have hs := rel_bounds hA.dbl.error (by linarith : 0 ≤ r0' + t)
  have hup : r0' + t ≤ 2 * (r0 + t) := by
    have : (1 : ℝ) / 2 ^ 51 ≤ 1 := by norm_num
    nlinarith
  have b1 : A.dbl (r0' + t) ≤ r0 + t + (1 / 2 ^ 51 + 2 / 2 ^ 53) * (r0 + t) := by
    have : (1 : ℝ) / 2 ^ 53 * (r0' + t) ≤ 1 / 2 ^ 53 * (2 * (r0 + t)) :=
      mul_le_mul_of_nonneg_left hup (by norm_num)
    have : (0 : ℝ) ≤ 1 / 2 ^ 51 * t := mul_nonneg (by norm_num) ht
    linarith [hs.2, e0.2]
  have b2 : r0 + t - (1 / 2 ^ 51 + 2 / 2 ^ 53) * (r0 + t) ≤ A.dbl (r0' + t) := by
    have : (1 : ℝ) / 2 ^ 53 * (r0' + t) ≤ 1 / 2 ^ 53 * (2 * (r0 + t)) :=
      mul_le_mul_of_nonneg_left hup (by norm_num)
    have : (0 : ℝ) ≤ 1 / 2 ^ 51 * t := mul_nonneg (by norm_num) ht
    linarith [hs.1, e0.1]
  have hc : ((1 : ℝ) / 2 ^ 51 + 2 / 2 ^ 53) * (r0 + t) + 1 / 2 ^ 51 * r1 ≤
      1 / 2 ^ 50 * (r0 + r1 + t) := by
    have : (0 : ℝ) ≤ r0 + t := by linarith
    norm_num
    linarith
  rcases lt_abs.1 hm with hm | hm
  · constructor <;> intro _ <;> linarith
  · constructor <;> intro h <;> linarith

/-- The comparison of the parallel-beam filter. -/
theorem decide_ratio {A : Arith} (hA : A.Correct) {r0 r0' r1 r1' t : ℝ} (h0 : 0 ≤ r0) (h1 : 0 < r1)
    (n0 : Near r0 r0') (n1 : Near r1 r1')
    (hm : 1 / 2 ^ 23 * (r0 + r1) < |(|r0 - r1|) - t * r1|) :
    Rounded.ratioGreater A r0' r1' t = ratioGreater (r0 - r1) r1 t := by
  have e0 := abs_le.1 n0
  have e1 := abs_le.1 n1
  have hr1' : 0 < r1' := by
    have : (1 : ℝ) / 2 ^ 51 * r1 < r1 := by
      have : (1 : ℝ) / 2 ^ 51 < 1 := by norm_num
      nlinarith
    linarith
  set S := r0 + r1 with hS
  have hS0 : 0 < S := by linarith
  have hd : |r0 - r1| ≤ S := by rw [abs_le]; constructor <;> linarith
  have hdiff : |(r0' - r1') - (r0 - r1)| ≤ 4 / 2 ^ 53 * S := by
    rw [abs_le]
    norm_num at e0 e1 ⊢
    constructor <;> linarith
  have hd' : |A.dbl (r0' - r1') - (r0 - r1)| ≤ 6 / 2 ^ 53 * S := by
    have f1 := hA.dbl.error (r0' - r1')
    have f2 : |r0' - r1'| ≤ 2 * S := by
      have := abs_sub_abs_le_abs_sub (r0' - r1') (r0 - r1)
      have : (4 : ℝ) / 2 ^ 53 * S ≤ S := by
        have : (4 : ℝ) / 2 ^ 53 ≤ 1 := by norm_num
        nlinarith
      linarith
    have f3 : (1 : ℝ) / 2 ^ 53 * |r0' - r1'| ≤ 1 / 2 ^ 53 * (2 * S) :=
      mul_le_mul_of_nonneg_left f2 (by norm_num)
    have := abs_sub_le (A.dbl (r0' - r1')) (r0' - r1') (r0 - r1)
    linarith
  set d := |r0 - r1| with hdd
  set d' := |A.dbl (r0' - r1')| with hdd'
  have hdd0 : 0 ≤ d' := abs_nonneg _
  have hdab : |d' - d| ≤ 6 / 2 ^ 53 * S := (abs_abs_sub_abs_le_abs_sub _ _).trans hd'
  have hdab' := abs_le.1 hdab
  set w := d' / r1' with hw
  have hw0 : 0 ≤ w := div_nonneg hdd0 hr1'.le
  have hwr : w * r1' = d' := div_mul_cancel₀ _ hr1'.ne'
  have hd2 : d' ≤ 3 / 2 * S := by
    have : (6 : ℝ) / 2 ^ 53 * S ≤ 1 / 2 * S := mul_le_mul_of_nonneg_right (by norm_num) hS0.le
    linarith
  have hw1 : w * r1 ≤ 2 * S := by
    have h2 : r1 * (3 / 4) ≤ r1' := by
      norm_num at e1 ⊢
      linarith
    have := mul_le_mul_of_nonneg_left h2 hw0
    linarith
  have hwe : |w * r1 - d| ≤ 14 / 2 ^ 53 * S := by
    have h2 : |w * (r1' - r1)| ≤ 8 / 2 ^ 53 * S := by
      rw [abs_mul, abs_of_nonneg hw0]
      have := mul_le_mul_of_nonneg_left n1 hw0
      have e : w * (1 / 2 ^ 51 * r1) = 4 / 2 ^ 53 * (w * r1) := by ring
      have := mul_le_mul_of_nonneg_left hw1 (by norm_num : (0 : ℝ) ≤ 4 / 2 ^ 53)
      linarith
    have h3 := abs_le.1 h2
    rw [abs_le]
    have e : w * (r1' - r1) = d' - w * r1 := by rw [mul_sub, hwr]
    rw [e] at h3
    constructor <;> linarith [h3.1, h3.2, hdab'.1, hdab'.2]
  set q := A.dbl w with hq
  have hqe : |q - w| ≤ 1 / 2 ^ 53 * w := by
    have := hA.dbl.error w
    rwa [abs_of_nonneg hw0] at this
  have hq' := abs_le.1 hqe
  have hqr : |q * r1 - d| ≤ 16 / 2 ^ 53 * S := by
    have h2 : |(q - w) * r1| ≤ 2 / 2 ^ 53 * S := by
      rw [abs_mul, abs_of_pos h1]
      have := mul_le_mul_of_nonneg_right hqe h1.le
      have e : (1 : ℝ) / 2 ^ 53 * w * r1 = 1 / 2 ^ 53 * (w * r1) := by ring
      have := mul_le_mul_of_nonneg_left hw1 (by norm_num : (0 : ℝ) ≤ 1 / 2 ^ 53)
      linarith
    have e : q * r1 - d = (q - w) * r1 + (w * r1 - d) := by ring
    rw [e]
    refine (abs_add_le _ _).trans ?_
    linarith
  have hq0 : 0 ≤ q := by
    have : (1 : ℝ) / 2 ^ 53 * w ≤ w := by
      have : (1 : ℝ) / 2 ^ 53 ≤ 1 := by norm_num
      nlinarith
    linarith
  set Q := A.flt q with hQ
  have hQe : |Q - q| ≤ 1 / 2 ^ 24 * q := by
    have := hA.flt.error q
    rwa [abs_of_nonneg hq0] at this
  have hqr' := abs_le.1 hqr
  have hQr : |Q * r1 - d| ≤ 1 / 2 ^ 23 * S := by
    have h2 : |(Q - q) * r1| ≤ 1 / 2 ^ 24 * (S + 16 / 2 ^ 53 * S) := by
      rw [abs_mul, abs_of_pos h1]
      have := mul_le_mul_of_nonneg_right hQe h1.le
      have e : (1 : ℝ) / 2 ^ 24 * q * r1 = 1 / 2 ^ 24 * (q * r1) := by ring
      have : (1 : ℝ) / 2 ^ 24 * (q * r1) ≤ 1 / 2 ^ 24 * (S + 16 / 2 ^ 53 * S) :=
        mul_le_mul_of_nonneg_left (by linarith) (by norm_num)
      linarith
    have e : Q * r1 - d = (Q - q) * r1 + (q * r1 - d) := by ring
    rw [e]
    refine (abs_add_le _ _).trans ?_
    have : (1 : ℝ) / 2 ^ 24 * (S + 16 / 2 ^ 53 * S) + 16 / 2 ^ 53 * S ≤ 1 / 2 ^ 23 * S := by
      norm_num
      linarith
    linarith
  have hQr' := abs_le.1 hQr
  simp only [Rounded.ratioGreater, ratioGreater, if_neg hr1'.ne', if_neg h1.ne', decide_eq_decide]
  rw [gt_iff_lt, gt_iff_lt, lt_div_iff₀ h1]
  have hk : t < Q ↔ t * r1 < Q * r1 := (mul_lt_mul_iff_left₀ h1).symm
  rw [hk]
  rcases lt_abs.1 hm with hm | hm
  · constructor <;> intro _ <;> linarith
  · constructor <;> intro _ <;> linarith

/-- The comparison of polar angles. -/
theorem decide_less {A : Arith} (hA : A.Correct) {a b : PointXYZIR ℝ} (ha : 0 < xyNorm a.x a.y)
    (hb : 0 < xyNorm b.x b.y)
    (hm : 0 < a.y * b.y → a.x = b.x ∧ a.y = b.y ∨
      1 / 2 ^ 24 * (|a.x * b.y| + |a.y * b.x|) < |a.x * b.y - a.y * b.x|) :
    Rounded.lessAngle A a b = lessAngle a b := by
  have hpos : ∀ x : ℝ, 0 < A.flt x ↔ 0 < x := by
    intro x
    have h := abs_le.1 (hA.flt.error x)
    constructor
    · intro h'
      by_contra hc
      have hx : |x| = -x := abs_of_nonpos (not_lt.1 hc)
      rw [hx] at h
      norm_num at h
      linarith [h.2]
    · intro h'
      rw [abs_of_pos h'] at h
      norm_num at h
      linarith [h.1]
  have hlen : ∀ p : PointXYZIR ℝ, 0 < xyNorm p.x p.y →
      A.flt (A.flt (p.x * p.x) + A.flt (p.y * p.y)) ≠ 0 ∧ p.x * p.x + p.y * p.y ≠ 0 := by
    intro p hp
    have h2 : 0 < p.x * p.x + p.y * p.y := Real.sqrt_pos.1 hp
    refine ⟨ne_of_gt ((hpos _).2 ?_), h2.ne'⟩
    have hx := rel_bounds hA.flt.error (mul_self_nonneg p.x)
    have hy := rel_bounds hA.flt.error (mul_self_nonneg p.y)
    norm_num at hx hy
    linarith [hx.1, hy.1]
  obtain ⟨a1, a2⟩ := hlen a ha
  obtain ⟨b1, b2⟩ := hlen b hb
  simp only [Rounded.lessAngle, lessAngle, if_neg a1, if_neg a2, if_neg b1, if_neg b2, gt_iff_lt,
    hpos]
  by_cases hs : a.x = b.x ∧ a.y = b.y
  · rw [if_pos hs, if_pos hs]
  · rw [if_neg hs, if_neg hs]
    by_cases hab : 0 < a.y * b.y
    · have hm' := (hm hab).resolve_left hs
      have h1 := abs_le.1 (hA.flt.error (a.x * b.y))
      have h2 := abs_le.1 (hA.flt.error (a.y * b.x))
      have : (0 < A.flt (a.x * b.y) - A.flt (a.y * b.x)) ↔ 0 < a.x * b.y - a.y * b.x := by
        rcases lt_abs.1 hm' with hm' | hm'
        · constructor <;> intro _ <;> linarith [h1.1, h1.2, h2.1, h2.2]
        · constructor <;> intro _ <;> linarith [h1.1, h1.2, h2.1, h2.2]
      simp only [this]
    · simp only [if_neg hab]

/-- Angles whose cosines differ little differ little. -/
theorem arccos_close {a b : ℝ} (ha : -1 ≤ a ∧ a ≤ 1) (hb : -1 ≤ b ∧ b ≤ 1) :
    (Real.arccos a - Real.arccos b) ^ 2 ≤ Real.pi ^ 2 / 2 * |a - b| := by
  wlog h : Real.arccos b ≤ Real.arccos a generalizing a b
  · have := this hb ha (not_le.1 h).le
    rw [abs_sub_comm]
    calc _ = (Real.arccos b - Real.arccos a) ^ 2 := by ring
      _ ≤ _ := this
  set α := Real.arccos a with hα
  set β := Real.arccos b with hβ
  have hα1 : α ≤ Real.pi := Real.arccos_le_pi a
  have hβ0 : 0 ≤ β := Real.arccos_nonneg b
  have ea : a = Real.cos α := (Real.cos_arccos ha.1 ha.2).symm
  have eb : b = Real.cos β := (Real.cos_arccos hb.1 hb.2).symm
  set k := (α - β) / 2 with hk
  set m := (α + β) / 2 with hm
  have hpi := Real.pi_pos
  have hk0 : 0 ≤ k := by rw [hk]; linarith
  have hk1 : k ≤ Real.pi / 2 := by rw [hk]; linarith
  have hsk : 2 / Real.pi * k ≤ Real.sin k := Real.mul_le_sin hk0 hk1
  have hsk0 : 0 ≤ 2 / Real.pi * k := by positivity
  have hsm : Real.sin k ≤ Real.sin m := by
    rcases le_or_gt m (Real.pi / 2) with h1 | h1
    · exact Real.sin_le_sin_of_le_of_le_pi_div_two (by linarith) h1 (by rw [hk, hm]; linarith)
    · rw [← Real.sin_pi_sub m]
      exact Real.sin_le_sin_of_le_of_le_pi_div_two (by linarith) (by linarith)
        (by rw [hk, hm]; linarith)
  have hdiff : b - a = 2 * (Real.sin m * Real.sin k) := by
    rw [ea, eb, Real.cos_sub_cos β α, hm, hk]
    have : Real.sin ((β - α) / 2) = -Real.sin ((α - β) / 2) := by
      rw [← Real.sin_neg]; congr 1; ring
    rw [this, add_comm β α]
    ring
  have h1 : (2 / Real.pi * k) * (2 / Real.pi * k) ≤ Real.sin m * Real.sin k :=
    mul_le_mul (hsk.trans hsm) hsk hsk0 (hsk0.trans (hsk.trans hsm))
  have h2 : b - a ≤ |a - b| := by rw [abs_sub_comm]; exact le_abs_self _
  have h3 : (α - β) ^ 2 = Real.pi ^ 2 * ((2 / Real.pi * k) * (2 / Real.pi * k)) := by
    rw [hk]; field_simp
  rw [h3]
  have := mul_le_mul_of_nonneg_left h1 (by positivity : 0 ≤ Real.pi ^ 2)
  have : Real.pi ^ 2 / 2 * (b - a) ≤ Real.pi ^ 2 / 2 * |a - b| :=
    mul_le_mul_of_nonneg_left h2 (by positivity)
  nlinarith

/-- Specification: the angle between the directions of two points, from `0` to `π`. -/
noncomputable def angleXY (a b : PointXYZIR ℝ) : ℝ :=
  Real.arccos ((a.x * b.x + a.y * b.y) / (Real.sqrt (a.x ^ 2 + a.y ^ 2) * Real.sqrt (b.x ^ 2 + b.y ^ 2)))

theorem xyNorm_eq (x y : ℝ) : xyNorm x y = Real.sqrt (x ^ 2 + y ^ 2) := by
  rw [xyNorm, sq, sq]

/-- The threshold of the neighbour test. -/
theorem degreeToRadian_near {A : Arith} (hA : A.Correct) {d : ℝ} (h0 : 0 ≤ d) (h1 : d ≤ 180) :
    |Rounded.degreeToRadian A d - degreeToRadian d| ≤ 1 / 2 ^ 48 := by
  have hpi := Real.pi_pos
  have hpi4 := Real.pi_le_four
  have p1 := rel_bounds hA.dbl.error hpi.le
  set u : ℝ := 1 / 2 ^ 53 with hu
  clear_value u
  have hu0 : 0 ≤ u := by rw [hu]; norm_num
  have hu1 : 0 ≤ 1 - u := by rw [hu]; norm_num
  set π' := A.dbl Real.pi
  have hπ' : 0 ≤ π' := le_trans (mul_nonneg hu1 hpi.le) p1.1
  have hfl : ∀ x, |A.dbl x - x| ≤ u * |x| := by rw [hu]; exact hA.dbl.error
  have p2 := rel_bounds hfl (mul_nonneg h0 hπ')
  set w := A.dbl (d * π')
  have hw : 0 ≤ w := le_trans (mul_nonneg hu1 (mul_nonneg h0 hπ')) p2.1
  have p3 := rel_bounds hfl (by positivity : 0 ≤ w / 180)
  unfold Rounded.degreeToRadian degreeToRadian
  set T := d * Real.pi / 180 with hT
  have hT0 : 0 ≤ T := by rw [hT]; positivity
  have hT4 : T ≤ 4 := by
    rw [hT, div_le_iff₀ (by norm_num)]
    nlinarith
  have a1 : w ≤ (1 + u) * ((1 + u) * (T * 180)) := by
    have e : T * 180 = d * Real.pi := by rw [hT]; ring
    have := mul_le_mul_of_nonneg_left p1.2 h0
    have h2 : d * π' ≤ (1 + u) * (T * 180) := by rw [e]; linarith
    exact p2.2.trans (mul_le_mul_of_nonneg_left h2 (by linarith))
  have a2 : (1 - u) * ((1 - u) * (T * 180)) ≤ w := by
    have e : T * 180 = d * Real.pi := by rw [hT]; ring
    have := mul_le_mul_of_nonneg_left p1.1 h0
    have h2 : (1 - u) * (T * 180) ≤ d * π' := by rw [e]; linarith
    exact (mul_le_mul_of_nonneg_left h2 hu1).trans p2.1
  have b1 : A.dbl (w / 180) ≤ ((1 + u) * (1 + u) * (1 + u)) * T := by
    have h2 : w / 180 ≤ (1 + u) * (1 + u) * T := by
      rw [div_le_iff₀ (by norm_num)]; linarith
    have := mul_le_mul_of_nonneg_left h2 (by linarith : 0 ≤ 1 + u)
    calc _ ≤ _ := p3.2
      _ ≤ _ := this
      _ = _ := by ring
  have b2 : ((1 - u) * (1 - u) * (1 - u)) * T ≤ A.dbl (w / 180) := by
    have h2 : (1 - u) * (1 - u) * T ≤ w / 180 := by
      rw [le_div_iff₀ (by norm_num)]; linarith
    have := mul_le_mul_of_nonneg_left h2 hu1
    calc _ = _ := by ring
      _ ≤ _ := this
      _ ≤ _ := p3.1
  have c1 : (1 + u) * (1 + u) * (1 + u) ≤ 1 + 1 / 2 ^ 51 := by rw [hu]; norm_num
  have c2 : 1 - 1 / 2 ^ 51 ≤ (1 - u) * (1 - u) * (1 - u) := by rw [hu]; norm_num
  have d1 := mul_le_mul_of_nonneg_right c1 hT0
  have d2 := mul_le_mul_of_nonneg_right c2 hT0
  have d3 : (1 : ℝ) / 2 ^ 51 * T ≤ 1 / 2 ^ 51 * 4 := mul_le_mul_of_nonneg_left hT4 (by norm_num)
  have d4 : (1 : ℝ) / 2 ^ 51 * 4 ≤ 1 / 2 ^ 48 := by norm_num
  rw [abs_le]
  constructor <;> linarith

/-- The cosine computed for the neighbour test. -/
theorem cos_near {A : Arith} (hA : A.Correct) {a b : PointXYZIR ℝ} (ha : 0 < xyNorm a.x a.y)
    (hb : 0 < xyNorm b.x b.y) :
    Rounded.xyNorm A a.x a.y ≠ 0 ∧ A.dbl (Rounded.xyNorm A a.x a.y * Rounded.xyNorm A b.x b.y) ≠ 0 ∧
    |A.dbl (A.dbl (A.dbl (a.x * b.x) + A.dbl (a.y * b.y)) /
        A.dbl (Rounded.xyNorm A a.x a.y * Rounded.xyNorm A b.x b.y)) -
      (a.x * b.x + a.y * b.y) / (xyNorm a.x a.y * xyNorm b.x b.y)| ≤ 16 / 2 ^ 51 ∧
    |(a.x * b.x + a.y * b.y) / (xyNorm a.x a.y * xyNorm b.x b.y)| ≤ 1 := by
  have na := abs_le.1 (xyNorm_near hA a.x a.y)
  have nb := abs_le.1 (xyNorm_near hA b.x b.y)
  have sa : xyNorm a.x a.y * xyNorm a.x a.y = a.x * a.x + a.y * a.y :=
    Real.mul_self_sqrt (add_nonneg (mul_self_nonneg _) (mul_self_nonneg _))
  have sb : xyNorm b.x b.y * xyNorm b.x b.y = b.x * b.x + b.y * b.y :=
    Real.mul_self_sqrt (add_nonneg (mul_self_nonneg _) (mul_self_nonneg _))
  set ra := xyNorm a.x a.y
  set rb := xyNorm b.x b.y
  set ra' := Rounded.xyNorm A a.x a.y
  set rb' := Rounded.xyNorm A b.x b.y
  set v : ℝ := 1 / 2 ^ 51 with hv
  clear_value v
  have hv0 : 0 ≤ v := by rw [hv]; norm_num
  have hv1 : 0 < 1 - v := by rw [hv]; norm_num
  have ra1 : (1 - v) * ra ≤ ra' := by linarith [na.1]
  have ra2 : ra' ≤ (1 + v) * ra := by linarith [na.2]
  have rb1 : (1 - v) * rb ≤ rb' := by linarith [nb.1]
  have rb2 : rb' ≤ (1 + v) * rb := by linarith [nb.2]
  have ra0 : 0 < ra' := lt_of_lt_of_le (mul_pos hv1 ha) ra1
  have rb0 : 0 < rb' := lt_of_lt_of_le (mul_pos hv1 hb) rb1
  have hfl : ∀ x, |A.dbl x - x| ≤ v / 4 * |x| := by
    intro x
    have := hA.dbl.error x
    have e : (1 : ℝ) / 2 ^ 53 = v / 4 := by rw [hv]; norm_num
    rwa [e] at this
  set N := ra * rb with hN
  have hN0 : 0 < N := mul_pos ha hb
  -- the denominator
  have hprod := rel_bounds hfl (mul_nonneg ra0.le rb0.le)
  set D := A.dbl (ra' * rb') with hD
  have hv4 : 0 ≤ 1 - v / 4 := by linarith
  have D1 : (1 - 3 * v) * N ≤ D := by
    have h1 : ((1 - v) * ra) * ((1 - v) * rb) ≤ ra' * rb' :=
      mul_le_mul ra1 rb1 (mul_pos hv1 hb).le ra0.le
    have h2 := mul_le_mul_of_nonneg_left h1 hv4
    have h3 : (1 - 3 * v) * N ≤ (1 - v / 4) * (((1 - v) * ra) * ((1 - v) * rb)) := by
      have : (1 - v / 4) * (((1 - v) * ra) * ((1 - v) * rb)) = ((1 - v / 4) * (1 - v) * (1 - v)) * N := by
        rw [hN]; ring
      rw [this]
      refine mul_le_mul_of_nonneg_right ?_ hN0.le
      rw [hv]; norm_num
    linarith [hprod.1]
  have D2 : D ≤ (1 + 3 * v) * N := by
    have h1 : ra' * rb' ≤ ((1 + v) * ra) * ((1 + v) * rb) :=
      mul_le_mul ra2 rb2 rb0.le (by positivity)
    have h2 := mul_le_mul_of_nonneg_left h1 (by linarith : 0 ≤ 1 + v / 4)
    have h3 : (1 + v / 4) * (((1 + v) * ra) * ((1 + v) * rb)) ≤ (1 + 3 * v) * N := by
      have : (1 + v / 4) * (((1 + v) * ra) * ((1 + v) * rb)) = ((1 + v / 4) * (1 + v) * (1 + v)) * N := by
        rw [hN]; ring
      rw [this]
      refine mul_le_mul_of_nonneg_right ?_ hN0.le
      rw [hv]; norm_num
    linarith [hprod.2]
  have D0 : N / 2 ≤ D := by
    have : (1 : ℝ) / 2 ≤ 1 - 3 * v := by rw [hv]; norm_num
    have := mul_le_mul_of_nonneg_right this hN0.le
    linarith
  have Dpos : 0 < D := by linarith
  -- the numerator
  have hcs : |a.x * b.x| + |a.y * b.y| ≤ N := by
    refine abs_le_of_sq_le_sq' ?_ hN0.le |>.2
    have h1 : N ^ 2 = (a.x * a.x + a.y * a.y) * (b.x * b.x + b.y * b.y) := by
      rw [← sa, ← sb, hN]; ring
    rw [h1, abs_mul, abs_mul]
    have := sq_nonneg (|a.x| * |b.y| - |a.y| * |b.x|)
    have e1 := abs_mul_abs_self a.x
    have e2 := abs_mul_abs_self a.y
    have e3 := abs_mul_abs_self b.x
    have e4 := abs_mul_abs_self b.y
    rw [← e1, ← e2, ← e3, ← e4]
    nlinarith
  set dot := a.x * b.x + a.y * b.y with hdot
  have hdot1 : |dot| ≤ N := (abs_add_le _ _).trans hcs
  set S := A.dbl (a.x * b.x) + A.dbl (a.y * b.y) with hS
  have S1 : |S - dot| ≤ v / 4 * N := by
    have h1 := hfl (a.x * b.x)
    have h2 := hfl (a.y * b.y)
    have e : S - dot = (A.dbl (a.x * b.x) - a.x * b.x) + (A.dbl (a.y * b.y) - a.y * b.y) := by
      rw [hS, hdot]; ring
    rw [e]
    refine (abs_add_le _ _).trans ?_
    have := mul_le_mul_of_nonneg_left hcs (by linarith : 0 ≤ v / 4)
    linarith
  have S2 : |S| ≤ 2 * N := by
    have := abs_sub_abs_le_abs_sub S dot
    have : v / 4 * N ≤ 1 * N := mul_le_mul_of_nonneg_right (by rw [hv]; norm_num) hN0.le
    linarith
  set d' := A.dbl S with hd'
  have dd : |d' - dot| ≤ v * N := by
    have h1 := hfl S
    have h2 := mul_le_mul_of_nonneg_left S2 (by linarith : 0 ≤ v / 4)
    have := abs_sub_le d' S dot
    nlinarith
  -- the quotient
  set c := dot / N with hc
  have hc1 : |c| ≤ 1 := by
    rw [hc, abs_div, abs_of_pos hN0, div_le_one hN0]; exact hdot1
  have hcN : c * N = dot := div_mul_cancel₀ _ hN0.ne'
  set q := d' / D with hq
  have hqD : q * D = d' := div_mul_cancel₀ _ Dpos.ne'
  have hqc : |q - c| ≤ 8 * v := by
    have h1 : (q - c) * D = (d' - dot) + c * (N - D) := by
      rw [sub_mul, hqD, ← hcN]; ring
    have h2 : |c * (N - D)| ≤ 3 * v * N := by
      rw [abs_mul]
      have h3 : |N - D| ≤ 3 * v * N := by
        rw [abs_le]; constructor <;> linarith
      calc |c| * |N - D| ≤ 1 * |N - D| := mul_le_mul_of_nonneg_right hc1 (abs_nonneg _)
        _ ≤ _ := by linarith
    have h3 : |q - c| * D ≤ 4 * v * N := by
      have e2 : |q - c| * D = |(q - c) * D| := by rw [abs_mul, abs_of_pos Dpos]
      rw [e2, h1]
      refine (abs_add_le _ _).trans ?_
      linarith
    by_contra hcon
    rw [not_le] at hcon
    have h4 : 8 * v * (N / 2) ≤ 8 * v * D := mul_le_mul_of_nonneg_left D0 (by linarith)
    have h5 : 8 * v * D < |q - c| * D := mul_lt_mul_of_pos_right hcon Dpos
    linarith
  refine ⟨ra0.ne', Dpos.ne', ?_, hc1⟩
  have h1 := hfl q
  have hq2 : |q| ≤ 2 := by
    have := abs_sub_abs_le_abs_sub q c
    have : 8 * v ≤ 1 := by rw [hv]; norm_num
    linarith
  have h2 := mul_le_mul_of_nonneg_left hq2 (by linarith : 0 ≤ v / 4)
  have := abs_sub_le (A.dbl q) q c
  have e : (16 : ℝ) / 2 ^ 51 = 16 * v := by rw [hv]; ring
  rw [e]
  linarith

/-- The neighbour test. -/
theorem decide_neighbor {A : Arith} (hA : A.Correct) {a b : PointXYZIR ℝ}
    (ha : 0 < xyNorm a.x a.y) (hb : 0 < xyNorm b.x b.y) {d : ℝ} (h0 : 0 ≤ d) (h1 : d ≤ 180)
    (hm0 : 1 / 2 ^ 22 < angleXY a b) (hm1 : angleXY a b < Real.pi - 1 / 2 ^ 22)
    (hm : 1 / 2 ^ 22 < |angleXY a b - d * Real.pi / 180|) :
    Rounded.isNeighborXY A (Rounded.degreeToRadian A d) a b =
      isNeighborXY (degreeToRadian d) a b := by
  obtain ⟨k1, k2, k3, k4⟩ := cos_near hA ha hb
  have hpi := Real.pi_pos
  have hpi' := Real.pi_lt_d2
  set c := (a.x * b.x + a.y * b.y) / (xyNorm a.x a.y * xyNorm b.x b.y) with hc
  have hang : angleXY a b = Real.arccos c := by
    rw [hc, xyNorm_eq, xyNorm_eq]; rfl
  rw [hang] at hm0 hm1 hm
  have hc1 := abs_le.1 k4
  set α := Real.arccos c with hα
  have hcos : Real.cos α = c := Real.cos_arccos hc1.1 hc1.2
  -- the cosine is not too close to ±1
  have far : ∀ β : ℝ, 1 / 2 ^ 22 ≤ β → β ≤ Real.pi → Real.cos β ≤ 1 - 16 / 2 ^ 51 := by
    intro β hβ hβ'
    have h2 := Real.mul_le_sin (x := β / 2) (by linarith [show (0:ℝ) ≤ 1 / 2 ^ 22 by norm_num]) (by linarith)
    have h3 : (1 : ℝ) / 2 ^ 22 / 4 ≤ 2 / Real.pi * (β / 2) := by
      have : 2 / Real.pi * (β / 2) = β / Real.pi := by field_simp
      rw [this, le_div_iff₀ hpi]
      nlinarith
    have h4 : (1 : ℝ) / 2 ^ 22 / 4 ≤ Real.sin (β / 2) := h3.trans h2
    have h5 : Real.cos β = 1 - 2 * Real.sin (β / 2) ^ 2 := by
      have := Real.cos_sq' (β / 2)
      have h6 : Real.cos β = 2 * Real.cos (β / 2) ^ 2 - 1 := by
        rw [← Real.cos_two_mul]; congr 1; ring
      rw [h6, this]; ring
    have h7 : ((1 : ℝ) / 2 ^ 22 / 4) ^ 2 ≤ Real.sin (β / 2) ^ 2 := pow_le_pow_left₀ (by norm_num) h4 2
    rw [h5]
    norm_num at h7 ⊢
    linarith
  have hup : c ≤ 1 - 16 / 2 ^ 51 := by
    rw [← hcos]; exact far α hm0.le (Real.arccos_le_pi c)
  have hlo : -(1 - 16 / 2 ^ 51) ≤ c := by
    have := far (Real.pi - α) (by linarith) (by linarith [Real.arccos_nonneg c])
    rw [Real.cos_pi_sub, hcos] at this
    linarith
  set q := A.dbl (A.dbl (A.dbl (a.x * b.x) + A.dbl (a.y * b.y)) /
        A.dbl (Rounded.xyNorm A a.x a.y * Rounded.xyNorm A b.x b.y)) with hq
  have k3' := abs_le.1 k3
  have hq1 : -1 ≤ q ∧ q ≤ 1 := by constructor <;> linarith
  have hclose := arccos_close hq1 hc1
  have hsq : (Real.arccos q - α) ^ 2 ≤ (7 / 8 / 2 ^ 22) ^ 2 := by
    have h2 : Real.pi ^ 2 / 2 ≤ 6 := by nlinarith
    have h3 : Real.pi ^ 2 / 2 * |q - c| ≤ 6 * (16 / 2 ^ 51) :=
      mul_le_mul h2 k3 (abs_nonneg _) (by norm_num)
    refine hclose.trans (h3.trans ?_)
    norm_num
  have hd := abs_le.1 (abs_le_of_sq_le_sq hsq (by norm_num))
  have hac := abs_le.1 (hA.acos q hq1.1 hq1.2)
  have hth := abs_le.1 (degreeToRadian_near hA h0 h1)
  have hne : ¬ (xyNorm a.x a.y = 0 ∧ xyNorm b.x b.y = 0) := fun h => ha.ne' h.1
  have hne' : ¬ (Rounded.xyNorm A a.x a.y = 0 ∧ Rounded.xyNorm A b.x b.y = 0) := fun h => k1 h.1
  have hns : ¬ (q < -1 ∨ 1 < q) := by
    rintro (h | h)
    · linarith [hq1.1]
    · linarith [hq1.2]
  simp only [Rounded.isNeighborXY, isNeighborXY, Rounded.calcRadian, calcRadian, if_neg hne, if_neg hne',
    if_neg k2, if_neg (mul_pos ha hb).ne', ← hq, if_neg hns, bind, Except.bind, pure, Except.pure,
    Except.ok.injEq, decide_eq_decide]
  have eT : d * Real.pi / 180 = degreeToRadian d := rfl
  rw [eT] at hm
  norm_num at hm hd hac hth
  rcases lt_abs.1 hm with hm | hm
  · constructor <;> intro _ <;> linarith
  · constructor <;> intro _ <;> linarith

end Verif.Extraction
