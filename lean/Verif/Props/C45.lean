/-
C45 robust weights, C73 robust scale of the errors.
-/
import Verif.Model.Optimizer
import Verif.Props.C25
import Mathlib.Analysis.SpecialFunctions.Sqrt
import Mathlib.Analysis.Calculus.Deriv.MeanValue
import Mathlib.Analysis.Calculus.Deriv.Mul
import Mathlib.Analysis.Calculus.Deriv.Add
import Mathlib.Analysis.SpecialFunctions.Pow.Real

set_option autoImplicit false

namespace Verif.Opt

open Matrix

/-! ### C45 -/

/-- C45: as a function of the residual the loss is the textbook Huber loss. -/
theorem C45_textbook (r k : ℝ) (hk : 0 < k) :
    huber (r ^ 2) k = if |r| ≤ k then r ^ 2 else 2 * k * |r| - k ^ 2 := by
  unfold huber
  have h1 : r ^ 2 < k * k ↔ |r| < k := by
    rw [← sq, sq_lt_sq, abs_of_pos hk]
  by_cases h : |r| < k
  · rw [if_pos (h1.2 h), if_pos h.le]
  · rw [if_neg (fun h' => h (h1.1 h')), Real.sqrt_sq_eq_abs]
    by_cases h' : |r| ≤ k
    · have : |r| = k := le_antisymm h' (not_lt.1 h)
      rw [if_pos h', ← sq_abs r, this]
      ring
    · rw [if_neg h', sq k]

/-- C45: the weight is the derivative of the loss, at every error, the switch point included. -/
theorem C45_derivative (e k : ℝ) (hk : 0 < k) :
    HasDerivAt (fun x => huber x k) (huberDerivative e k) e := by
  have hkk : 0 < k * k := mul_pos hk hk
  have right : ∀ e, 0 < e → HasDerivAt (fun x => 2 * k * Real.sqrt x - k * k) (k / Real.sqrt e) e := by
    intro e he
    refine (((Real.hasDerivAt_sqrt he.ne').const_mul (2 * k)).sub_const (k * k)).congr_deriv ?_
    have : Real.sqrt e ≠ 0 := (Real.sqrt_pos.2 he).ne'
    field_simp
  rcases lt_trichotomy e (k * k) with h | h | h
  · have hd : huberDerivative e k = 1 := by unfold huberDerivative; rw [if_pos h]
    rw [hd]
    refine (hasDerivAt_id e).congr_of_eventuallyEq ?_
    filter_upwards [Iio_mem_nhds h] with x hx
    unfold huber
    rw [if_pos (Set.mem_Iio.1 hx)]
    rfl
  · subst h
    have hs : Real.sqrt (k * k) = k := Real.sqrt_mul_self hk.le
    have hd : huberDerivative (k * k) k = 1 := by
      unfold huberDerivative
      rw [if_neg (lt_irrefl _), hs, div_self hk.ne']
    have h0 : huber (k * k) k = k * k := by
      unfold huber
      rw [if_neg (lt_irrefl _), hs]
      ring
    rw [hd]
    have hl : HasDerivWithinAt (fun x => huber x k) 1 (Set.Iic (k * k)) (k * k) := by
      refine (hasDerivWithinAt_id (k * k) _).congr (fun x hx => ?_) h0
      rcases lt_or_eq_of_le (Set.mem_Iic.1 hx) with hx | hx
      · unfold huber
        rw [if_pos hx]
        rfl
      · subst hx
        exact h0
    have hr : HasDerivWithinAt (fun x => huber x k) 1 (Set.Ici (k * k)) (k * k) := by
      have := (right (k * k) hkk).hasDerivWithinAt (s := Set.Ici (k * k))
      rw [hs, div_self hk.ne'] at this
      refine this.congr (fun x hx => ?_) ?_
      · unfold huber
        rw [if_neg (not_lt.2 (Set.mem_Ici.1 hx))]
      · unfold huber
        rw [if_neg (lt_irrefl _)]
    have := hl.union hr
    rw [Set.Iic_union_Ici] at this
    exact hasDerivWithinAt_univ.1 this
  · have hd : huberDerivative e k = k / Real.sqrt e := by
      unfold huberDerivative; rw [if_neg (not_lt.2 h.le)]
    rw [hd]
    refine (right e (hkk.trans h)).congr_of_eventuallyEq ?_
    filter_upwards [Ioi_mem_nhds h] with x hx
    unfold huber
    rw [if_neg (not_lt.2 (le_of_lt (Set.mem_Ioi.1 hx)))]

/-- C45: the weight is in `(0, 1]`, is 1 exactly up to the switch point, and never grows with the
error. -/
theorem C45_weight (k : ℝ) (hk : 0 < k) :
    (∀ e, 0 < huberDerivative e k ∧ huberDerivative e k ≤ 1) ∧
    (∀ e, huberDerivative e k = 1 ↔ e ≤ k ^ 2) ∧
    (∀ e e', e ≤ e' → huberDerivative e' k ≤ huberDerivative e k) := by
  have hkk : 0 < k * k := mul_pos hk hk
  have hle : ∀ e, k * k ≤ e → k ≤ Real.sqrt e := fun e he => by
    rw [← Real.sqrt_mul_self hk.le]; exact Real.sqrt_le_sqrt he
  have h1 : ∀ e, 0 < huberDerivative e k ∧ huberDerivative e k ≤ 1 := by
    intro e
    unfold huberDerivative
    split
    · norm_num
    · rename_i h
      have := hle e (not_lt.1 h)
      exact ⟨div_pos hk (hk.trans_le this), (div_le_one (hk.trans_le this)).2 this⟩
  refine ⟨h1, ?_, ?_⟩
  · intro e
    unfold huberDerivative
    split
    · rename_i h
      simp only [true_iff]
      rw [sq]; exact h.le
    · rename_i h
      have h' := hle e (not_lt.1 h)
      rw [div_eq_one_iff_eq (hk.trans_le h').ne', sq]
      constructor
      · intro h2
        have : Real.sqrt e * Real.sqrt e = e := Real.mul_self_sqrt (hkk.le.trans (not_lt.1 h))
        rw [← h2] at this
        exact this.ge
      · intro h2
        rw [le_antisymm h2 (not_lt.1 h), Real.sqrt_mul_self hk.le]
  · intro e e' hee
    by_cases h : e < k * k
    · have : huberDerivative e k = 1 := by unfold huberDerivative; rw [if_pos h]
      rw [this]
      exact (h1 e').2
    · have h' : ¬ e' < k * k := fun h2 => h (hee.trans_lt h2)
      unfold huberDerivative
      rw [if_neg h, if_neg h']
      exact div_le_div_of_nonneg_left hk.le (hk.trans_le (hle e (not_lt.1 h))) (Real.sqrt_le_sqrt hee)

/-- C45: the loss is continuous, strictly increasing, at most the squared error, and non-negative for
non-negative errors. -/
theorem C45_loss (k : ℝ) (hk : 0 < k) :
    Continuous (fun e => huber e k) ∧ StrictMono (fun e => huber e k) ∧
    (∀ e, huber e k ≤ e) ∧ ∀ e, 0 ≤ e → 0 ≤ huber e k := by
  have hc : Continuous (fun e => huber e k) :=
    continuous_iff_continuousAt.2 fun e => (C45_derivative e k hk).continuousAt
  have hkk : 0 < k * k := mul_pos hk hk
  have hm : StrictMono (fun e => huber e k) := by
    refine strictMono_of_deriv_pos fun e => ?_
    rw [(C45_derivative e k hk).deriv]
    exact ((C45_weight k hk).1 e).1
  refine ⟨hc, hm, ?_, ?_⟩
  · intro e
    unfold huber
    split
    · exact le_rfl
    · rename_i h
      have : Real.sqrt e * Real.sqrt e = e := Real.mul_self_sqrt (hkk.le.trans (not_lt.1 h))
      nlinarith [sq_nonneg (Real.sqrt e - k)]
  · intro e he
    have : huber 0 k = 0 := by unfold huber; rw [if_pos hkk]
    rw [← this]
    exact hm.monotone he

/-- C45: the weights the optimiser uses: one per error, in `(0, 1]`, the derivative of the loss with
`k = 1.345` at the normalised error. -/
theorem C45_optimizer_weights (normalized : List ℝ) :
    (computeWeights normalized).length = normalized.length ∧
    ∀ (i : ℕ) (e : ℝ), normalized[i]? = some e → ∃ w, (computeWeights normalized)[i]? = some w ∧ 0 < w ∧ w ≤ 1 ∧
      HasDerivAt (fun x => huber x 1.345) w e := by
  refine ⟨by simp [computeWeights], fun i e h => ?_⟩
  have hk : (0 : ℝ) < 1.345 := by norm_num
  refine ⟨huberDerivative e 1.345, by simp [computeWeights, h, huberK], ?_, ?_, C45_derivative e _ hk⟩
  · exact ((C45_weight _ hk).1 e).1
  · exact ((C45_weight _ hk).1 e).2

/-! ### C73 -/

/-- C73: the scale of a non-empty list of errors is `b` times the median of the absolute deviations
from the median; it is non-negative; an empty list is refused. -/
theorem C73_scale {nth : Nth} (hn : Lib.IsNthElement nth) (v : List ℝ) :
    (v = [] → scale nth v = .error .invalidArgument) ∧
    (v ≠ [] → ∃ m d s, Lib.IsMedian v m ∧ Lib.IsMedian (v.map fun x => |x - m|) d ∧
      scale nth v = .ok s ∧ s = 1.482602218505602 * d ∧ 0 ≤ s) := by
  constructor
  · rintro rfl
    rfl
  · intro hv
    obtain ⟨m, hm, hm'⟩ := Lib.C26_median_is_median hn v hv
    obtain ⟨d, hd, hd'⟩ := Lib.C26_median_is_median hn (v.map fun x => |x - m|) (by simpa using hv)
    have hd0 : 0 ≤ d := by
      obtain ⟨a, b, ha, hb, rfl⟩ := hd'
      have h0 : ∀ x ∈ v.map (fun x => |x - m|), 0 ≤ x := by
        intro x hx
        obtain ⟨y, -, rfl⟩ := List.mem_map.1 hx
        exact abs_nonneg _
      have := h0 a ha.1
      have := h0 b hb.1
      linarith
    refine ⟨m, d, _, hm', hd', ?_, rfl, by positivity⟩
    simp [scale, medianAbsoluteDeviation, hm, hd, bind, Except.bind, pure, Except.pure]

/-- C73: shifting all errors leaves the scale unchanged, multiplying them by `c` multiplies it by
`|c|`. -/
theorem C73_scale_affine {nth : Nth} (hn : Lib.IsNthElement nth) (v : List ℝ) (s c d : ℝ)
    (h : scale nth v = .ok s) : scale nth (v.map fun x => c * x + d) = .ok (|c| * s) := by
  have hv : v ≠ [] := by
    rintro rfl
    rw [(C73_scale hn []).1 rfl] at h
    cases h
  obtain ⟨m, hm, -⟩ := Lib.C26_median_is_median hn v hv
  obtain ⟨a, ha, -⟩ := Lib.C26_median_is_median hn (v.map fun x => |x - m|) (by simpa using hv)
  have h1 : scale nth v = .ok (1.482602218505602 * a) := by
    simp [scale, medianAbsoluteDeviation, hm, ha, bind, Except.bind, pure, Except.pure]
  rw [h1] at h
  have hs : s = 1.482602218505602 * a := by injection h with h; exact h.symm
  have hm2 := Lib.C26_median_affine hn v m c d hm
  have ha2 := Lib.C26_median_affine hn (v.map fun x => |x - m|) a |c| 0 ha
  have hmap : (v.map fun x => c * x + d).map (fun x => |x - (c * m + d)|) =
      (v.map fun x => |x - m|).map fun x => |c| * x + 0 := by
    rw [List.map_map, List.map_map]
    refine List.map_congr_left fun x _ => ?_
    simp only [Function.comp]
    rw [← abs_mul, add_zero]
    congr 1
    ring
  unfold scale medianAbsoluteDeviation
  simp only [hm2, bind, Except.bind]
  rw [hmap, ha2]
  simp only [pure, Except.pure, hs]
  congr 1
  ring

theorem median_le {v : List ℝ} {m : ℝ} (hm : Lib.IsMedian v m) (u : ℝ)
    (h : v.length < 2 * v.countP (· ≤ u)) : m ≤ u := by
  have le_u : ∀ k a, k < v.countP (· ≤ u) → Lib.OrderStat v k a → a ≤ u := by
    intro k a hk ha
    by_contra hlt
    have := ha.2.1
    have h2 : v.countP (· ≤ u) ≤ v.countP (· < a) := List.countP_mono_left (by
      intro x _ hx
      simp only [decide_eq_true_eq] at hx ⊢
      exact hx.trans_lt (not_le.1 hlt))
    omega
  obtain ⟨a, b, ha, hb, rfl⟩ := hm
  have h1 := le_u _ a (by omega) ha
  have h2 := le_u _ b (by omega) hb
  linarith

theorem le_median {v : List ℝ} {m : ℝ} (hm : Lib.IsMedian v m) (u : ℝ)
    (h : v.length < 2 * v.countP (u ≤ ·)) : u ≤ m := by
  have u_le : ∀ k a, v.length ≤ k + v.countP (u ≤ ·) → Lib.OrderStat v k a → u ≤ a := by
    intro k a hk ha
    by_contra hlt
    have h3 := ha.2.2
    have e1 := List.length_eq_countP_add_countP (fun x => decide (u ≤ x)) (l := v)
    have h2 : v.countP (· ≤ a) ≤ v.countP (fun x => ¬ decide (u ≤ x) = true) := List.countP_mono_left (by
      intro x _ hx
      simp only [decide_eq_true_eq] at hx ⊢
      exact not_le.2 (hx.trans_lt (not_le.1 hlt)))
    omega
  obtain ⟨a, b, ha, hb, rfl⟩ := hm
  have h1 := u_le _ a (by omega) ha
  have h2 := u_le _ b (by omega) hb
  linarith

/-- C73: the scale is robust: if more than half of the errors lie in an interval, the others - however
large - cannot push the scale above `b` times the length of that interval. -/
theorem C73_scale_robust {nth : Nth} (hn : Lib.IsNthElement nth) (v : List ℝ) (s lo hi : ℝ)
    (h : scale nth v = .ok s)
    (hmost : v.length < 2 * v.countP (fun x => decide (lo ≤ x ∧ x ≤ hi))) :
    s ≤ 1.482602218505602 * (hi - lo) := by
  have hv : v ≠ [] := by rintro rfl; simp at hmost
  obtain ⟨m, d, s', hm, hd, hs, hs', -⟩ := (C73_scale hn v).2 hv
  rw [hs] at h
  injection h with h
  subst h
  have hle : m ≤ hi := median_le hm hi (lt_of_lt_of_le hmost (Nat.mul_le_mul_left 2
    (List.countP_mono_left (by intro x _ hx; simp only [decide_eq_true_eq] at hx ⊢; exact hx.2))))
  have hge : lo ≤ m := le_median hm lo (lt_of_lt_of_le hmost (Nat.mul_le_mul_left 2
    (List.countP_mono_left (by intro x _ hx; simp only [decide_eq_true_eq] at hx ⊢; exact hx.1))))
  have hdle : d ≤ hi - lo := by
    refine median_le hd _ ?_
    rw [List.length_map, List.countP_map]
    refine lt_of_lt_of_le hmost (Nat.mul_le_mul_left 2 (List.countP_mono_left ?_))
    intro x _ hx
    simp only [decide_eq_true_eq, Function.comp] at hx ⊢
    rw [abs_le]
    constructor <;> linarith [hx.1, hx.2]
  rw [hs']
  have : (0 : ℝ) ≤ 1.482602218505602 := by norm_num
  exact mul_le_mul_of_nonneg_left hdle this

/-! Non-vacuity. -/

example : huber 4 1 = 3 := by
  have := C45_textbook 2 1 one_pos
  norm_num at this
  exact this
example : huberDerivative 4 1 = 1 / 2 := by
  unfold huberDerivative
  have : Real.sqrt 4 = 2 := by rw [show (4 : ℝ) = 2 ^ 2 by norm_num]; exact Real.sqrt_sq (by norm_num)
  rw [if_neg (by norm_num), this]
/-- A list with an outlier meeting the hypothesis of `C73_scale_robust`. -/
example : [(0 : ℝ), 1, 1000000].length < 2 * [(0 : ℝ), 1, 1000000].countP
    (fun x => decide ((0 : ℝ) ≤ x ∧ x ≤ 1)) := by
  norm_num [List.countP_cons]

end Verif.Opt
