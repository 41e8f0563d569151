/-
C143: the one-dimensional filters with the rounding of the machine.
-/
import Verif.Model.Filter1DRounded
import Verif.Lemmas.Rounding
import Verif.Props.C39

set_option autoImplicit false

namespace Verif.Ekf

open Verif.Extraction

/-! ### Rounding to nearest -/

section
variable {p : ℕ} {fl : ℝ → ℝ}

theorem isFloat_zero : IsFloat p 0 := ⟨0, 0, by simp, by simp⟩

theorem isFloat_one : IsFloat p 1 := ⟨1, 0, by simpa using one_le_pow₀ (by norm_num : (1 : ℤ) ≤ 2), by simp⟩

theorem isFloat_neg {x : ℝ} (h : IsFloat p x) : IsFloat p (-x) := by
  obtain ⟨m, e, h1, h2⟩ := h
  exact ⟨-m, e, by rw [abs_neg]; exact h1, by rw [h2]; push_cast; ring⟩

theorem fl_mono (h : RoundsToNearest p fl) {x y : ℝ} (hxy : x ≤ y) : fl x ≤ fl y := by
  rcases hxy.eq_or_lt with rfl | hlt
  · exact le_rfl
  by_contra hc
  rw [not_le] at hc
  have h1 := sq_le_sq.2 ((h x).2 _ (h y).1)
  have h2 := sq_le_sq.2 ((h y).2 _ (h x).1)
  nlinarith

theorem fl_zero (h : RoundsToNearest p fl) : fl 0 = 0 := h.exact isFloat_zero

theorem fl_one (h : RoundsToNearest p fl) : fl 1 = 1 := h.exact isFloat_one

theorem fl_fl (h : RoundsToNearest p fl) (x : ℝ) : fl (fl x) = fl x := h.exact (h x).1

theorem fl_nonneg (h : RoundsToNearest p fl) {x : ℝ} (hx : 0 ≤ x) : 0 ≤ fl x := by
  have := fl_mono h hx
  rwa [fl_zero h] at this

theorem fl_le_of_float (h : RoundsToNearest p fl) {x y : ℝ} (hy : IsFloat p y) (hxy : x ≤ y) : fl x ≤ y := by
  have := fl_mono h hxy
  rwa [h.exact hy] at this

theorem le_fl_of_float (h : RoundsToNearest p fl) {x y : ℝ} (hx : IsFloat p x) (hxy : x ≤ y) : x ≤ fl y := by
  have := fl_mono h hxy
  rwa [h.exact hx] at this

/-- Only 0 is rounded to 0. -/
theorem fl_eq_zero (h : RoundsToNearest p fl) (hp : 0 < p) {x : ℝ} : fl x = 0 ↔ x = 0 := by
  constructor
  · intro h0
    have h1 := h.error x
    rw [h0, zero_sub, abs_neg] at h1
    have h2 : (1 : ℝ) / 2 ^ p ≤ 1 / 2 := by
      have : (2 : ℝ) ^ 1 ≤ 2 ^ p := pow_le_pow_right₀ (by norm_num) hp
      rw [pow_one] at this
      exact one_div_le_one_div_of_le (by norm_num) this
    have h3 := abs_nonneg x
    have h4 := mul_le_mul_of_nonneg_right h2 h3
    have : |x| = 0 := by linarith
    exact abs_eq_zero.1 this
  · rintro rfl
    exact fl_zero h

/-! ### One update -/

/-- The gain is a number between 0 and 1, unless both deviations are 0. -/
theorem gain_bounds (h : RoundsToNearest p fl) (hp : 0 < p) (s o : ℝ) (hne : s ≠ 0 ∨ o ≠ 0) :
    ∃ k, Rounded.gain fl s o = some k ∧ 0 ≤ k ∧ k ≤ 1 := by
  have hs := fl_nonneg h (mul_self_nonneg s)
  have ho := fl_nonneg h (mul_self_nonneg o)
  have hle : fl (s * s) ≤ fl (fl (s * s) + fl (o * o)) := le_fl_of_float h (h _).1 (by linarith)
  have hd : fl (fl (s * s) + fl (o * o)) ≠ 0 := by
    rw [Ne, fl_eq_zero h hp]
    intro h0
    have h1 : fl (s * s) = 0 := by linarith
    have h2 : fl (o * o) = 0 := by linarith
    rw [fl_eq_zero h hp, mul_self_eq_zero] at h1 h2
    rcases hne with h3 | h3
    · exact h3 h1
    · exact h3 h2
  have hpos : 0 < fl (fl (s * s) + fl (o * o)) := lt_of_le_of_ne (hs.trans hle) (Ne.symm hd)
  refine ⟨_, by simp only [Rounded.gain]; rw [if_neg hd], fl_nonneg h (div_nonneg hs hpos.le), ?_⟩
  exact fl_le_of_float h isFloat_one ((div_le_one hpos).2 hle)

theorem predicted_nonneg (h : RoundsToNearest p fl) (f : Simple1DFilter) (s : ℝ) (t : ℤ) :
    0 ≤ Rounded.predicted fl f s t := fl_nonneg h (Real.sqrt_nonneg _)

theorem predicted_isFloat (h : RoundsToNearest p fl) (f : Simple1DFilter) (s : ℝ) (t : ℤ) :
    IsFloat p (Rounded.predicted fl f s t) := (h _).1

theorem predicted_ne_zero (h : RoundsToNearest p fl) (hp : 0 < p) (f : Simple1DFilter) {s : ℝ} (t : ℤ)
    (hs : s ≠ 0) : Rounded.predicted fl f s t ≠ 0 := by
  unfold Rounded.predicted
  simp only
  rw [Ne, fl_eq_zero h hp]
  have h1 : 0 < s * s := mul_self_pos.2 hs
  have h2 : 0 < fl (s * s) := lt_of_le_of_ne (fl_nonneg h h1.le)
    fun h0 => h1.ne' ((fl_eq_zero h hp).1 h0.symm)
  have h3 := fl_nonneg h (mul_self_nonneg (fl (f.proc * Rounded.elapsed fl f t)))
  have h4 : 0 < fl (fl (s * s) + fl (fl (f.proc * Rounded.elapsed fl f t) * fl (f.proc * Rounded.elapsed fl f t))) :=
    h2.trans_le (le_fl_of_float h (h _).1 (by linarith))
  exact (Real.sqrt_pos.2 h4).ne'

/-- A step of a gain between 0 and 1 upwards. -/
theorem step_up (h : RoundsToNearest p fl) (hp : 0 < p) {x y k : ℝ} (hx : IsFloat p x) (hk0 : 0 ≤ k) (hk1 : k ≤ 1)
    (hxy : x ≤ y) : x ≤ fl (x + fl (k * fl (y - x))) ∧
      fl (x + fl (k * fl (y - x))) ≤ y + 3 / 2 ^ p * (|x| + |y|) := by
  have hd : 0 ≤ y - x := sub_nonneg.2 hxy
  have hd' := fl_nonneg h hd
  have h1 : 0 ≤ fl (k * fl (y - x)) := fl_nonneg h (mul_nonneg hk0 hd')
  refine ⟨le_fl_of_float h hx (by linarith), ?_⟩
  have h2 : fl (k * fl (y - x)) ≤ fl (y - x) :=
    fl_le_of_float h (h _).1 (mul_le_of_le_one_left hd' hk1)
  have h3 : fl (x + fl (k * fl (y - x))) ≤ fl (x + fl (y - x)) := fl_mono h (by linarith)
  refine h3.trans ?_
  obtain ⟨u, hu⟩ : ∃ u : ℝ, u = 1 / 2 ^ p := ⟨_, rfl⟩
  have hu0 : 0 ≤ u := by rw [hu]; positivity
  have hu1 : u ≤ 1 / 2 := by
    have : (2 : ℝ) ^ 1 ≤ 2 ^ p := pow_le_pow_right₀ (by norm_num) hp
    rw [pow_one] at this
    rw [hu]
    exact one_div_le_one_div_of_le (by norm_num) this
  have e1 := h.error (y - x)
  have e2 := h.error (x + fl (y - x))
  rw [← hu] at e1 e2
  rw [abs_of_nonneg hd] at e1
  have hdy : y - x ≤ |x| + |y| := by
    have := neg_abs_le x
    have := le_abs_self y
    linarith
  have a1 := (abs_le.1 e1).2
  have a2 := (abs_le.1 e2).2
  have a3 : |x + fl (y - x)| ≤ |y| + u * (y - x) := by
    have : x + fl (y - x) = y + (fl (y - x) - (y - x)) := by ring
    rw [this]
    exact (abs_add_le _ _).trans (by linarith)
  have a4 := mul_le_mul_of_nonneg_left a3 hu0
  have e3 : (3 : ℝ) / 2 ^ p = 3 * u := by rw [hu]; ring
  rw [e3]
  have a5 := mul_le_mul_of_nonneg_left hdy hu0
  have a6 : u * (u * (y - x)) ≤ 1 / 2 * (u * (y - x)) := mul_le_mul_of_nonneg_right hu1 (mul_nonneg hu0 hd)
  have a7 : u * |y| ≤ u * (|x| + |y|) := mul_le_mul_of_nonneg_left (by linarith [abs_nonneg x]) hu0
  have a8 : 0 ≤ u * (|x| + |y|) := mul_nonneg hu0 (by positivity)
  nlinarith

/-- A step downwards. -/
theorem step_down (h : RoundsToNearest p fl) (hp : 0 < p) {x y k : ℝ} (hx : IsFloat p x) (hk0 : 0 ≤ k) (hk1 : k ≤ 1)
    (hxy : y ≤ x) : fl (x + fl (k * fl (y - x))) ≤ x ∧
      y - 3 / 2 ^ p * (|x| + |y|) ≤ fl (x + fl (k * fl (y - x))) := by
  have hn : RoundsToNearest p fun z => - fl (-z) := by
    intro z
    refine ⟨isFloat_neg (h _).1, fun w hw => ?_⟩
    have := (h (-z)).2 (-w) (isFloat_neg hw)
    rw [← abs_neg, ← abs_neg (w - z)]
    convert this using 2 <;> ring
  have := step_up hn hp (isFloat_neg hx) hk0 hk1 (neg_le_neg hxy)
  simp only [abs_neg] at this
  have e : -fl (-(-x + -fl (-(k * -fl (-(-y - -x)))))) = - fl (x + fl (k * fl (y - x))) := by
    congr 2
    rw [show -(-y - -x) = y - x by ring, show -(k * -fl (y - x)) = k * fl (y - x) by ring]
    ring
  rw [e] at this
  exact ⟨by linarith [this.1], by linarith [this.2]⟩

/-- C143: one update of an initialised filter, with any rounding to nearest, any state and any measurement,
unless both deviations are 0: the results are numbers, the deviation is not negative and not larger than the
predicted one, and the value moves towards the measurement, passing it by no more than rounding does. -/
theorem C143_update (h : RoundsToNearest p fl) (hp : 0 < p) (f : Simple1DFilter) (hi : f.initialized = true)
    {x s obs o : ℝ} (t : ℤ) (hx : f.x = some x) (hfx : IsFloat p x) (hs : f.stddev = some s)
    (hne : s ≠ 0 ∨ o ≠ 0) :
    ∃ x' s', Rounded.update fl f (some obs) (some o) t = ⟨true, some x', some s', f.proc, t⟩ ∧
      IsFloat p x' ∧ 0 ≤ s' ∧ s' ≤ Rounded.predicted fl f s t ∧
      (x ≤ obs → x ≤ x' ∧ x' ≤ obs + 3 / 2 ^ p * (|x| + |obs|)) ∧
      (obs ≤ x → x' ≤ x ∧ obs - 3 / 2 ^ p * (|x| + |obs|) ≤ x') := by
  obtain ⟨k, hk, hk0, hk1⟩ := gain_bounds h hp (Rounded.predicted fl f s t) o
    (hne.imp (predicted_ne_zero h hp f t) id)
  have h1k : 0 ≤ fl (1 - k) := fl_nonneg h (by linarith)
  have h1k' : fl (1 - k) ≤ 1 := fl_le_of_float h isFloat_one (by linarith)
  have hsq : fl (Real.sqrt (fl (1 - k))) ≤ 1 :=
    fl_le_of_float h isFloat_one (Real.sqrt_le_one.2 h1k')
  have hsq0 : 0 ≤ fl (Real.sqrt (fl (1 - k))) := fl_nonneg h (Real.sqrt_nonneg _)
  have hp0 := predicted_nonneg h f s t
  refine ⟨fl (x + fl (k * fl (obs - x))), fl (fl (Real.sqrt (fl (1 - k))) * Rounded.predicted fl f s t), ?_,
    (h _).1, fl_nonneg h (mul_nonneg hsq0 hp0),
    fl_le_of_float h (predicted_isFloat h f s t) (mul_le_of_le_one_left hp0 hsq), fun hle => ?_, fun hle => ?_⟩
  · unfold Rounded.update
    rw [hi, hx, hs]
    simp [hk, Rounded.sqrt, not_lt.2 h1k, bind, Option.bind, pure]
  · exact step_up h hp hfx hk0 hk1 hle
  · exact step_down h hp hfx hk0 hk1 hle

end

/-! ### All updates -/

/-- Specification: a measurement as it comes from a message: the value a floating-point number between `lo`
and `hi`, the deviation a positive number. -/
def Measured (p : ℕ) (lo hi : ℝ) (m : Obs) : Prop :=
  ∃ y o, m.1 = some y ∧ m.2.1 = some o ∧ IsFloat p y ∧ lo ≤ y ∧ y ≤ hi ∧ 0 < o

/-- C143: whatever the number of measurements, their deviations and times: after the first one value and
deviation are numbers, the deviation is not negative, and the value is in the range of the values measured, up
to rounding, which does not accumulate. -/
theorem C143_run {p : ℕ} {fl : ℝ → ℝ} (h : RoundsToNearest p fl) (hp : 4 ≤ p) (proc : ℝ) {lo hi M : ℝ} (hlo : -M ≤ lo)
    (hhi : hi ≤ M) (ms : List Obs) (hne : ms ≠ []) (hms : ∀ m ∈ ms, Measured p lo hi m) :
    ∃ x s, (Rounded.run fl (Simple1DFilter.make proc) ms).getX = some x ∧
      (Rounded.run fl (Simple1DFilter.make proc) ms).stddev = some s ∧ 0 ≤ s ∧
      lo - 8 / 2 ^ p * M ≤ x ∧ x ≤ hi + 8 / 2 ^ p * M := by
  suffices hinv : ∃ x s, (Rounded.run fl (Simple1DFilter.make proc) ms).initialized = true ∧
      (Rounded.run fl (Simple1DFilter.make proc) ms).x = some x ∧ IsFloat p x ∧
      (Rounded.run fl (Simple1DFilter.make proc) ms).stddev = some s ∧ 0 ≤ s ∧
      lo - 8 / 2 ^ p * M ≤ x ∧ x ≤ hi + 8 / 2 ^ p * M by
    obtain ⟨x, s, -, h1, -, h2, h3⟩ := hinv
    exact ⟨x, s, h1, h2, h3⟩
  obtain ⟨u, hu⟩ : ∃ u : ℝ, u = 1 / 2 ^ p := ⟨_, rfl⟩
  have hu0 : 0 ≤ u := by rw [hu]; positivity
  have hu1 : u ≤ 1 / 16 := by
    have : (2 : ℝ) ^ 4 ≤ 2 ^ p := pow_le_pow_right₀ (by norm_num) hp
    rw [hu]
    exact one_div_le_one_div_of_le (by norm_num) (by linarith)
  have e8 : (8 : ℝ) / 2 ^ p = 8 * u := by rw [hu]; ring
  have e3 : (3 : ℝ) / 2 ^ p = 3 * u := by rw [hu]; ring
  rw [e8]
  have hM : 0 ≤ M := by
    obtain ⟨m, hm⟩ := List.exists_mem_of_ne_nil _ hne
    obtain ⟨y, o, -, -, -, h1, h2, -⟩ := hms m hm
    linarith
  have hc : 0 ≤ 8 * u * M := by positivity
  induction ms using List.reverseRecOn with
  | nil => exact absurd rfl hne
  | append_singleton ms m ih =>
    obtain ⟨y, o, hy, ho, hfy, h1, h2, h3⟩ := hms m (by simp)
    have hrun : Rounded.run fl (Simple1DFilter.make proc) (ms ++ [m]) =
        Rounded.update fl (Rounded.run fl (Simple1DFilter.make proc) ms) (some y) (some o) m.2.2 := by
      simp [Rounded.run, hy, ho]
    rcases eq_or_ne ms [] with rfl | hms0
    · rw [hrun]
      exact ⟨y, o, rfl, rfl, hfy, rfl, h3.le, by linarith, by linarith⟩
    · obtain ⟨x, s, hi', hx, hfx, hs, hs0, hl, hh⟩ := ih hms0 fun m' hm' => hms m' (by simp [hm'])
      obtain ⟨x', s', hu', hfx', hs0', -, hup, hdown⟩ := C143_update (obs := y) h (by omega) _ hi' m.2.2 hx hfx hs
        (.inr h3.ne')
      rw [hrun, hu']
      refine ⟨x', s', rfl, rfl, hfx', rfl, hs0', ?_⟩
      have hb : 3 * u * (|x| + |y|) ≤ 8 * u * M := by
        have a1 : |x| ≤ M + 8 * u * M := abs_le.2 ⟨by linarith, by linarith⟩
        have a2 : |y| ≤ M := abs_le.2 ⟨by linarith, by linarith⟩
        have a3 : u * M ≤ 1 / 16 * M := mul_le_mul_of_nonneg_right hu1 hM
        have a4 : |x| + |y| ≤ 8 / 3 * M := by linarith
        have := mul_le_mul_of_nonneg_left a4 (by linarith : (0 : ℝ) ≤ 3 * u)
        linarith
      rw [e3] at hup hdown
      rcases le_total x y with hle | hle
      · obtain ⟨b1, b2⟩ := hup hle
        exact ⟨by linarith, by linarith⟩
      · obtain ⟨b1, b2⟩ := hdown hle
        exact ⟨by linarith, by linarith⟩

/-- Without rounding this is the filter of the other theorems. -/
theorem C143_exact (f : Simple1DFilter) (obs o : Option ℝ) (t : ℤ) :
    Rounded.update id f obs o t = f.update obs o t := by
  unfold Rounded.update Simple1DFilter.update
  by_cases hi : f.initialized = true
  · rw [hi]
    simp only [Bool.not_true, Bool.false_eq_true, if_false]
    have hpred : ∀ s, Rounded.predicted id f s t = f.predicted s t := fun s => rfl
    cases hs : f.stddev with
    | none => simp [bind, Option.bind]; cases f.x <;> rfl
    | some s =>
      cases o with
      | none => simp [bind, Option.bind]; cases f.x <;> rfl
      | some o =>
        simp only [bind, Option.bind, pure, hpred, Rounded.gain, id]
        by_cases hd : f.predicted s t * f.predicted s t + o * o = 0
        · rw [if_pos hd, if_pos hd]
          cases f.x <;> rfl
        · rw [if_neg hd, if_neg hd]
          have hp := mul_self_nonneg (f.predicted s t)
          have ho := mul_self_nonneg o
          have hk : f.predicted s t * f.predicted s t / (f.predicted s t * f.predicted s t + o * o) ≤ 1 :=
            div_le_one_of_le₀ (by linarith) (by linarith)
          simp only [Rounded.sqrt, id]
          rw [if_neg (by linarith)]
  · rw [Bool.not_eq_true] at hi
    rw [hi]
    rfl

/-- A filter whose deviation is 0 and which expects no motion stays where it is, whatever is measured. -/
theorem stuck {p : ℕ} {fl : ℝ → ℝ} (h : RoundsToNearest p fl) (hp : 0 < p) (f : Simple1DFilter)
    (hi : f.initialized = true) {x : ℝ} (hx : f.x = some x) (hfx : IsFloat p x) (hs : f.stddev = some 0)
    (hproc : f.proc = 0) (y : ℝ) {o : ℝ} (ho : o ≠ 0) (t : ℤ) :
    Rounded.update fl f (some y) (some o) t = ⟨true, some x, some 0, 0, t⟩ := by
  have h0 := fl_zero h
  have hpred : Rounded.predicted fl f 0 t = 0 := by
    simp [Rounded.predicted, hproc, h0]
  have hd : fl (fl (o * o)) ≠ 0 := by
    rw [fl_fl h, Ne, fl_eq_zero h hp, mul_self_eq_zero]
    exact ho
  have hk : Rounded.gain fl 0 o = some 0 := by
    simp [Rounded.gain, h0, hd]
  unfold Rounded.update
  rw [hi, hx, hs, hproc]
  have hsq : Rounded.sqrt fl 1 = some 1 := by
    simp [Rounded.sqrt, fl_one h, show ¬ (1 : ℝ) < 0 by norm_num]
  simp [hpred, hk, bind, Option.bind, pure, h0, h.exact hfx, hsq, fl_one h]

/-- C143: rounding can make the filter certain: after a value with the deviation 3·2^27 and one with the
deviation 1 the deviation is 0, and without process noise no measurement changes the value any more. Without
rounding the value measured from then on is reached (`C140`). -/
theorem C143_stuck {fl : ℝ → ℝ} (h : RoundsToNearest 53 fl) (x y : ℝ) (t t' : ℤ)
    (ms : List Obs) (lo hi : ℝ) (hms : ∀ m ∈ ms, Measured 53 lo hi m) :
    (Rounded.run fl (Simple1DFilter.make 0)
        ((some x, some 402653184, t) :: (some y, some 1, t') :: ms)).stddev = some 0 ∧
      (Rounded.run fl (Simple1DFilter.make 0) ((some x, some 402653184, t) :: (some y, some 1, t') :: ms)).getX =
        some (fl (x + fl (fl (y - x)))) := by
  have hstart : (Rounded.update fl (Rounded.update fl (Simple1DFilter.make 0) (some x) (some 402653184) t)
      (some y) (some 1) t') = ⟨true, some (fl (x + fl (fl (y - x)))), some 0, 0, t'⟩ := by
    have h0 := fl_zero h
    have f54 : IsFloat 53 162129586585337856 := ⟨9, 54, by norm_num, by norm_num⟩
    have f27 : IsFloat 53 402653184 := ⟨3, 27, by norm_num, by norm_num⟩
    have hsq : Real.sqrt 162129586585337856 = 402653184 := by
      rw [show (162129586585337856 : ℝ) = 402653184 ^ 2 by norm_num, Real.sqrt_sq (by norm_num)]
    have hpred : Rounded.predicted fl ((Simple1DFilter.make 0).init (some x) (some 402653184) t) 402653184 t' =
        402653184 := by
      simp only [Rounded.predicted, Simple1DFilter.init, Simple1DFilter.make, zero_mul, h0, mul_zero, add_zero]
      rw [show (402653184 : ℝ) * 402653184 = 162129586585337856 by norm_num, h.exact f54, h.exact f54, hsq,
        h.exact f27]
    have hsum : fl (162129586585337856 + 1) = 162129586585337856 := by
      have e := h.eq_of (by norm_num) (x := 162129586585337856 + 1) 5066549580791808 5 (by norm_num) (by norm_num)
        (by norm_num [abs_lt])
      rw [e]
      norm_num
    have hk : Rounded.gain fl 402653184 1 = some 1 := by
      simp only [Rounded.gain]
      rw [show (402653184 : ℝ) * 402653184 = 162129586585337856 by norm_num, h.exact f54, mul_one, fl_one h, hsum,
        if_neg (by norm_num), div_self (by norm_num), fl_one h]
    show Rounded.update fl ((Simple1DFilter.make 0).init (some x) (some 402653184) t) (some y) (some 1) t' = _
    unfold Rounded.update
    rw [show ((Simple1DFilter.make 0).init (some x) (some 402653184) t).initialized = true from rfl,
      show ((Simple1DFilter.make 0).init (some x) (some 402653184) t).x = some x from rfl,
      show ((Simple1DFilter.make 0).init (some x) (some 402653184) t).stddev = some 402653184 from rfl,
      show ((Simple1DFilter.make 0).init (some x) (some 402653184) t).proc = 0 from rfl]
    simp [hpred, hk, bind, Option.bind, pure, h0, Rounded.sqrt]
  suffices hall : ∀ f : Simple1DFilter, f.initialized = true → f.x = some (fl (x + fl (fl (y - x)))) →
      f.stddev = some 0 → f.proc = 0 →
      (Rounded.run fl f ms).stddev = some 0 ∧ (Rounded.run fl f ms).getX = some (fl (x + fl (fl (y - x)))) by
    have := hall ⟨true, some (fl (x + fl (fl (y - x)))), some 0, 0, t'⟩ rfl rfl rfl rfl
    rw [← hstart] at this
    exact this
  induction ms with
  | nil => exact fun f _ h1 h2 _ => ⟨h2, h1⟩
  | cons m ms ih =>
    intro f h1 h2 h3 h4
    obtain ⟨y', o, hy, ho, -, -, -, hpos⟩ := hms m List.mem_cons_self
    have e := stuck h (by norm_num) f h1 h2 (h _).1 h3 h4 y' hpos.ne' m.2.2
    have e' : Rounded.run fl f (m :: ms) = Rounded.run fl (Rounded.update fl f (some y') (some o) m.2.2) ms := by
      simp [Rounded.run, hy, ho]
    rw [e', e]
    exact ih (fun m' hm' => hms m' (List.mem_cons_of_mem _ hm')) _ rfl rfl rfl rfl

/-- C143: the allowance is needed: the value can lie beyond all values measured. -/
theorem C143_overshoot {fl : ℝ → ℝ} (h : RoundsToNearest 53 fl) :
    ∃ ms : List Obs, ∃ lo hi, (∀ m ∈ ms, Measured 53 lo hi m) ∧
      ∃ x, (Rounded.run fl (Simple1DFilter.make 0) ms).getX = some x ∧ hi < x := by
  refine ⟨[(some (-1), some 402653184, 0), (some (3 / 2 ^ 54), some 1, 0)], -1, 3 / 2 ^ 54, ?_, _,
    (C143_stuck h (-1) (3 / 2 ^ 54) 0 0 [] 0 0 (by simp)).2, ?_⟩
  · intro m hm
    simp only [List.mem_cons, List.not_mem_nil, or_false] at hm
    rcases hm with rfl | rfl
    · exact ⟨_, _, rfl, rfl, isFloat_neg isFloat_one, le_rfl, by norm_num, by norm_num⟩
    · exact ⟨_, _, rfl, rfl, ⟨3, -54, by norm_num, by norm_num⟩, by norm_num, le_rfl, by norm_num⟩
  · have e := h.eq_of (by norm_num) (x := 3 / 2 ^ 54 - -1) 4503599627370497 (-52) (by norm_num) (by norm_num)
      (by norm_num [abs_lt])
    have e0 : ((4503599627370497 : ℤ) : ℝ) * 2 ^ (-52 : ℤ) = 4503599627370497 / 4503599627370496 := by norm_num
    rw [e0] at e
    have e1 : IsFloat 53 (4503599627370497 / 4503599627370496) := ⟨4503599627370497, -52, by norm_num, e0.symm⟩
    have e2 : IsFloat 53 (1 / 4503599627370496) := ⟨1, -52, by norm_num, by norm_num⟩
    have e3 : (-1 : ℝ) + 4503599627370497 / 4503599627370496 = 1 / 4503599627370496 := by norm_num
    rw [e, h.exact e1, e3, h.exact e2]
    norm_num

/-- The arithmetic exists. Two measurements of a height: the value stays between them, up to 2^-47. -/
example : ∃ fl : ℝ → ℝ, RoundsToNearest 53 fl ∧
    ∃ x, (Rounded.run fl (Simple1DFilter.make 1) [(some 1, some 2, 0), (some 3, some 1, 1000000000)]).getX = some x ∧
      1 - 8 / 2 ^ 53 * 4 ≤ x ∧ x ≤ 3 + 8 / 2 ^ 53 * 4 := by
  obtain ⟨fl, h⟩ := exists_rounding 53 (by norm_num)
  obtain ⟨x, s, h1, -, -, h2, h3⟩ := C143_run h (by norm_num) 1 (lo := 1) (hi := 3) (M := 4) (by norm_num) (by norm_num)
    [(some 1, some 2, 0), (some 3, some 1, 1000000000)] (by simp) (by
      intro m hm
      simp only [List.mem_cons, List.not_mem_nil, or_false] at hm
      rcases hm with rfl | rfl
      · exact ⟨1, 2, rfl, rfl, isFloat_one, by norm_num, by norm_num, by norm_num⟩
      · exact ⟨3, 1, rfl, rfl, ⟨3, 0, by norm_num, by norm_num⟩, by norm_num, by norm_num, by norm_num⟩)
  exact ⟨fl, h, x, h1, h2, h3⟩

end Verif.Ekf
