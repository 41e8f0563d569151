/-
C39: the one-dimensional filters of z, roll and pitch.
-/
import Verif.Model.Filter1D
import Mathlib.Tactic.FieldSimp
import Mathlib.Tactic.Linarith
import Mathlib.Tactic.Ring

set_option autoImplicit false

namespace Verif.Ekf

/-- The variance before an observation: what the last variance grows to over the elapsed time. -/
noncomputable def predictedVariance (f : Simple1DFilter) (s : ℝ) (time : ℤ) : ℝ :=
  s ^ 2 + (f.proc * (((time - f.latest : ℤ) : ℝ) / 1000000000)) ^ 2

theorem predicted_sq (f : Simple1DFilter) (s : ℝ) (time : ℤ) :
    f.predicted s time * f.predicted s time = predictedVariance f s time := by
  unfold Simple1DFilter.predicted predictedVariance
  simp only
  rw [Real.mul_self_sqrt (add_nonneg (mul_self_nonneg _) (mul_self_nonneg _))]
  ring

/-- The filter step in closed form. -/
theorem update_closed (f : Simple1DFilter) (hi : f.initialized = true) (s o : ℝ) (obs : Option ℝ)
    (t : ℤ) (hs : f.stddev = some s) :
    (predictedVariance f s t + o ^ 2 = 0 → f.update obs (some o) t = ⟨true, none, none, f.proc, t⟩) ∧
    (predictedVariance f s t + o ^ 2 ≠ 0 → f.update obs (some o) t =
      ⟨true, do return (← f.x) + predictedVariance f s t / (predictedVariance f s t + o ^ 2) *
          ((← obs) - (← f.x)),
        some (Real.sqrt (1 - predictedVariance f s t / (predictedVariance f s t + o ^ 2)) *
          f.predicted s t), f.proc, t⟩) := by
  have hp := predicted_sq f s t
  have hd : f.predicted s t * f.predicted s t + o * o = predictedVariance f s t + o ^ 2 := by
    rw [hp]; ring
  constructor
  · intro h
    unfold Simple1DFilter.update
    rw [hi, hs]
    simp only [Bool.not_true, Bool.false_eq_true, if_false]
    rw [if_pos (hd.trans h)]
  · intro h
    unfold Simple1DFilter.update
    rw [hi, hs]
    simp only [Bool.not_true, Bool.false_eq_true, if_false]
    rw [if_neg (fun h' => h (hd.symm.trans h'))]
    simp only [hp, pow_two]

/-- C39: the first observation initialises the filter. -/
theorem C39_first (proc x o : ℝ) (t : ℤ) :
    ((Simple1DFilter.make proc).update (some x) (some o) t).getX = some x ∧
    ((Simple1DFilter.make proc).update (some x) (some o) t).stddev = some o :=
  ⟨rfl, rfl⟩

/-- C39, one update of an initialised filter: unless both the predicted and the observed variance
are zero (`C39_nan_violated`), the new value lies between the old value and the observation, and the
new variance `v` is the harmonic combination of the predicted variance and the observation's, in
particular at most either of them. -/
theorem C39_update_partial (f : Simple1DFilter) (hi : f.initialized = true) (x s obs o : ℝ) (t : ℤ)
    (hx : f.x = some x) (hs : f.stddev = some s) (hne : predictedVariance f s t + o ^ 2 ≠ 0) :
    ∃ x' s', (f.update (some obs) (some o) t).getX = some x' ∧
      (f.update (some obs) (some o) t).stddev = some s' ∧
      min x obs ≤ x' ∧ x' ≤ max x obs ∧
      s' ^ 2 ≤ predictedVariance f s t ∧ s' ^ 2 ≤ o ^ 2 ∧
      s' ^ 2 * (predictedVariance f s t + o ^ 2) = predictedVariance f s t * o ^ 2 ∧
      x' * (predictedVariance f s t + o ^ 2) = x * o ^ 2 + obs * predictedVariance f s t := by
  have hp := predicted_sq f s t
  set v := predictedVariance f s t with hv
  have hv0 : 0 ≤ v := by rw [hv]; unfold predictedVariance; positivity
  have ho0 : 0 ≤ o ^ 2 := sq_nonneg o
  have hsum : 0 < v + o ^ 2 := lt_of_le_of_ne (by linarith) (Ne.symm hne)
  have hd : f.predicted s t * f.predicted s t + o * o = v + o ^ 2 := by rw [hp]; ring
  have hg0 : 0 ≤ v / (v + o ^ 2) := div_nonneg hv0 hsum.le
  have hg1 : v / (v + o ^ 2) ≤ 1 := by rw [div_le_one hsum]; linarith
  have hs2 : (Real.sqrt (1 - v / (v + o ^ 2)) * f.predicted s t) ^ 2 = v * o ^ 2 / (v + o ^ 2) := by
    rw [mul_pow, Real.sq_sqrt (by linarith), pow_two (f.predicted s t), hp]
    field_simp
    ring
  have hup : f.update (some obs) (some o) t =
      ⟨true, some (x + v / (v + o ^ 2) * (obs - x)),
        some (Real.sqrt (1 - v / (v + o ^ 2)) * f.predicted s t), f.proc, t⟩ := by
    rw [(update_closed f hi s o (some obs) t hs).2 hne, hx]
    rfl
  refine ⟨_, _, by rw [hup]; rfl, by rw [hup], ?_, ?_, ?_, ?_, ?_, ?_⟩
  · rcases le_total x obs with h | h
    · rw [min_eq_left h]; nlinarith
    · rw [min_eq_right h]; nlinarith
  · rcases le_total x obs with h | h
    · rw [max_eq_right h]; nlinarith
    · rw [max_eq_left h]; nlinarith
  · rw [hs2, div_le_iff₀ hsum]; nlinarith
  · rw [hs2, div_le_iff₀ hsum]; nlinarith
  · rw [hs2]; field_simp
  · field_simp; ring

/-- C39 for sequences: whatever the stamps (increasing or not), after any non-empty sequence of
finite observations with positive deviations the value exists and lies between the smallest and the
largest observation, and the variance is positive and at most that of the last observation. -/
theorem C39_sequence_partial (proc lo hi : ℝ) (obs : List (ℝ × ℝ × ℤ)) (last : ℝ × ℝ × ℤ)
    (h : ∀ o ∈ obs ++ [last], lo ≤ o.1 ∧ o.1 ≤ hi ∧ 0 < o.2.1) :
    ∃ x s, ((Simple1DFilter.make proc).run
        ((obs ++ [last]).map fun o => (some o.1, some o.2.1, o.2.2))).getX = some x ∧
      ((Simple1DFilter.make proc).run
        ((obs ++ [last]).map fun o => (some o.1, some o.2.1, o.2.2))).stddev = some s ∧
      lo ≤ x ∧ x ≤ hi ∧ 0 < s ∧ s ^ 2 ≤ last.2.1 ^ 2 := by
  have step : ∀ (f : Simple1DFilter) (o : ℝ × ℝ × ℤ), lo ≤ o.1 → o.1 ≤ hi → 0 < o.2.1 →
      (f.initialized = false ∨ (f.initialized = true ∧ ∃ x s, f.x = some x ∧ f.stddev = some s ∧
        lo ≤ x ∧ x ≤ hi ∧ 0 < s)) →
      ∃ x s, (f.update (some o.1) (some o.2.1) o.2.2).getX = some x ∧
        (f.update (some o.1) (some o.2.1) o.2.2).stddev = some s ∧
        (f.update (some o.1) (some o.2.1) o.2.2).initialized = true ∧
        lo ≤ x ∧ x ≤ hi ∧ 0 < s ∧ s ^ 2 ≤ o.2.1 ^ 2 := by
    rintro f o h1 h2 h3 (hf | ⟨hf, x, s, hx, hs, hlo, hhi, hpos⟩)
    · have : f.update (some o.1) (some o.2.1) o.2.2 = f.init (some o.1) (some o.2.1) o.2.2 := by
        simp [Simple1DFilter.update, hf]
      rw [this]
      exact ⟨o.1, o.2.1, rfl, rfl, rfl, h1, h2, h3, le_rfl⟩
    · have hv : 0 < predictedVariance f s o.2.2 := by unfold predictedVariance; positivity
      have ho : 0 < o.2.1 ^ 2 := by positivity
      obtain ⟨x', s', e1, e2, e3, e4, e5, e6, e7, -⟩ :=
        C39_update_partial f hf x s o.1 o.2.1 o.2.2 hx hs (by positivity)
      have hs0 : 0 ≤ s' := by
        have : ∃ r, (f.update (some o.1) (some o.2.1) o.2.2).stddev = some r ∧ 0 ≤ r := by
          unfold Simple1DFilter.update
          rw [hf, hs]
          simp only [Bool.not_true, Bool.false_eq_true, if_false]
          have hp := predicted_sq f s o.2.2
          rw [if_neg (by rw [hp]; nlinarith)]
          exact ⟨_, rfl, mul_nonneg (Real.sqrt_nonneg _) (Real.sqrt_nonneg _)⟩
        obtain ⟨r, hr, hr0⟩ := this
        rw [e2] at hr
        rw [Option.some.inj hr]
        exact hr0
      have hsne : s' ≠ 0 := by
        rintro rfl
        have : 0 < predictedVariance f s o.2.2 * o.2.1 ^ 2 := by positivity
        rw [← e7] at this
        simp at this
      refine ⟨x', s', e1, e2, ?_, le_trans (le_min hlo h1) e3, le_trans e4 (max_le hhi h2),
        lt_of_le_of_ne hs0 (Ne.symm hsne), e6⟩
      unfold Simple1DFilter.update
      rw [hf, hs]
      simp only [Bool.not_true, Bool.false_eq_true, if_false]
      split_ifs <;> rfl
  have inv : ∀ (os : List (ℝ × ℝ × ℤ)), (∀ o ∈ os, lo ≤ o.1 ∧ o.1 ≤ hi ∧ 0 < o.2.1) →
      ∀ f : Simple1DFilter, (f.initialized = false ∨ (f.initialized = true ∧ ∃ x s, f.x = some x ∧
        f.stddev = some s ∧ lo ≤ x ∧ x ≤ hi ∧ 0 < s)) →
      ((f.run (os.map fun o => (some o.1, some o.2.1, o.2.2))).initialized = false ∨
        ((f.run (os.map fun o => (some o.1, some o.2.1, o.2.2))).initialized = true ∧
        ∃ x s, (f.run (os.map fun o => (some o.1, some o.2.1, o.2.2))).x = some x ∧
        (f.run (os.map fun o => (some o.1, some o.2.1, o.2.2))).stddev = some s ∧
        lo ≤ x ∧ x ≤ hi ∧ 0 < s)) := by
    intro os
    induction os with
    | nil => intro _ f hf; exact hf
    | cons o os ih =>
      intro ho f hf
      obtain ⟨h1, h2, h3⟩ := ho o List.mem_cons_self
      obtain ⟨x, s, e1, e2, e3, e4, e5, e6, -⟩ := step f o h1 h2 h3 hf
      exact ih (fun o' ho' => ho o' (List.mem_cons_of_mem _ ho')) _
        (Or.inr ⟨e3, x, s, e1, e2, e4, e5, e6⟩)
  have h0 := inv obs (fun o ho => h o (List.mem_append_left _ ho)) (Simple1DFilter.make proc)
    (Or.inl rfl)
  obtain ⟨h1, h2, h3⟩ := h last (by simp)
  obtain ⟨x, s, e1, e2, -, e4, e5, e6, e7⟩ := step _ last h1 h2 h3 h0
  refine ⟨x, s, ?_, ?_, e4, e5, e6, e7⟩
  · rw [List.map_append, Simple1DFilter.run, List.foldl_append]; exact e1
  · rw [List.map_append, Simple1DFilter.run, List.foldl_append]; exact e2

/-- C39, violation: two observations with zero deviation and the same stamp make the value NaN,
though both observations are the same finite number. -/
theorem C39_nan_violated (proc x : ℝ) (t : ℤ) :
    ((Simple1DFilter.make proc).run [(some x, some 0, t), (some x, some 0, t)]).getX = none := by
  change ((Simple1DFilter.init (Simple1DFilter.make proc) (some x) (some 0) t).update (some x)
    (some 0) t).getX = none
  rw [(update_closed _ rfl 0 0 (some x) t rfl).1 (by
    simp [predictedVariance, Simple1DFilter.init])]
  rfl

/-- C39, violation: a NaN value is never left again, whatever is observed later. -/
theorem C39_nan_forever_violated (f : Simple1DFilter) (hi : f.initialized = true) (hx : f.x = none)
    (obs : List Obs) : (f.run obs).getX = none := by
  induction obs generalizing f with
  | nil => exact hx
  | cons o obs ih =>
    have key : ∀ (p q : Option ℝ) (t : ℤ), (f.update p q t).initialized = true ∧
        (f.update p q t).x = none := by
      intro p q t
      unfold Simple1DFilter.update
      rw [hi]
      simp only [Bool.not_true, Bool.false_eq_true, if_false]
      split
      · split_ifs
        · exact ⟨rfl, rfl⟩
        · rw [hx]; exact ⟨rfl, rfl⟩
      · exact ⟨rfl, rfl⟩
    exact ih _ (key o.1 o.2.1 o.2.2).1 (key o.1 o.2.1 o.2.2).2

/-! Non-vacuity. -/

/-- Two observations 0 and 10 of deviation 1 and equal stamp give 5. -/
example : ((Simple1DFilter.make 1).run [(some 0, some 1, 0), (some 10, some 1, 0)]).getX =
    some 5 := by
  obtain ⟨x', s', h1, -, -, -, -, -, -, h⟩ := C39_update_partial
    ((Simple1DFilter.make 1).update (some 0) (some 1) 0) rfl 0 1 10 1 0 rfl rfl
    (by simp [predictedVariance, Simple1DFilter.update, Simple1DFilter.init, Simple1DFilter.make])
  have e : predictedVariance ((Simple1DFilter.make 1).update (some 0) (some 1) 0) 1 0 = 1 := by
    simp [predictedVariance, Simple1DFilter.update, Simple1DFilter.init, Simple1DFilter.make]
  rw [e] at h
  have : x' = 5 := by linarith
  rw [this] at h1
  exact h1

example : ∀ o ∈ ([(0, 1, 0)] : List (ℝ × ℝ × ℤ)) ++ [(10, 2, 5)], 0 ≤ o.1 ∧ o.1 ≤ 10 ∧ 0 < o.2.1 := by
  intro o ho
  simp only [List.cons_append, List.nil_append, List.mem_cons, List.not_mem_nil, or_false] at ho
  rcases ho with rfl | rfl <;> norm_num

end Verif.Ekf
