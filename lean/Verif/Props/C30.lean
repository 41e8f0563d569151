/-
C30: update intervals; C31: delay steps.
-/
import Verif.Model.Interval
import Mathlib.Algebra.Order.Field.Rat
import Mathlib.Data.Rat.Floor
import Mathlib.Tactic.Linarith
import Mathlib.Tactic.NormNum
import Mathlib.Tactic.FieldSimp
import Mathlib.Data.List.MinMax

set_option autoImplicit false

namespace Verif.Ekf

section Interval
variable {K : Type} [Field K] [LinearOrder K] [IsStrictOrderedRing K]

/-- Specification: the latest clock reading so far. -/
def IsLatest (ts : List K) (m : K) : Prop := m ∈ ts ∧ ∀ t ∈ ts, t ≤ m

theorem computeInterval_pos (f : K) : 0 < computeInterval (f : WithTop K) ∧
    computeInterval (f : WithTop K) ≤ 10 := by
  have h1 : (0 : K) < 1 / 10 := by positivity
  have h2 : (1 / 10 : K) ≤ max f (1 / 10) := le_max_right _ _
  have h3 : computeInterval (f : WithTop K) = 1 / max f (1 / 10) := rfl
  rw [h3]
  refine ⟨by positivity, ?_⟩
  rw [div_le_iff₀ (by linarith)]
  linarith

theorem computeInterval_recip (d : K) (hd : 0 ≤ d) :
    computeInterval (recipNonneg d) = min d 10 := by
  unfold recipNonneg
  rcases eq_or_lt_of_le hd with h | h
  · rw [if_pos h.symm, ← h]
    change (0 : K) = _
    rw [min_eq_left (by norm_num)]
  · rw [if_neg h.ne']
    change 1 / max (1 / d) (1 / 10) = _
    rcases le_total d 10 with h' | h'
    · rw [min_eq_left h', max_eq_left (one_div_le_one_div_of_le h h'), one_div_one_div]
    · rw [min_eq_right h', max_eq_right (one_div_le_one_div_of_le (by norm_num) h')]
      norm_num

theorem UpdateInterval.after_lastTime (u : UpdateInterval K) (ts : List K) :
    (u.after ts).defaultFrequency = u.defaultFrequency ∧
    ∀ m, IsLatest (u.lastTime.toList ++ ts) m → (u.after ts).lastTime = some m := by
  induction ts generalizing u with
  | nil =>
    refine ⟨rfl, ?_⟩
    rintro m ⟨h1, h2⟩
    cases h : u.lastTime with
    | none => rw [h] at h1; simp at h1
    | some l => rw [h] at h1; simp at h1; simp [UpdateInterval.after, h, h1]
  | cons t ts ih =>
    obtain ⟨h1, h2⟩ := ih (u.compute t).2
    simp only [UpdateInterval.after]
    constructor
    · rw [h1]
      unfold UpdateInterval.compute
      split
      · rfl
      · split_ifs <;> rfl
    · rintro m ⟨hm, hmax⟩
      apply h2
      cases h : u.lastTime with
      | none =>
        rw [h] at hm hmax
        have : (u.compute t).2.lastTime = some t := by simp [UpdateInterval.compute, h]
        rw [this]
        simpa using ⟨hm, hmax⟩
      | some l =>
        rw [h] at hm hmax
        simp only [Option.toList_some, List.singleton_append, List.mem_cons] at hm hmax
        by_cases hlt : t < l
        · have : (u.compute t).2.lastTime = some l := by
            simp [UpdateInterval.compute, h, hlt]
          rw [this]
          refine ⟨?_, fun s hs => hmax s ?_⟩
          · simp only [Option.toList_some, List.singleton_append, List.mem_cons]
            rcases hm with hm | hm | hm
            · exact Or.inl hm
            · have := hmax l (Or.inl rfl)
              rw [hm] at this
              exact absurd hlt (not_lt.2 this)
            · exact Or.inr hm
          · simp only [Option.toList_some, List.singleton_append, List.mem_cons] at hs
            rcases hs with hs | hs
            · exact Or.inl hs
            · exact Or.inr (Or.inr hs)
        · have : (u.compute t).2.lastTime = some t := by
            simp [UpdateInterval.compute, h, hlt]
          rw [this]
          refine ⟨?_, fun s hs => hmax s ?_⟩
          · simp only [Option.toList_some, List.singleton_append, List.mem_cons]
            rcases hm with hm | hm | hm
            · have := hmax t (Or.inr (Or.inl rfl))
              rw [hm] at this
              exact Or.inl (by rw [hm]; exact le_antisymm (not_lt.1 hlt) this)
            · exact Or.inl hm
            · exact Or.inr hm
          · simp only [Option.toList_some, List.singleton_append, List.mem_cons] at hs
            exact Or.inr hs

/-- C30: the first interval is the reciprocal of the default frequency clamped to at least 0.1 Hz:
positive, at most 10 s. -/
theorem C30_first_interval (f t : K) :
    ∃ dt, ((UpdateInterval.make f).compute t).1 = .ok dt ∧ 0 < dt ∧ dt ≤ 10 ∧
      (1 / 10 ≤ f → dt = 1 / f) ∧ (f ≤ 1 / 10 → dt = 10) := by
  obtain ⟨h1, h2⟩ := computeInterval_pos f
  refine ⟨_, rfl, h1, h2, fun h => ?_, fun h => ?_⟩
  · change 1 / max f (1 / 10) = _
    rw [max_eq_left h]
  · change 1 / max f (1 / 10) = _
    rw [max_eq_right h]; norm_num

/-- C30, after any readings: a reading before the latest one throws and changes nothing; a later
reading gives the time elapsed since the latest reading, cut at 10 s. Missing from the property: at
an equal reading the interval is 0, not positive (`C30_zero_interval_violated`). -/
theorem C30_interval_partial (f : K) (ts : List K) (m t : K) (hm : IsLatest ts m) :
    (t < m → ((UpdateInterval.make f).after ts).compute t =
      (.error .invalidArgument, (UpdateInterval.make f).after ts)) ∧
    (m < t → ∃ dt, (((UpdateInterval.make f).after ts).compute t).1 = .ok dt ∧ 0 < dt ∧ dt ≤ 10 ∧
      dt = min (t - m) 10) := by
  have h := (UpdateInterval.after_lastTime (UpdateInterval.make f) ts).2 m (by simpa [UpdateInterval.make] using hm)
  constructor
  · intro hlt
    simp [UpdateInterval.compute, h, hlt]
  · intro hlt
    refine ⟨min (t - m) 10, ?_, ?_, min_le_right _ _, rfl⟩
    · simp only [UpdateInterval.compute, h, if_neg (not_lt.2 hlt.le)]
      rw [computeInterval_recip _ (by linarith)]
    · rw [lt_min_iff]
      exact ⟨by linarith, by norm_num⟩

/-- C30, violation: whenever the clock shows the same time as at the latest call, the returned
interval is 0. -/
theorem C30_zero_interval_violated (f : K) (ts : List K) (m : K) (hm : IsLatest ts m) :
    (((UpdateInterval.make f).after ts).compute m).1 = .ok 0 := by
  have h := (UpdateInterval.after_lastTime (UpdateInterval.make f) ts).2 m (by simpa [UpdateInterval.make] using hm)
  simp only [UpdateInterval.compute, h, lt_irrefl, if_false, sub_self]
  rw [computeInterval_recip _ le_rfl, min_eq_left (by norm_num)]

end Interval

section Delay
variable {K : Type} [Field K] [LinearOrder K] [IsStrictOrderedRing K] [FloorRing K]

theorem roundHalfAway_nonneg {x : K} (h : 0 ≤ x) :
    0 ≤ roundHalfAway x ∧ |x - roundHalfAway x| ≤ 1 / 2 := by
  unfold roundHalfAway
  rw [if_pos h]
  have h1 := Int.floor_le (x + 1 / 2)
  have h2 := Int.lt_floor_add_one (x + 1 / 2)
  refine ⟨Int.floor_nonneg.2 (by linarith), ?_⟩
  rw [abs_le]
  constructor <;> linarith

/-- C31: for a positive `dt` and a representable quotient the delay step exists, is not negative, is
within one half of the quotient of the (clamped) delay and `dt`, and halves are rounded up. -/
theorem C31_delay_step (delay dt : K) (hdt : 0 < dt) (hrange : delay / dt < 2147483647) :
    ∃ s : ℤ, computeDelayStep delay dt = .ok s ∧ 0 ≤ s ∧
      (s : K) - 1 / 2 ≤ max delay 0 / dt ∧ max delay 0 / dt < (s : K) + 1 / 2 := by
  have hq : 0 ≤ max delay 0 / dt := div_nonneg (le_max_right _ _) hdt.le
  have hq2 : max delay 0 / dt < 2147483647 := by
    rcases le_total delay 0 with h | h
    · rw [max_eq_right h, zero_div]; norm_num
    · rw [max_eq_left h]; exact hrange
  have h1 := Int.floor_le (max delay 0 / dt + 1 / 2)
  have h2 := Int.lt_floor_add_one (max delay 0 / dt + 1 / 2)
  have e : roundHalfAway (max delay 0 / dt) = ⌊max delay 0 / dt + 1 / 2⌋ := by
    unfold roundHalfAway; rw [if_pos hq]
  have h0 : 0 ≤ ⌊max delay 0 / dt + 1 / 2⌋ := Int.floor_nonneg.2 (by linarith)
  have h3 : ⌊max delay 0 / dt + 1 / 2⌋ ≤ 2147483647 := by
    have : ⌊max delay 0 / dt + 1 / 2⌋ < 2147483648 := by
      rw [Int.floor_lt]; push_cast; linarith
    omega
  refine ⟨⌊max delay 0 / dt + 1 / 2⌋, ?_, h0, by linarith, by linarith⟩
  simp only [computeDelayStep, if_neg hdt.ne', e]
  rw [if_pos ⟨by omega, h3⟩]

/-- C31: a message from the future or from now has step 0. -/
theorem C31_no_delay (delay dt : K) (hdt : 0 < dt) (h : delay ≤ 0) :
    computeDelayStep delay dt = .ok 0 := by
  obtain ⟨s, h1, h2, h3, h4⟩ := C31_delay_step delay dt hdt
    (lt_of_le_of_lt (div_nonpos_of_nonpos_of_nonneg h hdt.le) (by norm_num))
  rw [max_eq_right h, zero_div] at h3
  rw [h1]
  have h5 : (s : K) < ((1 : ℤ) : K) := by push_cast; linarith
  have h6 := Int.cast_lt.1 h5
  have : s = 0 := by omega
  rw [this]

/-- C31: a longer delay never has a smaller step. -/
theorem C31_monotone (d1 d2 dt : K) (hdt : 0 < dt) (h : d1 ≤ d2) (s1 s2 : ℤ)
    (h1 : computeDelayStep d1 dt = .ok s1) (h2 : computeDelayStep d2 dt = .ok s2) : s1 ≤ s2 := by
  have key : ∀ d s, computeDelayStep d dt = .ok s → s = ⌊max d 0 / dt + 1 / 2⌋ := by
    intro d s hs
    have hq : 0 ≤ max d 0 / dt := div_nonneg (le_max_right _ _) hdt.le
    simp only [computeDelayStep, if_neg hdt.ne'] at hs
    split_ifs at hs
    injection hs with hs
    rw [← hs]
    unfold roundHalfAway; rw [if_pos hq]
  rw [key d1 s1 h1, key d2 s2 h2]
  apply Int.floor_le_floor
  have := div_le_div_of_nonneg_right (max_le_max_right 0 h) hdt.le
  linarith

/-- C31: the step is undefined at `dt = 0`, which `UpdateInterval` returns for equal clock readings
(`C30_zero_interval_violated`). -/
theorem C31_zero_interval_violated (delay : K) :
    computeDelayStep delay 0 = .error .undefinedBehaviour := by
  simp [computeDelayStep]

end Delay

/-! Non-vacuity. -/

example : IsLatest [(1 : ℚ), 3, 2] 3 ∧
    (((UpdateInterval.make (50 : ℚ)).after [1, 3, 2]).compute 5).1 = .ok 2 := by
  constructor
  · refine ⟨by simp, ?_⟩
    intro t ht
    simp only [List.mem_cons, List.not_mem_nil, or_false] at ht
    rcases ht with rfl | rfl | rfl <;> norm_num
  · decide +kernel
example : computeDelayStep (3 / 10 : ℚ) (2 / 10) = .ok 2 := by decide +kernel
example : computeDelayStep (-1 : ℚ) (2 / 10) = .ok 0 := by decide +kernel

end Verif.Ekf
