/-
C140: a height, roll or pitch that is measured again and again is reached.
-/
import Verif.Props.C40
import Verif.Props.C138

set_option autoImplicit false

namespace Verif.Ekf

open Matrix Verif.Kalman

/-- Specification: an observation within `ε` of the truth, with a deviation that is positive and at most
`R`. -/
def Near (h ε R : ℝ) (o : Obs) : Prop :=
  ∃ y d, o.1 = some y ∧ o.2.1 = some d ∧ |y - h| ≤ ε ∧ 0 < d ∧ d ≤ R

/-- Specification: stamps (the one before first) at least `τ` seconds apart, in either direction. -/
def Apart (τ : ℝ) : ℤ → List Obs → Prop
  | _, [] => True
  | t, o :: os => τ ≤ |((o.2.2 - t : ℤ) : ℝ) / 1000000000| ∧ Apart τ o.2.2 os

/-- One update: the error shrinks by a factor `1 - g`, the variance is that of the prediction times
`1 - g`. -/
theorem update_error {f : Simple1DFilter} {x s y d : ℝ} (hi : f.initialized = true) (hx : f.x = some x)
    (hs : f.stddev = some s) (hd : 0 < d) (t : ℤ) :
    ∃ (x' s' : ℝ), (f.update (some y) (some d) t).initialized = true ∧
      (f.update (some y) (some d) t).x = some x' ∧ (f.update (some y) (some d) t).stddev = some s' ∧
      (f.update (some y) (some d) t).proc = f.proc ∧ (f.update (some y) (some d) t).latest = t ∧
      ∃ v, v = s * s + (f.proc * (((t - f.latest : ℤ) : ℝ) / 1000000000)) ^ 2 ∧
        x' = y + d ^ 2 / (v + d ^ 2) * (x - y) ∧ s' * s' = v * (d ^ 2 / (v + d ^ 2)) ∧ 0 ≤ s' := by
  set v := s * s + (f.proc * (((t - f.latest : ℤ) : ℝ) / 1000000000)) ^ 2 with hv
  have hv0 : 0 ≤ v := add_nonneg (mul_self_nonneg s) (sq_nonneg _)
  have hpred : f.predicted s t * f.predicted s t = v := by
    simp only [Simple1DFilter.predicted]
    rw [Real.mul_self_sqrt (add_nonneg (mul_self_nonneg _) (mul_self_nonneg _)), hv]
    ring
  have hp0 : 0 ≤ f.predicted s t := Real.sqrt_nonneg _
  have hpos : 0 < v + d ^ 2 := by positivity
  have hne : ¬ f.predicted s t * f.predicted s t + d * d = 0 := by
    rw [hpred]
    have : v + d * d = v + d ^ 2 := by ring
    rw [this]
    exact hpos.ne'
  have hg : f.predicted s t * f.predicted s t / (f.predicted s t * f.predicted s t + d * d) =
      v / (v + d ^ 2) := by
    rw [hpred]; congr 1; ring
  have hg1 : 1 - v / (v + d ^ 2) = d ^ 2 / (v + d ^ 2) := by
    field_simp; ring
  refine ⟨x + v / (v + d ^ 2) * (y - x), Real.sqrt (1 - v / (v + d ^ 2)) * f.predicted s t, ?_, ?_, ?_, ?_,
    ?_, v, rfl, ?_, ?_, ?_⟩
  · simp only [Simple1DFilter.update, hi, hs, Bool.not_true, Bool.false_eq_true, if_false, if_neg hne]
  · simp only [Simple1DFilter.update, hi, hs, hx, Bool.not_true, Bool.false_eq_true, if_false, if_neg hne,
      hg]
    rfl
  · simp only [Simple1DFilter.update, hi, hs, Bool.not_true, Bool.false_eq_true, if_false, if_neg hne, hg]
  · simp only [Simple1DFilter.update, hi, hs, Bool.not_true, Bool.false_eq_true, if_false, if_neg hne]
  · simp only [Simple1DFilter.update, hi, hs, Bool.not_true, Bool.false_eq_true, if_false, if_neg hne]
  · field_simp; ring
  · rw [hg1]
    have : (Real.sqrt (d ^ 2 / (v + d ^ 2)) * f.predicted s t) * (Real.sqrt (d ^ 2 / (v + d ^ 2)) *
        f.predicted s t) = (Real.sqrt (d ^ 2 / (v + d ^ 2)) * Real.sqrt (d ^ 2 / (v + d ^ 2))) *
        (f.predicted s t * f.predicted s t) := by ring
    rw [this, hpred, Real.mul_self_sqrt (by positivity)]
    ring
  · positivity

/-- One step of the error bound. -/
theorem error_step {h ε x y q c : ℝ} (hq0 : 0 ≤ q) (hq : q ≤ 1) (hy : |y - h| ≤ ε) (hx : |x - h| ≤ ε + c) : |y + q * (x - y) - h| ≤ ε + q * c := by
  have e : y + q * (x - y) - h = (1 - q) * (y - h) + q * (x - h) := by ring
  rw [e]
  refine (abs_add_le _ _).trans ?_
  rw [abs_mul, abs_mul, abs_of_nonneg (sub_nonneg.2 hq), abs_of_nonneg hq0]
  nlinarith [mul_le_mul_of_nonneg_left hy (sub_nonneg.2 hq), mul_le_mul_of_nonneg_left hx hq0]

theorem ratio_mono {v w d R : ℝ} (hw : 0 ≤ w) (hwv : w ≤ v) (hd : 0 < d) (hdR : d ≤ R) :
    d ^ 2 / (v + d ^ 2) ≤ R ^ 2 / (w + R ^ 2) := by
  have hR : 0 < R := lt_of_lt_of_le hd hdR
  rw [div_le_div_iff₀ (by nlinarith [sq_nonneg v, sq_pos_of_pos hd]) (by positivity)]
  have h1 : d ^ 2 ≤ R ^ 2 := by nlinarith
  nlinarith [mul_le_mul h1 hwv hw (by positivity)]

/-- C140: however far off the filter is, after `k` observations within `ε` of the truth its error exceeds
`ε` by at most `R² / (R² + k s²)` of what it was, `s` being its deviation at the start. Nothing is assumed
about the stamps. -/
theorem C140_reached {f : Simple1DFilter} {x s h ε R : ℝ} (hi : f.initialized = true) (hx : f.x = some x)
    (hs : f.stddev = some s) (hε : 0 ≤ ε) (hR : 0 < R) (os : List Obs) (hos : ∀ o ∈ os, Near h ε R o) :
    ∃ x', (f.run os).x = some x' ∧
      |x' - h| ≤ ε + |x - h| * (R ^ 2 / (R ^ 2 + os.length * s ^ 2)) := by
  have key : ∀ (os : List Obs) (f : Simple1DFilter) (x1 s1 u : ℝ), f.initialized = true → f.x = some x1 →
      f.stddev = some s1 → 0 ≤ u → u * s ^ 2 ≤ s1 * s1 → |x1 - h| ≤ ε + |x - h| * u →
      (∀ o ∈ os, Near h ε R o) →
      ∃ x', (f.run os).x = some x' ∧
        |x' - h| ≤ ε + |x - h| * (u * R ^ 2 / (R ^ 2 + os.length * (u * s ^ 2))) := by
    intro os
    induction os with
    | nil =>
      intro f x1 s1 u hi hx1 hs1 hu hus hxc _
      refine ⟨x1, hx1, ?_⟩
      have : u * R ^ 2 / (R ^ 2 + ((([] : List Obs).length : ℕ) : ℝ) * (u * s ^ 2)) = u := by
        simp only [List.length_nil, Nat.cast_zero, zero_mul, add_zero]
        field_simp
      rw [this]
      exact hxc
    | cons o os ih =>
      intro f x1 s1 u hi hx1 hs1 hu hus hxc hos
      obtain ⟨y, d, e1, e2, hy, hd, hdR⟩ := hos o List.mem_cons_self
      obtain ⟨x2, s2, g1, g2, g3, g4, g5, v, hv, g6, g7, g8⟩ :=
        update_error (y := y) hi hx1 hs1 hd o.2.2
      have hrun : f.run (o :: os) = (f.update (some y) (some d) o.2.2).run os := by
        simp only [Simple1DFilter.run, List.foldl_cons, e1, e2]
      have hw : u * s ^ 2 ≤ v := by
        rw [hv]
        nlinarith [sq_nonneg (f.proc * (((o.2.2 - f.latest : ℤ) : ℝ) / 1000000000))]
      have hus0 : 0 ≤ u * s ^ 2 := by positivity
      have hv0 : 0 ≤ v := le_trans hus0 hw
      have hq0 : 0 ≤ d ^ 2 / (v + d ^ 2) := by positivity
      have hq1 : d ^ 2 / (v + d ^ 2) ≤ 1 := by
        rw [div_le_one (by positivity)]; linarith
      have hq := ratio_mono hus0 hw hd hdR
      set q := d ^ 2 / (v + d ^ 2) with hqd
      have hstep : |x2 - h| ≤ ε + |x - h| * (u * q) := by
        rw [g6]
        refine (error_step hq0 hq1 hy hxc).trans (le_of_eq ?_)
        ring
      obtain ⟨x', r1, r2⟩ := ih (f.update (some y) (some d) o.2.2) x2 s2 (u * q) g1 g2 g3 (by positivity)
        (by rw [g7]; nlinarith [mul_le_mul_of_nonneg_right hw hq0]) hstep
        (fun o' ho' => hos o' (List.mem_cons_of_mem _ ho'))
      refine ⟨x', by rw [hrun]; exact r1, r2.trans ?_⟩
      have huq : u * q * (u * s ^ 2 + R ^ 2) ≤ u * R ^ 2 := by
        have : q * (u * s ^ 2 + R ^ 2) ≤ R ^ 2 := by
          rwa [le_div_iff₀ (by positivity)] at hq
        nlinarith [mul_le_mul_of_nonneg_left this hu]
      have : u * q * R ^ 2 / (R ^ 2 + os.length * (u * q * s ^ 2)) ≤
          u * R ^ 2 / (R ^ 2 + (o :: os).length * (u * s ^ 2)) := by
        rw [div_le_div_iff₀ (by positivity) (by positivity)]
        push_cast [List.length_cons]
        nlinarith [mul_le_mul_of_nonneg_left huq (sq_nonneg R)]
      have := mul_le_mul_of_nonneg_left this (abs_nonneg (x - h))
      linarith
  have := key os f x s 1 hi hx hs zero_le_one (by nlinarith) (by linarith) hos
  simpa only [one_mul] using this

/-- C140: if the stamps are at least `τ` seconds apart the error falls at least geometrically. -/
theorem C140_geometric {f : Simple1DFilter} {x s h ε R τ : ℝ} (hi : f.initialized = true)
    (hx : f.x = some x) (hs : f.stddev = some s) (hε : 0 ≤ ε) (hτ : 0 ≤ τ) (os : List Obs)
    (hos : ∀ o ∈ os, Near h ε R o) (ha : Apart τ f.latest os) :
    ∃ x', (f.run os).x = some x' ∧
      |x' - h| ≤ ε + |x - h| * (R ^ 2 / (R ^ 2 + (f.proc * τ) ^ 2)) ^ os.length := by
  have key : ∀ (os : List Obs) (f : Simple1DFilter) (x s c : ℝ), f.initialized = true → f.x = some x →
      f.stddev = some s → 0 ≤ c → |x - h| ≤ ε + c → (∀ o ∈ os, Near h ε R o) → Apart τ f.latest os →
      ∃ x', (f.run os).x = some x' ∧
        |x' - h| ≤ ε + c * (R ^ 2 / (R ^ 2 + (f.proc * τ) ^ 2)) ^ os.length := by
    intro os
    induction os with
    | nil =>
      intro f x s c hi hx hs hc hxc _ _
      exact ⟨x, hx, by simpa using hxc⟩
    | cons o os ih =>
      intro f x s c hi hx hs hc hxc hos ha
      obtain ⟨y, d, e1, e2, hy, hd, hdR⟩ := hos o List.mem_cons_self
      obtain ⟨x1, s1, g1, g2, g3, g4, g5, v, hv, g6, g7, g8⟩ :=
        update_error (y := y) hi hx hs hd o.2.2
      have hrun : f.run (o :: os) = (f.update (some y) (some d) o.2.2).run os := by
        simp only [Simple1DFilter.run, List.foldl_cons, e1, e2]
      have hR : 0 < R := lt_of_lt_of_le hd hdR
      have hw : (f.proc * τ) ^ 2 ≤ v := by
        rw [hv]
        have h1 : τ ^ 2 ≤ (((o.2.2 - f.latest : ℤ) : ℝ) / 1000000000) ^ 2 := by
          rw [← sq_abs (((o.2.2 - f.latest : ℤ) : ℝ) / 1000000000)]
          exact pow_le_pow_left₀ hτ ha.1 2
        rw [mul_pow, mul_pow]
        nlinarith [mul_le_mul_of_nonneg_left h1 (sq_nonneg f.proc), mul_self_nonneg s]
      have hv0 : 0 ≤ v := le_trans (sq_nonneg _) hw
      have hq0 : 0 ≤ d ^ 2 / (v + d ^ 2) := by positivity
      have hq1 : d ^ 2 / (v + d ^ 2) ≤ 1 := by
        rw [div_le_one (by positivity)]; linarith
      have hq := ratio_mono (sq_nonneg (f.proc * τ)) hw hd hdR
      have hstep : |x1 - h| ≤ ε + c * (R ^ 2 / (R ^ 2 + (f.proc * τ) ^ 2)) := by
        rw [g6]
        refine (error_step hq0 hq1 hy hxc).trans ?_
        rw [add_comm (R ^ 2)]
        nlinarith [mul_le_mul_of_nonneg_left hq hc]
      obtain ⟨x', r1, r2⟩ := ih (f.update (some y) (some d) o.2.2) x1 s1
        (c * (R ^ 2 / (R ^ 2 + (f.proc * τ) ^ 2))) g1 g2 g3 (by positivity) hstep
        (fun o' ho' => hos o' (List.mem_cons_of_mem _ ho')) (by rw [g5]; exact ha.2)
      refine ⟨x', by rw [hrun]; exact r1, ?_⟩
      rw [g4] at r2
      rw [List.length_cons, pow_succ']
      calc |x' - h| ≤ _ := r2
        _ = _ := by ring
  exact key os f x s |x - h| hi hx hs (abs_nonneg _) (by linarith [abs_nonneg (x - h)]) hos ha

/-! ### The node -/

/-- Specification: the three numbers the node filters one by one. -/
inductive Part where
  | height
  | roll
  | pitch

/-- Specification: what a pose message says about it. -/
noncomputable def Part.said (tf : Tf2) (m : PoseMsg) : Part → Option ℝ
  | .height => m.pz
  | .roll => tf.getRoll m.ori
  | .pitch => tf.getPitch m.ori

/-- Specification: the variance of the message, entries (2, 2), (3, 3) and (4, 4) of the covariance. -/
def Part.variance (m : PoseMsg) : Part → ℝ
  | .height => m.cov 14
  | .roll => m.cov 21
  | .pitch => m.cov 28

/-- Specification: how fast it is taken to change, in metres and radians per second. -/
noncomputable def Part.rate : Part → ℝ
  | .height => 1
  | .roll => 1 / 10
  | .pitch => 1 / 10

/-- Specification: its place in what is published. -/
def Part.published (e : Estimate) : Part → Option ℝ
  | .height => e.z
  | .roll => e.roll
  | .pitch => e.pitch

/-- The member filtering it. -/
def Part.filter {N : ℕ} (s : NodeState N) : Part → Simple1DFilter
  | .height => s.z
  | .roll => s.roll
  | .pitch => s.pitch

/-- Specification: the pose messages among the events, those on `initialpose` included. -/
def poses : List Event → List PoseMsg
  | [] => []
  | .initialPose m _ :: es => m :: poses es
  | .pose m :: es => m :: poses es
  | _ :: es => poses es

/-- Specification: the pose in an output. -/
def Output.estimate : Output → Estimate
  | .transform _ _ _ e => e
  | .odometry _ _ _ e _ _ _ _ => e

/-- Specification: a message within `ε` of the truth, of positive variance at most `V`. -/
def NearMsg (tf : Tf2) (q : Part) (h ε V : ℝ) (m : PoseMsg) : Prop :=
  ∃ y, q.said tf m = some y ∧ |y - h| ≤ ε ∧ 0 < q.variance m ∧ q.variance m ≤ V

/-- Specification: message stamps at least `τ` seconds apart. -/
def ApartMsgs (τ : ℝ) : List PoseMsg → Prop
  | m :: m' :: ms => τ ≤ |((m'.stamp - m.stamp : ℤ) : ℝ) / 1000000000| ∧ ApartMsgs τ (m' :: ms)
  | _ => True

/-- What the filter is given for a message. -/
noncomputable def Part.obs (tf : Tf2) (q : Part) (m : PoseMsg) : Obs :=
  (q.said tf m, sqrtOpt (q.variance m), m.stamp)

theorem updateFilters_part {N : ℕ} (tf : Tf2) (s : NodeState N) (m : PoseMsg) (q : Part) :
    q.filter (updateSimple1DFilters tf s m) =
      (q.filter s).update (q.said tf m) (sqrtOpt (q.variance m)) m.stamp := by
  cases q <;> rfl

theorem initialPose_part {N : ℕ} {tf : Tf2} {p : EkfParams} {s s' : NodeState N} {m : PoseMsg}
    {tries : List Char → List Char → ℕ → Option Transform}
    (h : initialPoseCallback tf p s m tries = .ok s') (q : Part) :
    q.filter s' = (q.filter s).update (q.said tf m) (sqrtOpt (q.variance m)) m.stamp := by
  simp only [initialPoseCallback, bind, Except.bind] at h
  split at h
  · exact absurd h (by simp)
  · split at h
    · exact absurd h (by simp)
    · split at h
      · exact absurd h (by simp)
      · split at h
        · simp only [pure, Except.pure, Except.ok.injEq] at h
          subst h
          cases q <;> rfl
        · exact absurd h (by simp)

/-- A timer callback leaves the three filters alone and publishes their values. -/
theorem timer_part {N : ℕ} {hN : 0 < N} {tf : Tf2} {p : EkfParams} {s s' : NodeState N} {o : List Output}
    {t1 t2 t3 t4 t5 : ℤ} {sp : PoseMsg → Bool} {st : TwistMsg → Bool}
    (h : timerCallback hN tf p s t1 t2 t3 t4 t5 sp st = .ok (s', o)) (q : Part) :
    q.filter s' = q.filter s ∧ ∀ a ∈ o, q.published a.estimate = (q.filter s).x := by
  simp only [timerCallback] at h
  split at h
  · simp only [Except.ok.injEq, Prod.mk.injEq] at h
    obtain ⟨rfl, rfl⟩ := h
    exact ⟨rfl, by simp⟩
  · split at h
    · simp only [Except.ok.injEq, Prod.mk.injEq] at h
      obtain ⟨rfl, rfl⟩ := h
      exact ⟨by cases q <;> rfl, by simp⟩
    · exact absurd h (by simp)
    · simp only [bind, Except.bind] at h
      split at h
      · exact absurd h (by simp)
      · split at h
        · exact absurd h (by simp)
        · simp only [pure, Except.pure, Except.ok.injEq, Prod.mk.injEq] at h
          obtain ⟨rfl, rfl⟩ := h
          refine ⟨by cases q <;> rfl, ?_⟩
          intro a ha
          simp only [publish, List.mem_cons, List.not_mem_nil, or_false] at ha
          rcases ha with rfl | rfl <;> cases q <;> rfl

theorem step_part {N : ℕ} {hN : 0 < N} {tf : Tf2} {p : EkfParams} {s s' : NodeState N} {o : List Output}
    {e : Event} (h : step hN tf p s e = .ok (s', o)) (q : Part) :
    q.filter s' = (q.filter s).run ((poses [e]).map (q.obs tf)) := by
  cases e with
  | initialPose m tries =>
    simp only [step, bind, Except.bind] at h
    split at h
    · exact absurd h (by simp)
    · rename_i s1 h1
      simp only [pure, Except.pure, Except.ok.injEq, Prod.mk.injEq] at h
      obtain ⟨rfl, -⟩ := h
      exact initialPose_part h1 q
  | pose m =>
    simp only [step, Except.ok.injEq, Prod.mk.injEq] at h
    obtain ⟨rfl, -⟩ := h
    rw [updateFilters_part]
    cases q <;> rfl
  | twist m =>
    simp only [step, Except.ok.injEq, Prod.mk.injEq] at h
    obtain ⟨rfl, -⟩ := h
    cases q <;> rfl
  | timer t1 t2 t3 t4 t5 sp st => exact (timer_part h q).1

theorem poses_cons (e : Event) (es : List Event) : poses (e :: es) = poses [e] ++ poses es := by
  cases e <;> rfl

theorem run_part {N : ℕ} {hN : 0 < N} {tf : Tf2} {p : EkfParams} (q : Part) : ∀ (es : List Event)
    {s s' : NodeState N} {o : List Output}, Ekf.run hN tf p s es = .ok (s', o) →
    q.filter s' = (q.filter s).run ((poses es).map (q.obs tf))
  | [], s, s', o, h => by
    simp only [Ekf.run, Except.ok.injEq, Prod.mk.injEq] at h
    obtain ⟨rfl, -⟩ := h
    rfl
  | e :: es, s, s', o, h => by
    simp only [Ekf.run, bind, Except.bind] at h
    split at h
    · exact absurd h (by simp)
    · rename_i r1 h1
      split at h
      · exact absurd h (by simp)
      · rename_i r2 h2
        simp only [pure, Except.pure, Except.ok.injEq, Prod.mk.injEq] at h
        obtain ⟨rfl, -⟩ := h
        rw [run_part q es h2, step_part h1 q, poses_cons e es, List.map_append]
        simp only [Simple1DFilter.run, List.foldl_append]

theorem near_obs {tf : Tf2} {q : Part} {h ε V : ℝ} {m : PoseMsg} (hm : NearMsg tf q h ε V m) :
    Near h ε (Real.sqrt V) (q.obs tf m) := by
  obtain ⟨y, h1, h2, h3, h4⟩ := hm
  refine ⟨y, Real.sqrt (q.variance m), h1, ?_, h2, Real.sqrt_pos.2 h3, Real.sqrt_le_sqrt h4⟩
  simp only [Part.obs, sqrtOpt, if_neg (not_lt.2 h3.le)]

theorem apart_obs {tf : Tf2} {q : Part} {τ : ℝ} : ∀ (ms : List PoseMsg) (m : PoseMsg),
    ApartMsgs τ (m :: ms) → Apart τ m.stamp (ms.map (q.obs tf))
  | [], _, _ => trivial
  | m' :: ms, _, h => ⟨h.1, apart_obs ms m' h.2⟩

/-- The filter after the first message. -/
theorem first_part {N : ℕ} {p : EkfParams} (tf : Tf2) (q : Part) (m : PoseMsg) (ms : List PoseMsg) (y : ℝ)
    (hy : q.said tf m = some y) (hv : 0 ≤ q.variance m) :
    ∃ f : Simple1DFilter, (q.filter (NodeState.make N p)).run ((m :: ms).map (q.obs tf)) =
        f.run (ms.map (q.obs tf)) ∧ f.initialized = true ∧ f.x = some y ∧
      f.stddev = some (Real.sqrt (q.variance m)) ∧ f.proc = q.rate ∧ f.latest = m.stamp := by
  refine ⟨⟨true, some y, some (Real.sqrt (q.variance m)), q.rate, m.stamp⟩, ?_, rfl, rfl, rfl, rfl, rfl⟩
  have e : sqrtOpt (q.variance m) = some (Real.sqrt (q.variance m)) := by
    simp only [sqrtOpt, if_neg (not_lt.2 hv)]
  simp only [List.map_cons, Simple1DFilter.run, List.foldl_cons, Part.obs, hy, e]
  congr 1
  cases q <;> rfl

/-- C140: whatever else happens, what the node publishes for the height (roll, pitch) after a first pose
message of variance `v₀` and `k` more, each within `ε` of the truth and of variance at most `V`, is within
`ε` of the truth plus `V / (V + k v₀)` of the error of the first. -/
theorem C140_published {N : ℕ} (hN : 0 < N) (tf : Tf2) (p : EkfParams) (q : Part) {es : List Event}
    {m : PoseMsg} {ms : List PoseMsg} (hes : poses es = m :: ms) {y h ε V : ℝ}
    (hy : q.said tf m = some y) (hv : 0 ≤ q.variance m) (hε : 0 ≤ ε) (hV : 0 < V)
    (hms : ∀ m' ∈ ms, NearMsg tf q h ε V m') {s s' : NodeState N} {out o : List Output}
    (hrun : Ekf.run hN tf p (NodeState.make N p) es = .ok (s, out)) {t1 t2 t3 t4 t5 : ℤ}
    {sp : PoseMsg → Bool} {st : TwistMsg → Bool}
    (hstep : step hN tf p s (.timer t1 t2 t3 t4 t5 sp st) = .ok (s', o)) :
    ∀ a ∈ o, ∃ y', q.published a.estimate = some y' ∧
      |y' - h| ≤ ε + |y - h| * (V / (V + ms.length * q.variance m)) := by
  intro a ha
  obtain ⟨f, hf, f1, f2, f3, -, -⟩ := first_part (N := N) (p := p) tf q m ms y hy hv
  obtain ⟨y', r1, r2⟩ := C140_reached (h := h) (R := Real.sqrt V) f1 f2 f3 hε (Real.sqrt_pos.2 hV)
    (ms.map (q.obs tf)) (by
      intro o' ho'
      obtain ⟨m', hm', rfl⟩ := List.mem_map.1 ho'
      exact near_obs (hms m' hm'))
  refine ⟨y', ?_, ?_⟩
  · rw [(timer_part hstep q).2 a ha, run_part q es hrun, hes, hf, r1]
  · rwa [Real.sq_sqrt hV.le, Real.sq_sqrt hv, List.length_map] at r2

/-- C140: if the messages' stamps are at least `τ` apart the error falls geometrically, even if the first
message claims to be exact. -/
theorem C140_published_geometric {N : ℕ} (hN : 0 < N) (tf : Tf2) (p : EkfParams) (q : Part)
    {es : List Event} {m : PoseMsg} {ms : List PoseMsg} (hes : poses es = m :: ms) {y h ε V τ : ℝ}
    (hy : q.said tf m = some y) (hv : 0 ≤ q.variance m) (hε : 0 ≤ ε) (hV : 0 < V) (hτ : 0 ≤ τ)
    (hms : ∀ m' ∈ ms, NearMsg tf q h ε V m') (ha : ApartMsgs τ (m :: ms)) {s s' : NodeState N}
    {out o : List Output} (hrun : Ekf.run hN tf p (NodeState.make N p) es = .ok (s, out))
    {t1 t2 t3 t4 t5 : ℤ} {sp : PoseMsg → Bool} {st : TwistMsg → Bool}
    (hstep : step hN tf p s (.timer t1 t2 t3 t4 t5 sp st) = .ok (s', o)) :
    ∀ a ∈ o, ∃ y', q.published a.estimate = some y' ∧
      |y' - h| ≤ ε + |y - h| * (V / (V + (q.rate * τ) ^ 2)) ^ ms.length := by
  intro a hao
  obtain ⟨f, hf, f1, f2, f3, f4, f5⟩ := first_part (N := N) (p := p) tf q m ms y hy hv
  obtain ⟨y', r1, r2⟩ := C140_geometric (h := h) (R := Real.sqrt V) f1 f2 f3 hε hτ
    (ms.map (q.obs tf)) (by
      intro o' ho'
      obtain ⟨m', hm', rfl⟩ := List.mem_map.1 ho'
      exact near_obs (hms m' hm')) (by rw [f5]; exact apart_obs ms m ha)
  refine ⟨y', ?_, ?_⟩
  · rw [(timer_part hstep q).2 a hao, run_part q es hrun, hes, hf, r1]
  · rwa [Real.sq_sqrt hV.le, f4, List.length_map] at r2

/-- C140: so the error gets as near to `ε` as one likes: there is a number of messages after which every
pose published is within `ε + δ`. It depends only on the error and variance of the first, `V` and `δ`. -/
theorem C140_eventually {y h v V δ : ℝ} (hv : 0 < v) (hV : 0 < V) (hδ : 0 < δ) :
    ∃ k : ℕ, ∀ {N : ℕ} (hN : 0 < N) (tf : Tf2) (p : EkfParams) (q : Part) {es : List Event} {m : PoseMsg}
      {ms : List PoseMsg}, poses es = m :: ms → q.said tf m = some y → q.variance m = v →
      k ≤ ms.length → ∀ {ε : ℝ}, 0 ≤ ε → (∀ m' ∈ ms, NearMsg tf q h ε V m') →
      ∀ {s s' : NodeState N} {out o : List Output},
      Ekf.run hN tf p (NodeState.make N p) es = .ok (s, out) → ∀ {t1 t2 t3 t4 t5 : ℤ} {sp : PoseMsg → Bool}
      {st : TwistMsg → Bool}, step hN tf p s (.timer t1 t2 t3 t4 t5 sp st) = .ok (s', o) →
      ∀ a ∈ o, ∃ y', q.published a.estimate = some y' ∧ |y' - h| ≤ ε + δ := by
  obtain ⟨k, hk⟩ := exists_nat_ge (|y - h| * V / (v * δ))
  refine ⟨k, ?_⟩
  intro N hN tf p q es m ms hes hy hq hlen ε hε hms s s' out o hrun t1 t2 t3 t4 t5 sp st hstep a ha
  obtain ⟨y', r1, r2⟩ := C140_published hN tf p q hes hy (by rw [hq]; exact hv.le) hε hV hms hrun hstep a ha
  refine ⟨y', r1, r2.trans ?_⟩
  rw [hq]
  have h1 : |y - h| * V / (v * δ) ≤ (ms.length : ℝ) := hk.trans (by exact_mod_cast hlen)
  have h2 : |y - h| * V ≤ ms.length * (v * δ) := by
    rwa [div_le_iff₀ (by positivity)] at h1
  have h3 : |y - h| * (V / (V + ms.length * v)) ≤ δ := by
    rw [← mul_div_assoc, div_le_iff₀ (by positivity)]
    nlinarith
  linarith

/-! ### Examples -/

/-- Two messages of height 2 after one of height 10, the last of them the initial pose. -/
def exHeights : List Event :=
  [.pose (poseAt 10 0), .pose (poseAt 2 0), .initialPose (poseAt 2 1000000000) identityTries]

theorem exHeights_near (m' : PoseMsg) (h : m' ∈ [poseAt 2 0, poseAt 2 1000000000]) :
    NearMsg flatTf .height 2 0 1 m' := by
  simp only [List.mem_cons, List.not_mem_nil, or_false] at h
  rcases h with rfl | rfl <;> exact ⟨2, rfl, by norm_num, by norm_num [Part.variance, poseAt],
    by norm_num [Part.variance, poseAt]⟩

example : ∃ (s s' : NodeState 1) (out o : List Output),
    Ekf.run Nat.one_pos flatTf defaultParams (NodeState.make 1 defaultParams) exHeights = .ok (s, out) ∧
    step Nat.one_pos flatTf defaultParams s
      (.timer 0 0 0 0 0 (fun _ => true) (fun _ => true)) = .ok (s', o) ∧ o.length = 2 ∧
    ∀ a ∈ o, ∃ y', Part.published a.estimate .height = some y' ∧ |y' - 2| ≤ 8 / 3 := by
  have hex : ∃ (s s' : NodeState 1) (out o : List Output),
      Ekf.run Nat.one_pos flatTf defaultParams (NodeState.make 1 defaultParams) exHeights = .ok (s, out) ∧
      step Nat.one_pos flatTf defaultParams s
        (.timer 0 0 0 0 0 (fun _ => true) (fun _ => true)) = .ok (s', o) ∧ o.length = 2 :=
    ⟨_, _, _, _, rfl, rfl, rfl⟩
  obtain ⟨s, s', out, o, hr, hs, hl⟩ := hex
  refine ⟨s, s', out, o, hr, hs, hl, ?_⟩
  intro a ha
  obtain ⟨y', h1, h2⟩ := C140_published (es := exHeights) (m := poseAt 10 0)
    (ms := [poseAt 2 0, poseAt 2 1000000000]) (y := 10) (h := 2) (ε := 0) (V := 1) Nat.one_pos flatTf
    defaultParams .height rfl rfl (by norm_num [Part.variance, poseAt]) le_rfl one_pos exHeights_near hr hs
    a ha
  refine ⟨y', h1, h2.trans ?_⟩
  norm_num [Part.variance, poseAt]

/-- Ten metres off and certain of it, but ten messages of variance one, two seconds apart. -/
example (ms : List PoseMsg) (hms : ∀ m' ∈ ms, NearMsg tf2 .height 2 0 1 m') (hl : ms.length = 10)
    (m : PoseMsg) (hm : m.pz = some 12) (hv : m.cov 14 = 0) (ha : ApartMsgs 2 (m :: ms))
    {es : List Event} (hes : poses es = m :: ms) {s s' : NodeState 50} {out o : List Output}
    (hrun : Ekf.run (by norm_num) tf2 defaultParams (NodeState.make 50 defaultParams) es = .ok (s, out))
    {t : ℤ} (hstep : step (by norm_num) tf2 defaultParams s
      (.timer t t t t t (fun _ => true) (fun _ => true)) = .ok (s', o)) :
    ∀ a ∈ o, ∃ y', Part.published a.estimate .height = some y' ∧ |y' - 2| ≤ 1 / 900000 := by
  intro a hao
  obtain ⟨y', h1, h2⟩ := C140_published_geometric (by norm_num) tf2 defaultParams .height hes hm
    (by simp only [Part.variance, hv, le_refl]) le_rfl one_pos (by norm_num) hms ha hrun hstep a hao
  refine ⟨y', h1, h2.trans ?_⟩
  rw [hl]
  norm_num [Part.rate]

end Verif.Ekf
