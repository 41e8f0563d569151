/-
C157: what the localizer publishes after some time without messages, and how often it ticked in that time.
-/
import Verif.Props.C156

set_option autoImplicit false

namespace Verif.Ekf

open Matrix Verif.Kalman

/-! ### Specification -/

/-- Specification: the lengths of the intervals between ticks, in seconds, the first one from `a`. -/
noncomputable def gaps : ℝ → List Event → List ℝ
  | a, .timer t _ _ _ _ _ _ :: es => ((t : ℝ) / 1000000000 - a) :: gaps ((t : ℝ) / 1000000000) es
  | a, _ :: es => gaps a es
  | _, [] => []

/-- Specification: the last message in `out` is an odometry message with this place, heading and covariance of
the speeds. -/
def EndsWith (out : List Output) (x y yaw vx : ℝ) (tc : Fin 36 → ℝ) : Prop :=
  ∃ pre stamp frame child pose pc wz, out = pre ++ [.odometry stamp frame child pose pc vx wz tc] ∧
    pose.x = x ∧ pose.y = y ∧ pose.yaw = yaw

theorem gaps_sum : ∀ (es : List Event) {a b : ℝ}, TicksFrom a es b → (gaps a es).sum = b - a
  | [], a, b, h => by
    simp [gaps, show a = b from h]
  | .timer t _ _ _ _ _ _ :: es, a, b, h => by
    rw [gaps, List.sum_cons, gaps_sum es h.2]
    ring
  | .initialPose .. :: _, _, _, h => h.elim
  | .pose _ :: _, _, _, h => h.elim
  | .twist _ :: _, _, _, h => h.elim

section Node
variable {n : ℕ} {tf : Tf2} {p : EkfParams}

/-- The filter after predictions over intervals of these lengths. -/
noncomputable def predicted (p : EkfParams) (f : TimeDelayKalmanFilter ℝ (n + 1) 6) :
    List ℝ → TimeDelayKalmanFilter ℝ (n + 1) 6
  | [] => f
  | g :: gs => predicted p (predictStep n.succ_pos p (min g 10) f) gs

/-- Ticks without messages. -/
theorem quiet_predicted : ∀ (es : List Event) {s : NodeState (n + 1)} {f : TimeDelayKalmanFilter ℝ (n + 1) 6}
    {a b : ℝ}, s.ekf = some f → Quiet s → s.interval.lastTime = some a → TicksFrom a es b → es ≠ [] →
    ∃ s' pre s0 t4 t5, run n.succ_pos tf p s es =
      .ok (s', pre ++ publish n.succ_pos p s0 (predicted p f (gaps a es)) t4 t5) ∧
      s'.ekf = some (predicted p f (gaps a es)) ∧ Quiet s' ∧ s'.interval.lastTime = some b
  | [], _, _, _, _, _, _, _, _, hne => absurd rfl hne
  | .timer t1 t2 t3 t4 t5 sp st :: es, s, f, a, b, hf, hq, ha, h, _ => by
    obtain ⟨h1, h2⟩ := h
    have e := quiet_tick (tf := tf) (p := p) (t2 := t2) (t3 := t3) (t4 := t4) (t5 := t5) (sp := sp) (st := st)
      hf hq ha h1
    set g := predictStep n.succ_pos p (min ((t1 : ℝ) / 1000000000 - a) 10) f with hg
    by_cases hes : es = []
    · subst hes
      have hb : (t1 : ℝ) / 1000000000 = b := h2
      refine ⟨{ s with ekf := some g, interval := ⟨s.interval.defaultFrequency, some ((t1 : ℝ) / 1000000000)⟩ },
        [], s, t4, t5, ?_, rfl, ⟨hq.poses, hq.ages, hq.twists⟩, by rw [← hb]⟩
      simp only [run, e, bind, Except.bind, pure, Except.pure, List.append_nil, List.nil_append]
      rfl
    · obtain ⟨s', pre, s0, u4, u5, r1, r2, r3, r4⟩ := quiet_predicted es (s := { s with
          ekf := some g
          interval := ⟨s.interval.defaultFrequency, some ((t1 : ℝ) / 1000000000)⟩ }) rfl
        ⟨hq.poses, hq.ages, hq.twists⟩ rfl h2 hes
      refine ⟨s', publish n.succ_pos p s g t4 t5 ++ pre, s0, u4, u5, ?_, r2, r3, r4⟩
      simp only [run, e, r1, bind, Except.bind, pure, Except.pure, List.append_assoc]
      rfl
  | .initialPose .. :: _, _, _, _, _, _, _, _, h, _ => h.elim
  | .pose _ :: _, _, _, _, _, _, _, _, h, _ => h.elim
  | .twist _ :: _, _, _, _, _, _, _, _, h, _ => h.elim

theorem publish_endsWith (pre : List Output) (s : NodeState (n + 1)) (f : TimeDelayKalmanFilter ℝ (n + 1) 6)
    (t4 t5 : ℤ) : EndsWith (pre ++ publish n.succ_pos p s f t4 t5) (f.getLatestX n.succ_pos 0)
      (f.getLatestX n.succ_pos 1) (f.getLatestX n.succ_pos 2 + f.getLatestX n.succ_pos 3)
      (f.getLatestX n.succ_pos 4) (ekfCovarianceToTwistMessageCovariance (f.getLatestP n.succ_pos)) := by
  set pose : Estimate := ⟨f.getLatestX n.succ_pos 0, f.getLatestX n.succ_pos 1, s.z.getX, s.roll.getX,
    s.pitch.getX, f.getLatestX n.succ_pos 2 + f.getLatestX n.succ_pos 3⟩ with hpose
  refine ⟨pre ++ [.transform t4 p.poseFrame "base_link".toList pose], t5, p.poseFrame, "base_link".toList, pose,
    ekfCovarianceToPoseMessageCovariance (f.getLatestP n.succ_pos), f.getLatestX n.succ_pos 5, ?_, rfl, rfl, rfl⟩
  rw [List.append_assoc]
  rfl

/-! ### The variance of the speeds -/

theorem transition_speed (x : Fin 6 → ℝ) (dt : ℝ) (P : Matrix (Fin 6) (Fin 6) ℝ) :
    (createStateTransitionMatrix x dt * P * (createStateTransitionMatrix x dt)ᵀ) 4 4 = P 4 4 ∧
    (createStateTransitionMatrix x dt * P * (createStateTransitionMatrix x dt)ᵀ) 5 5 = P 5 5 := by
  have h4 : ∀ k, createStateTransitionMatrix x dt 4 k = if (4 : Fin 6) = k then 1 else 0 := by
    intro k; fin_cases k <;> simp [createStateTransitionMatrix]
  have h5 : ∀ k, createStateTransitionMatrix x dt 5 k = if (5 : Fin 6) = k then 1 else 0 := by
    intro k; fin_cases k <;> simp [createStateTransitionMatrix]
  constructor
  · simp [Matrix.mul_apply, h4]
  · simp [Matrix.mul_apply, h5]

theorem predict_speed (dt : ℝ) (f : TimeDelayKalmanFilter ℝ (n + 1) 6) :
    (predictStep n.succ_pos p dt f).getLatestP n.succ_pos 4 4 =
      f.getLatestP n.succ_pos 4 4 + p.vxCov ^ 2 * dt ^ 2 ∧
    (predictStep n.succ_pos p dt f).getLatestP n.succ_pos 5 5 =
      f.getLatestP n.succ_pos 5 5 + p.wzCov ^ 2 * dt ^ 2 := by
  obtain ⟨h1, h2⟩ := transition_speed (f.getLatestX n.succ_pos) dt (f.getLatestP n.succ_pos)
  rw [predictStep_latestP, Matrix.add_apply, Matrix.add_apply, h1, h2]
  constructor <;>
    simp [processNoiseCovariance, EkfParams.variance, DefaultVariance.timeScaledVariances, timeScaledVariance] <;> ring

theorem predicted_speed : ∀ (gs : List ℝ) (f : TimeDelayKalmanFilter ℝ (n + 1) 6), (∀ g ∈ gs, g ≤ 10) →
    (predicted p f gs).getLatestP n.succ_pos 4 4 =
      f.getLatestP n.succ_pos 4 4 + p.vxCov ^ 2 * (gs.map (· ^ 2)).sum ∧
    (predicted p f gs).getLatestP n.succ_pos 5 5 =
      f.getLatestP n.succ_pos 5 5 + p.wzCov ^ 2 * (gs.map (· ^ 2)).sum
  | [], f, _ => by simp [predicted]
  | g :: gs, f, h => by
    have hg : min g 10 = g := min_eq_left (h g List.mem_cons_self)
    obtain ⟨h1, h2⟩ := predicted_speed gs (predictStep n.succ_pos p g f)
      (fun g' hg' => h g' (List.mem_cons_of_mem _ hg'))
    obtain ⟨k1, k2⟩ := predict_speed (p := p) g f
    rw [predicted, hg, h1, h2, k1, k2, List.map_cons, List.sum_cons]
    constructor <;> ring

/-- C157: after ticks without messages the published variances of the two speeds are larger than before by the
squares of the parameters times the sum of the squares of the intervals. -/
theorem C157_variance {s : NodeState (n + 1)} {f : TimeDelayKalmanFilter ℝ (n + 1) 6} (hf : s.ekf = some f)
    (hq : Quiet s) {a b : ℝ} (ha : s.interval.lastTime = some a) {es : List Event} (hes : TicksFrom a es b)
    (hne : es ≠ []) (h10 : ∀ g ∈ gaps a es, g ≤ 10) :
    ∃ s' out x y yaw vx tc, run n.succ_pos tf p s es = .ok (s', out) ∧ EndsWith out x y yaw vx tc ∧
      tc 0 = f.getLatestP n.succ_pos 4 4 + p.vxCov ^ 2 * ((gaps a es).map (· ^ 2)).sum ∧
      tc 35 = f.getLatestP n.succ_pos 5 5 + p.wzCov ^ 2 * ((gaps a es).map (· ^ 2)).sum := by
  obtain ⟨s', pre, s0, t4, t5, r1, -, -, -⟩ := quiet_predicted (tf := tf) (p := p) es hf hq ha hes hne
  obtain ⟨h1, h2⟩ := predicted_speed (p := p) (gaps a es) f h10
  exact ⟨s', _, _, _, _, _, _, r1, publish_endsWith pre s0 _ t4 t5, h1, h2⟩

/-- C157, violated: of two nodes with the same parameters and the same estimate, the one that ticks every `d`
seconds and the one that ticks every `e` seconds publish different variances of the speed after the same time
without messages. What they add to it has the ratio of `d` to `e`. -/
theorem C157_rate_violated {s : NodeState (n + 1)} {f : TimeDelayKalmanFilter ℝ (n + 1) 6} (hf : s.ekf = some f)
    (hq : Quiet s) {a b d e : ℝ} (ha : s.interval.lastTime = some a) {es es' : List Event}
    (hes : TicksFrom a es b) (hes' : TicksFrom a es' b) (hab : a < b) (hd : ∀ g ∈ gaps a es, g = d)
    (he : ∀ g ∈ gaps a es', g = e) (hd10 : d ≤ 10) (he10 : e ≤ 10) (hde : d ≠ e) (hp : p.vxCov ≠ 0) :
    ∃ s1 o1 x1 y1 yaw1 vx1 tc1 s2 o2 x2 y2 yaw2 vx2 tc2,
      run n.succ_pos tf p s es = .ok (s1, o1) ∧ EndsWith o1 x1 y1 yaw1 vx1 tc1 ∧
      run n.succ_pos tf p s es' = .ok (s2, o2) ∧ EndsWith o2 x2 y2 yaw2 vx2 tc2 ∧
      tc1 0 - f.getLatestP n.succ_pos 4 4 = d * (p.vxCov ^ 2 * (b - a)) ∧
      tc2 0 - f.getLatestP n.succ_pos 4 4 = e * (p.vxCov ^ 2 * (b - a)) ∧ tc1 0 ≠ tc2 0 := by
  have hsq : ∀ (gs : List ℝ) (c : ℝ), (∀ g ∈ gs, g = c) → (gs.map (· ^ 2)).sum = c * gs.sum := by
    intro gs c
    induction gs with
    | nil => simp
    | cons g gs ih =>
      intro h
      rw [List.map_cons, List.sum_cons, List.sum_cons, ih fun g' hg' => h g' (List.mem_cons_of_mem _ hg'),
        h g List.mem_cons_self]
      ring
  have hne : ∀ l : List Event, TicksFrom a l b → l ≠ [] := by
    rintro l hl rfl
    exact hab.ne hl
  obtain ⟨s1, o1, x1, y1, w1, v1, tc1, r1, e1, q1, -⟩ := C157_variance (tf := tf) (p := p) hf hq ha hes (hne _ hes)
    (fun g hg => (hd g hg).le.trans hd10)
  obtain ⟨s2, o2, x2, y2, w2, v2, tc2, r2, e2, q2, -⟩ := C157_variance (tf := tf) (p := p) hf hq ha hes'
    (hne _ hes') (fun g hg => (he g hg).le.trans he10)
  rw [hsq _ _ hd, gaps_sum _ hes] at q1
  rw [hsq _ _ he, gaps_sum _ hes'] at q2
  have k1 : tc1 0 - f.getLatestP n.succ_pos 4 4 = d * (p.vxCov ^ 2 * (b - a)) := by rw [q1]; ring
  have k2 : tc2 0 - f.getLatestP n.succ_pos 4 4 = e * (p.vxCov ^ 2 * (b - a)) := by rw [q2]; ring
  refine ⟨s1, o1, x1, y1, w1, v1, tc1, s2, o2, x2, y2, w2, v2, tc2, r1, e1, r2, e2, k1, k2, fun h => hde ?_⟩
  have hpos : 0 < p.vxCov ^ 2 * (b - a) := mul_pos (by positivity) (sub_pos.2 hab)
  exact mul_right_cancel₀ hpos.ne' (k1.symm.trans ((congrArg (· - _) h).trans k2))

/-! ### The place -/

theorem predicted_straight : ∀ (gs : List ℝ) (f : TimeDelayKalmanFilter ℝ (n + 1) 6), (∀ g ∈ gs, g ≤ 10) →
    f.getLatestX n.succ_pos 5 = 0 → -Real.pi < f.getLatestX n.succ_pos 2 ∧ f.getLatestX n.succ_pos 2 ≤ Real.pi →
    (predicted p f gs).getLatestX n.succ_pos = fun k => f.getLatestX n.succ_pos k + gs.sum *
      ![f.getLatestX n.succ_pos 4 * Real.cos (f.getLatestX n.succ_pos 2 + f.getLatestX n.succ_pos 3),
        f.getLatestX n.succ_pos 4 * Real.sin (f.getLatestX n.succ_pos 2 + f.getLatestX n.succ_pos 3), 0, 0, 0, 0] k
  | [], f, _, _, _ => by
    funext k
    simp [predicted]
  | g :: gs, f, h, h5, h2 => by
    have hg : min g 10 = g := min_eq_left (h g List.mem_cons_self)
    have hx := predictStep_latestX p g f
    have e : ∀ k, (predictStep n.succ_pos p g f).getLatestX n.succ_pos k =
        predictNextState (f.getLatestX n.succ_pos) g k := fun k => congrFun hx k
    have e2 : (predictStep n.succ_pos p g f).getLatestX n.succ_pos 2 = f.getLatestX n.succ_pos 2 := by
      rw [e]
      simp [predictNextState, h5, C38_fixes _ h2.1 h2.2]
    have e3 : (predictStep n.succ_pos p g f).getLatestX n.succ_pos 3 = f.getLatestX n.succ_pos 3 := by
      rw [e]; simp [predictNextState]
    have e4 : (predictStep n.succ_pos p g f).getLatestX n.succ_pos 4 = f.getLatestX n.succ_pos 4 := by
      rw [e]; simp [predictNextState]
    have e5 : (predictStep n.succ_pos p g f).getLatestX n.succ_pos 5 = f.getLatestX n.succ_pos 5 := by
      rw [e]; simp [predictNextState]
    have ih := predicted_straight gs (predictStep n.succ_pos p g f)
      (fun g' hg' => h g' (List.mem_cons_of_mem _ hg')) (e5.trans h5) (by rw [e2]; exact h2)
    rw [predicted, hg, ih]
    funext k
    rw [e2, e3, e4, List.sum_cons]
    fin_cases k
    · rw [e]; simp [predictNextState]; ring
    · rw [e]; simp [predictNextState]; ring
    · simp [e2]
    · simp [e3]
    · simp [e4]
    · simp [e5]

/-- C157, what holds: as long as the estimate does not turn, the place and the heading published after ticks
without messages depend only on the time that has passed. -/
theorem C157_straight_partial {s : NodeState (n + 1)} {f : TimeDelayKalmanFilter ℝ (n + 1) 6}
    (hf : s.ekf = some f) (hq : Quiet s) {a b : ℝ} (ha : s.interval.lastTime = some a) {es : List Event}
    (hes : TicksFrom a es b) (hne : es ≠ []) (h10 : ∀ g ∈ gaps a es, g ≤ 10)
    (h5 : f.getLatestX n.succ_pos 5 = 0)
    (h2 : -Real.pi < f.getLatestX n.succ_pos 2 ∧ f.getLatestX n.succ_pos 2 ≤ Real.pi) :
    ∃ s' out tc, run n.succ_pos tf p s es = .ok (s', out) ∧
      EndsWith out
        (f.getLatestX n.succ_pos 0 + (b - a) * (f.getLatestX n.succ_pos 4 *
          Real.cos (f.getLatestX n.succ_pos 2 + f.getLatestX n.succ_pos 3)))
        (f.getLatestX n.succ_pos 1 + (b - a) * (f.getLatestX n.succ_pos 4 *
          Real.sin (f.getLatestX n.succ_pos 2 + f.getLatestX n.succ_pos 3)))
        (f.getLatestX n.succ_pos 2 + f.getLatestX n.succ_pos 3) (f.getLatestX n.succ_pos 4) tc := by
  obtain ⟨s', pre, s0, t4, t5, r1, -, -, -⟩ := quiet_predicted (tf := tf) (p := p) es hf hq ha hes hne
  have h := publish_endsWith (p := p) pre s0 (predicted p f (gaps a es)) t4 t5
  rw [predicted_straight (p := p) (gaps a es) f h10 h5 h2, gaps_sum _ hes] at h
  refine ⟨s', _, ekfCovarianceToTwistMessageCovariance ((predicted p f (gaps a es)).getLatestP n.succ_pos), r1, ?_⟩
  simpa using h

theorem turned {c : ℝ} (hc : 0 < c) {u v : ℝ} (h : Real.cos u = Real.cos v ∧ Real.sin u = Real.sin v)
    (hl : |u - v| = c) (hc2 : c < 2 * Real.pi) : False := by
  have h1 : Real.cos (u - v) = 1 := by
    rw [Real.cos_sub, h.1, h.2]
    nlinarith [Real.sin_sq_add_cos_sq v]
  rw [← Real.cos_abs, hl] at h1
  have := (Real.cos_eq_one_iff_of_lt_of_lt (by linarith) hc2).1 h1
  linarith

/-- C157, violated: as soon as the estimate moves and turns, one tick after the time `2 h` and two ticks after
`h` each end in different places. -/
theorem C157_turn_violated {s : NodeState (n + 1)} {f : TimeDelayKalmanFilter ℝ (n + 1) 6}
    (hf : s.ekf = some f) (hq : Quiet s) {t u v : ℤ} (ha : s.interval.lastTime = some ((t : ℝ) / 1000000000))
    (htu : t < u) (huv : v - u = u - t) (h10 : v - t ≤ 10000000000)
    (h4 : f.getLatestX n.succ_pos 4 ≠ 0) (h5 : f.getLatestX n.succ_pos 5 ≠ 0)
    (h5' : |f.getLatestX n.succ_pos 5| * (((u - t : ℤ) : ℝ) / 1000000000) < 2 * Real.pi)
    (sp : PoseMsg → Bool) (st : TwistMsg → Bool) :
    ∃ s1 o1 x1 y1 yaw1 vx1 tc1 s2 o2 x2 y2 yaw2 vx2 tc2,
      run n.succ_pos tf p s [.timer v v v v v sp st] = .ok (s1, o1) ∧ EndsWith o1 x1 y1 yaw1 vx1 tc1 ∧
      run n.succ_pos tf p s [.timer u u u u u sp st, .timer v v v v v sp st] = .ok (s2, o2) ∧
      EndsWith o2 x2 y2 yaw2 vx2 tc2 ∧ (x1, y1) ≠ (x2, y2) := by
  set h : ℝ := ((u - t : ℤ) : ℝ) / 1000000000 with hh
  have hpos : 0 < h := by
    have : (0 : ℝ) < ((u - t : ℤ) : ℝ) := by exact_mod_cast sub_pos.2 htu
    rw [hh]; positivity
  have hgu : (u : ℝ) / 1000000000 - (t : ℝ) / 1000000000 = h := by
    rw [hh]; push_cast; ring
  have hvu : (v : ℝ) - u = u - t := by exact_mod_cast huv
  have hgv : (v : ℝ) / 1000000000 - (u : ℝ) / 1000000000 = h := by
    rw [hh]; push_cast; rw [← hvu]; ring
  have hgt : (v : ℝ) / 1000000000 - (t : ℝ) / 1000000000 = 2 * h := by linarith
  have hle : 2 * h ≤ 10 := by
    rw [← hgt]
    have : ((v - t : ℤ) : ℝ) ≤ 10000000000 := by exact_mod_cast h10
    push_cast at this
    linarith
  have T1 : TicksFrom ((t : ℝ) / 1000000000) [.timer v v v v v sp st] ((v : ℝ) / 1000000000) :=
    ⟨by linarith, rfl⟩
  have T2 : TicksFrom ((t : ℝ) / 1000000000) [.timer u u u u u sp st, .timer v v v v v sp st]
      ((v : ℝ) / 1000000000) := ⟨by linarith, by linarith, rfl⟩
  obtain ⟨s1, pre1, s01, a4, a5, r1, -, -, -⟩ := quiet_predicted (tf := tf) (p := p) _ hf hq ha T1 (by simp)
  obtain ⟨s2, pre2, s02, b4, b5, r2, -, -, -⟩ := quiet_predicted (tf := tf) (p := p) _ hf hq ha T2 (by simp)
  refine ⟨s1, _, _, _, _, _, _, s2, _, _, _, _, _, _, r1, publish_endsWith pre1 s01 _ a4 a5, r2,
    publish_endsWith pre2 s02 _ b4 b5, ?_⟩
  simp only [gaps, predicted, hgu, hgv, hgt, min_eq_left hle, min_eq_left (by linarith : h ≤ 10),
    predictStep_latestX]
  set x := f.getLatestX n.succ_pos with hx
  intro heq
  rw [Prod.mk.injEq] at heq
  obtain ⟨e1, e2⟩ := heq
  obtain ⟨k, hk⟩ := (C38_congruent (x 2 + x 5 * h)).1
  simp only [predictNextState] at e1 e2
  simp only [Matrix.cons_val_zero, Matrix.cons_val_one, Matrix.cons_val] at e1 e2
  rw [hk] at e1 e2
  have p1 : Real.cos (x 2 + x 5 * h + k * (2 * Real.pi) + x 3) = Real.cos (x 2 + x 3 + x 5 * h) := by
    rw [show x 2 + x 5 * h + k * (2 * Real.pi) + x 3 = x 2 + x 3 + x 5 * h + k * (2 * Real.pi) by ring]
    exact Real.cos_add_int_mul_two_pi _ _
  have p2 : Real.sin (x 2 + x 5 * h + k * (2 * Real.pi) + x 3) = Real.sin (x 2 + x 3 + x 5 * h) := by
    rw [show x 2 + x 5 * h + k * (2 * Real.pi) + x 3 = x 2 + x 3 + x 5 * h + k * (2 * Real.pi) by ring]
    exact Real.sin_add_int_mul_two_pi _ _
  rw [p1] at e1
  rw [p2] at e2
  have hvh : x 4 * h ≠ 0 := mul_ne_zero h4 hpos.ne'
  have q1 : Real.cos (x 2 + x 3 + x 5 * h) = Real.cos (x 2 + x 3) :=
    mul_left_cancel₀ hvh (by linarith)
  have q2 : Real.sin (x 2 + x 3 + x 5 * h) = Real.sin (x 2 + x 3) :=
    mul_left_cancel₀ hvh (by linarith)
  refine turned (c := |x 5| * h) (mul_pos (abs_pos.2 h5) hpos) ⟨q1, q2⟩ ?_ h5'
  rw [show x 2 + x 3 + x 5 * h - (x 2 + x 3) = x 5 * h by ring, abs_mul, abs_of_pos hpos]

end Node

/-! Non-vacuity. -/

/-- A node at rest with three stored states. -/
noncomputable def restingNode : NodeState 3 :=
  ⟨some (off0 (n := 2)), ⟨1, some 0⟩, ⟨1, [], []⟩, ⟨1, [], []⟩, Simple1DFilter.make 1, Simple1DFilter.make 1,
    Simple1DFilter.make 1⟩

/-- After two seconds: one node that ticked twice, one that ticked once. -/
example (sp : PoseMsg → Bool) (st : TwistMsg → Bool) :
    ∃ s1 o1 x1 y1 yaw1 vx1 tc1 s2 o2 x2 y2 yaw2 vx2 tc2,
      run (by norm_num) flatTf offParams restingNode
        [.timer 1000000000 0 0 0 0 sp st, .timer 2000000000 0 0 0 0 sp st] = .ok (s1, o1) ∧
      EndsWith o1 x1 y1 yaw1 vx1 tc1 ∧
      run (by norm_num) flatTf offParams restingNode [.timer 2000000000 0 0 0 0 sp st] = .ok (s2, o2) ∧
      EndsWith o2 x2 y2 yaw2 vx2 tc2 ∧
      tc1 0 - (off0 (n := 2)).getLatestP (by norm_num) 4 4 = 1 * (offParams.vxCov ^ 2 * (2 - 0)) ∧
      tc2 0 - (off0 (n := 2)).getLatestP (by norm_num) 4 4 = 2 * (offParams.vxCov ^ 2 * (2 - 0)) ∧ tc1 0 ≠ tc2 0 := by
  refine C157_rate_violated (n := 2) (s := restingNode) rfl ⟨rfl, rfl, rfl⟩ rfl ?_ ?_ (by norm_num) ?_ ?_
    (by norm_num) (by norm_num) (by norm_num) ?_
  · norm_num [TicksFrom]
  · norm_num [TicksFrom]
  · norm_num [gaps]
  · norm_num [gaps]
  · norm_num [offParams]

/-- A node that moves at one metre a second and turns at `w` radians a second. -/
noncomputable def movingNode (w : ℝ) : NodeState 3 :=
  { restingNode with
    ekf := some (TimeDelayKalmanFilter.make ![0, 0, 0, 0, 1, w] (initCovariance fun _ => 1) 3) }

theorem movingNode_x (w : ℝ) (k : Fin 6) :
    (TimeDelayKalmanFilter.make ![0, 0, 0, 0, 1, w] (initCovariance fun _ => 1) 3).getLatestX
      (by norm_num) k = ![0, 0, 0, 0, 1, w] k := by
  fin_cases k <;> simp [TimeDelayKalmanFilter.getLatestX, TimeDelayKalmanFilter.make, initX]

/-- It goes straight on: after three uneven ticks it is four metres ahead. -/
example (sp : PoseMsg → Bool) (st : TwistMsg → Bool) :
    ∃ s' out tc, run (by norm_num) flatTf offParams (movingNode 0)
        [.timer 1000000000 0 0 0 0 sp st, .timer 1500000000 0 0 0 0 sp st, .timer 4000000000 0 0 0 0 sp st] =
          .ok (s', out) ∧ EndsWith out 4 0 0 1 tc := by
  have h := C157_straight_partial (n := 2) (tf := flatTf) (p := offParams) (s := movingNode 0) (a := 0) (b := 4)
    (es := [.timer 1000000000 0 0 0 0 sp st, .timer 1500000000 0 0 0 0 sp st, .timer 4000000000 0 0 0 0 sp st])
    rfl ⟨rfl, rfl, rfl⟩ rfl (by norm_num [TicksFrom]) (by simp) (by norm_num [gaps])
    (by rw [movingNode_x]; simp) (by rw [movingNode_x]; simp [Real.pi_pos, Real.pi_pos.le])
  simpa [movingNode_x] using h

/-- It turns: one tick after two seconds, or two ticks a second apart. -/
example (sp : PoseMsg → Bool) (st : TwistMsg → Bool) :
    ∃ s1 o1 x1 y1 yaw1 vx1 tc1 s2 o2 x2 y2 yaw2 vx2 tc2,
      run (by norm_num) flatTf offParams (movingNode 1)
        [.timer 2000000000 2000000000 2000000000 2000000000 2000000000 sp st] = .ok (s1, o1) ∧
      EndsWith o1 x1 y1 yaw1 vx1 tc1 ∧
      run (by norm_num) flatTf offParams (movingNode 1)
        [.timer 1000000000 1000000000 1000000000 1000000000 1000000000 sp st,
         .timer 2000000000 2000000000 2000000000 2000000000 2000000000 sp st] = .ok (s2, o2) ∧
      EndsWith o2 x2 y2 yaw2 vx2 tc2 ∧ (x1, y1) ≠ (x2, y2) := by
  refine C157_turn_violated (n := 2) (s := movingNode 1) (t := 0) rfl ⟨rfl, rfl, rfl⟩ ?_ (by norm_num)
    (by norm_num) (by norm_num) (by rw [movingNode_x]; simp) (by rw [movingNode_x]; simp) ?_ sp st
  · simp [movingNode, restingNode]
  · rw [movingNode_x, show (![0, 0, 0, 0, 1, 1] : Fin 6 → ℝ) 5 = 1 from rfl]
    norm_num
    linarith [Real.pi_gt_three]

end Verif.Ekf
