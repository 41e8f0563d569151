/-
C125: without measurements the localizer goes on as it was going.
-/
import Verif.Props.C123

set_option autoImplicit false

namespace Verif.Ekf

open Matrix Verif.Kalman

variable {n : ℕ}

/-! ### Specification -/

/-- What an odometry message says. -/
structure Report where
  x : ℝ
  y : ℝ
  z : Option ℝ
  roll : Option ℝ
  pitch : Option ℝ
  yaw : ℝ
  vx : ℝ
  wz : ℝ
  /-- The variances of the two speeds. -/
  varVx : ℝ
  varWz : ℝ

/-- Reading an output. -/
def Output.report : Output → Option Report
  | .transform .. => none
  | .odometry _ _ _ e _ vx wz tc =>
    some ⟨e.x, e.y, e.z, e.roll, e.pitch, e.yaw, vx, wz, entry tc (twistSlot 0) (twistSlot 0),
      entry tc (twistSlot 1) (twistSlot 1)⟩

/-- The second report is the first one moved on for `dt` seconds. -/
structure Report.MovesOn (p : EkfParams) (dt : ℝ) (a b : Report) : Prop where
  x : b.x = a.x + a.vx * Real.cos a.yaw * dt
  y : b.y = a.y + a.vx * Real.sin a.yaw * dt
  yaw : ∃ k : ℤ, b.yaw = a.yaw + a.wz * dt + k * (2 * Real.pi)
  vx : b.vx = a.vx
  wz : b.wz = a.wz
  z : b.z = a.z
  roll : b.roll = a.roll
  pitch : b.pitch = a.pitch
  varVx : b.varVx = a.varVx + (p.vxCov * dt) ^ 2
  varWz : b.varWz = a.varWz + (p.wzCov * dt) ^ 2

/-- The reports after `a`, which was made when the clock showed `last`: one for each tick of the timer that
is not earlier than the one before, moved on for the time between the two, but at most for 10 seconds. -/
def GoesOn (p : EkfParams) : Report → ℝ → List Event → List Report → Prop
  | _, _, [], bs => bs = []
  | a, last, .timer t1 _ _ _ _ _ _ :: es, bs =>
    if (t1 : ℝ) / 1000000000 < last then GoesOn p a last es bs
    else ∃ b bs', bs = b :: bs' ∧ a.MovesOn p (min ((t1 : ℝ) / 1000000000 - last) 10) b ∧
      GoesOn p b ((t1 : ℝ) / 1000000000) es bs'
  | _, _, _, _ => False

/-! ### The prediction -/

theorem predictStep_latestX (p : EkfParams) (dt : ℝ) (f : TimeDelayKalmanFilter ℝ (n + 1) 6) :
    (predictStep n.succ_pos p dt f).getLatestX n.succ_pos =
      predictNextState (f.getLatestX n.succ_pos) dt := by
  have h := updateX_blk_zero (n := n) f.x (predictNextState (f.getLatestX n.succ_pos) dt)
  refine Eq.trans ?_ h
  funext k
  simp only [TimeDelayKalmanFilter.getLatestX, blkX, ← emb_slot_zero k (lt_of_seqN n.succ_pos k.isLt)]
  rfl

theorem getLatestP_blk (f : TimeDelayKalmanFilter ℝ (n + 1) 6) :
    f.getLatestP n.succ_pos = blk f.P 0 0 := by
  funext k l
  simp only [TimeDelayKalmanFilter.getLatestP, blk]
  rw [emb_slot_zero, emb_slot_zero]

theorem predictStep_latestP (p : EkfParams) (dt : ℝ) (f : TimeDelayKalmanFilter ℝ (n + 1) 6) :
    (predictStep n.succ_pos p dt f).getLatestP n.succ_pos =
      createStateTransitionMatrix (f.getLatestX n.succ_pos) dt * f.getLatestP n.succ_pos *
        (createStateTransitionMatrix (f.getLatestX n.succ_pos) dt)ᵀ +
        processNoiseCovariance (p.variance.timeScaledVariances dt) := by
  rw [getLatestP_blk, getLatestP_blk]
  exact updateP_blk_00 (by omega) _ _ _

theorem predictStep_speeds (p : EkfParams) (dt : ℝ) (f : TimeDelayKalmanFilter ℝ (n + 1) 6) :
    (predictStep n.succ_pos p dt f).getLatestP n.succ_pos 4 4 =
      f.getLatestP n.succ_pos 4 4 + (p.vxCov * dt) ^ 2 ∧
    (predictStep n.succ_pos p dt f).getLatestP n.succ_pos 5 5 =
      f.getLatestP n.succ_pos 5 5 + (p.wzCov * dt) ^ 2 := by
  rw [predictStep_latestP]
  generalize f.getLatestP n.succ_pos = P
  generalize f.getLatestX n.succ_pos = x
  have key : ∀ (A : Matrix (Fin 6) (Fin 6) ℝ) (i : Fin 6), (∀ k, A i k = if i = k then 1 else 0) →
      (A * P * Aᵀ) i i = P i i := by
    intro A i hA
    simp [Matrix.mul_apply, hA]
  constructor
  · rw [Matrix.add_apply, key _ 4 (by intro k; fin_cases k <;> simp [createStateTransitionMatrix])]
    simp [processNoiseCovariance, EkfParams.variance, DefaultVariance.timeScaledVariances,
      timeScaledVariance]
    ring
  · rw [Matrix.add_apply, key _ 5 (by intro k; fin_cases k <;> simp [createStateTransitionMatrix])]
    simp [processNoiseCovariance, EkfParams.variance, DefaultVariance.timeScaledVariances,
      timeScaledVariance]
    ring

/-- What the node would publish for a filter. -/
def reportOf (s : NodeState (n + 1)) (f : TimeDelayKalmanFilter ℝ (n + 1) 6) : Report :=
  ⟨f.getLatestX n.succ_pos 0, f.getLatestX n.succ_pos 1, s.z.getX, s.roll.getX, s.pitch.getX,
    f.getLatestX n.succ_pos 2 + f.getLatestX n.succ_pos 3, f.getLatestX n.succ_pos 4,
    f.getLatestX n.succ_pos 5, f.getLatestP n.succ_pos 4 4, f.getLatestP n.succ_pos 5 5⟩

theorem publish_report (p : EkfParams) (s : NodeState (n + 1)) (f : TimeDelayKalmanFilter ℝ (n + 1) 6)
    (t4 t5 : ℤ) : (publish n.succ_pos p s f t4 t5).filterMap Output.report = [reportOf s f] := by
  rfl

theorem reportOf_predictStep (p : EkfParams) (s : NodeState (n + 1)) (dt : ℝ)
    (f : TimeDelayKalmanFilter ℝ (n + 1) 6) :
    (reportOf s f).MovesOn p dt (reportOf s (predictStep n.succ_pos p dt f)) := by
  obtain ⟨h4, h5⟩ := predictStep_speeds p dt f
  refine ⟨?_, ?_, ?_, ?_, ?_, rfl, rfl, rfl, h4, h5⟩
  · simp [reportOf, predictStep_latestX, predictNextState]
  · simp [reportOf, predictStep_latestX, predictNextState]
  · obtain ⟨k, hk⟩ := (C38_congruent (f.getLatestX n.succ_pos 2 + f.getLatestX n.succ_pos 5 * dt)).1
    refine ⟨k, ?_⟩
    simp [reportOf, predictStep_latestX, predictNextState, hk]
    ring
  · simp [reportOf, predictStep_latestX, predictNextState]
  · simp [reportOf, predictStep_latestX, predictNextState]

/-! ### The node -/

theorem updateAll_empty {α F : Type} (process : α → F → Res F) (q : AgedQueue α) (f : F)
    (hq : q.msgs = []) : updateAll process q f = .ok (f, q) := by
  simp [updateAll, AgedQueue.size, hq, updateLoop]

theorem compute_interval (u : UpdateInterval ℝ) (last t : ℝ) (hu : u.lastTime = some last) :
    u.compute t = if t < last then (.error .invalidArgument, u)
      else (.ok (min (t - last) 10), ⟨u.defaultFrequency, some t⟩) := by
  simp only [UpdateInterval.compute, hu]
  split_ifs with h
  · rfl
  · have h0 : 0 ≤ t - last := by linarith
    congr 2
    unfold recipNonneg
    split_ifs with h1
    · rw [h1]
      simp [computeInterval]
    · have hp : 0 < t - last := lt_of_le_of_ne h0 (Ne.symm h1)
      change 1 / max (1 / (t - last)) (1 / 10) = _
      rcases le_total (t - last) 10 with h2 | h2
      · rw [min_eq_left h2, max_eq_left (one_div_le_one_div_of_le hp h2), one_div_one_div]
      · rw [min_eq_right h2, max_eq_right (one_div_le_one_div_of_le (by norm_num) h2), one_div_one_div]

/-- C125: once no measurements are queued, the reports of the following ticks are the last report moved on. -/
theorem run_goesOn (tf : Tf2) (p : EkfParams) : ∀ (es : List Event) (s s' : NodeState (n + 1))
    (f : TimeDelayKalmanFilter ℝ (n + 1) 6) (last : ℝ) (out : List Output),
    (∀ e ∈ es, ∃ t1 t2 t3 t4 t5 sp st, e = .timer t1 t2 t3 t4 t5 sp st) → s.ekf = some f →
    s.interval.lastTime = some last → s.poseQ.msgs = [] → s.twistQ.msgs = [] →
    run n.succ_pos tf p s es = .ok (s', out) →
    GoesOn p (reportOf s f) last es (out.filterMap Output.report)
  | [], s, s', f, last, out, _, _, _, _, _, h => by
    simp only [run, Except.ok.injEq, Prod.mk.injEq] at h
    rw [← h.2]
    rfl
  | e :: es, s, s', f, last, out, hes, hf, hl, hq1, hq2, h => by
    obtain ⟨t1, t2, t3, t4, t5, sp, st, rfl⟩ := hes e List.mem_cons_self
    have hes' := fun e he => hes e (List.mem_cons_of_mem _ he)
    have hc := compute_interval s.interval last ((t1 : ℝ) / 1000000000) hl
    simp only [run, step, timerCallback, hf] at h
    rw [GoesOn]
    by_cases ht : (t1 : ℝ) / 1000000000 < last
    · rw [if_pos ht] at hc ⊢
      have hs : (⟨some f, s.interval, s.poseQ, s.twistQ, s.z, s.roll, s.pitch⟩ : NodeState (n + 1)) = s := by
        rw [← hf]
      simp only [hc, bind, Except.bind] at h
      rw [hs] at h
      cases hr : run n.succ_pos tf p s es with
      | error e => rw [hr] at h; cases h
      | ok r =>
        rw [hr] at h
        simp only [pure, Except.pure, Except.ok.injEq, Prod.mk.injEq, List.nil_append] at h
        have := run_goesOn tf p es s r.1 f last r.2 hes' hf hl hq1 hq2 hr
        rwa [h.2] at this
    · rw [if_neg ht] at hc ⊢
      simp only [hc, bind, Except.bind, updateAll_empty _ _ _ hq1, updateAll_empty _ _ _ hq2, pure,
        Except.pure] at h
      set dt := min ((t1 : ℝ) / 1000000000 - last) 10 with hdt
      set s1 : NodeState (n + 1) := { s with
        ekf := some (predictStep n.succ_pos p dt f)
        interval := ⟨s.interval.defaultFrequency, some ((t1 : ℝ) / 1000000000)⟩ } with hs1
      cases hr : run n.succ_pos tf p s1 es with
      | error e =>
        have hr' := hr
        rw [hs1] at hr'
        rw [hr'] at h
        cases h
      | ok r =>
        have hr' := hr
        rw [hs1] at hr'
        rw [hr'] at h
        simp only [Except.ok.injEq, Prod.mk.injEq] at h
        refine ⟨reportOf s (predictStep n.succ_pos p dt f), r.2.filterMap Output.report, ?_,
          reportOf_predictStep p s dt f, ?_⟩
        · rw [← h.2, List.filterMap_append, publish_report]
          rfl
        · exact run_goesOn tf p es s1 r.1 _ _ r.2 hes' rfl rfl hq1 hq2 hr

/-- C125, main statement: after a tick that published the report `a` and left no measurements in the
queues, as long as only the timer calls the node, every further report is the one before moved on for the
time between the ticks. -/
theorem C125_goes_on (tf : Tf2) (p : EkfParams) (s s1 s' : NodeState (n + 1)) {t1 t2 t3 t4 t5 : ℤ}
    {sp : PoseMsg → Bool} {st : TwistMsg → Bool} {o out : List Output} {a : Report}
    (htick : step n.succ_pos tf p s (.timer t1 t2 t3 t4 t5 sp st) = .ok (s1, o))
    (ha : a ∈ o.filterMap Output.report) (hq1 : s1.poseQ.msgs = []) (hq2 : s1.twistQ.msgs = [])
    (es : List Event) (hes : ∀ e ∈ es, ∃ t1 t2 t3 t4 t5 sp st, e = .timer t1 t2 t3 t4 t5 sp st)
    (h : run n.succ_pos tf p s1 es = .ok (s', out)) :
    GoesOn p a ((t1 : ℝ) / 1000000000) es (out.filterMap Output.report) := by
  simp only [step, timerCallback] at htick
  cases hf : s.ekf with
  | none =>
    rw [hf] at htick
    simp only [Except.ok.injEq, Prod.mk.injEq] at htick
    rw [← htick.2] at ha
    cases ha
  | some f =>
    rw [hf] at htick
    simp only at htick
    cases hc : s.interval.compute ((t1 : ℝ) / 1000000000) with
    | mk r iv =>
      rw [hc] at htick
      cases r with
      | error e =>
        cases e <;> simp only [reduceCtorEq, Except.ok.injEq, Prod.mk.injEq] at htick
        rw [← htick.2] at ha
        cases ha
      | ok dt =>
        have hiv : iv.lastTime = some ((t1 : ℝ) / 1000000000) := by
          simp only [UpdateInterval.compute] at hc
          split at hc
          · simp only [Prod.mk.injEq] at hc
            rw [← hc.2]
          · split_ifs at hc
            · simp only [Prod.mk.injEq, reduceCtorEq, false_and] at hc
            · simp only [Prod.mk.injEq] at hc
              rw [← hc.2]
        simp only [bind, Except.bind] at htick
        cases hu : updateAll (processPose n.succ_pos tf sp p.poseGate p.poseSmoothing t2 dt) s.poseQ
            (predictStep n.succ_pos p dt f) with
        | error e => rw [hu] at htick; cases htick
        | ok u =>
          rw [hu] at htick
          simp only at htick
          cases hv : updateAll (processTwist n.succ_pos st p.twistGate p.twistSmoothing t3 dt)
              s.twistQ u.1 with
          | error e => rw [hv] at htick; cases htick
          | ok v =>
            rw [hv] at htick
            simp only [pure, Except.pure, Except.ok.injEq, Prod.mk.injEq] at htick
            obtain ⟨rfl, rfl⟩ := htick
            rw [publish_report, List.mem_singleton] at ha
            rw [ha]
            exact run_goesOn tf p es { s with
              ekf := some v.1
              interval := iv
              poseQ := u.2
              twistQ := v.2 } s' v.1 _ out hes rfl hiv hq1 hq2 h

/-! ### Consequences -/

/-- The time that passes for the reports: the steps forward of the clock, each counted up to 10 seconds. -/
noncomputable def elapsed : ℝ → List Event → ℝ
  | last, .timer t1 _ _ _ _ _ _ :: es =>
    if (t1 : ℝ) / 1000000000 < last then elapsed last es
    else min ((t1 : ℝ) / 1000000000 - last) 10 + elapsed ((t1 : ℝ) / 1000000000) es
  | last, _ :: es => elapsed last es
  | _, [] => 0

theorem elapsed_nonneg : ∀ (es : List Event) (last : ℝ), 0 ≤ elapsed last es
  | [], _ => le_refl _
  | .timer t1 t2 t3 t4 t5 sp st :: es, last => by
    rw [elapsed]
    split_ifs with h
    · exact elapsed_nonneg es _
    · exact add_nonneg (le_min (by linarith) (by norm_num)) (elapsed_nonneg es _)
  | .pose m :: es, last => elapsed_nonneg es last
  | .twist m :: es, last => elapsed_nonneg es last
  | .initialPose m t :: es, last => elapsed_nonneg es last

/-- C125: the speeds, the height and the inclination of all reports are those of the last one with
measurements; the variances of the speeds never decrease; and the positions keep within the distance that
can be driven at that speed. -/
theorem C125_within_reach (p : EkfParams) : ∀ (es : List Event) (a : Report) (last : ℝ) (bs : List Report),
    GoesOn p a last es bs → ∀ b ∈ bs,
      b.vx = a.vx ∧ b.wz = a.wz ∧ b.z = a.z ∧ b.roll = a.roll ∧ b.pitch = a.pitch ∧
      a.varVx ≤ b.varVx ∧ a.varWz ≤ b.varWz ∧
      Real.sqrt ((b.x - a.x) ^ 2 + (b.y - a.y) ^ 2) ≤ |a.vx| * elapsed last es
  | [], a, last, bs, h, b, hb => by
    have : bs = [] := h
    rw [this] at hb
    cases hb
  | .timer t1 t2 t3 t4 t5 sp st :: es, a, last, bs, h, b, hb => by
    rw [GoesOn] at h
    rw [elapsed]
    split_ifs at h ⊢ with ht
    · exact C125_within_reach p es a last bs h b hb
    · obtain ⟨c, bs', rfl, hm, hg⟩ := h
      set dt := min ((t1 : ℝ) / 1000000000 - last) 10 with hdt
      have hdt0 : 0 ≤ dt := le_min (by linarith) (by norm_num)
      have hstep : Real.sqrt ((c.x - a.x) ^ 2 + (c.y - a.y) ^ 2) = |a.vx| * dt := by
        have : (c.x - a.x) ^ 2 + (c.y - a.y) ^ 2 = (a.vx * dt) ^ 2 := by
          rw [hm.x, hm.y]
          linear_combination (a.vx * dt) ^ 2 * Real.sin_sq_add_cos_sq a.yaw
        rw [this, Real.sqrt_sq_eq_abs, abs_mul, abs_of_nonneg hdt0]
      have he := elapsed_nonneg es ((t1 : ℝ) / 1000000000)
      rcases List.mem_cons.1 hb with rfl | hb
      · refine ⟨hm.vx, hm.wz, hm.z, hm.roll, hm.pitch, ?_, ?_, ?_⟩
        · rw [hm.varVx]; nlinarith [sq_nonneg (p.vxCov * dt)]
        · rw [hm.varWz]; nlinarith [sq_nonneg (p.wzCov * dt)]
        · rw [hstep, mul_add]
          nlinarith [mul_nonneg (abs_nonneg a.vx) he]
      · obtain ⟨h1, h2, h3, h4, h5, h6, h7, h8⟩ := C125_within_reach p es c _ bs' hg b hb
        refine ⟨h1.trans hm.vx, h2.trans hm.wz, h3.trans hm.z, h4.trans hm.roll, h5.trans hm.pitch, ?_, ?_, ?_⟩
        · rw [hm.varVx] at h6; nlinarith [sq_nonneg (p.vxCov * dt)]
        · rw [hm.varWz] at h7; nlinarith [sq_nonneg (p.wzCov * dt)]
        · have tri : Real.sqrt ((b.x - a.x) ^ 2 + (b.y - a.y) ^ 2) ≤
              Real.sqrt ((b.x - c.x) ^ 2 + (b.y - c.y) ^ 2) +
                Real.sqrt ((c.x - a.x) ^ 2 + (c.y - a.y) ^ 2) := by
            have e : ∀ u v : ℝ, Real.sqrt (u ^ 2 + v ^ 2) = ‖(⟨u, v⟩ : ℂ)‖ := by
              intro u v
              rw [Complex.norm_def, Complex.normSq_mk, sq, sq]
            rw [e, e, e]
            refine le_trans (le_of_eq ?_) (norm_add_le _ _)
            congr 1
            apply Complex.ext <;> simp
          rw [hstep] at tri
          rw [hm.vx] at h8
          rw [mul_add]
          linarith
  | .pose m :: es, a, last, bs, h, b, hb => by cases h
  | .twist m :: es, a, last, bs, h, b, hb => by cases h
  | .initialPose m t :: es, a, last, bs, h, b, hb => by cases h

/-- C125: a vehicle that was not turning goes straight on, at its speed. -/
theorem C125_straight (p : EkfParams) : ∀ (es : List Event) (a : Report) (last : ℝ) (bs : List Report),
    GoesOn p a last es bs → a.wz = 0 → ∀ b, bs.getLast? = some b →
      b.x = a.x + a.vx * elapsed last es * Real.cos a.yaw ∧
      b.y = a.y + a.vx * elapsed last es * Real.sin a.yaw ∧ ∃ k : ℤ, b.yaw = a.yaw + k * (2 * Real.pi)
  | [], a, last, bs, h, _, b, hb => by
    have : bs = [] := h
    rw [this] at hb
    cases hb
  | .timer t1 t2 t3 t4 t5 sp st :: es, a, last, bs, h, hw, b, hb => by
    rw [GoesOn] at h
    rw [elapsed]
    split_ifs at h ⊢ with ht
    · exact C125_straight p es a last bs h hw b hb
    · obtain ⟨c, bs', rfl, hm, hg⟩ := h
      obtain ⟨k, hk⟩ := hm.yaw
      rw [hw, zero_mul, add_zero] at hk
      cases bs' with
      | nil =>
        have hbc : c = b := by simpa using hb
        subst hbc
        have h0 : ∀ (es : List Event) (last : ℝ), GoesOn p c last es [] → elapsed last es = 0 := by
          intro es
          induction es with
          | nil => intro last _; rfl
          | cons e es ih =>
            intro last hg
            cases e with
            | timer t1 t2 t3 t4 t5 sp st =>
              rw [GoesOn] at hg
              rw [elapsed]
              split_ifs at hg ⊢ with h
              · exact ih _ hg
              · obtain ⟨_, _, h1, _⟩ := hg
                cases h1
            | pose m => cases hg
            | twist m => cases hg
            | initialPose m t => cases hg
        rw [h0 es _ hg, add_zero]
        exact ⟨by rw [hm.x]; ring, by rw [hm.y]; ring, k, hk⟩
      | cons c' bs'' =>
        rw [List.getLast?_cons_cons] at hb
        obtain ⟨h1, h2, l, hl⟩ := C125_straight p es c _ _ hg (by rw [hm.wz, hw]) b hb
        have hc : Real.cos c.yaw = Real.cos a.yaw := by rw [hk, Real.cos_add_int_mul_two_pi]
        have hs : Real.sin c.yaw = Real.sin a.yaw := by rw [hk, Real.sin_add_int_mul_two_pi]
        rw [hc, hm.x, hm.vx] at h1
        rw [hs, hm.y, hm.vx] at h2
        refine ⟨by rw [h1]; ring, by rw [h2]; ring, l + k, ?_⟩
        rw [hl, hk]
        push_cast
        ring
  | .pose m :: es, a, last, bs, h, _, b, hb => by cases h
  | .twist m :: es, a, last, bs, h, _, b, hb => by cases h
  | .initialPose m t :: es, a, last, bs, h, _, b, hb => by cases h

/-! ### The queues run empty -/

/-- How often the messages of a queue are still to be used. -/
def AgedQueue.left {α : Type} (q : AgedQueue α) : ℤ := (q.ages.map fun a => max 1 q.maxAge - a).sum

/-- Each message of the queue is still to be used. -/
def AgedQueue.Due {α : Type} (q : AgedQueue α) : Prop :=
  q.Wf ∧ ∀ a ∈ q.ages, 0 ≤ a ∧ a < max 1 q.maxAge

theorem sum_pos_of {M : ℤ} : ∀ (l : List ℤ), (∀ a ∈ l, a < M) → (l.length : ℤ) ≤ (l.map fun a => M - a).sum
  | [], _ => by simp
  | a :: l, h => by
    have h1 := h a List.mem_cons_self
    have h2 := sum_pos_of l fun b hb => h b (List.mem_cons_of_mem _ hb)
    simp only [List.length_cons, List.map_cons, List.sum_cons]
    push_cast
    linarith

theorem AgedQueue.Due.left_nonneg {α : Type} {q : AgedQueue α} (h : q.Due) : (q.msgs.length : ℤ) ≤ q.left := by
  have := sum_pos_of q.ages fun a ha => (h.2 a ha).2
  rw [h.1]
  exact this

theorem AgedQueue.Due.pop {α : Type} {q q' : AgedQueue α} {m : α} (h : q.Due) (hp : q.pop = .ok (m, q')) :
    q'.Due ∧ q'.maxAge = q.maxAge ∧ q'.left = q.left - 1 := by
  obtain ⟨M, ms, as⟩ := q
  obtain ⟨hw, ha⟩ := h
  cases ms with
  | nil => simp [AgedQueue.pop] at hp
  | cons x ms =>
    cases as with
    | nil => simp [AgedQueue.pop] at hp
    | cons a as =>
      have hl : ms.length = as.length := by simpa [AgedQueue.Wf] using hw
      have h1 := ha a List.mem_cons_self
      have h2 : ∀ b ∈ as, 0 ≤ b ∧ b < max 1 M := fun b hb => ha b (List.mem_cons_of_mem _ hb)
      simp only at h1
      simp only [AgedQueue.pop] at hp
      by_cases hM : a + 1 < M
      · rw [if_pos hM, Except.ok.injEq, Prod.mk.injEq] at hp
        rw [← hp.2]
        refine ⟨⟨by simp [AgedQueue.Wf, hl], ?_⟩, rfl, ?_⟩
        · intro b hb
          simp only [List.mem_append, List.mem_singleton] at hb
          rcases hb with hb | rfl
          · exact h2 b hb
          · constructor
            · omega
            · simp only; omega
        · simp only [AgedQueue.left, List.map_append, List.sum_append, List.map_cons, List.sum_cons,
            List.map_nil, List.sum_nil]
          ring
      · rw [if_neg hM, Except.ok.injEq, Prod.mk.injEq] at hp
        rw [← hp.2]
        refine ⟨⟨hl, h2⟩, rfl, ?_⟩
        simp only [AgedQueue.left, List.map_cons, List.sum_cons]
        have : max 1 M - a = 1 := by omega
        linarith

theorem updateLoop_due {α F : Type} (process : α → F → Res F) : ∀ (fuel i : ℕ) (q q' : AgedQueue α)
    (f f' : F), q.Due → updateLoop process fuel i q f = .ok (f', q') →
    q'.Due ∧ q'.maxAge = q.maxAge ∧ q'.left ≤ q.left ∧ (0 < fuel → i < q.size → q'.left ≤ q.left - 1) := by
  intro fuel
  induction fuel with
  | zero =>
    intro i q q' f f' hq h
    simp only [updateLoop, Except.ok.injEq, Prod.mk.injEq] at h
    rw [← h.2]
    exact ⟨hq, rfl, le_refl _, fun h0 => absurd h0 (lt_irrefl _)⟩
  | succ fuel ih =>
    intro i q q' f f' hq h
    rw [updateLoop] at h
    by_cases hi : i < q.size
    · rw [if_pos hi] at h
      simp only [bind, Except.bind] at h
      cases hp : q.pop with
      | error e => rw [hp] at h; cases h
      | ok r =>
        rw [hp] at h
        simp only at h
        cases hm : process r.1 f with
        | error e => rw [hm] at h; cases h
        | ok f1 =>
          rw [hm] at h
          obtain ⟨a1, a2, a3⟩ := AgedQueue.Due.pop (m := r.1) (q' := r.2) hq hp
          obtain ⟨b1, b2, b3, -⟩ := ih (i + 1) r.2 q' f1 f' a1 h
          refine ⟨b1, b2.trans a2, by omega, fun _ _ => by omega⟩
    · rw [if_neg hi, Except.ok.injEq, Prod.mk.injEq] at h
      rw [← h.2]
      exact ⟨hq, rfl, le_refl _, fun _ h1 => absurd h1 hi⟩

theorem updateAll_due {α F : Type} {process : α → F → Res F} {q q' : AgedQueue α} {f f' : F} (hq : q.Due)
    (h : updateAll process q f = .ok (f', q')) {c : ℤ} (hc : q.left ≤ c) :
    q'.Due ∧ q'.maxAge = q.maxAge ∧ q'.left ≤ max 0 (c - 1) := by
  obtain ⟨h1, h2, h3, h4⟩ := updateLoop_due process q.size 0 q q' f f' hq h
  refine ⟨h1, h2, ?_⟩
  by_cases hs : 0 < q.size
  · have := h4 hs hs
    omega
  · have h0 : q.ages = [] := by
      have : q.msgs.length = 0 := by simpa [AgedQueue.size] using hs
      rw [hq.1] at this
      exact List.length_eq_zero_iff.1 this
    have : q.left = 0 := by simp [AgedQueue.left, h0]
    omega

/-- The queues of the node with bounds on what is left in them. -/
structure QueuesLeft (p : EkfParams) (s : NodeState (n + 1)) (a b : ℤ) : Prop where
  pose : s.poseQ.Due
  poseAge : s.poseQ.maxAge = p.poseSmoothing
  poseLeft : s.poseQ.left ≤ a
  twist : s.twistQ.Due
  twistAge : s.twistQ.maxAge = p.twistSmoothing
  twistLeft : s.twistQ.left ≤ b

/-- A tick that reports uses each queue. -/
theorem timer_queuesLeft {tf : Tf2} {p : EkfParams} {s s' : NodeState (n + 1)} {t1 t2 t3 t4 t5 : ℤ}
    {sp : PoseMsg → Bool} {st : TwistMsg → Bool} {o : List Output} {a b : ℤ} (hs : QueuesLeft p s a b)
    (ha : 0 ≤ a) (hb : 0 ≤ b)
    (h : step n.succ_pos tf p s (.timer t1 t2 t3 t4 t5 sp st) = .ok (s', o)) :
    QueuesLeft p s' (max 0 (a - (o.filterMap Output.report).length))
      (max 0 (b - (o.filterMap Output.report).length)) := by
  have hsame : QueuesLeft p s (max 0 (a - (([] : List Output).filterMap Output.report).length))
      (max 0 (b - (([] : List Output).filterMap Output.report).length)) := by
    simpa [ha, hb] using hs
  simp only [step, timerCallback] at h
  cases hf : s.ekf with
  | none =>
    rw [hf] at h
    simp only [Except.ok.injEq, Prod.mk.injEq] at h
    rw [← h.1, ← h.2]
    exact hsame
  | some f =>
    rw [hf] at h
    simp only at h
    cases hc : s.interval.compute ((t1 : ℝ) / 1000000000) with
    | mk r iv =>
      rw [hc] at h
      cases r with
      | error e =>
        cases e <;> simp only [reduceCtorEq, Except.ok.injEq, Prod.mk.injEq] at h
        rw [← h.1, ← h.2]
        exact ⟨hsame.1, hsame.2, hsame.3, hsame.4, hsame.5, hsame.6⟩
      | ok dt =>
        simp only [bind, Except.bind] at h
        cases hu : updateAll (processPose n.succ_pos tf sp p.poseGate p.poseSmoothing t2 dt) s.poseQ
            (predictStep n.succ_pos p dt f) with
        | error e => rw [hu] at h; cases h
        | ok u =>
          rw [hu] at h
          simp only at h
          cases hv : updateAll (processTwist n.succ_pos st p.twistGate p.twistSmoothing t3 dt)
              s.twistQ u.1 with
          | error e => rw [hv] at h; cases h
          | ok v =>
            rw [hv] at h
            simp only [pure, Except.pure, Except.ok.injEq, Prod.mk.injEq] at h
            rw [← h.1, ← h.2, publish_report]
            obtain ⟨a1, a2, a3⟩ := updateAll_due hs.pose (f' := u.1) (q' := u.2) hu hs.poseLeft
            obtain ⟨b1, b2, b3⟩ := updateAll_due hs.twist (f' := v.1) (q' := v.2) hv hs.twistLeft
            exact ⟨a1, a2.trans hs.poseAge, by simpa using a3, b1, b2.trans hs.twistAge, by simpa using b3⟩

/-- Number of pose and twist messages. -/
def poseCount (es : List Event) : ℕ := es.countP fun e => match e with | .pose _ => true | _ => false
def twistCount (es : List Event) : ℕ := es.countP fun e => match e with | .twist _ => true | _ => false

theorem AgedQueue.Due.push {α : Type} {q : AgedQueue α} (h : q.Due) (m : α) :
    (q.push m).Due ∧ (q.push m).left = q.left + max 1 q.maxAge := by
  refine ⟨⟨?_, ?_⟩, ?_⟩
  · have := h.1
    simp only [AgedQueue.Wf] at this ⊢
    simp [AgedQueue.push, this]
  · intro a ha
    simp only [AgedQueue.push, List.mem_append, List.mem_singleton] at ha ⊢
    rcases ha with ha | rfl
    · exact h.2 a ha
    · omega
  · simp [AgedQueue.left, AgedQueue.push]

theorem AgedQueue.clear_due {α : Type} (q : AgedQueue α) : q.clear.Due ∧ q.clear.left = 0 := by
  simp [AgedQueue.Due, AgedQueue.Wf, AgedQueue.clear, AgedQueue.left]

theorem run_queuesLeft {tf : Tf2} {p : EkfParams} : ∀ (es : List Event) (s s' : NodeState (n + 1))
    (out : List Output) (a b : ℤ), 0 ≤ a → 0 ≤ b → QueuesLeft p s a b →
    run n.succ_pos tf p s es = .ok (s', out) →
    QueuesLeft p s' (a + poseCount es * max 1 p.poseSmoothing) (b + twistCount es * max 1 p.twistSmoothing)
  | [], s, s', out, a, b, _, _, hs, h => by
    simp only [run, Except.ok.injEq, Prod.mk.injEq] at h
    rw [← h.1]
    simpa [poseCount, twistCount] using hs
  | e :: es, s, s', out, a, b, ha, hb, hs, h => by
    simp only [run, bind, Except.bind] at h
    cases h1 : step n.succ_pos tf p s e with
    | error x => rw [h1] at h; cases h
    | ok r =>
      rw [h1] at h
      simp only at h
      cases h2 : run n.succ_pos tf p r.1 es with
      | error x => rw [h2] at h; cases h
      | ok r2 =>
        rw [h2] at h
        simp only [pure, Except.pure, Except.ok.injEq, Prod.mk.injEq] at h
        rw [← h.1]
        have hM1 : (0 : ℤ) < max 1 p.poseSmoothing := by omega
        have hM2 : (0 : ℤ) < max 1 p.twistSmoothing := by omega
        have fin : ∀ a' b' : ℤ, 0 ≤ a' → 0 ≤ b' → QueuesLeft p r.1 a' b' →
            a' + poseCount es * max 1 p.poseSmoothing ≤ a + poseCount (e :: es) * max 1 p.poseSmoothing →
            b' + twistCount es * max 1 p.twistSmoothing ≤
              b + twistCount (e :: es) * max 1 p.twistSmoothing →
            QueuesLeft p r2.1 (a + poseCount (e :: es) * max 1 p.poseSmoothing)
              (b + twistCount (e :: es) * max 1 p.twistSmoothing) := by
          intro a' b' ha' hb' hq l1 l2
          have := run_queuesLeft es r.1 r2.1 r2.2 a' b' ha' hb' hq h2
          exact ⟨this.1, this.2, this.3.trans l1, this.4, this.5, this.6.trans l2⟩
        cases e with
        | pose m =>
          simp only [step, Except.ok.injEq] at h1
          obtain ⟨q1, q2⟩ := hs.pose.push m
          refine fin (a + max 1 p.poseSmoothing) b (by omega) hb ?_ ?_ ?_
          · rw [← h1]
            exact ⟨q1, hs.poseAge, by
              change (s.poseQ.push m).left ≤ _
              rw [q2, hs.poseAge]; linarith [hs.poseLeft], hs.twist, hs.twistAge, hs.twistLeft⟩
          · simp [poseCount]; linarith
          · simp [twistCount]
        | twist m =>
          simp only [step, Except.ok.injEq] at h1
          obtain ⟨q1, q2⟩ := hs.twist.push m
          refine fin a (b + max 1 p.twistSmoothing) ha (by omega) ?_ ?_ ?_
          · rw [← h1]
            exact ⟨hs.pose, hs.poseAge, hs.poseLeft, q1, hs.twistAge, by
              change (s.twistQ.push m).left ≤ _
              rw [q2, hs.twistAge]; linarith [hs.twistLeft]⟩
          · simp [poseCount]
          · simp [twistCount]; linarith
        | timer t1 t2 t3 t4 t5 sp st =>
          have := timer_queuesLeft hs ha hb h1
          refine fin a b ha hb ⟨this.1, this.2, this.3.trans (by omega), this.4, this.5,
            this.6.trans (by omega)⟩ ?_ ?_
          · simp [poseCount]
          · simp [twistCount]
        | initialPose m tries =>
          have hq : r.1.poseQ = s.poseQ.clear ∧ r.1.twistQ = s.twistQ.clear := by
            simp only [step, initialPoseCallback, bind, Except.bind] at h1
            split at h1
            · cases h1
            · rename_i s1 hs1
              split at hs1
              · cases hs1
              · split at hs1
                · cases hs1
                · split at hs1
                  · cases hs1
                  · split at hs1
                    · simp only [pure, Except.pure, Except.ok.injEq] at hs1 h1
                      rw [← h1, ← hs1]
                      exact ⟨rfl, rfl⟩
                    · cases hs1
          obtain ⟨c1, c2⟩ := AgedQueue.clear_due s.poseQ
          obtain ⟨d1, d2⟩ := AgedQueue.clear_due s.twistQ
          refine fin a b ha hb ⟨by rw [hq.1]; exact c1, by rw [hq.1]; exact hs.poseAge, by rw [hq.1, c2]; exact ha,
            by rw [hq.2]; exact d1, by rw [hq.2]; exact hs.twistAge, by rw [hq.2, d2]; exact hb⟩ ?_ ?_
          · simp [poseCount]
          · simp [twistCount]

/-- C125: the queues are empty once the node has reported, without getting messages, as often as it was to
use the messages it got. -/
theorem C125_queues_run_empty (tf : Tf2) (p : EkfParams) (es es' : List Event) (s s' : NodeState (n + 1))
    (out out' : List Output)
    (h : run n.succ_pos tf p (NodeState.make (n + 1) p) es = .ok (s, out))
    (hes' : ∀ e ∈ es', ∃ t1 t2 t3 t4 t5 sp st, e = .timer t1 t2 t3 t4 t5 sp st)
    (h' : run n.succ_pos tf p s es' = .ok (s', out'))
    (hp : poseCount es * max 1 p.poseSmoothing ≤ (out'.filterMap Output.report).length)
    (ht : twistCount es * max 1 p.twistSmoothing ≤ (out'.filterMap Output.report).length) :
    s'.poseQ.msgs = [] ∧ s'.twistQ.msgs = [] := by
  have h0 : QueuesLeft p (NodeState.make (n + 1) p) 0 0 := by
    constructor <;> simp [NodeState.make, AgedQueue.make, AgedQueue.Due, AgedQueue.Wf, AgedQueue.left]
  have h1 := run_queuesLeft es _ s out 0 0 le_rfl le_rfl h0 h
  rw [zero_add, zero_add] at h1
  have key : ∀ (es' : List Event) (s : NodeState (n + 1)) (out' : List Output) (a b : ℤ), 0 ≤ a → 0 ≤ b →
      (∀ e ∈ es', ∃ t1 t2 t3 t4 t5 sp st, e = .timer t1 t2 t3 t4 t5 sp st) → QueuesLeft p s a b →
      run n.succ_pos tf p s es' = .ok (s', out') →
      QueuesLeft p s' (max 0 (a - (out'.filterMap Output.report).length))
        (max 0 (b - (out'.filterMap Output.report).length)) := by
    intro es'
    induction es' with
    | nil =>
      intro s out' a b ha hb _ hq h
      simp only [run, Except.ok.injEq, Prod.mk.injEq] at h
      rw [← h.1, ← h.2]
      simpa [ha, hb] using hq
    | cons e es' ih =>
      intro s out' a b ha hb he hq h
      obtain ⟨t1, t2, t3, t4, t5, sp, st, rfl⟩ := he e List.mem_cons_self
      simp only [run, bind, Except.bind] at h
      cases h1 : step n.succ_pos tf p s (.timer t1 t2 t3 t4 t5 sp st) with
      | error x => rw [h1] at h; cases h
      | ok r =>
        rw [h1] at h
        simp only at h
        cases h2 : run n.succ_pos tf p r.1 es' with
        | error x => rw [h2] at h; cases h
        | ok r2 =>
          rw [h2] at h
          simp only [pure, Except.pure, Except.ok.injEq, Prod.mk.injEq] at h
          have q1 := timer_queuesLeft hq ha hb h1
          have q2 := ih r.1 r2.2 _ _ (le_max_left _ _) (le_max_left _ _)
            (fun e he' => he e (List.mem_cons_of_mem _ he')) q1 (by rw [h2, ← h.1])
          rw [← h.2, List.filterMap_append, List.length_append]
          refine ⟨q2.1, q2.2, q2.3.trans ?_, q2.4, q2.5, q2.6.trans ?_⟩ <;> push_cast <;> omega
  have hM1 : (0 : ℤ) < max 1 p.poseSmoothing := by omega
  have hM2 : (0 : ℤ) < max 1 p.twistSmoothing := by omega
  have h2 := key es' s out' _ _ (by positivity) (by positivity) hes' h1 h'
  have l1 := h2.pose.left_nonneg.trans h2.poseLeft
  have l2 := h2.twist.left_nonneg.trans h2.twistLeft
  rw [max_eq_left (by linarith)] at l1 l2
  constructor
  · exact List.length_eq_zero_iff.1 (by omega)
  · exact List.length_eq_zero_iff.1 (by omega)

/-! Non-vacuity. A vehicle at 10 m/s to the east whose measurements have stopped: the tick at one second
reports it 10 m further. -/

theorem timer_empty (tf : Tf2) (p : EkfParams) (s : NodeState (n + 1))
    (f : TimeDelayKalmanFilter ℝ (n + 1) 6) (hf : s.ekf = some f) (hq1 : s.poseQ.msgs = [])
    (hq2 : s.twistQ.msgs = []) (t1 t2 t3 t4 t5 : ℤ) (sp : PoseMsg → Bool) (st : TwistMsg → Bool)
    (dt : ℝ) (iv : UpdateInterval ℝ) (hi : s.interval.compute ((t1 : ℝ) / 1000000000) = (.ok dt, iv)) :
    ∃ s' o, step n.succ_pos tf p s (.timer t1 t2 t3 t4 t5 sp st) = .ok (s', o) ∧
      s'.ekf = some (predictStep n.succ_pos p dt f) ∧ s'.poseQ.msgs = [] ∧ s'.twistQ.msgs = [] ∧
      s'.interval = iv ∧ o.filterMap Output.report = [reportOf s (predictStep n.succ_pos p dt f)] := by
  simp only [step, timerCallback, hf, hi, updateAll_empty _ _ _ hq1, updateAll_empty _ _ _ hq2, bind,
    Except.bind, pure, Except.pure, Except.ok.injEq, Prod.mk.injEq]
  exact ⟨_, _, ⟨rfl, rfl⟩, rfl, hq1, hq2, rfl, rfl⟩

/-- A filter without history at the origin, driving east at 10 m/s. -/
noncomputable def drivingFilter : TimeDelayKalmanFilter ℝ 1 6 :=
  TimeDelayKalmanFilter.make ![0, 0, 0, 0, 10, 0] (initCovariance fun _ => 1) 1

example : ∃ (s s1 s' : NodeState 1) (o out : List Output) (a b : Report),
    step Nat.one_pos flatTf defaultParams s (.timer 0 0 0 0 0 (fun _ => true) fun _ => true) =
      .ok (s1, o) ∧
    a ∈ o.filterMap Output.report ∧ s1.poseQ.msgs = [] ∧ s1.twistQ.msgs = [] ∧
    run Nat.one_pos flatTf defaultParams s1
      [.timer 1000000000 0 0 0 0 (fun _ => true) fun _ => true] = .ok (s', out) ∧
    out.filterMap Output.report = [b] ∧ a.vx = 10 ∧ b.x = a.x + 10 * Real.cos a.yaw ∧ a.wz = 0 := by
  have h1 := timer_empty (n := 0) flatTf defaultParams
    { NodeState.make 1 defaultParams with ekf := some drivingFilter } drivingFilter rfl rfl rfl 0 0 0 0 0
    (fun _ => true) (fun _ => true) (1 / 50) ⟨50, some 0⟩
    (by norm_num [UpdateInterval.make, UpdateInterval.compute, computeInterval, NodeState.make,
      defaultParams])
  obtain ⟨s1, o, hs1, he, hq1, hq2, hi, ho⟩ := h1
  have h2 := timer_empty (n := 0) flatTf defaultParams s1 _ he hq1 hq2 1000000000 0 0 0 0
    (fun _ => true) (fun _ => true) 1 ⟨50, some 1⟩ (by
      rw [hi, compute_interval _ 0 _ rfl]
      norm_num)
  obtain ⟨s2, o2, hs2, -, -, -, -, ho2⟩ := h2
  have hm := C125_goes_on flatTf defaultParams _ s1 s2 hs1
    (a := reportOf { NodeState.make 1 defaultParams with ekf := some drivingFilter }
      (predictStep Nat.one_pos defaultParams (1 / 50) drivingFilter)) (by rw [ho]; exact List.mem_cons_self)
    hq1 hq2 [.timer 1000000000 0 0 0 0 (fun _ => true) fun _ => true]
    (by
      intro e he
      simp only [List.mem_cons, List.not_mem_nil, or_false] at he
      exact ⟨_, _, _, _, _, _, _, he⟩)
    (out := o2) (by
      simp only [run, bind, Except.bind, hs2]
      simp [pure, Except.pure])
  have hx : drivingFilter.getLatestX Nat.one_pos = ![0, 0, 0, 0, 10, 0] := by
    funext i
    fin_cases i <;> rfl
  have hv := reportOf_predictStep defaultParams { NodeState.make 1 defaultParams with
    ekf := some drivingFilter } (1 / 50) drivingFilter
  have hv1 : (reportOf { NodeState.make 1 defaultParams with ekf := some drivingFilter }
      drivingFilter).vx = 10 := by
    simp only [reportOf, hx]; rfl
  have hv2 : (reportOf { NodeState.make 1 defaultParams with ekf := some drivingFilter }
      drivingFilter).wz = 0 := by
    simp only [reportOf, hx]; rfl
  rw [GoesOn, if_neg (by norm_num), ho2] at hm
  obtain ⟨b, bs, hb, hmv, -⟩ := hm
  refine ⟨_, s1, s2, o, o2, _, b, hs1, by rw [ho]; exact List.mem_cons_self, hq1, hq2, ?_, ?_,
    hv.vx.trans hv1, ?_, hv.wz.trans hv2⟩
  · simp only [run, bind, Except.bind, hs2]
    simp [pure, Except.pure]
  · rw [ho2, hb]
    simp only [List.cons.injEq] at hb
    rw [← hb.2]
  · rw [hmv.x, hv.vx, hv1]
    norm_num

/-! And a pose message (of undefined position, so that it changes nothing) is in the queue of a node that
uses each message once; the first tick empties the queue. -/

/-- The default parameters, but each pose message is used once. -/
noncomputable def onceParams : EkfParams :=
  ⟨50, "map".toList, 1, 10000, 10000, 2, 1 / 200, true, 1 / 1000, 5, 1⟩

/-- A pose message without a position. -/
def lostPose : PoseMsg := ⟨"map".toList, 0, none, some 0, some 10, ⟨1, 0, 0, 0⟩, fun _ => 1⟩

example : ∃ (s s' : NodeState 1) (out out' : List Output),
    run Nat.one_pos flatTf onceParams
      (NodeState.make 1 onceParams)
      [.initialPose (poseAt 10 0) identityTries, .pose lostPose] = .ok (s, out) ∧
    s.poseQ.msgs ≠ [] ∧
    run Nat.one_pos flatTf onceParams s
      [.timer 0 0 0 0 0 (fun _ => true) fun _ => true] = .ok (s', out') ∧
    (out'.filterMap Output.report).length = 1 := by
  have hs : ∃ (s : NodeState 1) (out : List Output),
      run Nat.one_pos flatTf onceParams
        (NodeState.make 1 onceParams)
        [.initialPose (poseAt 10 0) identityTries, .pose lostPose] = .ok (s, out) ∧
      s.ekf = some startFilter ∧ s.interval = UpdateInterval.make 50 ∧
      s.poseQ = (AgedQueue.make 1).push lostPose ∧ s.twistQ = AgedQueue.make 2 := by
    refine ⟨_, _, rfl, ?_, rfl, rfl, rfl⟩
    simp [updateSimple1DFilters, startFilter, poseAt]
  obtain ⟨s, out, hrun, he, hi, hq, ht⟩ := hs
  have hc : s.interval.compute (((0 : ℤ) : ℝ) / 1000000000) = (.ok (1 / 50), ⟨50, some 0⟩) := by
    rw [hi]
    norm_num [UpdateInterval.make, UpdateInterval.compute, computeInterval]
  have hd : computeDelayStep (computeDelayTime 0 lostPose.stamp : ℝ) (1 / 50) = .ok 0 := by
    have h2 : ⌊(2⁻¹ : ℝ)⌋ = 0 := by rw [Int.floor_eq_zero_iff]; norm_num
    simp [computeDelayStep, computeDelayTime, lostPose, roundHalfAway, h2]
  have hg : ∀ f : TimeDelayKalmanFilter ℝ 1 6, processPose Nat.one_pos flatTf (fun _ => true) 10000 1 0
      (1 / 50) lostPose f = .ok f := by
    intro f
    have hn : allFinite (poseMeasurementVector flatTf lostPose) = none := by
      unfold allFinite
      rw [dif_neg]
      intro h
      have := h 0
      simp [poseMeasurementVector, lostPose] at this
    simp only [processPose, processMeasurement, hd, hn, bind, Except.bind, pure, Except.pure]
    split_ifs <;> rfl
  have htick : s.poseQ.tick = .ok ([lostPose], AgedQueue.mk 1 [] []) := by
    rw [hq]; rfl
  have hu : updateAll (processPose Nat.one_pos flatTf (fun _ => true) 10000 1 0 (1 / 50)) s.poseQ
      (predictStep Nat.one_pos onceParams (1 / 50) startFilter) =
      .ok (predictStep Nat.one_pos onceParams (1 / 50) startFilter,
        AgedQueue.mk 1 [] []) := by
    unfold updateAll
    rw [updateLoop_eq _ _ _ _ _ _ _ htick, List.foldlM_cons, hg]
    rfl
  have hstep : ∃ s' o, step Nat.one_pos flatTf onceParams s
      (.timer 0 0 0 0 0 (fun _ => true) fun _ => true) = .ok (s', o) ∧
      (o.filterMap Output.report).length = 1 := by
    have hgate : onceParams.poseGate = 10000 := rfl
    have hone : onceParams.poseSmoothing = 1 := rfl
    simp only [step, timerCallback, he, hc, bind, Except.bind, pure, Except.pure, hgate, hone, hu]
    rw [updateAll_empty _ s.twistQ _ (by rw [ht]; rfl)]
    exact ⟨_, _, rfl, rfl⟩
  obtain ⟨s', o, hstep, ho⟩ := hstep
  refine ⟨s, s', out, o, hrun, by rw [hq]; simp [AgedQueue.push], ?_, ho⟩
  simp only [run, bind, Except.bind, hstep]
  simp [pure, Except.pure]

end Verif.Ekf
