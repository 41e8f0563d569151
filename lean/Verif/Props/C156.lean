/-
C156: a pose that comes late and the moment at which it was taken.
-/
import Verif.Props.C151
import Verif.Props.C155

set_option autoImplicit false

namespace Verif.Ekf

open Matrix Verif.Kalman

/-! ### Specification -/

/-- Specification: what a message says about time, place and heading. -/
def Output.whereabouts : Output → ℤ × ℝ × ℝ × ℝ
  | .transform t _ _ e => (t, e.x, e.y, e.yaw)
  | .odometry t _ _ e _ _ _ _ => (t, e.x, e.y, e.yaw)

/-- Specification: nothing but ticks, the first not before `a`, each not before the one before it, the last
one at `b` (in seconds). -/
def TicksFrom : ℝ → List Event → ℝ → Prop
  | a, [], b => a = b
  | a, .timer t _ _ _ _ _ _ :: es, b => a ≤ (t : ℝ) / 1000000000 ∧ TicksFrom ((t : ℝ) / 1000000000) es b
  | _, _ :: _, _ => False

/-! ### The step -/

/-- A delay that is closest to `k` intervals gives the step `k`. -/
theorem delay_closest {d dt : ℝ} {k : ℕ} (hdt : 0 < dt) (hk : k ≤ 2147483646) (h : |d - k * dt| < dt / 2) :
    computeDelayStep d dt = .ok (k : ℤ) := by
  rw [abs_lt] at h
  have hk' : (k : ℝ) ≤ 2147483646 := by exact_mod_cast hk
  have hr : d / dt < 2147483647 := by
    rw [div_lt_iff₀ hdt]
    nlinarith
  obtain ⟨s, h1, h2, h3, h4⟩ := C31_delay_step d dt hdt hr
  rw [h1]
  congr 1
  have hk0 : (0 : ℝ) ≤ k := Nat.cast_nonneg k
  have hm1 : max d 0 < (k + 1 / 2) * dt := by
    refine max_lt (by linarith) (by positivity)
  have hm2 : (k - 1 / 2) * dt < max d 0 := lt_of_lt_of_le (by linarith) (le_max_left _ _)
  rw [le_div_iff₀ hdt] at h3
  rw [div_lt_iff₀ hdt] at h4
  have a1 : (s : ℝ) - 1 / 2 < k + 1 / 2 := lt_of_mul_lt_mul_right (lt_of_le_of_lt h3 hm1) hdt.le
  have a2 : (k : ℝ) - 1 / 2 < s + 1 / 2 := lt_of_mul_lt_mul_right (hm2.trans h4) hdt.le
  have b1 : (s : ℝ) < ((k + 1 : ℤ) : ℝ) := by push_cast; linarith
  have b2 : ((k : ℤ) : ℝ) < ((s + 1 : ℤ) : ℝ) := by push_cast; linarith
  have c1 := Int.cast_lt.1 b1
  have c2 := Int.cast_lt.1 b2
  omega

/-- C156, what holds: when the ticks come at regular intervals, the stored state that a message corrects is
that of the tick which is closest to the time of the message. -/
theorem C156_nearest_partial {now stamp : ℤ} {dt : ℝ} {k : ℤ} (hdt : 0 < dt) (hs : stamp ≤ now)
    (hk : computeDelayStep (computeDelayTime now stamp : ℝ) dt = .ok k) (T : ℕ → ℝ)
    (hT : ∀ i, T i = (now : ℝ) / 1000000000 - i * dt) :
    0 ≤ k ∧ |T k.toNat - (stamp : ℝ) / 1000000000| ≤ dt / 2 ∧
      ∀ i, |T k.toNat - (stamp : ℝ) / 1000000000| ≤ |T i - (stamp : ℝ) / 1000000000| := by
  set d : ℝ := computeDelayTime now stamp with hd
  have hd' : d = (now : ℝ) / 1000000000 - (stamp : ℝ) / 1000000000 := by
    rw [hd]; simp only [computeDelayTime]; push_cast; ring
  have hd0 : 0 ≤ d := by
    rw [hd]
    simp only [computeDelayTime]
    have : (0 : ℝ) ≤ ((now - stamp : ℤ) : ℝ) := by exact_mod_cast sub_nonneg.2 hs
    positivity
  simp only [computeDelayStep, if_neg hdt.ne', max_eq_left hd0, roundHalfAway,
    if_pos (div_nonneg hd0 hdt.le)] at hk
  split_ifs at hk
  injection hk with hk
  have f1 := Int.floor_le (d / dt + 1 / 2)
  have f2 := Int.lt_floor_add_one (d / dt + 1 / 2)
  rw [hk] at f1 f2
  have q := div_nonneg hd0 hdt.le
  have hk0 : 0 ≤ k := by
    rw [← hk]
    exact Int.floor_nonneg.2 (by positivity)
  have hkn : ((k.toNat : ℕ) : ℝ) = (k : ℝ) := by
    exact_mod_cast Int.toNat_of_nonneg hk0
  have e : ∀ i : ℕ, T i - (stamp : ℝ) / 1000000000 = (d / dt - i) * dt := by
    intro i
    rw [hT, sub_mul, div_mul_cancel₀ _ hdt.ne', hd']
    ring
  have hh : |d / dt - k| ≤ 1 / 2 := by
    rw [abs_le]; constructor <;> linarith
  refine ⟨hk0, ?_, fun i => ?_⟩
  · rw [e, hkn, abs_mul, abs_of_pos hdt]
    nlinarith
  · rw [e, e, hkn, abs_mul, abs_mul, abs_of_pos hdt]
    refine mul_le_mul_of_nonneg_right ?_ hdt.le
    by_cases hi : (i : ℤ) = k
    · have : (i : ℝ) = (k : ℝ) := by exact_mod_cast hi
      rw [this]
    · have h1 : (1 : ℝ) ≤ |(k : ℝ) - i| := by
        have : (1 : ℤ) ≤ |k - i| := Int.one_le_abs (sub_ne_zero.2 (Ne.symm hi))
        exact_mod_cast this
      have h2 : |(k : ℝ) - i| ≤ |d / dt - i| + |d / dt - k| := by
        have := abs_sub_le (k : ℝ) (d / dt) i
        rw [abs_sub_comm (k : ℝ) (d / dt)] at this
        linarith
      linarith

/-! ### Ticks without messages -/

section Quiet
variable {n : ℕ} {tf : Tf2} {p : EkfParams}

/-- The node at rest: no message waits. -/
structure Quiet (s : NodeState (n + 1)) : Prop where
  poses : s.poseQ.msgs = []
  ages : s.poseQ.ages = []
  twists : s.twistQ.msgs = []

/-- One tick. -/
theorem quiet_tick {s : NodeState (n + 1)} {f : TimeDelayKalmanFilter ℝ (n + 1) 6} (hf : s.ekf = some f)
    (hq : Quiet s) {a : ℝ} (ha : s.interval.lastTime = some a) {t1 t2 t3 t4 t5 : ℤ} {sp : PoseMsg → Bool}
    {st : TwistMsg → Bool} (ht : a ≤ (t1 : ℝ) / 1000000000) :
    step n.succ_pos tf p s (.timer t1 t2 t3 t4 t5 sp st) =
      .ok ({ s with
          ekf := some (predictStep n.succ_pos p (min ((t1 : ℝ) / 1000000000 - a) 10) f)
          interval := ⟨s.interval.defaultFrequency, some ((t1 : ℝ) / 1000000000)⟩ },
        publish n.succ_pos p s (predictStep n.succ_pos p (min ((t1 : ℝ) / 1000000000 - a) 10) f) t4 t5) := by
  simp only [step, timerCallback, hf, compute_interval _ _ _ ha, if_neg (not_lt.2 ht), bind, Except.bind,
    updateAll_empty _ _ _ hq.poses, updateAll_empty _ _ _ hq.twists, pure, Except.pure]

theorem predictStep_blk (dt : ℝ) (f : TimeDelayKalmanFilter ℝ (n + 1) 6) {i : ℕ} (hi : i + 1 < n + 1) :
    blkX (predictStep n.succ_pos p dt f).x ⟨i + 1, hi⟩ = blkX f.x ⟨i, by omega⟩ := by
  rw [predictStep, predict_blk]
  simp

/-- Several ticks. -/
theorem quiet_run : ∀ (es : List Event) {s : NodeState (n + 1)} {f : TimeDelayKalmanFilter ℝ (n + 1) 6} {a b : ℝ},
    s.ekf = some f → Quiet s → s.interval.lastTime = some a → TicksFrom a es b →
    ∃ s' out f', run n.succ_pos tf p s es = .ok (s', out) ∧ s'.ekf = some f' ∧ Quiet s' ∧
      s'.interval.lastTime = some b ∧
      ∀ i (hi : i + es.length < n + 1), blkX f'.x ⟨i + es.length, hi⟩ = blkX f.x ⟨i, by omega⟩
  | [], s, f, a, b, hf, hq, ha, h => by
    refine ⟨s, [], f, rfl, hf, hq, ?_, fun i hi => rfl⟩
    rw [ha, show a = b from h]
  | .timer t1 t2 t3 t4 t5 sp st :: es, s, f, a, b, hf, hq, ha, h => by
    obtain ⟨h1, h2⟩ := h
    have e := quiet_tick (tf := tf) (p := p) (t2 := t2) (t3 := t3) (t4 := t4) (t5 := t5) (sp := sp) (st := st)
      hf hq ha h1
    obtain ⟨s', out, f', r1, r2, r3, r4, r5⟩ := quiet_run es (s := { s with
          ekf := some (predictStep n.succ_pos p (min ((t1 : ℝ) / 1000000000 - a) 10) f)
          interval := ⟨s.interval.defaultFrequency, some ((t1 : ℝ) / 1000000000)⟩ }) rfl
        ⟨hq.poses, hq.ages, hq.twists⟩ rfl h2
    refine ⟨s', publish n.succ_pos p s (predictStep n.succ_pos p (min ((t1 : ℝ) / 1000000000 - a) 10) f) t4 t5 ++ out,
      f', ?_, r2, r3, r4, fun i hi => ?_⟩
    · simp only [run, e, r1, bind, Except.bind, pure, Except.pure]
    · have hi' : i + 1 + es.length < n + 1 := by simp only [List.length_cons] at hi; omega
      have := r5 (i + 1) hi'
      rw [predictStep_blk] at this
      rw [← this]
      congr 1
      apply Fin.ext
      simp only [List.length_cons]
      omega
  | .initialPose .. :: _, _, _, _, _, _, _, _, h => h.elim
  | .pose _ :: _, _, _, _, _, _, _, _, h => h.elim
  | .twist _ :: _, _, _, _, _, _, _, _, h => h.elim

/-- The tick after a pose has come: what happens to the filter, if processing the pose succeeds. -/
theorem pose_tick {s : NodeState (n + 1)} {f g : TimeDelayKalmanFilter ℝ (n + 1) 6} (hf : s.ekf = some f)
    (hq : Quiet s) {a : ℝ} (ha : s.interval.lastTime = some a) {t1 t2 t3 t4 t5 : ℤ} {sp : PoseMsg → Bool}
    {st : TwistMsg → Bool} (ht : a ≤ (t1 : ℝ) / 1000000000) {m : PoseMsg}
    (hg : processPose n.succ_pos tf sp p.poseGate p.poseSmoothing t2 (min ((t1 : ℝ) / 1000000000 - a) 10) m
      (predictStep n.succ_pos p (min ((t1 : ℝ) / 1000000000 - a) 10) f) = .ok g) :
    ∃ s' s0, run n.succ_pos tf p s [.pose m, .timer t1 t2 t3 t4 t5 sp st] =
      .ok (s', publish n.succ_pos p s0 g t4 t5) ∧ s'.ekf = some g := by
  obtain ⟨q', hq'⟩ : ∃ q', updateAll (processPose n.succ_pos tf sp p.poseGate p.poseSmoothing t2
        (min ((t1 : ℝ) / 1000000000 - a) 10)) (s.poseQ.push m)
      (predictStep n.succ_pos p (min ((t1 : ℝ) / 1000000000 - a) 10) f) = .ok (g, q') := by
    simp only [updateAll, AgedQueue.push, AgedQueue.size, hq.poses, hq.ages, List.nil_append,
      List.length_singleton, updateLoop, AgedQueue.pop, bind, Except.bind]
    simp only [zero_lt_one, if_true]
    split_ifs <;> (simp only [hg]; exact ⟨_, rfl⟩)
  refine ⟨{ updateSimple1DFilters tf { s with poseQ := s.poseQ.push m } m with
      ekf := some g, interval := ⟨s.interval.defaultFrequency, some ((t1 : ℝ) / 1000000000)⟩, poseQ := q' },
    updateSimple1DFilters tf { s with poseQ := s.poseQ.push m } m, ?_, rfl⟩
  simp only [run, step, timerCallback, updateSimple1DFilters, hf, compute_interval _ _ _ ha,
    if_neg (not_lt.2 ht), bind, Except.bind, updateAll_empty _ _ _ hq.twists, hq', pure, Except.pure,
    List.append_nil, List.nil_append]

theorem publish_whereabouts (s s0 : NodeState (n + 1)) {f g : TimeDelayKalmanFilter ℝ (n + 1) 6} (h : f.x = g.x)
    (t4 t5 : ℤ) : (publish n.succ_pos p s f t4 t5).map Output.whereabouts =
      (publish n.succ_pos p s0 g t4 t5).map Output.whereabouts := by
  simp [publish, Output.whereabouts, TimeDelayKalmanFilter.getLatestX, h]

/-- A message that says what is stored does not move the stored states. -/
theorem confirming {sp : PoseMsg → Bool} {now : ℤ} {dt : ℝ} {m : PoseMsg}
    {f : TimeDelayKalmanFilter ℝ (n + 1) 6} {δ : Fin (n + 1)}
    (hd : computeDelayStep (computeDelayTime now m.stamp : ℝ) dt = .ok (δ.val : ℤ))
    (hx : m.px = some (blkX f.x δ 0)) (hy : m.py = some (blkX f.x δ 1))
    (hyaw : tf.getYaw m.ori = some (blkX f.x δ 2))
    (hr : -Real.pi < blkX f.x δ 2 ∧ blkX f.x δ 2 ≤ Real.pi) :
    ∃ g, processPose n.succ_pos tf sp p.poseGate p.poseSmoothing now dt m f = .ok g ∧ g.x = f.x := by
  have hv : poseMeasurementVector tf m = fun i => some ((poseMeasurementMatrix *ᵥ blkX f.x δ) i) := by
    funext i
    fin_cases i <;>
      simp [poseMeasurementVector, hx, hy, hyaw, C38_fixes _ hr.1 hr.2, poseMeasurementMatrix, Matrix.mulVec,
        dotProduct, Fin.sum_univ_succ]
  have hall : allFinite (poseMeasurementVector tf m) = some (poseMeasurementMatrix *ᵥ blkX f.x δ) := by
    rw [hv]
    simp [allFinite]
  have hc : checkDelayStep (δ.val : ℤ) ((n + 1 : ℕ) : ℤ) = true := by
    simp only [checkDelayStep, decide_eq_true_eq]
    exact_mod_cast δ.isLt
  simp only [processPose, processMeasurement, bind, Except.bind, hd, hc, hall, getX_blk, Bool.not_true]
  by_cases hgate : mahalanobisGate (sp m) p.poseGate (getPoseState (blkX f.x δ))
      (poseMeasurementMatrix *ᵥ blkX f.x δ) (poseCovariance (f.getLatestP n.succ_pos)) = true
  · simp only [hgate, Bool.not_true]
    by_cases hdet : (poseMeasurementCovariance m.cov (toSizeT p.poseSmoothing) +
        poseMeasurementMatrix * blk f.P δ δ * poseMeasurementMatrixᵀ).det = 0
    · rw [(C33_blocks f _ poseMeasurementMatrix _ δ).1 hdet]
      exact ⟨f, rfl, rfl⟩
    · obtain ⟨g, hu, hX, -⟩ :=
        (C33_blocks f (poseMeasurementMatrix *ᵥ blkX f.x δ) poseMeasurementMatrix _ δ).2 hdet
      rw [hu]
      refine ⟨g, rfl, ?_⟩
      have hb : ∀ i, blkX g.x i = blkX f.x i := by
        intro i
        rw [hX, sub_self, Matrix.mulVec_zero, add_zero]
      funext c
      obtain ⟨⟨i, k⟩, rfl⟩ := finProdFinEquiv.surjective c
      exact congrFun (hb i) k
  · rw [Bool.not_eq_true] at hgate
    simp only [hgate, Bool.not_false]
    exact ⟨f, rfl, rfl⟩

/-- C156, what holds: let no message wait, let there be some ticks without messages, and then a pose that says
exactly what was estimated before these ticks. If the delay of the pose is, up to less than half an interval,
as many of the last intervals as there were ticks, then the pose confirms the estimate: with it the node
publishes the same places and headings as without it. -/
theorem C156_confirmed_partial (hn : n ≤ 2147483646) {s : NodeState (n + 1)}
    {f : TimeDelayKalmanFilter ℝ (n + 1) 6} (hf : s.ekf = some f) (hq : Quiet s) {a b : ℝ}
    (ha : s.interval.lastTime = some a) {es : List Event} (hes : TicksFrom a es b) (hlen : es.length + 1 ≤ n)
    {m : PoseMsg} (hx : m.px = some (f.getLatestX n.succ_pos 0)) (hy : m.py = some (f.getLatestX n.succ_pos 1))
    (hyaw : tf.getYaw m.ori = some (f.getLatestX n.succ_pos 2))
    (hr : -Real.pi < f.getLatestX n.succ_pos 2 ∧ f.getLatestX n.succ_pos 2 ≤ Real.pi)
    {t1 t2 t3 t4 t5 : ℤ} {sp : PoseMsg → Bool} {st : TwistMsg → Bool} {dt : ℝ}
    (hdt : dt = (t1 : ℝ) / 1000000000 - b) (h0 : 0 < dt) (h10 : dt ≤ 10)
    (hdelay : |((t2 - m.stamp : ℤ) : ℝ) / 1000000000 - (es.length + 1 : ℕ) * dt| < dt / 2) :
    ∃ s1 o1 s2 o2, run n.succ_pos tf p s (es ++ [.pose m, .timer t1 t2 t3 t4 t5 sp st]) = .ok (s1, o1) ∧
      run n.succ_pos tf p s (es ++ [.timer t1 t2 t3 t4 t5 sp st]) = .ok (s2, o2) ∧
      o1.map Output.whereabouts = o2.map Output.whereabouts ∧ o1 ≠ [] := by
  obtain ⟨s', out, f', r1, r2, r3, r4, r5⟩ := quiet_run (tf := tf) (p := p) es hf hq ha hes
  have ht : b ≤ (t1 : ℝ) / 1000000000 := by linarith
  have hmin : min ((t1 : ℝ) / 1000000000 - b) 10 = dt := by rw [← hdt]; exact min_eq_left h10
  have hblk : blkX (predictStep n.succ_pos p dt f').x ⟨es.length + 1, by omega⟩ = f.getLatestX n.succ_pos := by
    rw [predictStep_blk, latest_blkX]
    have := r5 0 (by omega)
    simp only [zero_add] at this
    exact this
  have hstep : computeDelayStep (computeDelayTime t2 m.stamp : ℝ) dt = .ok ((es.length + 1 : ℕ) : ℤ) :=
    delay_closest h0 (by omega) hdelay
  obtain ⟨g, hg, hgx⟩ := confirming (tf := tf) (p := p) (sp := sp) (f := predictStep n.succ_pos p dt f')
    (δ := ⟨es.length + 1, by omega⟩) hstep (by rw [hblk]; exact hx) (by rw [hblk]; exact hy)
    (by rw [hblk]; exact hyaw) (by rw [hblk]; exact hr)
  obtain ⟨s1, s0, q1, -⟩ := pose_tick (t3 := t3) (t4 := t4) (t5 := t5) (st := st) r2 r3 r4 ht
    (by rw [hmin]; exact hg)
  have q2 := quiet_tick (tf := tf) (p := p) (t2 := t2) (t3 := t3) (t4 := t4) (t5 := t5) (sp := sp) (st := st)
    r2 r3 r4 ht
  rw [hmin] at q2
  refine ⟨s1, out ++ publish n.succ_pos p s0 g t4 t5, { s' with
      ekf := some (predictStep n.succ_pos p dt f')
      interval := ⟨s'.interval.defaultFrequency, some ((t1 : ℝ) / 1000000000)⟩ },
    out ++ (publish n.succ_pos p s' (predictStep n.succ_pos p dt f') t4 t5 ++ []),
    run_append_ok _ _ r1 q1, run_append_ok _ _ r1 ?_, ?_, ?_⟩
  · simp only [run, q2, bind, Except.bind, pure, Except.pure]
  · rw [List.append_nil, List.map_append, List.map_append, publish_whereabouts s0 s' hgx]
  · simp [publish]

/-- C156, violated: let a tick come at `t`, another one `d` seconds later, and the next one only `r` seconds
after that. If `d` is at least as many times `r` as states are stored, then no pose taken at `t` is used,
whatever it says, although the state of that time is stored. -/
theorem C156_refused_violated (hn : 2 ≤ n) {s : NodeState (n + 1)}
    {f : TimeDelayKalmanFilter ℝ (n + 1) 6} (hf : s.ekf = some f) (hq : Quiet s) {a : ℝ}
    (ha : s.interval.lastTime = some a) {t u v : ℤ} (hat : a ≤ (t : ℝ) / 1000000000) (huv : u < v)
    (hlong : (n + 1 : ℕ) * (v - u) ≤ u - t) (hint : u - t < 2147483646 * (v - u)) (h10 : v - u ≤ 10000000000)
    {m : PoseMsg} (hm : m.stamp = t) (sp : PoseMsg → Bool) (st : TwistMsg → Bool) :
    ∃ s1 o1 s2 o2 f0 f1, run n.succ_pos tf p s
        [.timer t t t t t sp st, .timer u u u u u sp st, .pose m, .timer v v v v v sp st] = .ok (s1, o1) ∧
      run n.succ_pos tf p s [.timer t t t t t sp st, .timer u u u u u sp st, .timer v v v v v sp st] = .ok (s2, o2) ∧
      s1.ekf = s2.ekf ∧ o1.map Output.whereabouts = o2.map Output.whereabouts ∧
      -- the state of the time `t` is stored
      step n.succ_pos tf p s (.timer t t t t t sp st) = .ok (f0, o1.take 2) ∧ s1.ekf = some f1 ∧
      ∃ g, f0.ekf = some g ∧ f1.getX 2 = .ok (g.getLatestX n.succ_pos) := by
  have htu : t ≤ u := by
    have : (0 : ℤ) ≤ (n + 1 : ℕ) * (v - u) := by
      have : 0 < v - u := by omega
      positivity
    omega
  have hR : ∀ {x y : ℤ}, x ≤ y → (x : ℝ) / 1000000000 ≤ (y : ℝ) / 1000000000 := by
    intro x y h
    have : (x : ℝ) ≤ y := by exact_mod_cast h
    linarith
  have q0 := quiet_tick (tf := tf) (p := p) (t2 := t) (t3 := t) (t4 := t) (t5 := t) (sp := sp) (st := st) hf hq ha hat
  set g := predictStep n.succ_pos p (min ((t : ℝ) / 1000000000 - a) 10) f with hgdef
  set w0 : NodeState (n + 1) := { s with
    ekf := some g, interval := ⟨s.interval.defaultFrequency, some ((t : ℝ) / 1000000000)⟩ } with hw0
  have hq0 : Quiet w0 := ⟨hq.poses, hq.ages, hq.twists⟩
  have q1 := quiet_tick (s := w0) (tf := tf) (p := p) (t2 := u) (t3 := u) (t4 := u) (t5 := u) (sp := sp) (st := st)
    rfl hq0 rfl (hR htu)
  set g1 := predictStep n.succ_pos p (min ((u : ℝ) / 1000000000 - (t : ℝ) / 1000000000) 10) g with hg1
  set w1 : NodeState (n + 1) := { w0 with
    ekf := some g1, interval := ⟨w0.interval.defaultFrequency, some ((u : ℝ) / 1000000000)⟩ } with hw1
  have hq1 : Quiet w1 := ⟨hq.poses, hq.ages, hq.twists⟩
  have q2 := quiet_tick (s := w1) (tf := tf) (p := p) (t2 := v) (t3 := v) (t4 := v) (t5 := v) (sp := sp) (st := st)
    rfl hq1 rfl (hR huv.le)
  set dt := min ((v : ℝ) / 1000000000 - (u : ℝ) / 1000000000) 10 with hdt
  have hdt' : dt = ((v - u : ℤ) : ℝ) / 1000000000 := by
    rw [hdt, min_eq_left]
    · push_cast; ring
    · have : ((v - u : ℤ) : ℝ) ≤ 10000000000 := by exact_mod_cast h10
      push_cast at this
      linarith
  have hvu : (0 : ℝ) < ((v - u : ℤ) : ℝ) := by exact_mod_cast sub_pos.2 huv
  have hdt0 : 0 < dt := by rw [hdt']; positivity
  set g2 := predictStep n.succ_pos p dt g1 with hg2
  have hquot : (computeDelayTime v t : ℝ) / dt = ((v - t : ℤ) : ℝ) / ((v - u : ℤ) : ℝ) := by
    rw [hdt']
    simp only [computeDelayTime]
    field_simp
  have hrefused : processPose n.succ_pos tf sp p.poseGate p.poseSmoothing v dt m g2 = .ok g2 := by
    obtain ⟨k, k1, k2, k3, k4⟩ := C31_delay_step (computeDelayTime v t : ℝ) dt hdt0 (by
      rw [hquot, div_lt_iff₀ hvu]
      have : ((v - t : ℤ) : ℝ) < ((2147483647 * (v - u) : ℤ) : ℝ) := by
        exact_mod_cast (by linarith : v - t < 2147483647 * (v - u))
      push_cast at this ⊢
      linarith)
    have hge : ((n + 1 : ℕ) : ℝ) + 1 ≤ (computeDelayTime v t : ℝ) / dt := by
      rw [hquot, le_div_iff₀ hvu]
      have : (((n + 1 : ℕ) * (v - u) + (v - u) : ℤ) : ℝ) ≤ ((v - t : ℤ) : ℝ) := by
        exact_mod_cast (by linarith : (n + 1 : ℕ) * (v - u) + (v - u) ≤ v - t)
      push_cast at this ⊢
      linarith
    have hd0 : (0 : ℝ) ≤ computeDelayTime v t := by
      have := hge
      rw [le_div_iff₀ hdt0] at this
      have h1 : (0 : ℝ) ≤ (((n + 1 : ℕ) : ℝ) + 1) * dt := by positivity
      linarith
    rw [max_eq_left hd0] at k4
    have hk : ((n + 1 : ℕ) : ℝ) < (k : ℝ) := by linarith
    have hk' : ((n + 1 : ℕ) : ℤ) < k := by exact_mod_cast hk
    have hc : checkDelayStep k ((n + 1 : ℕ) : ℤ) = false := by
      simp only [checkDelayStep, decide_eq_false_iff_not, not_lt]
      exact hk'.le
    simp only [processPose, processMeasurement, hm, k1, bind, Except.bind, hc]
    rfl
  obtain ⟨s1, s0, p1, p2⟩ := pose_tick (s := w1) (t3 := v) (t4 := v) (t5 := v) (st := st) rfl hq1 rfl (hR huv.le)
    (m := m) hrefused
  have hstored : g2.getX 2 = .ok (g.getLatestX n.succ_pos) := by
    have h2 : (2 : ℤ) = ((⟨2, by omega⟩ : Fin (n + 1)).val : ℤ) := rfl
    rw [h2, getX_blk, hg2, predictStep_blk (i := 1), hg1, predictStep_blk (i := 0), latest_blkX]
    rfl
  have r1 : run n.succ_pos tf p s
      [.timer t t t t t sp st, .timer u u u u u sp st, .pose m, .timer v v v v v sp st] =
      .ok (s1, publish n.succ_pos p s g t t ++ (publish n.succ_pos p w0 g1 u u ++ publish n.succ_pos p s0 g2 v v)) := by
    rw [run, q0]
    simp only [bind, Except.bind]
    rw [run, q1]
    simp only [bind, Except.bind]
    rw [p1]
    rfl
  have r2 : run n.succ_pos tf p s
      [.timer t t t t t sp st, .timer u u u u u sp st, .timer v v v v v sp st] =
      .ok ({ w1 with
          ekf := some g2
          interval := ⟨w1.interval.defaultFrequency, some ((v : ℝ) / 1000000000)⟩ },
        publish n.succ_pos p s g t t ++ (publish n.succ_pos p w0 g1 u u ++ (publish n.succ_pos p w1 g2 v v ++ []))) := by
    rw [run, q0]
    simp only [bind, Except.bind]
    rw [run, q1]
    simp only [bind, Except.bind]
    rw [run, q2]
    rfl
  refine ⟨s1, _, _, _, w0, g2, r1, r2, p2, ?_, q0, p2, g, rfl, hstored⟩
  rw [List.append_nil, List.map_append, List.map_append, List.map_append, List.map_append,
    publish_whereabouts (p := p) (f := g2) (g := g2) s0 w1 rfl]

end Quiet

/-! ### A vehicle that moves -/

section Witness
variable {n : ℕ}

/-- The covariance a quarter of a second later. -/
noncomputable def lateP : Matrix (Fin 6) (Fin 6) ℝ :=
  let y := 1 + 1 / 100 + 1 / 40000 - 1 / 20200
  !![101 / 100 - 1 / 500200 + 1 / 400 + 2501 / 3200, 0, 0, 0, 1 / 200 + 2501 / 800, 0;
     0, 1 + y / 16 + 1 / 160000, y / 4 + 1 / 3200, 1 / 40000, 0, 1 / 800;
     0, y / 4 + 1 / 3200, y + 1 / 400 + 101 / 3200 + 1 / 640000, 0, 0, 1 / 200 + 101 / 800;
     0, 1 / 40000, 0, 1 / 10000, 0, 0;
     1 / 200 + 2501 / 800, 0, 0, 0, 2501 / 200 + 25 / 16, 0;
     0, 1 / 800, 1 / 200 + 101 / 800, 0, 0, 101 / 200 + 1 / 16]

theorem lateQ : processNoiseCovariance (offParams.variance.timeScaledVariances (1 / 4)) =
    Matrix.diagonal ![0, 0, 1 / 640000, 0, 25 / 16, 1 / 16] := by
  have h : offParams.variance.timeScaledVariances (1 / 4) = ![1 / 640000, 0, 25 / 16, 1 / 16] := by
    funext i
    fin_cases i <;>
      (try simp [DefaultVariance.timeScaledVariances, timeScaledVariance, offParams, EkfParams.variance,
        initYawBias]) <;> try norm_num
  rw [h]
  rfl

/-- A quarter of a second later. -/
theorem late1 {f : TimeDelayKalmanFilter ℝ (n + 1) 6} (hx : blkX f.x 0 = ![1 / 2501, 0, 0, 0, 1, 0])
    (hP : blk f.P 0 0 = offP2) :
    blkX (predictStep n.succ_pos offParams (1 / 4) f).x 0 = ![1 / 2501 + 1 / 4, 0, 0, 0, 1, 0] ∧
    blk (predictStep n.succ_pos offParams (1 / 4) f).P 0 0 = lateP := by
  constructor
  · rw [← latest_blkX, predictStep_latestX, latest_blkX, hx]
    funext i
    fin_cases i <;> simp [predictNextState, normalizeYaw_zero]
  · rw [← getLatestP_blk, predictStep_latestP, latest_blkX, getLatestP_blk, hx, hP]
    ext i j
    simp only [lateQ, Matrix.add_apply, Matrix.mul_apply, Matrix.transpose_apply, Fin.sum_univ_six]
    fin_cases i <;> fin_cases j <;>
      (try simp [createStateTransitionMatrix, Matrix.diagonal, offP2, lateP]) <;> try norm_num

/-- The transition during the next second. -/
def lateA : Matrix (Fin 6) (Fin 6) ℝ :=
  !![1, 0, 0, 0, 1, 0; 0, 1, 1, 1, 0, 0; 0, 0, 1, 0, 0, 1; 0, 0, 0, 1, 0, 0; 0, 0, 0, 0, 1, 0; 0, 0, 0, 0, 0, 1]

/-- The covariance of x, y and yaw a second later. -/
noncomputable def lateM : Matrix (Fin 3) (Fin 3) ℝ :=
  !![lateP 0 0 + 2 * lateP 0 4 + lateP 4 4, 0, 0;
     0, lateP 1 1 + 2 * lateP 1 2 + 2 * lateP 1 3 + lateP 2 2 + lateP 3 3,
      lateP 1 2 + lateP 1 5 + lateP 2 2 + lateP 2 5;
     0, lateP 1 2 + lateP 1 5 + lateP 2 2 + lateP 2 5, lateP 2 2 + 2 * lateP 2 5 + lateP 5 5 + 1 / 40000]

/-- A second later. -/
theorem late2 {f : TimeDelayKalmanFilter ℝ (n + 2) 6}
    (hx : blkX f.x 0 = ![1 / 2501 + 1 / 4, 0, 0, 0, 1, 0]) (hP : blk f.P 0 0 = lateP) :
    blkX (predictStep (n + 1).succ_pos offParams 1 f).x 0 = ![1 / 2501 + 5 / 4, 0, 0, 0, 1, 0] ∧
    blkX (predictStep (n + 1).succ_pos offParams 1 f).x 1 = ![1 / 2501 + 1 / 4, 0, 0, 0, 1, 0] ∧
    poseCovariance (blk (predictStep (n + 1).succ_pos offParams 1 f).P 0 0) = lateM ∧
    blk (predictStep (n + 1).succ_pos offParams 1 f).P 0 1 = lateA * lateP ∧
    blk (predictStep (n + 1).succ_pos offParams 1 f).P 1 1 = lateP := by
  have hA : createStateTransitionMatrix ![1 / 2501 + 1 / 4, 0, 0, 0, 1, 0] 1 = lateA := by
    ext i j
    fin_cases i <;> fin_cases j <;> simp [createStateTransitionMatrix, lateA]
  refine ⟨?_, ?_, ?_, ?_, ?_⟩
  · rw [← latest_blkX, predictStep_latestX, latest_blkX, hx]
    funext i
    fin_cases i <;> simp [predictNextState, normalizeYaw_zero]
    norm_num
  · rw [← hx]
    exact predictStep_blk (i := 0) 1 f (by omega)
  · rw [← getLatestP_blk, predictStep_latestP, latest_blkX, getLatestP_blk, hx, hP, hA]
    ext i j
    simp only [poseCovariance, offQ, Matrix.add_apply, Matrix.mul_apply, Matrix.transpose_apply, Fin.sum_univ_six]
    fin_cases i <;> fin_cases j <;>
      (try simp [lateA, Matrix.diagonal, lateP, lateM]) <;> try norm_num
  · have := updateP_blk_0s (n := n + 1) (d := 6) (by omega) f.P
      (createStateTransitionMatrix (f.getLatestX (n + 1).succ_pos) 1)
      (processNoiseCovariance (offParams.variance.timeScaledVariances 1)) 0
    rw [latest_blkX, hx, hA] at this
    rw [← hP, show (1 : Fin (n + 2)) = (0 : Fin (n + 1)).succ from rfl]
    refine Eq.trans ?_ this
    simp only [predictStep, TimeDelayKalmanFilter.predict, latest_blkX, hx, hA]
  · have := updateP_blk_ss (n := n + 1) (d := 6) (by omega) f.P
      (createStateTransitionMatrix (f.getLatestX (n + 1).succ_pos) 1)
      (processNoiseCovariance (offParams.variance.timeScaledVariances 1)) 0 0
    rw [← hP]
    exact this

/-- The vehicle is seen where it was estimated to be at the time of the message. -/
noncomputable def latePose : PoseMsg :=
  ⟨['m'], 0, some (1 / 2501), some 0, some 0, ⟨1, 0, 0, 0⟩,
    fun i => if i = 0 ∨ i = 7 ∨ i = 14 ∨ i = 21 ∨ i = 28 ∨ i = 35 then 1 else 0⟩

theorem late_delay : computeDelayStep (computeDelayTime 1250000000 latePose.stamp : ℝ) 1 =
    .ok (((1 : Fin (n + 2)).val : ℕ) : ℤ) := by
  refine delay_closest one_pos (by simp) ?_
  norm_num [computeDelayTime, latePose, abs_lt]

/-- How far the message moves the estimate. -/
noncomputable def lateStep : ℝ := (lateP 0 0 + lateP 4 0) * (1 / 4 / (1 + lateP 0 0))

/-- The pose is used, and moves the estimate. -/
theorem late3 {f : TimeDelayKalmanFilter ℝ (n + 2) 6} (h0 : blkX f.x 0 = ![1 / 2501 + 5 / 4, 0, 0, 0, 1, 0])
    (h1 : blkX f.x 1 = ![1 / 2501 + 1 / 4, 0, 0, 0, 1, 0]) (hM : poseCovariance (blk f.P 0 0) = lateM)
    (h01 : blk f.P 0 1 = lateA * lateP) (h11 : blk f.P 1 1 = lateP) (sp : PoseMsg → Bool) :
    ∃ g, processPose (n + 1).succ_pos flatTf sp offParams.poseGate offParams.poseSmoothing 1250000000 1 latePose f =
      .ok g ∧ blkX g.x 0 0 = 1 / 2501 + 5 / 4 - lateStep ∧ blkX g.x 0 1 = 0 ∧ blkX g.x 0 2 = 0 ∧
      blkX g.x 0 3 = 0 := by
  have hC : poseMeasurementMatrix * lateP * poseMeasurementMatrixᵀ = poseCovariance lateP := by
    ext i j
    fin_cases i <;> fin_cases j <;>
      simp [poseMeasurementMatrix, poseCovariance, Matrix.mul_apply, Matrix.vecMul, dotProduct,
        Fin.sum_univ_succ]
  have hR : poseMeasurementCovariance latePose.cov (toSizeT offParams.poseSmoothing) = 1 := by
    have : toSizeT offParams.poseSmoothing = 1 := by simp [toSizeT, offParams]
    rw [this]
    ext i j
    fin_cases i <;> fin_cases j <;> simp [poseMeasurementCovariance, latePose]
  have hdM : lateM.det ≠ 0 := by
    rw [Matrix.det_fin_three]
    (try simp [lateM, lateP]) <;> try norm_num
  have hdS : (1 + poseCovariance lateP).det ≠ 0 := by
    rw [Matrix.det_fin_three]
    simp only [Matrix.add_apply, Matrix.one_apply]
    (try simp [poseCovariance, lateP]) <;> try norm_num
  have hdet : (poseMeasurementCovariance latePose.cov (toSizeT offParams.poseSmoothing) +
      poseMeasurementMatrix * blk f.P 1 1 * poseMeasurementMatrixᵀ).det ≠ 0 := by
    rw [h11, hC, hR]; exact hdS
  obtain ⟨g, hu, hX, -⟩ :=
    (C33_blocks f ![1 / 2501, 0, 0] poseMeasurementMatrix _ 1).2 hdet
  have hres : (![1 / 2501, 0, 0] : Fin 3 → ℝ) - poseMeasurementMatrix *ᵥ blkX f.x 1 = ![-1 / 4, 0, 0] := by
    rw [h1]
    funext i
    fin_cases i <;> (try simp [poseMeasurementMatrix]) <;> try norm_num
  refine ⟨g, ?_, ?_⟩
  · refine process_taken (v := ![1 / 2501, 0, 0]) (δ := 1) ?_ late_delay ?_ hu
    · funext i
      fin_cases i
      · rfl
      · rfl
      · simp [poseMeasurementVector, flatTf, normalizeYaw_zero]
    · rw [getLatestP_blk, hM, h1]
      have hd : getPoseState ![1 / 2501 + 1 / 4, 0, 0, 0, 1, 0] - ![1 / 2501, 0, 0] = ![1 / 4, 0, 0] := by
        funext i
        fin_cases i <;> simp [getPoseState]
      have hu0 : lateM⁻¹ *ᵥ ![1 / 4, 0, 0] = ![1 / 4 / lateM 0 0, 0, 0] := by
        refine inv_apply_of hdM ?_
        have h00 : lateM 0 0 ≠ 0 := by
          (try simp [lateM, lateP]) <;> try norm_num
        funext i
        simp only [Matrix.mulVec, dotProduct, Fin.sum_univ_three]
        fin_cases i
        · simp
          field_simp
        · simp [lateM]
        · simp [lateM]
      simp only [mahalanobisGate, squaredMahalanobis, if_neg hdM, hd, hu0, decide_eq_true_eq]
      simp only [dotProduct, Fin.sum_univ_three]
      (try simp [lateM, lateP, offParams]) <;> try norm_num
  · have hu0 : (1 + poseCovariance lateP)⁻¹ *ᵥ ![-1 / 4, 0, 0] = ![-(1 / 4 / (1 + lateP 0 0)), 0, 0] := by
      refine inv_apply_of hdS ?_
      have h00 : 1 + lateP 0 0 ≠ 0 := by
        (try simp [lateP]) <;> try norm_num
      funext i
      simp only [Matrix.mulVec, dotProduct, Fin.sum_univ_three, Matrix.add_apply, Matrix.one_apply]
      fin_cases i
      · simp [poseCovariance]
        field_simp
      · simp [poseCovariance, lateP]
      · simp [poseCovariance, lateP]
    have hgain : ∀ k, blkX g.x 0 k = blkX f.x 0 k + (lateA * lateP) k 0 * -(1 / 4 / (1 + lateP 0 0)) := by
      intro k
      rw [hX, hres, h11, hC, hR, h01, ← Matrix.mulVec_mulVec, hu0, ← Matrix.mulVec_mulVec, Pi.add_apply]
      congr 1
      simp [Matrix.mulVec, dotProduct, poseMeasurementMatrix, Fin.sum_univ_succ]
    have hcol : ∀ k, (lateA * lateP) k 0 = ![lateP 0 0 + lateP 4 0, 0, 0, 0, lateP 4 0, 0] k := by
      intro k
      simp only [Matrix.mul_apply, Fin.sum_univ_six]
      fin_cases k <;> simp [lateA, lateP]
    refine ⟨?_, ?_, ?_, ?_⟩ <;> rw [hgain, hcol, h0]
    · simp [lateStep]; ring
    · simp
    · simp
    · simp

/-- What happens: an initial pose, a twist, a tick, a quarter of a second later another one, a pose that was
taken at the first tick, and a second later a tick. -/
noncomputable def lateEvents (sp : PoseMsg → Bool) (st : TwistMsg → Bool) (ms : List PoseMsg) : List Event :=
  [.initialPose offStart identityTries, .twist offTwist, .timer 0 0 0 0 0 sp st,
    .timer 250000000 250000000 250000000 250000000 250000000 sp st] ++ ms.map Event.pose ++
    [.timer 1250000000 1250000000 1250000000 1250000000 1250000000 sp st]

theorem lateStep_pos : 0 < lateStep := by
  (try simp [lateStep, lateP]); try norm_num

/-- C156, violated: a pose that says exactly what was published at the time of the pose moves the estimate,
when one interval between ticks was shorter than the next. With three or more stored states that of the time
of the pose is among them. -/
theorem C156_moved_violated (sp : PoseMsg → Bool) (st : TwistMsg → Bool) :
    ∃ (s1 s2 : NodeState (n + 2)) (o1 o2 : List Output),
      run (n + 1).succ_pos flatTf offParams (NodeState.make (n + 2) offParams) (lateEvents sp st [latePose]) =
        .ok (s1, o1) ∧
      run (n + 1).succ_pos flatTf offParams (NodeState.make (n + 2) offParams) (lateEvents sp st []) = .ok (s2, o2) ∧
      latePose.px = some (1 / 2501) ∧ latePose.py = some 0 ∧ flatTf.getYaw latePose.ori = some 0 ∧
      latePose.stamp = 0 ∧
      o2.map Output.whereabouts = [(0, 1 / 2501, 0, 0), (0, 1 / 2501, 0, 0),
        (250000000, 1 / 2501 + 1 / 4, 0, 0), (250000000, 1 / 2501 + 1 / 4, 0, 0),
        (1250000000, 1 / 2501 + 5 / 4, 0, 0), (1250000000, 1 / 2501 + 5 / 4, 0, 0)] ∧
      o1.map Output.whereabouts = [(0, 1 / 2501, 0, 0), (0, 1 / 2501, 0, 0),
        (250000000, 1 / 2501 + 1 / 4, 0, 0), (250000000, 1 / 2501 + 1 / 4, 0, 0),
        (1250000000, 1 / 2501 + 5 / 4 - lateStep, 0, 0), (1250000000, 1 / 2501 + 5 / 4 - lateStep, 0, 0)] ∧
      0 < lateStep := by
  have shown : ∀ (s : NodeState (n + 2)) (f : TimeDelayKalmanFilter ℝ (n + 2) 6) (t : ℤ) (x : ℝ),
      blkX f.x 0 0 = x → blkX f.x 0 1 = 0 → blkX f.x 0 2 = 0 → blkX f.x 0 3 = 0 →
      (publish (n + 1).succ_pos offParams s f t t).map Output.whereabouts = [(t, x, 0, 0), (t, x, 0, 0)] := by
    intro s f t x e0 e1 e2 e3
    simp [publish, Output.whereabouts, latest_blkX, e0, e1, e2, e3]
  obtain ⟨hx1, hP1⟩ := off1 (n := n + 1)
  obtain ⟨f2, hf2, hx2, hP2⟩ := off2 hx1 hP1 st
  obtain ⟨hx3, hP3⟩ := late1 hx2 hP2
  obtain ⟨k0, k1, kM, k01, k11⟩ := late2 hx3 hP3
  obtain ⟨g, hg, g0, g1, g2, g3⟩ := late3 k0 k1 kM k01 k11 sp
  have e1 : ∃ s1 : NodeState (n + 2), step (n + 1).succ_pos flatTf offParams (NodeState.make (n + 2) offParams)
      (.initialPose offStart identityTries) = .ok (s1, []) ∧ s1.ekf = some off0 ∧
      s1.interval = ⟨1, none⟩ ∧ s1.poseQ = ⟨1, [], []⟩ ∧ s1.twistQ = ⟨1, [], []⟩ := by
    refine ⟨_, rfl, ?_, rfl, rfl, rfl⟩
    simp [updateSimple1DFilters, off0, offStart]
  obtain ⟨s1, r1, kk1, i1, p1, t1⟩ := e1
  have e3 : ∃ s3 s0, step (n + 1).succ_pos flatTf offParams { s1 with twistQ := s1.twistQ.push offTwist }
      (.timer 0 0 0 0 0 sp st) = .ok (s3, publish (n + 1).succ_pos offParams s0 f2 0 0) ∧ s3.ekf = some f2 ∧
      s3.interval = ⟨1, some 0⟩ ∧ s3.poseQ = ⟨1, [], []⟩ ∧ s3.twistQ = ⟨1, [], []⟩ := by
    have hc : s1.interval.compute (((0 : ℤ) : ℝ) / 1000000000) = (.ok 1, ⟨1, some 0⟩) := by
      rw [i1]
      norm_num [UpdateInterval.compute, computeInterval]
    have hq : updateAll (processTwist (n + 1).succ_pos st offParams.twistGate offParams.twistSmoothing 0 1)
        (s1.twistQ.push offTwist) (predictStep (n + 1).succ_pos offParams 1 off0) = .ok (f2, ⟨1, [], []⟩) := by
      rw [t1]
      simp only [updateAll, AgedQueue.push, AgedQueue.size, List.nil_append, List.length_singleton, updateLoop,
        AgedQueue.pop, bind, Except.bind]
      simp [hf2]
    refine ⟨{ s1 with ekf := some f2, interval := ⟨1, some 0⟩, twistQ := ⟨1, [], []⟩ },
      { s1 with twistQ := s1.twistQ.push offTwist }, ?_, ?_⟩
    · simp only [step, timerCallback, kk1, hc, bind, Except.bind, updateAll_empty _ s1.poseQ _ (by rw [p1]), hq,
        pure, Except.pure]
    · exact ⟨rfl, rfl, p1, rfl⟩
  obtain ⟨s3, s0, r3, kk3, i3, p3, t3⟩ := e3
  have q3 : Quiet s3 := ⟨by rw [p3], by rw [p3], by rw [t3]⟩
  have r4 := quiet_tick (tf := flatTf) (p := offParams) (t1 := 250000000) (t2 := 250000000) (t3 := 250000000)
    (t4 := 250000000) (t5 := 250000000) (sp := sp) (st := st) kk3 q3 (a := 0) (by rw [i3]) (by norm_num)
  have d4 : min (((250000000 : ℤ) : ℝ) / 1000000000 - 0) 10 = 1 / 4 := by norm_num
  rw [d4] at r4
  set f4 := predictStep (n + 1).succ_pos offParams (1 / 4) f2 with hf4
  set s4 : NodeState (n + 2) := { s3 with
    ekf := some f4, interval := ⟨s3.interval.defaultFrequency, some (((250000000 : ℤ) : ℝ) / 1000000000)⟩ } with hs4
  have q4 : Quiet s4 := ⟨q3.poses, q3.ages, q3.twists⟩
  have d5 : min (((1250000000 : ℤ) : ℝ) / 1000000000 - ((250000000 : ℤ) : ℝ) / 1000000000) 10 = 1 := by norm_num
  have le5 : ((250000000 : ℤ) : ℝ) / 1000000000 ≤ ((1250000000 : ℤ) : ℝ) / 1000000000 := by norm_num
  have r5 := quiet_tick (s := s4) (tf := flatTf) (p := offParams) (t1 := 1250000000) (t2 := 1250000000)
    (t3 := 1250000000) (t4 := 1250000000) (t5 := 1250000000) (sp := sp) (st := st) rfl q4 rfl le5
  rw [d5] at r5
  obtain ⟨s6, s7, r6, -⟩ := pose_tick (s := s4) (t1 := 1250000000) (t2 := 1250000000) (t3 := 1250000000)
    (t4 := 1250000000) (t5 := 1250000000) (st := st) rfl q4 rfl le5 (m := latePose) (by rw [d5]; exact hg)
  have twist : step (n + 1).succ_pos flatTf offParams s1 (.twist offTwist) =
      .ok ({ s1 with twistQ := s1.twistQ.push offTwist }, []) := rfl
  refine ⟨s6, { s4 with
      ekf := some (predictStep (n + 1).succ_pos offParams 1 f4)
      interval := ⟨s4.interval.defaultFrequency, some (((1250000000 : ℤ) : ℝ) / 1000000000)⟩ },
    [] ++ ([] ++ (publish (n + 1).succ_pos offParams s0 f2 0 0 ++
      (publish (n + 1).succ_pos offParams s3 f4 250000000 250000000 ++
        publish (n + 1).succ_pos offParams s7 g 1250000000 1250000000))),
    [] ++ ([] ++ (publish (n + 1).succ_pos offParams s0 f2 0 0 ++
      (publish (n + 1).succ_pos offParams s3 f4 250000000 250000000 ++
        (publish (n + 1).succ_pos offParams s4 (predictStep (n + 1).succ_pos offParams 1 f4)
          1250000000 1250000000 ++ [])))),
    ?_, ?_, rfl, rfl, ?_, rfl, ?_, ?_, lateStep_pos⟩
  · simp only [lateEvents, List.map_cons, List.map_nil, List.cons_append, List.nil_append]
    rw [run, r1]
    simp only [bind, Except.bind]
    rw [run, twist]
    simp only [bind, Except.bind]
    rw [run, r3]
    simp only [bind, Except.bind]
    rw [run, r4]
    simp only [bind, Except.bind]
    rw [r6]
    rfl
  · simp only [lateEvents, List.map_nil, List.append_nil, List.cons_append, List.nil_append]
    rw [run, r1]
    simp only [bind, Except.bind]
    rw [run, twist]
    simp only [bind, Except.bind]
    rw [run, r3]
    simp only [bind, Except.bind]
    rw [run, r4]
    simp only [bind, Except.bind]
    rw [run, r5]
    rfl
  · simp [flatTf]
  · simp only [List.nil_append, List.append_nil, List.map_append]
    rw [shown s0 f2 0 (1 / 2501) (by simp [hx2]) (by simp [hx2]) (by simp [hx2]) (by simp [hx2]),
      shown s3 f4 250000000 (1 / 2501 + 1 / 4) (by simp [hx3]) (by simp [hx3]) (by simp [hx3]) (by simp [hx3]),
      shown s4 _ 1250000000 (1 / 2501 + 5 / 4) (by simp [k0]) (by simp [k0]) (by simp [k0]) (by simp [k0])]
    rfl
  · simp only [List.nil_append, List.map_append]
    rw [shown s0 f2 0 (1 / 2501) (by simp [hx2]) (by simp [hx2]) (by simp [hx2]) (by simp [hx2]),
      shown s3 f4 250000000 (1 / 2501 + 1 / 4) (by simp [hx3]) (by simp [hx3]) (by simp [hx3]) (by simp [hx3]),
      shown s7 g 1250000000 _ g0 g1 g2 g3]
    rfl

end Witness

/-! Non-vacuity. -/

/-- Ticks every second, and a delay of a little more than two seconds: the state of two ticks ago is corrected. -/
example : computeDelayStep (computeDelayTime 5000000000 2900000000 : ℝ) 1 = .ok 2 := by
  refine delay_closest (k := 2) one_pos (by norm_num) ?_
  norm_num [computeDelayTime, abs_lt]

/-- Three ticks, and the time of the last one. -/
example (sp : PoseMsg → Bool) (st : TwistMsg → Bool) : TicksFrom 0 [.timer 1000000000 0 0 0 0 sp st,
    .timer 1000000000 0 0 0 0 sp st, .timer 2500000000 0 0 0 0 sp st] (5 / 2) := by
  norm_num [TicksFrom]

/-- A node with three stored states that stands still, ticking every second: the pose two seconds old that says
so is a confirmation. -/
example (sp : PoseMsg → Bool) (st : TwistMsg → Bool) : ∃ s1 o1 s2 o2,
    run (by norm_num) flatTf offParams (⟨some (off0 (n := 2)), ⟨1, some 0⟩, ⟨1, [], []⟩, ⟨1, [], []⟩,
      Simple1DFilter.make 1, Simple1DFilter.make 1, Simple1DFilter.make 1⟩ : NodeState 3)
      ([.timer 1000000000 1000000000 1000000000 1000000000 1000000000 sp st] ++ [.pose offStart,
        .timer 2000000000 2000000000 2000000000 2000000000 2000000000 sp st]) = .ok (s1, o1) ∧
    run (by norm_num) flatTf offParams (⟨some (off0 (n := 2)), ⟨1, some 0⟩, ⟨1, [], []⟩, ⟨1, [], []⟩,
      Simple1DFilter.make 1, Simple1DFilter.make 1, Simple1DFilter.make 1⟩ : NodeState 3)
      ([.timer 1000000000 1000000000 1000000000 1000000000 1000000000 sp st] ++ [
        .timer 2000000000 2000000000 2000000000 2000000000 2000000000 sp st]) = .ok (s2, o2) ∧
    o1.map Output.whereabouts = o2.map Output.whereabouts ∧ o1 ≠ [] := by
  refine C156_confirmed_partial (n := 2) (dt := 1) (a := 0) (b := 1) (f := off0) (by norm_num) rfl ⟨rfl, rfl, rfl⟩ rfl
    ?_ (by simp) ?_ ?_ ?_ ?_ (by norm_num) one_pos (by norm_num) ?_
  · norm_num [TicksFrom]
  · rw [off0_latest]; rfl
  · rw [off0_latest]; rfl
  · rw [off0_latest]; simp [flatTf]
  · rw [off0_latest]; exact ⟨by simp [Real.pi_pos], by simpa using Real.pi_pos.le⟩
  · norm_num [offStart, abs_lt]

/-- Of fifty stored states, with ticks a second apart and then one hundredth of a second. -/
example : (49 + 1 : ℕ) * ((1010000000 : ℤ) - 1000000000) ≤ 1000000000 - 0 ∧
    (1000000000 : ℤ) - 0 < 2147483646 * (1010000000 - 1000000000) := by norm_num

end Verif.Ekf
