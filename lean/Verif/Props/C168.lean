/-
C168: the times with which what is published is stamped.
-/
import Verif.Props.C156

set_option autoImplicit false

namespace Verif.Ekf

open Matrix Verif.Kalman

/-! ### Specification -/

/-- Specification: the stamp of what is published. -/
def Output.stampedAt : Output → ℤ
  | .transform t _ _ _ => t
  | .odometry t _ _ _ _ _ _ _ => t

/-- Specification: the same with another stamp. -/
def Output.restamped (t : ℤ) : Output → Output
  | .transform _ f c e => .transform t f c e
  | .odometry _ f c e P v w Q => .odometry t f c e P v w Q

/-- Specification: what a tick says, in one: the two stamps, the frames, the pose with covariance, the speeds with
covariance. -/
structure Said where
  tfStamp : ℤ
  odomStamp : ℤ
  pose : Estimate
  poseCov : Fin 36 → ℝ
  vx : ℝ
  wz : ℝ
  twistCov : Fin 36 → ℝ

/-- Specification: the transform and the odometry message that say it. -/
def Said.outputs (frame : List Char) (w : Said) : List Output :=
  [.transform w.tfStamp frame "base_link".toList w.pose,
   .odometry w.odomStamp frame "base_link".toList w.pose w.poseCov w.vx w.wz w.twistCov]

section General
variable {N : ℕ} {hN : 0 < N} {tf : Tf2} {p : EkfParams}

/-- What one callback publishes. -/
theorem step_said {s s' : NodeState N} {e : Event} {o : List Output} (h : step hN tf p s e = .ok (s', o)) :
    ∃ l : List Said, o = l.flatMap (Said.outputs p.poseFrame) := by
  cases e with
  | pose m =>
    simp only [step, Except.ok.injEq, Prod.mk.injEq] at h
    exact ⟨[], h.2.symm⟩
  | twist m =>
    simp only [step, Except.ok.injEq, Prod.mk.injEq] at h
    exact ⟨[], h.2.symm⟩
  | initialPose m tries =>
    simp only [step, bind, Except.bind] at h
    cases hi : initialPoseCallback tf p s m tries with
    | error x => rw [hi] at h; simp at h
    | ok s1 =>
      rw [hi] at h
      simp only [pure, Except.pure, Except.ok.injEq, Prod.mk.injEq] at h
      exact ⟨[], h.2.symm⟩
  | timer t1 t2 t3 t4 t5 sp st =>
    simp only [step, timerCallback] at h
    cases hf : s.ekf with
    | none =>
      rw [hf] at h
      simp only [Except.ok.injEq, Prod.mk.injEq] at h
      exact ⟨[], h.2.symm⟩
    | some f =>
      rw [hf] at h
      rcases hc : s.interval.compute ((t1 : ℝ) / 1000000000) with ⟨r, iv⟩
      rw [hc] at h
      cases r with
      | error e =>
        cases e <;> simp at h
        exact ⟨[], h.2⟩
      | ok dt =>
        simp only [bind, Except.bind] at h
        split at h
        · simp at h
        · split at h
          · simp at h
          · simp only [pure, Except.pure, Except.ok.injEq, Prod.mk.injEq] at h
            rw [← h.2]
            exact ⟨[⟨t4, t5, _, _, _, _, _⟩], rfl⟩

/-- C168: in every execution what is published comes in pairs of a transform and an odometry message with the same
pose and the same frames. -/
theorem C168_pairs (hN : 0 < N) (tf : Tf2) (p : EkfParams) : ∀ (es : List Event) (s s' : NodeState N) (o : List Output),
    run hN tf p s es = .ok (s', o) → ∃ l : List Said, o = l.flatMap (Said.outputs p.poseFrame) := by
  intro es
  induction es with
  | nil =>
    intro s s' o h
    simp only [run, Except.ok.injEq, Prod.mk.injEq] at h
    exact ⟨[], h.2.symm⟩
  | cons e es ih =>
    intro s s' o h
    simp only [run, bind, Except.bind] at h
    cases h1 : step hN tf p s e with
    | error x => rw [h1] at h; simp at h
    | ok r =>
      rw [h1] at h
      simp only at h
      cases h2 : run hN tf p r.1 es with
      | error x => rw [h2] at h; simp at h
      | ok r' =>
        rw [h2] at h
        simp only [pure, Except.pure, Except.ok.injEq, Prod.mk.injEq] at h
        obtain ⟨l1, e1⟩ := step_said (show step hN tf p s e = .ok (r.1, r.2) from h1)
        obtain ⟨l2, e2⟩ := ih r.1 r'.1 r'.2 h2
        exact ⟨l1 ++ l2, by rw [← h.2, e1, e2, List.flatMap_append]⟩

/-- C168, what holds: if the clock stands still during the callback, what is published is stamped with the time to
which the filter was predicted. -/
theorem C168_still_partial {s s' : NodeState N} {t t2 t3 : ℤ} {sp : PoseMsg → Bool} {st : TwistMsg → Bool}
    {o : List Output} (h : step hN tf p s (.timer t t2 t3 t t sp st) = .ok (s', o)) :
    ∀ x ∈ o, x.stampedAt = t ∧ s'.interval.lastTime = some ((t : ℝ) / 1000000000) := by
  simp only [step, timerCallback] at h
  intro x hx
  cases hf : s.ekf with
  | none =>
    rw [hf] at h
    simp only [Except.ok.injEq, Prod.mk.injEq] at h
    rw [← h.2] at hx
    simp at hx
  | some f =>
    rw [hf] at h
    rcases hc : s.interval.compute ((t : ℝ) / 1000000000) with ⟨r, iv⟩
    rw [hc] at h
    cases r with
    | error e =>
      cases e <;> simp at h
      rw [h.2] at hx
      simp at hx
    | ok dt =>
      have hiv : iv.lastTime = some ((t : ℝ) / 1000000000) := by
        simp only [UpdateInterval.compute] at hc
        split at hc
        · injection hc with _ hc
          rw [← hc]
        · split at hc
          · injection hc with hc _
            simp at hc
          · injection hc with _ hc
            rw [← hc]
      simp only [bind, Except.bind] at h
      split at h
      · simp at h
      · split at h
        · simp at h
        · simp only [pure, Except.pure, Except.ok.injEq, Prod.mk.injEq] at h
          rw [← h.2] at hx
          rw [← h.1]
          refine ⟨?_, hiv⟩
          simp only [publish, List.mem_cons, List.not_mem_nil, or_false] at hx
          rcases hx with rfl | rfl <;> rfl

/-- C168: the times at which the messages are stamped have no influence on anything else. -/
theorem C168_only_stamps (s : NodeState N) (t1 t2 t3 t4 t5 t4' t5' : ℤ) (sp : PoseMsg → Bool) (st : TwistMsg → Bool) :
    (step hN tf p s (.timer t1 t2 t3 t4 t5 sp st)).map (fun r => (r.1, r.2.map (Output.restamped 0))) =
      (step hN tf p s (.timer t1 t2 t3 t4' t5' sp st)).map (fun r => (r.1, r.2.map (Output.restamped 0))) := by
  simp only [step, timerCallback]
  cases hf : s.ekf with
  | none => rfl
  | some f =>
    rcases hc : s.interval.compute ((t1 : ℝ) / 1000000000) with ⟨r, iv⟩
    cases r with
    | error e => cases e <;> rfl
    | ok dt =>
      simp only [bind, Except.bind]
      cases updateAll (processPose hN tf sp p.poseGate p.poseSmoothing t2 dt) s.poseQ (predictStep hN p dt f) with
      | error e => rfl
      | ok r =>
        simp only
        cases updateAll (processTwist hN st p.twistGate p.twistSmoothing t3 dt) s.twistQ r.1 with
        | error e => rfl
        | ok r' => rfl

end General

/-! ### A clock that goes on -/

section Witness
variable {n : ℕ}

/-- C168, violated: a vehicle that moves at a metre per second; whatever the times the clock shows when the two
messages are made, they are stamped with them and say the place at the time of the prediction, and the two stamps are
different if the clock shows different times. -/
theorem C168_moved_on_violated (t4 t5 : ℤ) (sp : PoseMsg → Bool) (st : TwistMsg → Bool) :
    ∃ (s' : NodeState (n + 1)) (w : Said),
      run n.succ_pos flatTf offParams (NodeState.make (n + 1) offParams)
        [.initialPose offStart identityTries, .twist offTwist, .timer 0 0 0 t4 t5 sp st] =
        .ok (s', w.outputs offParams.poseFrame) ∧
      w.tfStamp = t4 ∧ w.odomStamp = t5 ∧ w.pose.x = 1 / 2501 ∧ w.pose.y = 0 ∧ w.pose.yaw = 0 ∧ w.vx = 1 ∧ w.wz = 0 := by
  obtain ⟨hx1, hP1⟩ := off1 (n := n)
  obtain ⟨f2, hf2, hx2, hP2⟩ := off2 hx1 hP1 st
  have e1 : ∃ s1 : NodeState (n + 1), step n.succ_pos flatTf offParams (NodeState.make (n + 1) offParams)
      (.initialPose offStart identityTries) = .ok (s1, []) ∧ s1.ekf = some off0 ∧
      s1.interval = ⟨1, none⟩ ∧ s1.poseQ = ⟨1, [], []⟩ ∧ s1.twistQ = ⟨1, [], []⟩ := by
    refine ⟨_, rfl, ?_, rfl, rfl, rfl⟩
    simp [updateSimple1DFilters, off0, offStart]
  obtain ⟨s1, r1, k1, i1, p1, t1⟩ := e1
  set s2 : NodeState (n + 1) := { s1 with twistQ := s1.twistQ.push offTwist } with hs2
  have hc : s2.interval.compute (((0 : ℤ) : ℝ) / 1000000000) = (.ok 1, ⟨1, some 0⟩) := by
    change s1.interval.compute _ = _
    rw [i1]
    norm_num [UpdateInterval.compute, computeInterval]
  have hq : updateAll (processTwist n.succ_pos st offParams.twistGate offParams.twistSmoothing 0 1) s2.twistQ
      (predictStep n.succ_pos offParams 1 off0) = .ok (f2, ⟨1, [], []⟩) := by
    change updateAll _ (s1.twistQ.push offTwist) _ = _
    rw [t1]
    simp only [updateAll, AgedQueue.push, AgedQueue.size, List.nil_append, List.length_singleton, updateLoop,
      AgedQueue.pop, bind, Except.bind]
    simp [hf2]
  have q : step n.succ_pos flatTf offParams s2 (.timer 0 0 0 t4 t5 sp st) =
      .ok ({ s2 with ekf := some f2, interval := ⟨1, some 0⟩, twistQ := ⟨1, [], []⟩ },
        publish n.succ_pos offParams s2 f2 t4 t5) := by
    simp only [step, timerCallback, show s2.ekf = some off0 from k1, hc, bind, Except.bind,
      updateAll_empty _ s2.poseQ _ (show s2.poseQ.msgs = [] by change s1.poseQ.msgs = []; rw [p1]), hq, pure,
      Except.pure]
  have twist : step n.succ_pos flatTf offParams s1 (.twist offTwist) = .ok (s2, []) := rfl
  refine ⟨{ s2 with ekf := some f2, interval := ⟨1, some 0⟩, twistQ := ⟨1, [], []⟩ },
    ⟨t4, t5, ⟨f2.getLatestX n.succ_pos 0, f2.getLatestX n.succ_pos 1, s2.z.getX, s2.roll.getX, s2.pitch.getX,
      f2.getLatestX n.succ_pos 2 + f2.getLatestX n.succ_pos 3⟩,
      ekfCovarianceToPoseMessageCovariance (f2.getLatestP n.succ_pos), f2.getLatestX n.succ_pos 4,
      f2.getLatestX n.succ_pos 5, ekfCovarianceToTwistMessageCovariance (f2.getLatestP n.succ_pos)⟩,
    ?_, rfl, rfl, ?_, ?_, ?_, ?_, ?_⟩
  · rw [run, r1]
    simp only [bind, Except.bind]
    rw [run, twist]
    simp only [bind, Except.bind]
    rw [run, q]
    rfl
  all_goals simp [latest_blkX, hx2]

end Witness

/-! Non-vacuity: the run of `C168_moved_on_violated` publishes, so that the hypotheses of the other theorems are met. -/

/-- With a clock that stands still. -/
example (sp : PoseMsg → Bool) (st : TwistMsg → Bool) : ∃ (s' : NodeState 3) (o : List Output),
    run (Nat.succ_pos 2) flatTf offParams (NodeState.make 3 offParams)
      [.initialPose offStart identityTries, .twist offTwist, .timer 0 0 0 0 0 sp st] = .ok (s', o) ∧ o.length = 2 := by
  obtain ⟨s', w, h, -⟩ := C168_moved_on_violated (n := 2) 0 0 sp st
  exact ⟨s', _, h, rfl⟩

end Verif.Ekf
