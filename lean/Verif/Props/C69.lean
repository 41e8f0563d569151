/-
C69: published covariances are positive semidefinite; C70: the node does not fail on well-formed
input and publishes at every tick.
-/
import Verif.Props.C36
import Verif.Props.C40

set_option autoImplicit false

namespace Verif.Ekf

open Matrix Verif.Kalman

/-- A message covariance that is one: symmetric positive semidefinite as a 6 by 6 matrix. -/
def CovPsd (c : Fin 36 → ℝ) : Prop := (Matrix.of fun i j => entry c i j).PosSemidef

/-! ### Loops over queues -/

/-- The messages and ages of a queue correspond. -/
def AgedQueue.Wf {α : Type} (q : AgedQueue α) : Prop := q.msgs.length = q.ages.length

theorem AgedQueue.pop_wf {α : Type} (q : AgedQueue α) (hq : q.Wf) (hs : 0 < q.size) :
    ∃ m q', q.pop = .ok (m, q') ∧ q'.Wf ∧ m ∈ q.msgs ∧ ∀ x ∈ q'.msgs, x ∈ q.msgs := by
  obtain ⟨M, ms, as⟩ := q
  cases ms with
  | nil => simp [AgedQueue.size] at hs
  | cons m ms =>
    cases as with
    | nil => simp [AgedQueue.Wf] at hq
    | cons a as =>
      have hl : ms.length = as.length := by simpa [AgedQueue.Wf] using hq
      by_cases ha : a + 1 < M
      · refine ⟨m, ⟨M, ms ++ [m], as ++ [a + 1]⟩, by simp [AgedQueue.pop, ha], ?_, ?_, ?_⟩
        · simp [AgedQueue.Wf, hl]
        · exact List.mem_cons_self
        · intro x hx
          simp only [List.mem_append, List.mem_singleton] at hx
          rcases hx with hx | rfl
          · exact List.mem_cons_of_mem _ hx
          · exact List.mem_cons_self
      · refine ⟨m, ⟨M, ms, as⟩, by simp [AgedQueue.pop, ha], hl, List.mem_cons_self, ?_⟩
        exact fun x hx => List.mem_cons_of_mem _ hx

/-- If processing each message of the queue succeeds and keeps an invariant of the filter, so does
the whole loop. -/
theorem updateLoop_ok {α F : Type} (process : α → F → Res F) (I : F → Prop) :
    ∀ (fuel i : ℕ) (q : AgedQueue α) (f : F), q.Wf → I f →
      (∀ m ∈ q.msgs, ∀ f, I f → ∃ f', process m f = .ok f' ∧ I f') →
      ∃ f' q', updateLoop process fuel i q f = .ok (f', q') ∧ I f' ∧ q'.Wf ∧
        ∀ x ∈ q'.msgs, x ∈ q.msgs := by
  intro fuel
  induction fuel with
  | zero => intro i q f hq hf _; exact ⟨f, q, rfl, hf, hq, fun x hx => hx⟩
  | succ fuel ih =>
    intro i q f hq hf hp
    rw [updateLoop]
    by_cases hi : i < q.size
    · rw [if_pos hi]
      obtain ⟨m, q1, h1, h2, h3, h4⟩ := q.pop_wf hq (by omega)
      obtain ⟨f1, h5, h6⟩ := hp m h3 f hf
      obtain ⟨f2, q2, h7, h8, h9, h10⟩ := ih (i + 1) q1 f1 h2 h6 fun m' hm' => hp m' (h4 m' hm')
      refine ⟨f2, q2, ?_, h8, h9, fun x hx => h4 x (h10 x hx)⟩
      simp only [h1, bind, Except.bind, h5, h7]
    · rw [if_neg hi]
      exact ⟨f, q, rfl, hf, hq, fun x hx => hx⟩

/-- If processing each message keeps an invariant whenever it succeeds, so does the loop. -/
theorem updateLoop_inv {α F : Type} (process : α → F → Res F) (I : F → Prop) (J : α → Prop)
    (hp : ∀ m f f', J m → I f → process m f = .ok f' → I f') :
    ∀ (fuel i : ℕ) (q q' : AgedQueue α) (f f' : F), I f → (∀ m ∈ q.msgs, J m) →
      updateLoop process fuel i q f = .ok (f', q') → I f' ∧ ∀ m ∈ q'.msgs, J m := by
  intro fuel
  induction fuel with
  | zero =>
    intro i q q' f f' hf hq h
    simp only [updateLoop] at h
    injection h with h
    cases h
    exact ⟨hf, hq⟩
  | succ fuel ih =>
    intro i q q' f f' hf hq h
    rw [updateLoop] at h
    by_cases hi : i < q.size
    · rw [if_pos hi] at h
      simp only [bind, Except.bind] at h
      cases hpop : q.pop with
      | error e => rw [hpop] at h; cases h
      | ok r =>
        rw [hpop] at h
        simp only at h
        cases hpr : process r.1 f with
        | error e => rw [hpr] at h; cases h
        | ok f1 =>
          rw [hpr] at h
          have hr : r.1 ∈ q.msgs ∧ ∀ x ∈ r.2.msgs, x ∈ q.msgs := by
            unfold AgedQueue.pop at hpop
            split at hpop
            · rename_i m ms a as e1 e2
              simp only at hpop
              split_ifs at hpop
              · injection hpop with hpop
                rw [← hpop, e1]
                refine ⟨List.mem_cons_self, fun x hx => ?_⟩
                simp only [List.mem_append, List.mem_singleton] at hx
                rcases hx with hx | rfl
                · exact List.mem_cons_of_mem _ hx
                · exact List.mem_cons_self
              · injection hpop with hpop
                rw [← hpop, e1]
                exact ⟨List.mem_cons_self, fun x hx => List.mem_cons_of_mem _ hx⟩
            · cases hpop
          exact ih _ _ _ _ _ (hp _ _ _ (hq _ hr.1) hf hpr) (fun m hm => hq m (hr.2 m hm)) h
    · rw [if_neg hi] at h
      injection h with h
      cases h
      exact ⟨hf, hq⟩

/-! ### C69 -/

/-- Processing a message with positive semidefinite noise keeps the covariance so. -/
theorem processMeasurement_psd {n h : ℕ} (sing : Bool) (stateOf : (Fin 6 → ℝ) → (Fin h → ℝ))
    (covOf : Matrix (Fin 6) (Fin 6) ℝ → Matrix (Fin h) (Fin h) ℝ) (C : Matrix (Fin h) (Fin 6) ℝ)
    (gateDist : ℝ) (now : ℤ) (dt : ℝ) (stamp : ℤ) (y : Fin h → Option ℝ)
    (R : Matrix (Fin h) (Fin h) ℝ) (hR : R.PosSemidef) (f f' : TimeDelayKalmanFilter ℝ (n + 1) 6)
    (hf : f.P.PosSemidef)
    (hp : processMeasurement n.succ_pos sing stateOf covOf C gateDist now dt stamp y R f = .ok f') :
    f'.P.PosSemidef := by
  unfold processMeasurement at hp
  simp only [bind, Except.bind] at hp
  cases hd : computeDelayStep (computeDelayTime now stamp : ℝ) dt with
  | error e => rw [hd] at hp; cases hp
  | ok s =>
    rw [hd] at hp
    simp only at hp
    split_ifs at hp with hc
    · injection hp with hp; rw [← hp]; exact hf
    · cases hy : allFinite y with
      | none => rw [hy] at hp; injection hp with hp; rw [← hp]; exact hf
      | some yv =>
        rw [hy] at hp
        simp only at hp
        cases hx : f.getX s with
        | error e => rw [hx] at hp; cases hp
        | ok x =>
          rw [hx] at hp
          simp only at hp
          split_ifs at hp with hg
          · injection hp with hp; rw [← hp]; exact hf
          · cases hu : f.update yv C R s with
            | ok f1 =>
              rw [hu] at hp
              injection hp with hp
              rw [← hp]
              have := applyOp_psd f (.update h yv C R s) hf hR
              simpa only [applyOp, hu] using this
            | error e =>
              rw [hu] at hp
              cases e <;> first
                | (cases hp; done)
                | (injection hp with hp; rw [← hp]; exact hf)

theorem predictStep_psd {n : ℕ} (p : EkfParams) (dt : ℝ) (f : TimeDelayKalmanFilter ℝ (n + 1) 6)
    (hf : f.P.PosSemidef) : (predictStep n.succ_pos p dt f).P.PosSemidef :=
  applyOp_psd f (.predict _ _ _) hf (C37_process_noise_psd p.variance dt)

theorem initCovariance_psd (c : Fin 36 → ℝ) (hc : CovPsd c) : (initCovariance c).PosSemidef := by
  have hd : ∀ i : Fin 6, 0 ≤ entry c i i := fun i => hc.diag_nonneg
  rw [initCovariance, Matrix.posSemidef_diagonal_iff]
  intro i
  fin_cases i
  · exact hd 0
  · exact hd 1
  · exact hd 5
  all_goals norm_num

/-- Where a component of the filter goes in a published pose covariance. -/
def selPose : Matrix (Fin 6) (Fin 6) ℝ :=
  !![1, 0, 0, 0, 0, 0; 0, 1, 0, 0, 0, 0; 0, 0, 0, 0, 0, 0; 0, 0, 0, 0, 0, 0; 0, 0, 0, 0, 0, 0;
     0, 0, 1, 0, 0, 0]

/-- The same for a twist covariance. -/
def selTwist : Matrix (Fin 6) (Fin 6) ℝ :=
  !![0, 0, 0, 0, 1, 0; 0, 0, 0, 0, 0, 0; 0, 0, 0, 0, 0, 0; 0, 0, 0, 0, 0, 0; 0, 0, 0, 0, 0, 0;
     0, 0, 0, 0, 0, 1]

theorem poseCov_psd (P : Matrix (Fin 6) (Fin 6) ℝ) (hP : P.PosSemidef) :
    CovPsd (ekfCovarianceToPoseMessageCovariance P) := by
  have : (Matrix.of fun i j => entry (ekfCovarianceToPoseMessageCovariance P) i j) =
      selPose * P * selPoseᴴ := by
    ext i j
    fin_cases i <;> fin_cases j <;>
      simp [Matrix.mul_apply, Matrix.vecMul, dotProduct, Fin.sum_univ_succ, selPose, entry,
        ekfCovarianceToPoseMessageCovariance]
  unfold CovPsd
  rw [this]
  exact hP.mul_mul_conjTranspose_same _

theorem twistCov_psd (P : Matrix (Fin 6) (Fin 6) ℝ) (hP : P.PosSemidef) :
    CovPsd (ekfCovarianceToTwistMessageCovariance P) := by
  have : (Matrix.of fun i j => entry (ekfCovarianceToTwistMessageCovariance P) i j) =
      selTwist * P * selTwistᴴ := by
    ext i j
    fin_cases i <;> fin_cases j <;>
      simp [Matrix.mul_apply, Matrix.vecMul, dotProduct, Fin.sum_univ_succ, selTwist, entry,
        ekfCovarianceToTwistMessageCovariance]
  unfold CovPsd
  rw [this]
  exact hP.mul_mul_conjTranspose_same _

/-- The messages of an event carry covariances. -/
def Event.CovPsd : Event → Prop
  | .initialPose m _ => Ekf.CovPsd m.cov
  | .pose m => Ekf.CovPsd m.cov
  | .twist m => Ekf.CovPsd m.cov
  | .timer .. => True

/-- The covariances of an output are covariances. -/
def Output.CovPsd : Output → Prop
  | .transform .. => True
  | .odometry _ _ _ _ pc _ _ tc => Ekf.CovPsd pc ∧ Ekf.CovPsd tc

/-- Invariant of the node. -/
def NodeState.Psd {N : ℕ} (s : NodeState N) : Prop :=
  (∀ f, s.ekf = some f → f.P.PosSemidef) ∧ (∀ m ∈ s.poseQ.msgs, CovPsd m.cov) ∧
    ∀ m ∈ s.twistQ.msgs, CovPsd m.cov

theorem step_psd {n : ℕ} (tf : Tf2) (p : EkfParams) (s s' : NodeState (n + 1)) (e : Event)
    (out : List Output) (hs : s.Psd) (he : e.CovPsd)
    (h : step n.succ_pos tf p s e = .ok (s', out)) : s'.Psd ∧ ∀ o ∈ out, o.CovPsd := by
  obtain ⟨hf, hp, ht⟩ := hs
  cases e with
  | initialPose m tries =>
    have hcopy := h
    simp only [step, initialPoseCallback, bind, Except.bind] at h
    cases ha : eraseBeginSlash p.poseFrame with
    | error e => rw [ha] at h; cases h
    | ok a =>
      rw [ha] at h
      cases hb : eraseBeginSlash m.frame with
      | error e => rw [hb] at h; cases h
      | ok b =>
        rw [hb] at h
        simp only at h
        cases hl : lookupTransform (tries a b) with
        | none => rw [hl] at h; cases h
        | some t =>
          rw [hl] at h
          simp only at h
          cases hx : m.px <;> cases hy : m.py <;> cases hq : tf.getYaw m.ori <;>
            cases ht1 : tf.getYaw t.rot <;> rw [hx, hy, hq, ht1] at h <;>
            first
              | (cases h; done)
              | skip
          rw [initialPose_ok n.succ_pos tf p s m tries a b ha hb t hl _ _ _ _ hx hy hq ht1] at hcopy
          injection hcopy with hcopy
          rw [Prod.mk.injEq] at hcopy
          obtain ⟨rfl, rfl⟩ := hcopy
          refine ⟨⟨?_, ?_, ?_⟩, ?_⟩
          · intro f hf'
            simp only [resetState, updateSimple1DFilters, Option.some.injEq] at hf'
            rw [← hf']
            exact initP_psd _ (initCovariance_psd _ he)
          · intro m hm; simp [resetState, AgedQueue.clear] at hm
          · intro m hm; simp [resetState, AgedQueue.clear] at hm
          · intro o ho; cases ho
  | pose m =>
    injection h with h
    rw [Prod.mk.injEq] at h
    obtain ⟨rfl, rfl⟩ := h
    refine ⟨⟨hf, ?_, ht⟩, fun o ho => by cases ho⟩
    intro m' hm'
    simp only [updateSimple1DFilters, AgedQueue.push, List.mem_append, List.mem_singleton] at hm'
    rcases hm' with hm' | rfl
    · exact hp m' hm'
    · exact he
  | twist m =>
    injection h with h
    rw [Prod.mk.injEq] at h
    obtain ⟨rfl, rfl⟩ := h
    refine ⟨⟨hf, hp, ?_⟩, fun o ho => by cases ho⟩
    intro m' hm'
    simp only [AgedQueue.push, List.mem_append, List.mem_singleton] at hm'
    rcases hm' with hm' | rfl
    · exact ht m' hm'
    · exact he
  | timer t1 t2 t3 t4 t5 sp st =>
    simp only [step, timerCallback] at h
    cases hekf : s.ekf with
    | none =>
      rw [hekf] at h
      injection h with h
      rw [Prod.mk.injEq] at h
      obtain ⟨rfl, rfl⟩ := h
      exact ⟨⟨hf, hp, ht⟩, fun o ho => by cases ho⟩
    | some f =>
      rw [hekf] at h
      simp only at h
      cases hc : s.interval.compute ((t1 : ℝ) / 1000000000) with
      | mk r iv =>
        rw [hc] at h
        cases r with
        | error e =>
          cases e <;> first
            | (cases h; done)
            | (injection h with h
               rw [Prod.mk.injEq] at h
               obtain ⟨rfl, rfl⟩ := h
               refine ⟨⟨?_, hp, ht⟩, fun o ho => by cases ho⟩
               intro f' hf'
               exact hf f' (by rw [hekf]; exact hekf ▸ hf'))
        | ok dt =>
          simp only [bind, Except.bind] at h
          have h0 := predictStep_psd p dt f (hf f hekf)
          cases hu : updateAll (processPose n.succ_pos tf sp p.poseGate p.poseSmoothing t2 dt) s.poseQ
              (predictStep n.succ_pos p dt f) with
          | error e => rw [hu] at h; cases h
          | ok u =>
            obtain ⟨f1, q1⟩ := u
            rw [hu] at h
            simp only at h
            have h1 := updateLoop_inv _ (fun g => g.P.PosSemidef) (fun m : PoseMsg => CovPsd m.cov)
              (fun m g g' hm hg hpr => processMeasurement_psd _ _ _ _ _ _ _ _ _ _
                (C43_measurement_psd m.cov (toSizeT p.poseSmoothing) hm).1 g g' hg hpr) _ _ _ _ _ _ h0 hp hu
            cases hv : updateAll (processTwist n.succ_pos st p.twistGate p.twistSmoothing t3 dt)
                s.twistQ f1 with
            | error e => rw [hv] at h; cases h
            | ok v =>
              obtain ⟨f2, q2⟩ := v
              rw [hv] at h
              have h2 := updateLoop_inv _ (fun g => g.P.PosSemidef) (fun m : TwistMsg => CovPsd m.cov)
                (fun m g g' hm hg hpr => processMeasurement_psd _ _ _ _ _ _ _ _ _ _
                  (C43_measurement_psd m.cov (toSizeT p.twistSmoothing) hm).2 g g' hg hpr) _ _ _ _ _ _ h1.1 ht hv
              injection h with h
              rw [Prod.mk.injEq] at h
              obtain ⟨rfl, rfl⟩ := h
              have hP : (f2.getLatestP n.succ_pos).PosSemidef := h2.1.submatrix _
              refine ⟨⟨?_, h1.2, h2.2⟩, ?_⟩
              · intro g hg
                have : f2 = g := Option.some.inj hg
                rw [← this]
                exact h2.1
              · intro o ho
                simp only [publish, List.mem_cons, List.not_mem_nil, or_false] at ho
                rcases ho with rfl | rfl
                · trivial
                · exact ⟨poseCov_psd _ hP, twistCov_psd _ hP⟩

/-- C69: for every sequence of callbacks with messages whose covariances are symmetric positive
semidefinite, so are all pose and twist covariances the node publishes. -/
theorem C69_published_psd {N : ℕ} (hN : 0 < N) (tf : Tf2) (p : EkfParams) (es : List Event)
    (hes : ∀ e ∈ es, e.CovPsd) (s : NodeState N) (out : List Output)
    (h : run hN tf p (NodeState.make N p) es = .ok (s, out)) : ∀ o ∈ out, o.CovPsd := by
  obtain ⟨n, rfl⟩ : ∃ n, N = n + 1 := ⟨N - 1, by omega⟩
  have key : ∀ (es : List Event) (s s' : NodeState (n + 1)) (out : List Output), s.Psd →
      (∀ e ∈ es, e.CovPsd) → run hN tf p s es = .ok (s', out) → ∀ o ∈ out, o.CovPsd := by
    intro es
    induction es with
    | nil =>
      intro s s' out _ _ h
      simp only [run] at h
      injection h with h
      cases h
      intro o ho; cases ho
    | cons e es ih =>
      intro s s' out hs hes h
      simp only [run, bind, Except.bind] at h
      cases h1 : step hN tf p s e with
      | error e1 => rw [h1] at h; cases h
      | ok r1 =>
        rw [h1] at h
        simp only at h
        cases h2 : run hN tf p r1.1 es with
        | error e2 => rw [h2] at h; cases h
        | ok r2 =>
          rw [h2] at h
          injection h with h
          rw [Prod.mk.injEq] at h
          obtain ⟨rfl, rfl⟩ := h
          obtain ⟨h3, h4⟩ := step_psd tf p s r1.1 e r1.2 hs (hes e List.mem_cons_self) h1
          have h5 := ih r1.1 r2.1 r2.2 h3 (fun e' he' => hes e' (List.mem_cons_of_mem _ he')) h2
          intro o ho
          rcases List.mem_append.1 ho with ho | ho
          · exact h4 o ho
          · exact h5 o ho
  exact key es _ s out ⟨fun f hf => (by cases hf), fun m hm => (by cases hm),
    fun m hm => (by cases hm)⟩ hes h

/-! ### C70 -/

/-- The clock reading of a timer event that measures intervals. -/
def Event.clock : Event → Option ℤ
  | .timer t _ _ _ _ _ _ => some t
  | _ => none

/-- The stamps of measurements that reach the filter. -/
def Event.poseStamp : Event → Option ℤ
  | .pose m => some m.stamp
  | _ => none

def Event.twistStamp : Event → Option ℤ
  | .twist m => some m.stamp
  | _ => none

/-- An initial pose that can be interpreted: finite, in a frame with a name, with a transform that
is found and has a yaw. Other events are arbitrary. -/
def Event.Interpretable (tf : Tf2) : Event → Prop
  | .initialPose m tries => m.frame ≠ [] ∧ m.px.isSome ∧ m.py.isSome ∧ (tf.getYaw m.ori).isSome ∧
      ∀ a b, (∃ k, k < 50 ∧ (tries a b k).isSome) ∧
        ∀ k t, tries a b k = some t → (tf.getYaw t.rot).isSome
  | _ => True

/-- What C70 asks of a sequence of events: interpretable initial poses, timer readings at least `L`
seconds apart, and measurements no older than 2147483647 times `L`. -/
structure WellFormed (tf : Tf2) (L : ℝ) (es : List Event) : Prop where
  init : ∀ e ∈ es, e.Interpretable tf
  gaps : (es.filterMap Event.clock).Pairwise fun a b : ℤ => (a : ℝ) / 1000000000 + L ≤ (b : ℝ) / 1000000000
  poses : ∀ e ∈ es, ∀ t1 t2 t3 t4 t5 sp st, e = .timer t1 t2 t3 t4 t5 sp st →
    ∀ stamp ∈ es.filterMap Event.poseStamp, ((t2 - stamp : ℤ) : ℝ) / 1000000000 < 2147483647 * L
  twists : ∀ e ∈ es, ∀ t1 t2 t3 t4 t5 sp st, e = .timer t1 t2 t3 t4 t5 sp st →
    ∀ stamp ∈ es.filterMap Event.twistStamp, ((t3 - stamp : ℤ) : ℝ) / 1000000000 < 2147483647 * L

/-- The stamps a tick gives to its transform and its odometry message. -/
def Event.publishStamps : Event → Option (ℤ × ℤ)
  | .timer _ _ _ tTf tOdom _ _ => some (tTf, tOdom)
  | _ => none

/-- Kind (transform or not), stamp and frames of an output. -/
def Output.header : Output → Bool × ℤ × List Char × List Char
  | .transform t f c _ => (true, t, f, c)
  | .odometry t f c _ _ _ _ _ => (false, t, f, c)

/-- One transform and one odometry message for every tick, in the pose frame. -/
def announced (frame : List Char) (es : List Event) : List (Bool × ℤ × List Char × List Char) :=
  (es.filterMap Event.publishStamps).flatMap fun t =>
    [(true, t.1, frame, "base_link".toList), (false, t.2, frame, "base_link".toList)]

/-- What is to be published: nothing before the first initial pose, then once per tick. -/
def expected (frame : List Char) (es : List Event) : List (Bool × ℤ × List Char × List Char) :=
  announced frame (es.dropWhile fun e => !e.isInitial)

theorem processMeasurement_ok {N h : ℕ} (hN : 0 < N) (sing : Bool)
    (stateOf : (Fin 6 → ℝ) → (Fin h → ℝ))
    (covOf : Matrix (Fin 6) (Fin 6) ℝ → Matrix (Fin h) (Fin h) ℝ) (C : Matrix (Fin h) (Fin 6) ℝ)
    (gateDist : ℝ) (now : ℤ) (dt L : ℝ) (stamp : ℤ) (y : Fin h → Option ℝ)
    (R : Matrix (Fin h) (Fin h) ℝ) (f : TimeDelayKalmanFilter ℝ N 6) (hL : 0 < L) (hdt : L ≤ dt)
    (hd : ((now - stamp : ℤ) : ℝ) / 1000000000 < 2147483647 * L) :
    ∃ f', processMeasurement hN sing stateOf covOf C gateDist now dt stamp y R f = .ok f' := by
  have hdt0 : 0 < dt := lt_of_lt_of_le hL hdt
  obtain ⟨s, h1, -⟩ := C31_delay_step (computeDelayTime now stamp : ℝ) dt hdt0 (by
    rw [div_lt_iff₀ hdt0]
    have : (computeDelayTime now stamp : ℝ) = ((now - stamp : ℤ) : ℝ) / 1000000000 := rfl
    rw [this]
    calc ((now - stamp : ℤ) : ℝ) / 1000000000 < 2147483647 * L := hd
      _ ≤ 2147483647 * dt := by linarith)
  rcases C36_outcome hN sing stateOf covOf C gateDist now dt stamp y R f hdt0 s h1 with
    h | ⟨_, _, f', _, _, _, _, _, _, h⟩
  · exact ⟨f, h⟩
  · exact ⟨f', h⟩

/-- C70: on well-formed input the node never fails; it publishes nothing before the first initial
pose and then exactly one transform and one odometry message at every tick, in this order, with that
tick's stamps and frames. -/
theorem C70_no_failure {N : ℕ} (hN : 0 < N) (tf : Tf2) (p : EkfParams) (L : ℝ) (hL : 0 < L)
    (hL10 : L ≤ 10) (hLf : L ≤ 1 / max p.defaultFrequency (1 / 10)) (hframe : p.poseFrame ≠ [])
    (es : List Event) (hes : WellFormed tf L es) :
    ∃ s out, run hN tf p (NodeState.make N p) es = .ok (s, out) ∧
      out.map Output.header = expected p.poseFrame es := by
  have key : ∀ (es : List Event) (s : NodeState N), s.poseQ.Wf → s.twistQ.Wf →
      s.interval.defaultFrequency = p.defaultFrequency →
      (∀ last, s.interval.lastTime = some last → ∀ t ∈ es.filterMap Event.clock,
        last + L ≤ (t : ℝ) / 1000000000) →
      (∀ e ∈ es, e.Interpretable tf) →
      ((es.filterMap Event.clock).Pairwise fun a b : ℤ =>
        (a : ℝ) / 1000000000 + L ≤ (b : ℝ) / 1000000000) →
      (∀ e ∈ es, ∀ t1 t2 t3 t4 t5 sp st, e = .timer t1 t2 t3 t4 t5 sp st →
        (∀ m ∈ s.poseQ.msgs, ((t2 - m.stamp : ℤ) : ℝ) / 1000000000 < 2147483647 * L) ∧
        (∀ m ∈ s.twistQ.msgs, ((t3 - m.stamp : ℤ) : ℝ) / 1000000000 < 2147483647 * L) ∧
        (∀ stamp ∈ es.filterMap Event.poseStamp,
          ((t2 - stamp : ℤ) : ℝ) / 1000000000 < 2147483647 * L) ∧
        ∀ stamp ∈ es.filterMap Event.twistStamp,
          ((t3 - stamp : ℤ) : ℝ) / 1000000000 < 2147483647 * L) →
      ∃ s' out, run hN tf p s es = .ok (s', out) ∧
        out.map Output.header = (if s.ekf.isSome then announced p.poseFrame es
          else expected p.poseFrame es) := by
    intro es
    induction es with
    | nil =>
      intro s _ _ _ _ _ _ _
      refine ⟨s, [], rfl, ?_⟩
      split_ifs <;> rfl
    | cons e es ih =>
      intro s hq1 hq2 hfreq hlast hint hgaps hdel
      have hint' : ∀ e' ∈ es, e'.Interpretable tf := fun e' he' => hint e' (List.mem_cons_of_mem _ he')
      cases e with
      | initialPose m tries =>
        obtain ⟨i1, i2, i3, i4, i5⟩ := hint _ List.mem_cons_self
        obtain ⟨a, ha, -⟩ := C42_names_partial _ hframe
        obtain ⟨b, hb, -⟩ := C42_names_partial _ i1
        obtain ⟨px, hpx⟩ := Option.isSome_iff_exists.1 i2
        obtain ⟨py, hpy⟩ := Option.isSome_iff_exists.1 i3
        obtain ⟨y0, hy0⟩ := Option.isSome_iff_exists.1 i4
        cases hl : lookupTransform (tries a b) with
        | none =>
          obtain ⟨⟨k, hk, hks⟩, -⟩ := i5 a b
          rw [(C68_lookup _).2.1 hl k hk] at hks
          cases hks
        | some t =>
          obtain ⟨k, -, hk, -⟩ := ((C68_lookup (tries a b)).1 t).1 hl
          obtain ⟨y1, hy1⟩ := Option.isSome_iff_exists.1 ((i5 a b).2 k t hk)
          have hstep := initialPose_ok hN tf p s m tries a b ha hb t hl px py y0 y1 hpx hpy hy0 hy1
          obtain ⟨s', out, h1, h2⟩ := ih (resetState tf s m (px + t.tx) (py + t.ty) (y0 + y1))
            rfl rfl hfreq hlast hint' hgaps (by
              intro e' he' t1 t2 t3 t4 t5 sp st hee
              obtain ⟨-, -, d3, d4⟩ := hdel e' (List.mem_cons_of_mem _ he') t1 t2 t3 t4 t5 sp st hee
              exact ⟨fun m hm => (by cases hm), fun m hm => (by cases hm), d3, d4⟩)
          refine ⟨s', out, ?_, ?_⟩
          · simp only [run, hstep, bind, Except.bind, h1, pure, Except.pure, List.nil_append]
          · rw [h2]
            have e1 : (resetState tf s m (px + t.tx) (py + t.ty) (y0 + y1)).ekf.isSome = true := rfl
            rw [if_pos e1]
            split_ifs
            · rfl
            · rfl
      | pose m =>
        obtain ⟨s', out, h1, h2⟩ := ih (updateSimple1DFilters tf { s with poseQ := s.poseQ.push m } m)
          (by simpa [updateSimple1DFilters, AgedQueue.Wf, AgedQueue.push] using hq1) hq2 hfreq hlast
          hint' hgaps (by
            intro e' he' t1 t2 t3 t4 t5 sp st hee
            obtain ⟨d1, d2, d3, d4⟩ := hdel e' (List.mem_cons_of_mem _ he') t1 t2 t3 t4 t5 sp st hee
            refine ⟨fun m' hm' => ?_, d2, fun st' hst' => d3 st' ?_, d4⟩
            · simp only [updateSimple1DFilters, AgedQueue.push, List.mem_append,
                List.mem_singleton] at hm'
              rcases hm' with hm' | rfl
              · exact d1 m' hm'
              · exact d3 _ (by simp [Event.poseStamp])
            · rw [List.filterMap_cons]
              exact List.mem_cons_of_mem _ hst')
        refine ⟨s', out, ?_, ?_⟩
        · simp only [run, step, bind, Except.bind, h1, pure, Except.pure, List.nil_append]
        · rw [h2]
          rfl
      | twist m =>
        obtain ⟨s', out, h1, h2⟩ := ih { s with twistQ := s.twistQ.push m } hq1
          (by simpa [AgedQueue.Wf, AgedQueue.push] using hq2) hfreq hlast
          hint' hgaps (by
            intro e' he' t1 t2 t3 t4 t5 sp st hee
            obtain ⟨d1, d2, d3, d4⟩ := hdel e' (List.mem_cons_of_mem _ he') t1 t2 t3 t4 t5 sp st hee
            refine ⟨d1, fun m' hm' => ?_, d3, fun st' hst' => d4 st' ?_⟩
            · simp only [AgedQueue.push, List.mem_append, List.mem_singleton] at hm'
              rcases hm' with hm' | rfl
              · exact d2 m' hm'
              · exact d4 _ (by simp [Event.twistStamp])
            · rw [List.filterMap_cons]
              exact List.mem_cons_of_mem _ hst')
        refine ⟨s', out, ?_, ?_⟩
        · simp only [run, step, bind, Except.bind, h1, pure, Except.pure, List.nil_append]
        · rw [h2]
          rfl
      | timer t1 t2 t3 t4 t5 sp st =>
        have hg : (∀ b ∈ es.filterMap Event.clock, (t1 : ℝ) / 1000000000 + L ≤ (b : ℝ) / 1000000000) ∧
            (es.filterMap Event.clock).Pairwise fun a b : ℤ =>
              (a : ℝ) / 1000000000 + L ≤ (b : ℝ) / 1000000000 := by
          rw [List.filterMap_cons] at hgaps
          exact List.pairwise_cons.1 hgaps
        have hdel' : ∀ e' ∈ es, ∀ t1 t2 t3 t4 t5 sp st, e' = .timer t1 t2 t3 t4 t5 sp st →
            (∀ m ∈ s.poseQ.msgs, ((t2 - m.stamp : ℤ) : ℝ) / 1000000000 < 2147483647 * L) ∧
            (∀ m ∈ s.twistQ.msgs, ((t3 - m.stamp : ℤ) : ℝ) / 1000000000 < 2147483647 * L) ∧
            (∀ stamp ∈ es.filterMap Event.poseStamp,
              ((t2 - stamp : ℤ) : ℝ) / 1000000000 < 2147483647 * L) ∧
            ∀ stamp ∈ es.filterMap Event.twistStamp,
              ((t3 - stamp : ℤ) : ℝ) / 1000000000 < 2147483647 * L :=
          fun e' he' => hdel e' (List.mem_cons_of_mem _ he')
        cases hekf : s.ekf with
        | none =>
          have hstep : step hN tf p s (.timer t1 t2 t3 t4 t5 sp st) = .ok (s, []) := by
            simp only [step, timerCallback, hekf]
          obtain ⟨s', out, h1, h2⟩ := ih s hq1 hq2 hfreq (by
            intro last hl t ht
            exact hlast last hl t (by rw [List.filterMap_cons]; exact List.mem_cons_of_mem _ ht))
            hint' hg.2 hdel'
          refine ⟨s', out, ?_, ?_⟩
          · simp only [run, hstep, bind, Except.bind, h1, pure, Except.pure, List.nil_append]
          · rw [h2, hekf]
            rfl
        | some f =>
          -- the interval
          have hdt : ∃ dt, s.interval.compute ((t1 : ℝ) / 1000000000) =
              (.ok dt, ⟨p.defaultFrequency, some ((t1 : ℝ) / 1000000000)⟩) ∧ L ≤ dt := by
            cases hlt : s.interval.lastTime with
            | none =>
              refine ⟨computeInterval (p.defaultFrequency : WithTop ℝ), ?_, hLf⟩
              simp only [UpdateInterval.compute, hlt, hfreq]
            | some last =>
              have h0 := hlast last hlt t1 (by simp [Event.clock])
              refine ⟨min ((t1 : ℝ) / 1000000000 - last) 10, ?_, le_min (by linarith) hL10⟩
              simp only [UpdateInterval.compute, hlt, if_neg (not_lt.2 (by linarith : last ≤ (t1 : ℝ) / 1000000000)), hfreq]
              rw [computeInterval_recip _ (by linarith)]
          obtain ⟨dt, hc, hLdt⟩ := hdt
          obtain ⟨d1, d2, -, -⟩ := hdel _ List.mem_cons_self t1 t2 t3 t4 t5 sp st rfl
          obtain ⟨f1, q1, u1, -, u2, u3⟩ := updateLoop_ok
            (processPose hN tf sp p.poseGate p.poseSmoothing t2 dt) (fun _ => True)
            s.poseQ.size 0 s.poseQ (predictStep hN p dt f) hq1 trivial (by
              intro m hm g _
              obtain ⟨g', hg'⟩ := processMeasurement_ok hN (sp m) getPoseState poseCovariance
                poseMeasurementMatrix p.poseGate t2 dt L m.stamp (poseMeasurementVector tf m)
                (poseMeasurementCovariance m.cov (toSizeT p.poseSmoothing)) g hL hLdt (d1 m hm)
              exact ⟨g', hg', trivial⟩)
          obtain ⟨f2, q2, v1, -, v2, v3⟩ := updateLoop_ok
            (processTwist hN st p.twistGate p.twistSmoothing t3 dt) (fun _ => True)
            s.twistQ.size 0 s.twistQ f1 hq2 trivial (by
              intro m hm g _
              obtain ⟨g', hg'⟩ := processMeasurement_ok hN (st m) getTwistState twistCovariance
                twistMeasurementMatrix p.twistGate t3 dt L m.stamp (twistMeasurementVector m)
                (twistMeasurementCovariance m.cov (toSizeT p.twistSmoothing)) g hL hLdt (d2 m hm)
              exact ⟨g', hg', trivial⟩)
          have hstep : step hN tf p s (.timer t1 t2 t3 t4 t5 sp st) =
              .ok ({ s with ekf := some f2, interval := ⟨p.defaultFrequency, some ((t1 : ℝ) / 1000000000)⟩, poseQ := q1, twistQ := q2 },
                publish hN p s f2 t4 t5) := by
            simp only [step, timerCallback, hekf, hc, bind, Except.bind, updateAll, u1, v1, pure,
              Except.pure]
          obtain ⟨s', out, h1, h2⟩ := ih
            { s with ekf := some f2, interval := ⟨p.defaultFrequency, some ((t1 : ℝ) / 1000000000)⟩, poseQ := q1, twistQ := q2 }
            u2 v2 rfl (by
              intro last hl t ht
              rw [← Option.some.inj hl]
              exact hg.1 t ht) hint' hg.2 (by
              intro e' he' a1 a2 a3 a4 a5 b1 b2 hee
              obtain ⟨c1, c2, c3, c4⟩ := hdel' e' he' a1 a2 a3 a4 a5 b1 b2 hee
              exact ⟨fun m hm => c1 m (u3 m hm), fun m hm => c2 m (v3 m hm), c3, c4⟩)
          refine ⟨s', publish hN p s f2 t4 t5 ++ out, ?_, ?_⟩
          · simp only [run, hstep, bind, Except.bind, h1, pure, Except.pure]
          · rw [List.map_append, h2]
            simp only [Option.isSome_some, if_true]
            rfl
  obtain ⟨s', out, h1, h2⟩ := key es (NodeState.make N p) rfl rfl rfl
    (fun last hl => by cases hl) hes.init hes.gaps (by
      intro e he t1 t2 t3 t4 t5 sp st hee
      exact ⟨fun m hm => (by cases hm), fun m hm => (by cases hm),
        hes.poses e he t1 t2 t3 t4 t5 sp st hee, hes.twists e he t1 t2 t3 t4 t5 sp st hee⟩)
  exact ⟨s', out, h1, h2⟩

/-! Non-vacuity. -/

/-- An initial pose, a pose message, and two ticks 20 ms apart are well-formed with the default
parameters, and publish four messages. -/
example : WellFormed flatTf (1 / 50)
      [.initialPose (poseAt 10 0) identityTries, .pose (poseAt 9 0),
        .timer 0 0 0 0 0 (fun _ => true) (fun _ => true),
        .timer 20000000 20000000 20000000 20000000 20000000 (fun _ => true) (fun _ => true)] ∧
    (expected "map".toList
      [.initialPose (poseAt 10 0) identityTries, .pose (poseAt 9 0),
        .timer 0 0 0 0 0 (fun _ => true) (fun _ => true),
        .timer 20000000 20000000 20000000 20000000 20000000 (fun _ => true) (fun _ => true)]).length = 4 := by
  refine ⟨⟨?_, ?_, ?_, ?_⟩, rfl⟩
  · intro e he
    simp only [List.mem_cons, List.not_mem_nil, or_false] at he
    rcases he with rfl | rfl | rfl | rfl
    · exact ⟨by simp [poseAt], rfl, rfl, rfl, fun a b => ⟨⟨0, by norm_num, rfl⟩, fun k t _ => rfl⟩⟩
    all_goals trivial
  · change List.Pairwise _ [0, 20000000]
    simp
    norm_num
  · intro e he t1 t2 t3 t4 t5 sp st hee stamp hst
    simp only [List.mem_cons, List.not_mem_nil, or_false] at he
    have : 0 = stamp := by simpa [Event.poseStamp, poseAt] using hst
    subst this
    rcases he with rfl | rfl | rfl | rfl <;> cases hee <;> norm_num
  · intro e he t1 t2 t3 t4 t5 sp st hee stamp hst
    simp [Event.twistStamp] at hst

example : CovPsd fun i => if i.val % 7 = 0 then 1 else 0 := by
  have : (Matrix.of fun i j => entry (fun i => if i.val % 7 = 0 then (1 : ℝ) else 0) i j) = 1 := by
    ext i j
    fin_cases i <;> fin_cases j <;> simp [entry]
  unfold CovPsd
  rw [this]
  exact Matrix.PosSemidef.one

end Verif.Ekf
