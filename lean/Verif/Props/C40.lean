/-
C40: nothing before initialisation, re-initialisation; C41: missing transforms; C42: frame names;
C65: initial poses in other frames; C68: lookups are retried.
-/
import Verif.Model.EkfNode
import Verif.Props.C39
import Mathlib.Data.List.Infix
import Mathlib.Tactic.NormNum
import Mathlib.Tactic.FinCases

set_option autoImplicit false

namespace Verif.Ekf

open Matrix Verif.Kalman

/-! ### C42 -/

/-- C42, violation: the empty frame name is undefined behaviour. -/
theorem C42_empty_violated : eraseBeginSlash [] = .error .undefinedBehaviour := rfl

/-- C42 for non-empty names: one leading slash is removed, other names are unchanged. Missing: the
empty name (`C42_empty_violated`). -/
theorem C42_names_partial (s : List Char) (hs : s ≠ []) :
    ∃ r, eraseBeginSlash s = .ok r ∧ (s = '/' :: r ∨ (s = r ∧ ¬ ['/'] <+: s)) := by
  cases s with
  | nil => exact absurd rfl hs
  | cons c cs =>
    by_cases hc : c = '/'
    · subst hc
      exact ⟨cs, by simp [eraseBeginSlash], Or.inl rfl⟩
    · refine ⟨c :: cs, by simp [eraseBeginSlash, hc], Or.inr ⟨rfl, ?_⟩⟩
      rw [List.cons_prefix_cons]
      rintro ⟨h, -⟩
      exact hc h.symm

example : eraseBeginSlash "/map".toList = .ok "map".toList ∧
    eraseBeginSlash "map".toList = .ok "map".toList ∧
    eraseBeginSlash "//a".toList = .ok "/a".toList := by decide

/-! ### C68 -/

theorem lookupLoop_some {T : Type} (tries : ℕ → Option T) (t : T) :
    ∀ fuel i, lookupLoop tries fuel i = some t ↔
      ∃ k, i ≤ k ∧ k < i + fuel ∧ tries k = some t ∧ ∀ j, i ≤ j → j < k → tries j = none := by
  intro fuel
  induction fuel with
  | zero => intro i; simp only [lookupLoop]; constructor
            · rintro ⟨⟩
            · rintro ⟨k, h1, h2, -⟩; omega
  | succ fuel ih =>
    intro i
    rw [lookupLoop]
    cases h : tries i with
    | some t' =>
      simp only [Option.some.injEq]
      constructor
      · rintro rfl
        exact ⟨i, le_rfl, by omega, h, fun j h1 h2 => by omega⟩
      · rintro ⟨k, h1, -, h3, h4⟩
        rcases Nat.eq_or_lt_of_le h1 with rfl | hlt
        · rw [h] at h3; exact Option.some.inj h3
        · rw [h4 i le_rfl hlt] at h; cases h
    | none =>
      simp only
      rw [ih]
      constructor
      · rintro ⟨k, h1, h2, h3, h4⟩
        refine ⟨k, by omega, by omega, h3, fun j h5 h6 => ?_⟩
        rcases Nat.eq_or_lt_of_le h5 with rfl | hlt
        · exact h
        · exact h4 j hlt h6
      · rintro ⟨k, h1, h2, h3, h4⟩
        have : i ≠ k := by rintro rfl; rw [h] at h3; cases h3
        exact ⟨k, by omega, by omega, h3, fun j h5 h6 => h4 j (by omega) h6⟩

/-- C68: the result is the first success among the first 50 tries, and nothing exactly if all of
them fail. -/
theorem C68_lookup {T : Type} (tries : ℕ → Option T) :
    (∀ t, lookupTransform tries = some t ↔
      ∃ k, k < 50 ∧ tries k = some t ∧ ∀ j, j < k → tries j = none) ∧
    (lookupTransform tries = none ↔ ∀ k, k < 50 → tries k = none) := by
  have h1 : ∀ t, lookupTransform tries = some t ↔
      ∃ k, k < 50 ∧ tries k = some t ∧ ∀ j, j < k → tries j = none := by
    intro t
    rw [lookupTransform, lookupLoop_some]
    constructor
    · rintro ⟨k, -, h2, h3, h4⟩
      exact ⟨k, by omega, h3, fun j hj => h4 j (Nat.zero_le _) hj⟩
    · rintro ⟨k, h2, h3, h4⟩
      exact ⟨k, Nat.zero_le _, by omega, h3, fun j _ hj => h4 j hj⟩
  refine ⟨h1, ?_⟩
  constructor
  · intro hn
    intro k
    induction k using Nat.strong_induction_on with
    | _ k ih =>
      intro hk
      by_contra hne
      obtain ⟨t, ht⟩ := Option.ne_none_iff_exists'.1 hne
      have := (h1 t).2 ⟨k, hk, ht, fun j hj => ih j hj (by omega)⟩
      rw [hn] at this
      cases this
  · intro hall
    cases h : lookupTransform tries with
    | none => rfl
    | some t =>
      obtain ⟨k, hk, ht, -⟩ := (h1 t).1 h
      rw [hall k hk] at ht
      cases ht

example : lookupTransform (fun i => if i < 49 then none else some i) = some 49 ∧
    lookupTransform (fun i => if i < 50 then none else some i) = none := by decide

/-- The node after an accepted initial pose. -/
noncomputable def resetState {N : ℕ} (tf : Tf2) (s : NodeState N) (m : PoseMsg) (x y yaw : ℝ) :
    NodeState N :=
  { updateSimple1DFilters tf { s with ekf := some (TimeDelayKalmanFilter.make (initState x y yaw)
      (initCovariance m.cov) N) } m with poseQ := s.poseQ.clear, twistQ := s.twistQ.clear }

theorem initialPose_ok {N : ℕ} (hN : 0 < N) (tf : Tf2) (p : EkfParams) (s : NodeState N)
    (m : PoseMsg) (tries : List Char → List Char → ℕ → Option Transform) (a b : List Char)
    (ha : eraseBeginSlash p.poseFrame = .ok a) (hb : eraseBeginSlash m.frame = .ok b) (t : Transform)
    (hl : lookupTransform (tries a b) = some t) (px py yaw0 yaw1 : ℝ) (hx : m.px = some px)
    (hy : m.py = some py) (hq : tf.getYaw m.ori = some yaw0) (hq1 : tf.getYaw t.rot = some yaw1) :
    step hN tf p s (.initialPose m tries) =
      .ok (resetState tf s m (px + t.tx) (py + t.ty) (yaw0 + yaw1), []) := by
  simp only [step, initialPoseCallback, ha, hb, bind, Except.bind, hl, hx, hy, hq, hq1]
  rfl

section Node
variable {N : ℕ} (hN : 0 < N) (tf : Tf2) (p : EkfParams)

/-! ### C41 -/

/-- C41, violation: for every state and every message with non-empty frame names, if all lookups
fail the callback dereferences the missing transform. -/
theorem C41_missing_transform_violated (s : NodeState N) (m : PoseMsg)
    (tries : List Char → List Char → ℕ → Option Transform) (h1 : p.poseFrame ≠ [])
    (h2 : m.frame ≠ []) (hfail : ∀ a b i, tries a b i = none) :
    step hN tf p s (.initialPose m tries) = .error .undefinedBehaviour := by
  obtain ⟨a, ha, -⟩ := C42_names_partial _ h1
  obtain ⟨b, hb, -⟩ := C42_names_partial _ h2
  have hl : lookupTransform (tries a b) = none := (C68_lookup _).2.2 fun k _ => hfail a b k
  simp only [step, initialPoseCallback, ha, hb, bind, Except.bind, hl]

/-- C41, when a lookup succeeds: the message is accepted. Missing: all lookups failing
(`C41_missing_transform_violated`). -/
theorem C41_found_partial (s : NodeState N) (m : PoseMsg)
    (tries : List Char → List Char → ℕ → Option Transform) (h1 : p.poseFrame ≠ [])
    (h2 : m.frame ≠ []) (k : ℕ) (hk : k < 50) (hfound : ∀ a b, (tries a b k).isSome)
    (hx : m.px.isSome) (hy : m.py.isSome) (hyaw : ∀ q, (tf.getYaw q).isSome) :
    ∃ s', step hN tf p s (.initialPose m tries) = .ok (s', []) ∧ s'.ekf.isSome ∧
      s'.poseQ.size = 0 ∧ s'.twistQ.size = 0 := by
  obtain ⟨a, ha, -⟩ := C42_names_partial _ h1
  obtain ⟨b, hb, -⟩ := C42_names_partial _ h2
  obtain ⟨px, hpx⟩ := Option.isSome_iff_exists.1 hx
  obtain ⟨py, hpy⟩ := Option.isSome_iff_exists.1 hy
  cases hl : lookupTransform (tries a b) with
  | none =>
    have := (C68_lookup _).2.1 hl k hk
    have h := hfound a b
    rw [this] at h
    cases h
  | some t =>
    obtain ⟨y0, hy0⟩ := Option.isSome_iff_exists.1 (hyaw m.ori)
    obtain ⟨y1, hy1⟩ := Option.isSome_iff_exists.1 (hyaw t.rot)
    exact ⟨_, initialPose_ok hN tf p s m tries a b ha hb t hl px py y0 y1 hpx hpy hy0 hy1,
      rfl, rfl, rfl⟩

/-! ### C40 -/

/-- An initial pose. -/
def Event.isInitial : Event → Bool
  | .initialPose _ _ => true
  | _ => false

/-- C40: without an initial pose nothing is ever published (and nothing fails). -/
theorem C40_silent (es : List Event) (h : ∀ e ∈ es, e.isInitial = false) :
    ∃ s, run hN tf p (NodeState.make N p) es = .ok (s, []) ∧ s.ekf = none := by
  have : ∀ (es : List Event) (s : NodeState N), (∀ e ∈ es, e.isInitial = false) → s.ekf = none →
      ∃ s', run hN tf p s es = .ok (s', []) ∧ s'.ekf = none := by
    intro es
    induction es with
    | nil => intro s _ hs; exact ⟨s, rfl, hs⟩
    | cons e es ih =>
      intro s hes hs
      have he := hes e List.mem_cons_self
      have : ∃ s', step hN tf p s e = .ok (s', []) ∧ s'.ekf = none := by
        cases e with
        | initialPose m tries => cases he
        | pose m => exact ⟨_, rfl, hs⟩
        | twist m => exact ⟨_, rfl, hs⟩
        | timer t1 t2 t3 t4 t5 sp st =>
          refine ⟨s, ?_, hs⟩
          simp only [step, timerCallback, hs]
      obtain ⟨s', h1, h2⟩ := this
      obtain ⟨s'', h3, h4⟩ := ih s' (fun e' he' => hes e' (List.mem_cons_of_mem _ he')) h2
      exact ⟨s'', by simp only [run, h1, h3, bind, Except.bind, pure, Except.pure, List.append_nil], h4⟩
  exact this es _ h rfl

/-- The part of a node that does not concern height, roll and pitch. -/
def NodeState.core (s : NodeState N) :
    Option (TimeDelayKalmanFilter ℝ N 6) × UpdateInterval ℝ × AgedQueue PoseMsg ×
      AgedQueue TwistMsg := (s.ekf, s.interval, s.poseQ, s.twistQ)

/-- An output without height, roll and pitch. -/
def Output.planar : Output → Output
  | .transform t f c e => .transform t f c { e with z := none, roll := none, pitch := none }
  | .odometry t f c e pc vx wz tc =>
    .odometry t f c { e with z := none, roll := none, pitch := none } pc vx wz tc

/-- What can be seen of a run but for height, roll and pitch. -/
def view (r : Res (NodeState N × List Output)) :
    Res ((Option (TimeDelayKalmanFilter ℝ N 6) × UpdateInterval ℝ × AgedQueue PoseMsg ×
      AgedQueue TwistMsg) × List Output) :=
  r.map fun x => (x.1.core, x.2.map Output.planar)

theorem step_core (s1 s2 : NodeState N) (h : s1.core = s2.core) (e : Event) :
    view (step hN tf p s1 e) = view (step hN tf p s2 e) := by
  obtain ⟨f1, i1, a1, b1, z1, r1, q1⟩ := s1
  obtain ⟨f2, i2, a2, b2, z2, r2, q2⟩ := s2
  simp only [NodeState.core, Prod.mk.injEq] at h
  obtain ⟨rfl, rfl, rfl, rfl⟩ := h
  cases e with
  | initialPose m tries =>
    simp only [step, initialPoseCallback, bind, Except.bind]
    cases eraseBeginSlash p.poseFrame with
    | error e => rfl
    | ok a =>
      cases eraseBeginSlash m.frame with
      | error e => rfl
      | ok b =>
        simp only
        cases lookupTransform (tries a b) with
        | none => rfl
        | some t =>
          simp only
          cases m.px <;> cases m.py <;> cases tf.getYaw m.ori <;> cases tf.getYaw t.rot <;> rfl
  | pose m => rfl
  | twist m => rfl
  | timer t1 t2 t3 t4 t5 sp st =>
    simp only [step, timerCallback]
    cases f1 with
    | none => rfl
    | some f =>
      simp only
      cases hc : i1.compute ((t1 : ℝ) / 1000000000) with
      | mk r iv =>
        cases r with
        | error e => cases e <;> rfl
        | ok dt =>
          simp only [bind, Except.bind]
          cases updateAll (processPose hN tf sp p.poseGate p.poseSmoothing t2 dt) a1
              (predictStep hN p dt f) with
          | error e => rfl
          | ok r1 =>
            simp only
            cases updateAll (processTwist hN st p.twistGate p.twistSmoothing t3 dt) b1 r1.1 with
            | error e => rfl
            | ok r2 => rfl

theorem run_core (es : List Event) : ∀ (s1 s2 : NodeState N), s1.core = s2.core →
    view (run hN tf p s1 es) = view (run hN tf p s2 es) := by
  induction es with
  | nil => intro s1 s2 h; simp only [run, view, Except.map, h, List.map_nil]
  | cons e es ih =>
    intro s1 s2 h
    have hs := step_core hN tf p s1 s2 h e
    simp only [run, bind, Except.bind]
    cases h1 : step hN tf p s1 e with
    | error e1 =>
      rw [h1] at hs
      cases h2 : step hN tf p s2 e with
      | error e2 => rw [h2] at hs; simp only [view, Except.map] at hs ⊢; exact hs
      | ok r2 => rw [h2] at hs; simp only [view, Except.map] at hs; cases hs
    | ok r1 =>
      rw [h1] at hs
      cases h2 : step hN tf p s2 e with
      | error e2 => rw [h2] at hs; simp only [view, Except.map] at hs; cases hs
      | ok r2 =>
        rw [h2] at hs
        simp only [view, Except.map, Except.ok.injEq, Prod.mk.injEq] at hs
        have hr := ih r1.1 r2.1 hs.1
        simp only
        cases h3 : run hN tf p r1.1 es with
        | error e3 =>
          rw [h3] at hr
          cases h4 : run hN tf p r2.1 es with
          | error e4 => rw [h4] at hr; simp only [view, Except.map] at hr ⊢; exact hr
          | ok r4 => rw [h4] at hr; simp only [view, Except.map] at hr; cases hr
        | ok r3 =>
          rw [h3] at hr
          cases h4 : run hN tf p r2.1 es with
          | error e4 => rw [h4] at hr; simp only [view, Except.map] at hr; cases hr
          | ok r4 =>
            rw [h4] at hr
            simp only [view, Except.map, Except.ok.injEq, Prod.mk.injEq] at hr
            simp only [view, Except.map, pure, Except.pure, List.map_append, hr.1, hr.2, hs.2]

/-- A timer event or an initial pose: no measurement. -/
def Event.isMeasurement : Event → Bool
  | .pose _ => true
  | .twist _ => true
  | _ => false

/-- What measurements cannot influence. -/
def NodeState.clockPart (s : NodeState N) : Bool × UpdateInterval ℝ × ℤ × ℤ :=
  (s.ekf.isSome, s.interval, s.poseQ.maxAge, s.twistQ.maxAge)

theorem updateLoop_maxAge {α F : Type} (process : α → F → Res F) :
    ∀ (fuel i : ℕ) (q q' : AgedQueue α) (f f' : F), updateLoop process fuel i q f = .ok (f', q') →
      q'.maxAge = q.maxAge := by
  intro fuel
  induction fuel with
  | zero => intro i q q' f f' h; simp only [updateLoop] at h; injection h with h; cases h; rfl
  | succ fuel ih =>
    intro i q q' f f' h
    rw [updateLoop] at h
    split_ifs at h with hi
    · simp only [bind, Except.bind] at h
      cases hp : q.pop with
      | error e => rw [hp] at h; cases h
      | ok r =>
        rw [hp] at h
        simp only at h
        cases hf : process r.1 f with
        | error e => rw [hf] at h; cases h
        | ok f1 =>
          rw [hf] at h
          have hq : r.2.maxAge = q.maxAge := by
            unfold AgedQueue.pop at hp
            split at hp
            · simp only at hp
              split_ifs at hp <;> (injection hp with hp; rw [← hp])
            · cases hp
          rw [ih _ _ _ _ _ h, hq]
    · injection h with h; cases h; rfl

theorem step_clock (s1 s2 : NodeState N) (h : s1.clockPart = s2.clockPart) (e : Event)
    (r1 r2 : NodeState N × List Output) (h1 : step hN tf p s1 e = .ok r1)
    (h2 : step hN tf p s2 e = .ok r2) : r1.1.clockPart = r2.1.clockPart := by
  have key : ∀ (s : NodeState N) (r : NodeState N × List Output), step hN tf p s e = .ok r →
      r.1.clockPart = match e with
        | .initialPose _ _ => (true, s.interval, s.poseQ.maxAge, s.twistQ.maxAge)
        | .pose _ => s.clockPart
        | .twist _ => s.clockPart
        | .timer t _ _ _ _ _ _ =>
          (s.ekf.isSome, if s.ekf.isSome then (s.interval.compute ((t : ℝ) / 1000000000)).2
            else s.interval, s.poseQ.maxAge, s.twistQ.maxAge) := by
    intro s r hr
    cases e with
    | initialPose m tries =>
      simp only [step, initialPoseCallback, bind, Except.bind] at hr
      cases ha : eraseBeginSlash p.poseFrame with
      | error e => rw [ha] at hr; cases hr
      | ok a =>
        rw [ha] at hr
        cases hb : eraseBeginSlash m.frame with
        | error e => rw [hb] at hr; cases hr
        | ok b =>
          rw [hb] at hr
          simp only at hr
          cases hl : lookupTransform (tries a b) with
          | none => rw [hl] at hr; cases hr
          | some t =>
            rw [hl] at hr
            simp only at hr
            cases hx : m.px <;> cases hy : m.py <;> cases hq : tf.getYaw m.ori <;>
              cases ht : tf.getYaw t.rot <;> rw [hx, hy, hq, ht] at hr <;>
              first
                | (cases hr; done)
                | (injection hr with hr; rw [← hr]; rfl)
    | pose m => injection hr with hr; rw [← hr]; rfl
    | twist m => injection hr with hr; rw [← hr]; rfl
    | timer t1 t2 t3 t4 t5 sp st =>
      simp only [step, timerCallback] at hr
      cases hf : s.ekf with
      | none =>
        rw [hf] at hr
        injection hr with hr
        rw [← hr]
        simp [NodeState.clockPart, hf]
      | some f =>
        rw [hf] at hr
        simp only at hr
        cases hc : s.interval.compute ((t1 : ℝ) / 1000000000) with
        | mk r iv =>
          rw [hc] at hr
          cases r with
          | error e =>
            cases e <;> first
              | (cases hr; done)
              | (injection hr with hr; rw [← hr]; simp [NodeState.clockPart, hf, hc])
          | ok dt =>
            simp only [bind, Except.bind] at hr
            cases hu : updateAll (processPose hN tf sp p.poseGate p.poseSmoothing t2 dt) s.poseQ
                (predictStep hN p dt f) with
            | error e => rw [hu] at hr; cases hr
            | ok u =>
              rw [hu] at hr
              simp only at hr
              cases hv : updateAll (processTwist hN st p.twistGate p.twistSmoothing t3 dt) s.twistQ
                  u.1 with
              | error e => rw [hv] at hr; cases hr
              | ok v =>
                rw [hv] at hr
                injection hr with hr
                rw [← hr]
                have e1 := updateLoop_maxAge _ _ _ _ _ _ _ hu
                have e2 := updateLoop_maxAge _ _ _ _ _ _ _ hv
                simp [NodeState.clockPart, hf, e1, e2, hc]
  rw [key s1 r1 h1, key s2 r2 h2]
  simp only [NodeState.clockPart, Prod.mk.injEq] at h
  obtain ⟨ha, hb, hc, hd⟩ := h
  cases e <;> simp only [NodeState.clockPart, ha, hb, hc, hd]

theorem run_clock (es : List Event) : ∀ (s1 s2 : NodeState N) (r1 r2 : NodeState N × List Output),
    s1.clockPart = s2.clockPart → run hN tf p s1 es = .ok r1 →
    run hN tf p s2 (es.filter fun e => !e.isMeasurement) = .ok r2 →
    r1.1.clockPart = r2.1.clockPart := by
  induction es with
  | nil =>
    intro s1 s2 r1 r2 h h1 h2
    simp only [run, List.filter_nil] at h1 h2
    injection h1 with h1
    injection h2 with h2
    rw [← h1, ← h2]
    exact h
  | cons e es ih =>
    intro s1 s2 r1 r2 h h1 h2
    simp only [run, bind, Except.bind] at h1
    cases hs1 : step hN tf p s1 e with
    | error e1 => rw [hs1] at h1; cases h1
    | ok a1 =>
      rw [hs1] at h1
      simp only at h1
      cases hr1 : run hN tf p a1.1 es with
      | error e1 => rw [hr1] at h1; cases h1
      | ok b1 =>
        rw [hr1] at h1
        injection h1 with h1
        rw [← h1]
        by_cases hm : e.isMeasurement = true
        · rw [List.filter_cons_of_neg (by simp [hm])] at h2
          have hc : a1.1.clockPart = s1.clockPart := by
            cases e with
            | pose m => injection hs1 with hs1; rw [← hs1]; rfl
            | twist m => injection hs1 with hs1; rw [← hs1]; rfl
            | initialPose m tries => cases hm
            | timer => cases hm
          exact ih a1.1 s2 b1 r2 (hc.trans h) hr1 h2
        · rw [List.filter_cons_of_pos (by simp [hm])] at h2
          simp only [run, bind, Except.bind] at h2
          cases hs2 : step hN tf p s2 e with
          | error e2 => rw [hs2] at h2; cases h2
          | ok a2 =>
            rw [hs2] at h2
            simp only at h2
            cases hr2 : run hN tf p a2.1 (es.filter fun e => !e.isMeasurement) with
            | error e2 => rw [hr2] at h2; cases h2
            | ok b2 =>
              rw [hr2] at h2
              injection h2 with h2
              rw [← h2]
              exact ih a1.1 a2.1 b1 b2 (step_clock hN tf p s1 s2 h e a1 a2 hs1 hs2) hr1 hr2

/-- An initial pose overwrites filter and queues. -/
theorem step_initial_core (s1 s2 : NodeState N) (hi : s1.interval = s2.interval)
    (ha : s1.poseQ.maxAge = s2.poseQ.maxAge) (hb : s1.twistQ.maxAge = s2.twistQ.maxAge)
    (m : PoseMsg) (tries : List Char → List Char → ℕ → Option Transform) :
    view (step hN tf p s1 (.initialPose m tries)) = view (step hN tf p s2 (.initialPose m tries)) := by
  simp only [step, initialPoseCallback, bind, Except.bind]
  cases eraseBeginSlash p.poseFrame with
  | error e => rfl
  | ok a =>
    cases eraseBeginSlash m.frame with
    | error e => rfl
    | ok b =>
      simp only
      cases lookupTransform (tries a b) with
      | none => rfl
      | some t =>
        simp only
        cases m.px <;> cases m.py <;> cases tf.getYaw m.ori <;> cases tf.getYaw t.rot <;>
          first
            | rfl
            | (simp only [view, Except.map, pure, Except.pure, NodeState.core, updateSimple1DFilters,
                AgedQueue.clear, hi, ha, hb])

theorem view_bind_congr (x1 x2 : Res (NodeState N × List Output)) (es : List Event)
    (h : view x1 = view x2) :
    view (x1.bind fun r => (run hN tf p r.1 es).bind fun q => .ok (q.1, r.2 ++ q.2)) =
    view (x2.bind fun r => (run hN tf p r.1 es).bind fun q => .ok (q.1, r.2 ++ q.2)) := by
  cases x1 with
  | error e1 =>
    cases x2 with
    | error e2 => simpa [view, Except.map, Except.bind] using h
    | ok r2 => simp [view, Except.map] at h
  | ok r1 =>
    cases x2 with
    | error e2 => simp [view, Except.map] at h
    | ok r2 =>
      simp only [view, Except.map, Except.ok.injEq, Prod.mk.injEq] at h
      have hr := run_core hN tf p es r1.1 r2.1 h.1
      simp only [Except.bind]
      cases h3 : run hN tf p r1.1 es with
      | error e3 =>
        rw [h3] at hr
        cases h4 : run hN tf p r2.1 es with
        | error e4 => rw [h4] at hr; simp only [view, Except.map] at hr ⊢; exact hr
        | ok r4 => rw [h4] at hr; simp only [view, Except.map] at hr; cases hr
      | ok r3 =>
        rw [h3] at hr
        cases h4 : run hN tf p r2.1 es with
        | error e4 => rw [h4] at hr; simp only [view, Except.map] at hr; cases hr
        | ok r4 =>
          rw [h4] at hr
          simp only [view, Except.map, Except.ok.injEq, Prod.mk.injEq] at hr
          simp only [view, Except.map, List.map_append, hr.1, hr.2, h.2]

/-- C40, re-initialisation: take any history `es` and the same history without its pose and twist
messages. After an initial pose, everything published later (and filter, queues and failures) is the
same in both, but for height, roll and pitch. Missing: height, roll and pitch, which are not reset
(`C40_height_kept_violated`). -/
theorem C40_forgets_partial (es later : List Event) (m : PoseMsg)
    (tries : List Char → List Char → ℕ → Option Transform) (r1 r2 : NodeState N × List Output)
    (h1 : run hN tf p (NodeState.make N p) es = .ok r1)
    (h2 : run hN tf p (NodeState.make N p) (es.filter fun e => !e.isMeasurement) = .ok r2) :
    view (run hN tf p r1.1 (.initialPose m tries :: later)) =
    view (run hN tf p r2.1 (.initialPose m tries :: later)) := by
  have hc := run_clock hN tf p es _ _ r1 r2 rfl h1 h2
  simp only [NodeState.clockPart, Prod.mk.injEq] at hc
  exact view_bind_congr hN tf p _ _ later
    (step_initial_core hN tf p r1.1 r2.1 hc.2.1 hc.2.2.1 hc.2.2.2 m tries)

/-- C40: an accepted initial pose sets the filter to that pose and empties both queues. -/
theorem C40_reset (s s' : NodeState N) (m : PoseMsg) (out : List Output)
    (tries : List Char → List Char → ℕ → Option Transform)
    (h : step hN tf p s (.initialPose m tries) = .ok (s', out)) :
    out = [] ∧ s'.poseQ.size = 0 ∧ s'.twistQ.size = 0 ∧
    ∃ f t px py yaw0 yaw1, s'.ekf = some f ∧ m.px = some px ∧ m.py = some py ∧
      tf.getYaw m.ori = some yaw0 ∧ tf.getYaw t.rot = some yaw1 ∧
      (∃ a b k, tries a b k = some t) ∧
      (∀ δ : Fin N, f.getX (δ.val : ℤ) = .ok ![px + t.tx, py + t.ty, yaw0 + yaw1, 0, 0, 0]) ∧
      f.getLatestP hN = Matrix.diagonal ![m.cov 0, m.cov 7, m.cov 35, 1 / 10000, 1 / 100, 1 / 100] := by
  simp only [step, initialPoseCallback, bind, Except.bind] at h
  cases ha : eraseBeginSlash p.poseFrame with
  | error e => rw [ha] at h; cases h
  | ok a =>
    rw [ha] at h
    cases hb : eraseBeginSlash m.frame with
    | error e => rw [hb] at h; cases h
    | ok b =>
      rw [hb] at h
      simp only at h
      cases hl : lookupTransform (tries a b) with
      | none => rw [hl] at h; cases h
      | some t =>
        rw [hl] at h
        simp only at h
        obtain ⟨k, -, hk, -⟩ := ((C68_lookup (tries a b)).1 t).1 hl
        cases hx : m.px with
        | none => rw [hx] at h; cases h
        | some px =>
          cases hy : m.py with
          | none => rw [hx, hy] at h; cases h
          | some py =>
            cases hq : tf.getYaw m.ori with
            | none => rw [hx, hy, hq] at h; cases h
            | some yaw0 =>
              cases ht : tf.getYaw t.rot with
              | none => rw [hx, hy, hq, ht] at h; cases h
              | some yaw1 =>
                rw [hx, hy, hq, ht] at h
                simp only [pure, Except.pure, Except.ok.injEq, Prod.mk.injEq] at h
                obtain ⟨rfl, rfl⟩ := h
                refine ⟨rfl, rfl, rfl, _, t, px, py, yaw0, yaw1, rfl, rfl, rfl, rfl, ht,
                  ⟨a, b, k, hk⟩, ?_, ?_⟩
                · intro δ
                  have hδ : (0 : ℤ) ≤ (δ.val : ℤ) ∧ (δ.val : ℤ) < (N : ℤ) := by
                    have := δ.isLt; omega
                  simp only [TimeDelayKalmanFilter.getX, dif_pos hδ]
                  congr 1
                  funext i
                  simp only [TimeDelayKalmanFilter.make, initX]
                  change initState _ _ _ _ = initState _ _ _ i
                  congr 1
                  apply Fin.ext
                  simp [Nat.mod_eq_of_lt i.isLt]
                · ext i j
                  have hi : i.val / 6 = 0 := Nat.div_eq_of_lt i.isLt
                  have hj : j.val / 6 = 0 := Nat.div_eq_of_lt j.isLt
                  simp only [TimeDelayKalmanFilter.getLatestP, TimeDelayKalmanFilter.make, initP,
                    hi, hj, if_true, Nat.mod_eq_of_lt i.isLt, Nat.mod_eq_of_lt j.isLt]
                  rfl

end Node

/-! ### Examples and violations -/

/-- A `tf2` whose angles are all zero, for the witnesses. -/
def flatTf : Tf2 := ⟨fun _ => some 0, fun _ => some 0, fun _ => some 0⟩

/-- The identity transform is always found. -/
def identityTries : List Char → List Char → ℕ → Option Transform :=
  fun _ _ _ => some ⟨0, 0, 0, ⟨1, 0, 0, 0⟩⟩

/-- The parameters of `ekf_localizer.hpp` 143-156. -/
noncomputable def defaultParams : EkfParams :=
  ⟨50, "map".toList, 5, 10000, 10000, 2, 1 / 200, true, 1 / 1000, 5, 1⟩

/-- A pose message at the origin with height `z` and unit variances. -/
def poseAt (z : ℝ) (stamp : ℤ) : PoseMsg :=
  ⟨"map".toList, stamp, some 0, some 0, some z, ⟨1, 0, 0, 0⟩, fun _ => 1⟩

/-- C40, violation: a pose message of height 0 received before the initial pose of height 10 (both
with variance 1) makes the node start at height 5 instead of 10. -/
theorem C40_height_kept_violated :
    ∃ r1 r2 : NodeState 1 × List Output,
      run Nat.one_pos flatTf defaultParams (NodeState.make 1 defaultParams)
        [.pose (poseAt 0 0), .initialPose (poseAt 10 0) identityTries] = .ok r1 ∧
      run Nat.one_pos flatTf defaultParams (NodeState.make 1 defaultParams)
        [.initialPose (poseAt 10 0) identityTries] = .ok r2 ∧
      r1.1.z.getX = some 5 ∧ r2.1.z.getX = some 10 := by
  refine ⟨_, _, rfl, rfl, ?_, ?_⟩
  · change (((Simple1DFilter.make 1).update (some 0) (sqrtOpt 1) 0).update (some 10) (sqrtOpt 1) 0).getX
      = some 5
    have hs : sqrtOpt 1 = some 1 := by
      unfold sqrtOpt; rw [if_neg (by norm_num), Real.sqrt_one]
    rw [hs]
    obtain ⟨x', s', h1, -, -, -, -, -, -, h⟩ := C39_update_partial
      ((Simple1DFilter.make 1).update (some 0) (some 1) 0) rfl 0 1 10 1 0 rfl rfl
      (by simp [predictedVariance, Simple1DFilter.update, Simple1DFilter.init, Simple1DFilter.make])
    have e : predictedVariance ((Simple1DFilter.make 1).update (some 0) (some 1) 0) 1 0 = 1 := by
      simp [predictedVariance, Simple1DFilter.update, Simple1DFilter.init, Simple1DFilter.make]
    rw [e] at h
    have : x' = 5 := by linarith
    rw [this] at h1
    exact h1
  · rfl

/-- Rotation of a vector by a unit quaternion. -/
def rotateXY (q : Quat) (x y z : ℝ) : ℝ × ℝ :=
  ((1 - 2 * (q.y ^ 2 + q.z ^ 2)) * x + 2 * (q.x * q.y - q.w * q.z) * y +
      2 * (q.x * q.z + q.w * q.y) * z,
   2 * (q.x * q.y + q.w * q.z) * x + (1 - 2 * (q.x ^ 2 + q.z ^ 2)) * y +
      2 * (q.y * q.z - q.w * q.x) * z)

/-- C65: where the rigid transform `t` puts the position of `m`. -/
def mappedXY (t : Transform) (px py pz : ℝ) : ℝ × ℝ :=
  ((rotateXY t.rot px py pz).1 + t.tx, (rotateXY t.rot px py pz).2 + t.ty)

/-- C65, for transforms without rotation: the filter starts at the mapped position, and its yaw is
the sum of the yaws. Missing: rotations (`C65_rotation_violated`). -/
theorem C65_translation_partial {N : ℕ} (hN : 0 < N) (tf : Tf2) (p : EkfParams) (s : NodeState N)
    (m : PoseMsg) (t : Transform) (ht : t.rot = ⟨1, 0, 0, 0⟩) (px py pz yaw0 yaw1 : ℝ)
    (hx : m.px = some px) (hy : m.py = some py) (hq : tf.getYaw m.ori = some yaw0)
    (hq1 : tf.getYaw t.rot = some yaw1) (hp : p.poseFrame ≠ []) (hm : m.frame ≠ []) :
    ∃ s' f, step hN tf p s (.initialPose m fun _ _ _ => some t) = .ok (s', []) ∧
      s'.ekf = some f ∧ f.getLatestX hN 0 = (mappedXY t px py pz).1 ∧
      f.getLatestX hN 1 = (mappedXY t px py pz).2 ∧ f.getLatestX hN 2 = yaw0 + yaw1 := by
  obtain ⟨a, ha, -⟩ := C42_names_partial _ hp
  obtain ⟨b, hb, -⟩ := C42_names_partial _ hm
  refine ⟨_, _, initialPose_ok hN tf p s m (fun _ _ _ => some t) a b ha hb t rfl px py yaw0 yaw1 hx hy
    hq hq1, rfl, ?_, ?_, ?_⟩
  · simp [TimeDelayKalmanFilter.getLatestX, TimeDelayKalmanFilter.make, initX, initState, mappedXY,
      rotateXY, ht]
  · simp [TimeDelayKalmanFilter.getLatestX, TimeDelayKalmanFilter.make, initX, initState, mappedXY,
      rotateXY, ht]
  · simp [TimeDelayKalmanFilter.getLatestX, TimeDelayKalmanFilter.make, initX, initState]

/-- C65, exactly: let the transform turn about the vertical axis, as between the frames of a vehicle on a
plane. The filter starts with the sum of the yaws, and at the mapped position if and only if there is no
turn or the initial position is the origin of its frame. Missing: all other turns and positions. -/
theorem C65_turn_partial {N : ℕ} (hN : 0 < N) (tf : Tf2) (p : EkfParams) (s : NodeState N)
    (m : PoseMsg) (t : Transform) (c d : ℝ) (ht : t.rot = ⟨c, 0, 0, d⟩) (hunit : c * c + d * d = 1)
    (px py pz yaw0 yaw1 : ℝ) (hx : m.px = some px) (hy : m.py = some py)
    (hq : tf.getYaw m.ori = some yaw0) (hq1 : tf.getYaw t.rot = some yaw1) (hp : p.poseFrame ≠ [])
    (hm : m.frame ≠ []) :
    ∃ s' f, step hN tf p s (.initialPose m fun _ _ _ => some t) = .ok (s', []) ∧
      s'.ekf = some f ∧ f.getLatestX hN 2 = yaw0 + yaw1 ∧
      ((f.getLatestX hN 0, f.getLatestX hN 1) = mappedXY t px py pz ↔ d = 0 ∨ (px = 0 ∧ py = 0)) := by
  obtain ⟨a, ha, -⟩ := C42_names_partial _ hp
  obtain ⟨b, hb, -⟩ := C42_names_partial _ hm
  refine ⟨_, _, initialPose_ok hN tf p s m (fun _ _ _ => some t) a b ha hb t rfl px py yaw0 yaw1 hx hy
    hq hq1, rfl, ?_, ?_⟩
  · simp [TimeDelayKalmanFilter.getLatestX, TimeDelayKalmanFilter.make, initX, initState]
  · have e : ∀ u v : ℝ, ((u, v) = mappedXY t px py pz ↔ (u - t.tx, v - t.ty) = rotateXY t.rot px py pz) := by
      intro u v
      simp only [mappedXY, Prod.ext_iff]
      constructor <;> rintro ⟨h1, h2⟩ <;> constructor <;> linarith
    rw [e]
    simp only [TimeDelayKalmanFilter.getLatestX, TimeDelayKalmanFilter.make, initX, initState, rotateXY,
      ht, Prod.ext_iff]
    simp
    constructor
    · rintro ⟨h1, h2⟩
      by_cases hd : d = 0
      · exact .inl hd
      · right
        have k1 : d * px + c * py = 0 := by
          apply mul_left_cancel₀ hd
          linear_combination (1 / 2 : ℝ) * h1
        have k2 : c * px - d * py = 0 := by
          apply mul_left_cancel₀ hd
          linear_combination (-1 / 2 : ℝ) * h2
        constructor
        · linear_combination d * k1 + c * k2 - px * hunit
        · linear_combination c * k1 - d * k2 - py * hunit
    · rintro (rfl | ⟨rfl, rfl⟩)
      · constructor <;> ring
      · constructor <;> ring

/-- C65, violation: with a half turn about z between the frames, an initial position `(1, 0)` belongs
at `(-1, 0)` but the filter starts at `(1, 0)`, whatever yaws `tf2` computes. -/
theorem C65_rotation_violated (tf : Tf2) (yaw0 yaw1 : ℝ) (h0 : tf.getYaw ⟨1, 0, 0, 0⟩ = some yaw0)
    (h1 : tf.getYaw ⟨0, 0, 0, 1⟩ = some yaw1) :
    ∃ (s' : NodeState 1) (f : TimeDelayKalmanFilter ℝ 1 6),
      step Nat.one_pos tf defaultParams (NodeState.make 1 defaultParams)
        (.initialPose ⟨"odom".toList, 0, some 1, some 0, some 0, ⟨1, 0, 0, 0⟩, fun _ => 1⟩
          fun _ _ _ => some ⟨0, 0, 0, ⟨0, 0, 0, 1⟩⟩) = .ok (s', []) ∧
      s'.ekf = some f ∧ f.getLatestX Nat.one_pos 0 = 1 ∧
      (mappedXY ⟨0, 0, 0, ⟨0, 0, 0, 1⟩⟩ 1 0 0).1 = -1 := by
  refine ⟨_, _, initialPose_ok Nat.one_pos tf defaultParams _ _ _ "map".toList "odom".toList rfl rfl
    ⟨0, 0, 0, ⟨0, 0, 0, 1⟩⟩ rfl 1 0 yaw0 yaw1 rfl rfl h0 h1, rfl, ?_, ?_⟩
  · simp [TimeDelayKalmanFilter.getLatestX, TimeDelayKalmanFilter.make, initX, initState]
  · norm_num [mappedXY, rotateXY]

/-- The turn of the theorem `C65_turn_partial` with `(3/5, 4/5)`: the filter starts elsewhere. -/
example : ∃ (s' : NodeState 1) (f : TimeDelayKalmanFilter ℝ 1 6),
    step Nat.one_pos flatTf defaultParams (NodeState.make 1 defaultParams)
      (.initialPose ⟨"odom".toList, 0, some 1, some 0, some 0, ⟨1, 0, 0, 0⟩, fun _ => 1⟩
        fun _ _ _ => some ⟨7, 8, 0, ⟨3 / 5, 0, 0, 4 / 5⟩⟩) = .ok (s', []) ∧ s'.ekf = some f ∧
    (f.getLatestX Nat.one_pos 0, f.getLatestX Nat.one_pos 1) ≠
      mappedXY ⟨7, 8, 0, ⟨3 / 5, 0, 0, 4 / 5⟩⟩ 1 0 0 := by
  obtain ⟨s', f, h1, h2, -, h3⟩ := C65_turn_partial Nat.one_pos flatTf defaultParams
    (NodeState.make 1 defaultParams)
    ⟨"odom".toList, 0, some 1, some 0, some 0, ⟨1, 0, 0, 0⟩, fun _ => 1⟩
    ⟨7, 8, 0, ⟨3 / 5, 0, 0, 4 / 5⟩⟩ (3 / 5) (4 / 5) rfl (by norm_num) 1 0 0 0 0 rfl rfl rfl rfl
    (by decide) (by decide)
  refine ⟨s', f, h1, h2, fun h => ?_⟩
  rcases h3.1 h with h | ⟨h, -⟩ <;> norm_num at h

/-! Non-vacuity: a node that receives an initial pose and a timer event publishes. -/
example : ∃ r, run Nat.one_pos flatTf defaultParams (NodeState.make 1 defaultParams)
    [.initialPose (poseAt 10 0) identityTries,
     .timer 0 0 0 0 0 (fun _ => true) (fun _ => true)] = .ok r ∧ r.2.length = 2 :=
  ⟨_, rfl, rfl⟩

end Verif.Ekf
