/-
C112: the localizer prefers no place and no time.
-/
import Verif.Props.C32
import Verif.Props.C66

set_option autoImplicit false

namespace Verif.Ekf

open Matrix Verif.Kalman

/-! ### The change of origin -/

/-- A displacement of the origin of the map and of the clock (nanoseconds). -/
structure Offset where
  x : ℝ
  y : ℝ
  z : ℝ
  t : ℤ

/-- The displacement the other way. -/
def Offset.neg (o : Offset) : Offset := ⟨-o.x, -o.y, -o.z, -o.t⟩

/-- A pose message seen from the displaced origin. -/
def PoseMsg.shift (o : Offset) (m : PoseMsg) : PoseMsg :=
  { m with
    stamp := m.stamp + o.t
    px := m.px.map (· + o.x)
    py := m.py.map (· + o.y)
    pz := m.pz.map (· + o.z) }

/-- A twist message has a stamp only. -/
def TwistMsg.shift (o : Offset) (m : TwistMsg) : TwistMsg := { m with stamp := m.stamp + o.t }

/-- What the node is told, seen from the displaced origin. -/
def Event.shift (o : Offset) : Event → Event
  | .initialPose m tries => .initialPose (m.shift o) tries
  | .pose m => .pose (m.shift o)
  | .twist m => .twist (m.shift o)
  | .timer t1 t2 t3 t4 t5 sp st =>
    .timer (t1 + o.t) (t2 + o.t) (t3 + o.t) (t4 + o.t) (t5 + o.t)
      (fun m => sp (m.shift o.neg)) (fun m => st (m.shift o.neg))

/-- An estimate seen from the displaced origin. -/
def Estimate.shift (o : Offset) (e : Estimate) : Estimate :=
  { e with x := e.x + o.x, y := e.y + o.y, z := e.z.map (· + o.z) }

/-- What the node publishes, seen from the displaced origin. -/
def Output.shift (o : Offset) : Output → Output
  | .transform stamp frame child pose => .transform (stamp + o.t) frame child (pose.shift o)
  | .odometry stamp frame child pose pc vx wz tc =>
    .odometry (stamp + o.t) frame child (pose.shift o) pc vx wz tc

theorem PoseMsg.shift_neg (o : Offset) (m : PoseMsg) : (m.shift o).shift o.neg = m := by
  obtain ⟨f, s, px, py, pz, q, c⟩ := m
  simp only [PoseMsg.shift, Offset.neg, Option.map_map, PoseMsg.mk.injEq, true_and, and_true]
  refine ⟨by ring, ?_, ?_, ?_⟩
  · cases px <;> simp
  · cases py <;> simp
  · cases pz <;> simp

theorem TwistMsg.shift_neg (o : Offset) (m : TwistMsg) : (m.shift o).shift o.neg = m := by
  obtain ⟨f, s, vx, wz, c⟩ := m
  simp [TwistMsg.shift, Offset.neg]

/-! ### The filter -/

/-- The displacement of a state. -/
def Offset.state (o : Offset) : Fin 6 → ℝ := ![o.x, o.y, 0, 0, 0, 0]

/-- All stored states displaced. -/
def shiftX (c : Fin 6 → ℝ) {N : ℕ} (x : Fin (N * 6) → ℝ) : Fin (N * 6) → ℝ := fun i =>
  x i + c ⟨i.val % 6, Nat.mod_lt _ (by norm_num)⟩

/-- The filter with all stored states displaced; the covariance stays. -/
def shiftF (c : Fin 6 → ℝ) {N : ℕ} (f : TimeDelayKalmanFilter ℝ N 6) : TimeDelayKalmanFilter ℝ N 6 :=
  ⟨shiftX c f.x, f.P⟩

theorem make_shift (c x : Fin 6 → ℝ) (P : Matrix (Fin 6) (Fin 6) ℝ) (N : ℕ) :
    TimeDelayKalmanFilter.make (x + c) P N = shiftF c (TimeDelayKalmanFilter.make x P N) := rfl

theorem latest_shift {N : ℕ} (hN : 0 < N) (c : Fin 6 → ℝ) (f : TimeDelayKalmanFilter ℝ N 6) :
    (shiftF c f).getLatestX hN = f.getLatestX hN + c := by
  funext k
  simp only [TimeDelayKalmanFilter.getLatestX, shiftF, shiftX, Pi.add_apply]
  congr 2
  exact Fin.ext (Nat.mod_eq_of_lt k.isLt)

theorem getX_shift {N : ℕ} (c : Fin 6 → ℝ) (f : TimeDelayKalmanFilter ℝ N 6) (δ : ℤ) :
    (shiftF c f).getX δ = Except.map (fun x => x + c) (f.getX δ) := by
  simp only [TimeDelayKalmanFilter.getX]
  split
  · simp only [Except.map]
    congr 1
    funext k
    simp only [shiftF, shiftX, Pi.add_apply]
    congr 2
    refine Fin.ext ?_
    simp only [Nat.mul_add_mod_self_right]
    exact Nat.mod_eq_of_lt k.isLt
  · rfl

theorem predict_shift {N : ℕ} (hN : 0 < N) (c : Fin 6 → ℝ) (f : TimeDelayKalmanFilter ℝ N 6)
    (x : Fin 6 → ℝ) (A Q : Matrix (Fin 6) (Fin 6) ℝ) :
    (shiftF c f).predict hN (x + c) A Q = shiftF c (f.predict hN x A Q) := by
  simp only [TimeDelayKalmanFilter.predict, shiftF, TimeDelayKalmanFilter.mk.injEq, and_true]
  funext i
  simp only [updateX, shiftX]
  split
  · rename_i h
    simp only [Pi.add_apply]
    congr 2
    exact Fin.ext (Nat.mod_eq_of_lt h).symm
  · rename_i h
    congr 2
    refine Fin.ext ?_
    simp only
    omega

theorem measurement_shift {N h : ℕ} (c : Fin 6 → ℝ) (C : Matrix (Fin h) (Fin 6) ℝ)
    (x : Fin (N * 6) → ℝ) {δ : ℕ} (hδ : δ < N) :
    makeMeasurementMatrix C N δ *ᵥ shiftX c x = makeMeasurementMatrix C N δ *ᵥ x + C *ᵥ c := by
  have h1 := meas_mulVec C ⟨δ, hδ⟩ (shiftX c x)
  have h2 := meas_mulVec C ⟨δ, hδ⟩ x
  simp only at h1 h2
  rw [h1, h2, ← mulVec_add]
  congr 1
  funext k
  simp only [blkX, shiftX, Pi.add_apply]
  congr 2
  refine Fin.ext ?_
  simp only [slot_val, Nat.add_mul_mod_self_left]
  exact Nat.mod_eq_of_lt k.isLt

theorem update_shift {N h : ℕ} (c : Fin 6 → ℝ) (f : TimeDelayKalmanFilter ℝ N 6) (y : Fin h → ℝ)
    (C : Matrix (Fin h) (Fin 6) ℝ) (R : Matrix (Fin h) (Fin h) ℝ) (δ : ℤ) :
    (shiftF c f).update (y + C *ᵥ c) C R δ = Except.map (shiftF c) (f.update y C R δ) := by
  simp only [TimeDelayKalmanFilter.update]
  split
  · rfl
  split
  · rfl
  have hP : (shiftF c f).P = f.P := rfl
  rw [hP]
  cases calcKalmanGain f.P (makeMeasurementMatrix C N δ.toNat) R with
  | none => rfl
  | some G =>
    simp only [Except.map, shiftF, Except.ok.injEq, TimeDelayKalmanFilter.mk.injEq, and_true]
    simp only [updateState]
    rw [measurement_shift c C f.x (by omega), add_sub_add_right_eq_sub]
    funext i
    simp only [shiftX, Pi.add_apply]
    ring

theorem motion_shift (o : Offset) (x : Fin 6 → ℝ) (dt : ℝ) :
    predictNextState (x + o.state) dt = predictNextState x dt + o.state ∧
    createStateTransitionMatrix (x + o.state) dt = createStateTransitionMatrix x dt := by
  have h2 : (x + o.state) 2 = x 2 := by simp [Offset.state]
  have h3 : (x + o.state) 3 = x 3 := by simp [Offset.state]
  have h4 : (x + o.state) 4 = x 4 := by simp [Offset.state]
  have h5 : (x + o.state) 5 = x 5 := by simp [Offset.state]
  have h0 : (x + o.state) 0 = x 0 + o.x := by simp [Offset.state]
  have h1 : (x + o.state) 1 = x 1 + o.y := by simp [Offset.state]
  constructor
  · simp only [predictNextState, h0, h1, h2, h3, h4, h5]
    funext i
    fin_cases i <;> simp [Offset.state] <;> ring
  · simp only [createStateTransitionMatrix, h2, h3, h4]

theorem predictStep_shift {N : ℕ} (hN : 0 < N) (p : EkfParams) (dt : ℝ) (o : Offset)
    (f : TimeDelayKalmanFilter ℝ N 6) :
    predictStep hN p dt (shiftF o.state f) = shiftF o.state (predictStep hN p dt f) := by
  simp only [predictStep, latest_shift, (motion_shift o _ dt).1, (motion_shift o _ dt).2,
    predict_shift]

/-- Displaced measurements. -/
def shiftY {h : ℕ} (c : Fin h → ℝ) (y : Fin h → Option ℝ) : Fin h → Option ℝ :=
  fun i => (y i).map (· + c i)

theorem allFinite_shift {h : ℕ} (c : Fin h → ℝ) (y : Fin h → Option ℝ) :
    allFinite (shiftY c y) = (allFinite y).map (· + c) := by
  have hs : ∀ i, (shiftY c y i).isSome = (y i).isSome := by
    intro i
    simp [shiftY]
  simp only [allFinite]
  by_cases hy : ∀ i, (y i).isSome
  · rw [dif_pos hy, dif_pos (fun i => by rw [hs]; exact hy i)]
    simp only [Option.map_some]
    congr 1
    funext i
    simp [shiftY]
  · rw [dif_neg hy, dif_neg (fun hc => hy fun i => by rw [← hs]; exact hc i)]
    rfl

theorem processMeasurement_shift {N h : ℕ} (hN : 0 < N) (sing : Bool) (c : Fin 6 → ℝ)
    (stateOf : (Fin 6 → ℝ) → (Fin h → ℝ))
    (covOf : Matrix (Fin 6) (Fin 6) ℝ → Matrix (Fin h) (Fin h) ℝ) (C : Matrix (Fin h) (Fin 6) ℝ)
    (hstate : ∀ x, stateOf (x + c) = stateOf x + C *ᵥ c)
    (gateDist : ℝ) (now : ℤ) (dt : ℝ) (stamp t : ℤ) (y : Fin h → Option ℝ)
    (R : Matrix (Fin h) (Fin h) ℝ) (f : TimeDelayKalmanFilter ℝ N 6) :
    processMeasurement hN sing stateOf covOf C gateDist (now + t) dt (stamp + t)
        (shiftY (C *ᵥ c) y) R (shiftF c f) =
      Except.map (shiftF c)
        (processMeasurement hN sing stateOf covOf C gateDist now dt stamp y R f) := by
  have ht : (computeDelayTime (now + t) (stamp + t) : ℝ) = computeDelayTime now stamp := by
    simp only [computeDelayTime]
    congr 2
    ring
  have hL : (shiftF c f).getLatestP hN = f.getLatestP hN := rfl
  simp only [processMeasurement, ht, hL, getX_shift, allFinite_shift, bind, Except.bind]
  cases computeDelayStep (computeDelayTime now stamp : ℝ) dt with
  | error e => rfl
  | ok δ =>
    simp only
    split
    · rfl
    cases allFinite y with
    | none => rfl
    | some y =>
      simp only [Option.map_some]
      cases f.getX δ with
      | error e => rfl
      | ok x =>
        have hg : mahalanobisGate sing gateDist (stateOf (x + c)) (y + C *ᵥ c)
            (covOf (f.getLatestP hN)) =
            mahalanobisGate sing gateDist (stateOf x) y (covOf (f.getLatestP hN)) := by
          simp only [mahalanobisGate, squaredMahalanobis, hstate, add_sub_add_right_eq_sub]
        simp only [Except.map, hg, update_shift]
        split
        · rfl
        cases f.update y C R δ with
        | error e => cases e <;> rfl
        | ok f' => rfl

theorem poseMatrix_state (o : Offset) : poseMeasurementMatrix *ᵥ o.state = ![o.x, o.y, 0] := by
  funext i
  fin_cases i <;>
    simp [poseMeasurementMatrix, Offset.state, mulVec, dotProduct, Fin.sum_univ_succ]

theorem twistMatrix_state (o : Offset) : twistMeasurementMatrix *ᵥ o.state = 0 := by
  funext i
  fin_cases i <;>
    simp [twistMeasurementMatrix, Offset.state, mulVec, dotProduct, Fin.sum_univ_succ]

theorem processPose_shift {N : ℕ} (hN : 0 < N) (tf : Tf2) (sing : PoseMsg → Bool) (o : Offset)
    (gateDist : ℝ) (smoothing : ℤ) (now : ℤ) (dt : ℝ) (m : PoseMsg)
    (f : TimeDelayKalmanFilter ℝ N 6) :
    processPose hN tf (fun m => sing (m.shift o.neg)) gateDist smoothing (now + o.t) dt (m.shift o)
        (shiftF o.state f) =
      Except.map (shiftF o.state) (processPose hN tf sing gateDist smoothing now dt m f) := by
  have hy : poseMeasurementVector tf (m.shift o) =
      shiftY (poseMeasurementMatrix *ᵥ o.state) (poseMeasurementVector tf m) := by
    rw [poseMatrix_state]
    funext i
    fin_cases i
    · simp [poseMeasurementVector, PoseMsg.shift, shiftY]
    · simp [poseMeasurementVector, PoseMsg.shift, shiftY]
    · cases hq : tf.getYaw m.ori <;> simp [poseMeasurementVector, PoseMsg.shift, shiftY, hq]
  have hstate : ∀ x, getPoseState (x + o.state) =
      getPoseState x + poseMeasurementMatrix *ᵥ o.state := by
    intro x
    rw [poseMatrix_state]
    funext i
    fin_cases i <;> simp [getPoseState, Offset.state]
  simp only [processPose, PoseMsg.shift_neg, hy]
  exact processMeasurement_shift hN _ o.state _ _ _ hstate _ _ _ _ _ _ _ _

theorem processTwist_shift {N : ℕ} (hN : 0 < N) (sing : TwistMsg → Bool) (o : Offset)
    (gateDist : ℝ) (smoothing : ℤ) (now : ℤ) (dt : ℝ) (m : TwistMsg)
    (f : TimeDelayKalmanFilter ℝ N 6) :
    processTwist hN (fun m => sing (m.shift o.neg)) gateDist smoothing (now + o.t) dt (m.shift o)
        (shiftF o.state f) =
      Except.map (shiftF o.state) (processTwist hN sing gateDist smoothing now dt m f) := by
  have hy : twistMeasurementVector (m.shift o) =
      shiftY (twistMeasurementMatrix *ᵥ o.state) (twistMeasurementVector m) := by
    rw [twistMatrix_state]
    funext i
    fin_cases i <;> simp [twistMeasurementVector, TwistMsg.shift, shiftY]
  have hstate : ∀ x, getTwistState (x + o.state) =
      getTwistState x + twistMeasurementMatrix *ᵥ o.state := by
    intro x
    rw [twistMatrix_state]
    funext i
    fin_cases i <;> simp [getTwistState, Offset.state]
  simp only [processTwist, TwistMsg.shift_neg, hy]
  exact processMeasurement_shift hN _ o.state _ _ _ hstate _ _ _ _ _ _ _ _

/-! ### The queues -/

/-- A queue of displaced messages. -/
def mapQueue {α : Type} (g : α → α) (q : AgedQueue α) : AgedQueue α := ⟨q.maxAge, q.msgs.map g, q.ages⟩

theorem pop_map {α : Type} (g : α → α) (q : AgedQueue α) :
    (mapQueue g q).pop = Except.map (fun r => (g r.1, mapQueue g r.2)) q.pop := by
  obtain ⟨a, ms, as⟩ := q
  cases ms with
  | nil => rfl
  | cons m ms =>
    cases as with
    | nil => rfl
    | cons b bs =>
      simp only [AgedQueue.pop, mapQueue, List.map_cons]
      split <;> simp [Except.map, mapQueue]

theorem updateAll_map {α F : Type} (g : α → α) (k : F → F) (process process' : α → F → Res F)
    (hp : ∀ m f, process' (g m) (k f) = Except.map k (process m f)) (q : AgedQueue α) (f : F) :
    updateAll process' (mapQueue g q) (k f) =
      Except.map (fun r => (k r.1, mapQueue g r.2)) (updateAll process q f) := by
  have hsize : ∀ q : AgedQueue α, (mapQueue g q).size = q.size := by
    intro q
    simp [AgedQueue.size, mapQueue]
  have h : ∀ (fuel i : ℕ) (q : AgedQueue α) (f : F),
      updateLoop process' fuel i (mapQueue g q) (k f) =
        Except.map (fun r => (k r.1, mapQueue g r.2)) (updateLoop process fuel i q f) := by
    intro fuel
    induction fuel with
    | zero => intro i q f; rfl
    | succ fuel ih =>
      intro i q f
      simp only [updateLoop, hsize, pop_map, bind, Except.bind]
      split
      · cases q.pop with
        | error e => rfl
        | ok r =>
          obtain ⟨m, q'⟩ := r
          simp only [Except.map, hp]
          cases process m f with
          | error e => rfl
          | ok f' => exact ih _ _ _
      · rfl
  simp only [updateAll, hsize]
  exact h _ _ _ _

/-! ### The node -/

/-- Two scalar filters in the same state but for the displacement, once they are initialised. -/
def FilterShifted (c : ℝ) (t : ℤ) (f f' : Simple1DFilter) : Prop :=
  f'.initialized = f.initialized ∧ f'.stddev = f.stddev ∧ f'.proc = f.proc ∧
    (f.initialized = true → f'.x = f.x.map (· + c) ∧ f'.latest = f.latest + t)

theorem filter_update_shift {c : ℝ} {t : ℤ} {f f' : Simple1DFilter} (h : FilterShifted c t f f')
    (obs sd : Option ℝ) (time : ℤ) :
    FilterShifted c t (f.update obs sd time) (f'.update (obs.map (· + c)) sd (time + t)) ∧
      (f.update obs sd time).initialized = true := by
  obtain ⟨i, x, s, p, l⟩ := f
  obtain ⟨i', x', s', p', l'⟩ := f'
  obtain ⟨h1, h2, h3, h4⟩ := h
  simp only at h1 h2 h3 h4
  subst h1
  subst h2
  subst h3
  cases i' with
  | false =>
    simp [Simple1DFilter.update, Simple1DFilter.init, FilterShifted]
  | true =>
    obtain ⟨rfl, rfl⟩ := h4 rfl
    have hpred : ∀ s : ℝ, Simple1DFilter.predicted ⟨true, x.map (· + c), s', p', l + t⟩ s (time + t) =
        Simple1DFilter.predicted ⟨true, x, s', p', l⟩ s time := by
      intro s
      simp only [Simple1DFilter.predicted, add_sub_add_right_eq_sub]
    simp only [Simple1DFilter.update, Bool.not_true, Bool.false_eq_true, if_false]
    cases s' with
    | none => simp [FilterShifted]
    | some s =>
      cases sd with
      | none => simp [FilterShifted]
      | some sd =>
        simp only [hpred]
        split_ifs
        · simp [FilterShifted]
        · simp only [FilterShifted, true_and, forall_const, and_true]
          cases x with
          | none => rfl
          | some x =>
            cases obs with
            | none => rfl
            | some ob =>
              simp only [Option.map_some, bind, Option.bind, pure, Option.some.injEq]
              ring

/-- Two nodes in the same state but for the displacement. -/
structure NodeShifted (o : Offset) {N : ℕ} (s s' : NodeState N) : Prop where
  ekf : s'.ekf = s.ekf.map (shiftF o.state)
  freq : s'.interval.defaultFrequency = s.interval.defaultFrequency
  last : s'.interval.lastTime = s.interval.lastTime.map (· + (o.t : ℝ) / 1000000000)
  poseQ : s'.poseQ = mapQueue (PoseMsg.shift o) s.poseQ
  twistQ : s'.twistQ = mapQueue (TwistMsg.shift o) s.twistQ
  z : FilterShifted o.z o.t s.z s'.z
  roll : FilterShifted 0 o.t s.roll s'.roll
  pitch : FilterShifted 0 o.t s.pitch s'.pitch
  ready : s.ekf.isSome → s.z.initialized = true ∧ s.roll.initialized = true ∧
    s.pitch.initialized = true

theorem filters_shift {o : Offset} {N : ℕ} {s s' : NodeState N} (h : NodeShifted o s s')
    (tf : Tf2) (m : PoseMsg) :
    NodeShifted o (updateSimple1DFilters tf s m) (updateSimple1DFilters tf s' (m.shift o)) ∧
    (updateSimple1DFilters tf s m).z.initialized = true ∧
    (updateSimple1DFilters tf s m).roll.initialized = true ∧
    (updateSimple1DFilters tf s m).pitch.initialized = true := by
  have hz := filter_update_shift h.z m.pz (sqrtOpt (m.cov 14)) m.stamp
  have hr := filter_update_shift h.roll (tf.getRoll m.ori) (sqrtOpt (m.cov 21)) m.stamp
  have hp := filter_update_shift h.pitch (tf.getPitch m.ori) (sqrtOpt (m.cov 28)) m.stamp
  have hid : ∀ a : Option ℝ, a.map (· + 0) = a := by
    intro a
    cases a <;> simp
  rw [hid] at hr hp
  refine ⟨⟨h.ekf, h.freq, h.last, h.poseQ, h.twistQ, hz.1, hr.1, hp.1, fun _ => ⟨hz.2, hr.2, hp.2⟩⟩,
    hz.2, hr.2, hp.2⟩

/-- The same outcome but for the displacement. -/
def OutcomeShifted (o : Offset) {N : ℕ} :
    Res (NodeState N × List Output) → Res (NodeState N × List Output) → Prop
  | .ok (s, out), .ok (s', out') => NodeShifted o s s' ∧ out' = out.map (Output.shift o)
  | .error e, .error e' => e' = e
  | _, _ => False

theorem interval_shift {o : Offset} {u u' : UpdateInterval ℝ}
    (hf : u'.defaultFrequency = u.defaultFrequency)
    (hl : u'.lastTime = u.lastTime.map (· + (o.t : ℝ) / 1000000000)) (t : ℤ) :
    (u'.compute (((t + o.t : ℤ) : ℝ) / 1000000000)).1 = (u.compute ((t : ℝ) / 1000000000)).1 ∧
    (u'.compute (((t + o.t : ℤ) : ℝ) / 1000000000)).2.defaultFrequency =
      (u.compute ((t : ℝ) / 1000000000)).2.defaultFrequency ∧
    (u'.compute (((t + o.t : ℤ) : ℝ) / 1000000000)).2.lastTime =
      (u.compute ((t : ℝ) / 1000000000)).2.lastTime.map (· + (o.t : ℝ) / 1000000000) := by
  obtain ⟨f, l⟩ := u
  obtain ⟨f', l'⟩ := u'
  simp only at hf hl
  subst hf
  subst hl
  have ht : ((t + o.t : ℤ) : ℝ) / 1000000000 = (t : ℝ) / 1000000000 + (o.t : ℝ) / 1000000000 := by
    push_cast
    ring
  cases l with
  | none => simp only [UpdateInterval.compute, Option.map_none, Option.map_some, ht, and_self]
  | some l =>
    simp only [UpdateInterval.compute, Option.map_some, ht, add_lt_add_iff_right,
      add_sub_add_right_eq_sub]
    split_ifs <;> simp

theorem step_shift (o : Offset) {N : ℕ} (hN : 0 < N) (tf : Tf2) (p : EkfParams) {s s' : NodeState N}
    (h : NodeShifted o s s') (e : Event) :
    OutcomeShifted o (step hN tf p s e) (step hN tf p s' (e.shift o)) := by
  cases e with
  | initialPose m tries =>
    simp only [step, Event.shift, initialPoseCallback, bind, Except.bind]
    cases eraseBeginSlash p.poseFrame with
    | error e => simp [OutcomeShifted]
    | ok parent =>
      have hframe : (m.shift o).frame = m.frame := rfl
      simp only [hframe]
      cases eraseBeginSlash m.frame with
      | error e => simp [OutcomeShifted]
      | ok child =>
        simp only
        cases lookupTransform (tries parent child) with
        | none => simp [OutcomeShifted]
        | some t =>
          have hpx : (m.shift o).px = m.px.map (· + o.x) := rfl
          have hpy : (m.shift o).py = m.py.map (· + o.y) := rfl
          have hori : (m.shift o).ori = m.ori := rfl
          have hcov : (m.shift o).cov = m.cov := rfl
          simp only [hpx, hpy, hori, hcov]
          cases m.px with
          | none => simp [OutcomeShifted]
          | some px =>
            cases m.py with
            | none => simp [OutcomeShifted]
            | some py =>
              cases tf.getYaw m.ori with
              | none => simp [OutcomeShifted]
              | some yaw =>
                cases tf.getYaw t.rot with
                | none => simp [OutcomeShifted]
                | some yaw' =>
                  simp only [Option.map_some, pure, Except.pure, OutcomeShifted, List.map_nil,
                    and_true]
                  have hx : initState (px + o.x + t.tx) (py + o.y + t.ty) (yaw + yaw') =
                      initState (px + t.tx) (py + t.ty) (yaw + yaw') + o.state := by
                    funext i
                    fin_cases i <;> simp [initState, Offset.state] <;> ring
                  rw [hx, make_shift]
                  have hz := filter_update_shift h.z m.pz (sqrtOpt (m.cov 14)) m.stamp
                  have hr := filter_update_shift h.roll (tf.getRoll m.ori) (sqrtOpt (m.cov 21))
                    m.stamp
                  have hp := filter_update_shift h.pitch (tf.getPitch m.ori) (sqrtOpt (m.cov 28))
                    m.stamp
                  have hid : ∀ a : Option ℝ, a.map (· + 0) = a := by
                    intro a
                    cases a <;> simp
                  rw [hid] at hr hp
                  refine ⟨rfl, h.freq, h.last, ?_, ?_, hz.1, hr.1, hp.1,
                    fun _ => ⟨hz.2, hr.2, hp.2⟩⟩
                  · show AgedQueue.clear _ = _
                    simp only [AgedQueue.clear, updateSimple1DFilters, h.poseQ, mapQueue,
                      List.map_nil]
                  · show AgedQueue.clear _ = _
                    simp only [AgedQueue.clear, updateSimple1DFilters, h.twistQ, mapQueue,
                      List.map_nil]
  | pose m =>
    have h1 : NodeShifted o { s with poseQ := s.poseQ.push m }
        { s' with poseQ := s'.poseQ.push (m.shift o) } := by
      refine ⟨h.ekf, h.freq, h.last, ?_, h.twistQ, h.z, h.roll, h.pitch, h.ready⟩
      simp [AgedQueue.push, h.poseQ, mapQueue]
    exact ⟨(filters_shift h1 tf m).1, rfl⟩
  | twist m =>
    refine ⟨⟨h.ekf, h.freq, h.last, h.poseQ, ?_, h.z, h.roll, h.pitch, h.ready⟩, rfl⟩
    simp [AgedQueue.push, h.twistQ, mapQueue]
  | timer t1 t2 t3 t4 t5 sp st =>
    simp only [step, Event.shift, timerCallback, h.ekf]
    cases hf : s.ekf with
    | none => exact ⟨h, rfl⟩
    | some f =>
      obtain ⟨i1, i2, i3⟩ := interval_shift h.freq h.last t1
      obtain ⟨z1, z2, z3⟩ := h.ready (by rw [hf]; rfl)
      simp only [Option.map_some]
      generalize s'.interval.compute (((t1 + o.t : ℤ) : ℝ) / 1000000000) = c' at i1 i2 i3 ⊢
      generalize s.interval.compute ((t1 : ℝ) / 1000000000) = c at i1 i2 i3 ⊢
      obtain ⟨r, iv⟩ := c
      obtain ⟨r', iv'⟩ := c'
      simp only at i1 i2 i3
      subst i1
      cases r' with
      | error e =>
        cases e
        case invalidArgument =>
          exact ⟨⟨rfl, i2, i3, h.poseQ, h.twistQ, h.z, h.roll, h.pitch, fun _ => ⟨z1, z2, z3⟩⟩, rfl⟩
        all_goals rfl
      | ok dt =>
        simp only [bind, Except.bind]
        rw [predictStep_shift, h.poseQ, updateAll_map (PoseMsg.shift o) (shiftF o.state) _ _
          (fun m f => processPose_shift hN tf sp o p.poseGate p.poseSmoothing t2 dt m f)]
        cases updateAll (processPose hN tf sp p.poseGate p.poseSmoothing t2 dt) s.poseQ
            (predictStep hN p dt f) with
        | error e => simp [Except.map, OutcomeShifted]
        | ok r1 =>
          obtain ⟨f1, q1⟩ := r1
          simp only [Except.map]
          rw [h.twistQ, updateAll_map (TwistMsg.shift o) (shiftF o.state) _ _
            (fun m f => processTwist_shift hN st o p.twistGate p.twistSmoothing t3 dt m f)]
          cases updateAll (processTwist hN st p.twistGate p.twistSmoothing t3 dt) s.twistQ f1 with
          | error e => simp [Except.map, OutcomeShifted]
          | ok r2 =>
            obtain ⟨f2, q2⟩ := r2
            simp only [Except.map, pure, Except.pure, OutcomeShifted]
            refine ⟨⟨rfl, i2, i3, rfl, rfl, h.z, h.roll, h.pitch, fun _ => ⟨z1, z2, z3⟩⟩, ?_⟩
            have hid : ∀ a : Option ℝ, a.map (· + 0) = a := by
              intro a
              cases a <;> simp
            have hr : s'.roll.getX = s.roll.getX := by
              rw [Simple1DFilter.getX, (h.roll.2.2.2 z2).1, hid]
              rfl
            have hp : s'.pitch.getX = s.pitch.getX := by
              rw [Simple1DFilter.getX, (h.pitch.2.2.2 z3).1, hid]
              rfl
            have hz : s'.z.getX = s.z.getX.map (· + o.z) := (h.z.2.2.2 z1).1
            have hP : (shiftF o.state f2).getLatestP hN = f2.getLatestP hN := rfl
            simp only [publish, latest_shift, hP, hr, hp, hz, List.map_cons, List.map_nil,
              Output.shift, Estimate.shift]
            simp [Offset.state]

/-- C112: displace the origin of the map and of the clock: add the same offset to the position in
every pose message (also the initial ones) and to every stamp and clock reading. Then the node fails
in the same way, or publishes the same messages with the positions and stamps so displaced:
headings, velocities and covariances are unchanged. For all sequences of callbacks, parameters and
offsets. -/
theorem C112_origin {N : ℕ} (hN : 0 < N) (tf : Tf2) (p : EkfParams) (o : Offset) (es : List Event) :
    (run hN tf p (NodeState.make N p) (es.map (Event.shift o))).map Prod.snd =
      (run hN tf p (NodeState.make N p) es).map fun r => r.2.map (Output.shift o) := by
  have gen : ∀ (es : List Event) (s s' : NodeState N), NodeShifted o s s' →
      (run hN tf p s' (es.map (Event.shift o))).map Prod.snd =
        (run hN tf p s es).map fun r => r.2.map (Output.shift o) := by
    intro es
    induction es with
    | nil => intro s s' _; rfl
    | cons e es ih =>
      intro s s' h
      have hstep := step_shift o hN tf p h e
      simp only [List.map_cons, run, bind, Except.bind]
      revert hstep
      cases step hN tf p s e with
      | error e1 =>
        cases step hN tf p s' (e.shift o) with
        | error e2 =>
          intro hstep
          simp only [OutcomeShifted] at hstep
          subst hstep
          rfl
        | ok r => intro hstep; exact hstep.elim
      | ok r =>
        obtain ⟨s1, o1⟩ := r
        cases step hN tf p s' (e.shift o) with
        | error e2 => intro hstep; exact hstep.elim
        | ok r' =>
          obtain ⟨s2, o2⟩ := r'
          rintro ⟨h1, rfl⟩
          have := ih s1 s2 h1
          simp only
          revert this
          cases run hN tf p s1 es with
          | error e1 =>
            cases run hN tf p s2 (es.map (Event.shift o)) with
            | error e2 => intro h; simpa [Except.map] using h
            | ok r => intro h; simp [Except.map] at h
          | ok r =>
            cases run hN tf p s2 (es.map (Event.shift o)) with
            | error e2 => intro h; simp [Except.map] at h
            | ok r' =>
              intro h
              simp only [Except.map, Except.ok.injEq] at h
              simp [Except.map, pure, Except.pure, h]
  refine gen es _ _ ⟨rfl, rfl, rfl, rfl, rfl, ?_, ?_, ?_, ?_⟩
  · simp [FilterShifted, NodeState.make, Simple1DFilter.make]
  · simp [FilterShifted, NodeState.make, Simple1DFilter.make]
  · simp [FilterShifted, NodeState.make, Simple1DFilter.make]
  · intro h
    cases h

/-! Non-vacuity: the run of `C66_node_violated` publishes two messages; so does the displaced one. -/

example (o : Offset) : ∃ (pose : Estimate) (pc tc : Fin 36 → ℝ) (vx wz : ℝ),
    (run Nat.one_pos levelTf quietParams (NodeState.make 1 quietParams)
      ([.initialPose (headingMsg (-3)) identityTries, .pose (headingMsg 3),
        .timer 0 0 0 0 0 (fun _ => true) (fun _ => true)].map (Event.shift o))).map Prod.snd =
      .ok [.transform o.t "map".toList "base_link".toList pose,
        .odometry o.t "map".toList "base_link".toList pose pc vx wz tc] := by
  obtain ⟨s, pose, pc, tc, vx, wz, h, -⟩ := C66_node_violated
  refine ⟨pose.shift o, pc, tc, vx, wz, ?_⟩
  rw [C112_origin, h]
  simp [Except.map, Output.shift]

end Verif.Ekf
