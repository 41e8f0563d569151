/-
C117: measurements that agree with the estimate leave it where it is.
-/
import Verif.Props.C69
import Verif.Props.C37

set_option autoImplicit false

namespace Verif.Ekf

open Matrix Verif.Kalman

section Follow
variable {K : Type} [Field K] [DecidableEq K] {n d : ℕ}

/-- Specification: what happens, in truth. In a `move` the state becomes `next`, and the filter
predicts just that; `measure` is an exact measurement of the true state `delay` moves ago. -/
inductive TrueOp (K : Type) (d : ℕ) where
  | move (next : Fin d → K) (A Q : Matrix (Fin d) (Fin d) K)
  | measure (h : ℕ) (C : Matrix (Fin h) (Fin d) K) (R : Matrix (Fin h) (Fin h) K) (delay : ℕ)

/-- Specification: the filter and the true states, newest first, after what happened. A refused update
leaves the filter as it is. -/
noncomputable def follow (f : TimeDelayKalmanFilter K (n + 1) d) (truth : ℕ → Fin d → K) :
    List (TrueOp K d) → TimeDelayKalmanFilter K (n + 1) d × (ℕ → Fin d → K)
  | [] => (f, truth)
  | .move next A Q :: ops =>
    follow (f.predict n.succ_pos next A Q) (fun i => if i = 0 then next else truth (i - 1)) ops
  | .measure _ C R delay :: ops =>
    match f.update (C *ᵥ truth delay) C R delay with
    | .ok f' => follow f' truth ops
    | .error _ => follow f truth ops

theorem update_exact {h : ℕ} {f f' : TimeDelayKalmanFilter K (n + 1) d}
    {C : Matrix (Fin h) (Fin d) K} {R : Matrix (Fin h) (Fin h) K} {δ : ℤ} {y : Fin h → K}
    (hy : ∀ i : Fin (n + 1), (i.val : ℤ) = δ → y = C *ᵥ blkX f.x i)
    (hu : f.update y C R δ = .ok f') : f'.x = f.x := by
  simp only [TimeDelayKalmanFilter.update] at hu
  split_ifs at hu with h1 h2
  have hlt : δ.toNat < n + 1 := by push_cast at h1; omega
  cases hg : calcKalmanGain f.P (makeMeasurementMatrix C (n + 1) δ.toNat) R with
  | none => rw [hg] at hu; cases hu
  | some G =>
    rw [hg] at hu
    injection hu with hu
    subst hu
    have hm := meas_mulVec C (⟨δ.toNat, hlt⟩ : Fin (n + 1)) f.x
    simp only at hm
    simp only [updateState]
    rw [hm, hy ⟨δ.toNat, hlt⟩ (by simp; omega)]
    simp

theorem getX_blk (f : TimeDelayKalmanFilter K (n + 1) d) (i : Fin (n + 1)) :
    f.getX (i.val : ℤ) = .ok (blkX f.x i) := by
  simp only [TimeDelayKalmanFilter.getX]
  rw [dif_pos ⟨by omega, by have := i.isLt; push_cast; omega⟩]
  congr 1
  funext k
  simp only [blkX]
  congr 1
  refine Fin.ext ?_
  rw [slot_val]
  simp only [Int.toNat_natCast]
  ring

theorem predict_blk (f : TimeDelayKalmanFilter K (n + 1) d) (next : Fin d → K)
    (A Q : Matrix (Fin d) (Fin d) K) (i : Fin (n + 1)) :
    blkX (f.predict n.succ_pos next A Q).x i =
      if h : i.val = 0 then next else blkX f.x ⟨i.val - 1, by omega⟩ := by
  funext k
  have hk := k.isLt
  simp only [blkX, TimeDelayKalmanFilter.predict, updateX]
  by_cases h : i.val = 0
  · have hlt : (slot i k).val < d := by rw [slot_val, h]; simp
    rw [dif_pos hlt, dif_pos h]
    congr 1
    exact Fin.ext (by simp [slot_val, h])
  · obtain ⟨j, hj⟩ : ∃ j, i.val = j + 1 := ⟨i.val - 1, by omega⟩
    have hge : ¬ (slot i k).val < d := by
      rw [slot_val, hj, Nat.mul_add]; omega
    rw [dif_neg hge, dif_neg h]
    congr 1
    refine Fin.ext ?_
    simp only [slot_val, hj, Nat.mul_add, Nat.add_sub_cancel]
    omega

/-- C117 for the filter: if the predictions are right and the measurements exact, whatever their
delays and covariances, all stored states are the true ones. -/
theorem C117_truth_is_kept (x0 : Fin d → K) (P0 : Matrix (Fin d) (Fin d) K)
    (ops : List (TrueOp K d)) (δ : ℕ) (hδ : δ < n + 1) :
    let r := follow (TimeDelayKalmanFilter.make x0 P0 (n + 1)) (fun _ => x0) ops
    r.1.getX δ = .ok (r.2 δ) := by
  have gen : ∀ (ops : List (TrueOp K d)) (f : TimeDelayKalmanFilter K (n + 1) d)
      (truth : ℕ → Fin d → K), (∀ i : Fin (n + 1), blkX f.x i = truth i.val) →
      ∀ i : Fin (n + 1), blkX (follow f truth ops).1.x i = (follow f truth ops).2 i.val := by
    intro ops
    induction ops with
    | nil => intro f truth h; exact h
    | cons op ops ih =>
      intro f truth h
      cases op with
      | move next A Q =>
        simp only [follow]
        refine ih _ _ (fun i => ?_)
        rw [predict_blk]
        by_cases hi : i.val = 0
        · rw [dif_pos hi, if_pos hi]
        · rw [dif_neg hi, if_neg hi, h]
      | measure m C R delay =>
        simp only [follow]
        split
        · rename_i f' hf'
          refine ih _ _ (fun i => ?_)
          have hx := update_exact (δ := (delay : ℤ)) (fun j hj => by
            rw [h j]; congr 2; exact_mod_cast hj.symm) hf'
          rw [hx, h]
        · exact ih _ _ h
  intro r
  have h0 : ∀ i : Fin (n + 1), blkX (TimeDelayKalmanFilter.make x0 P0 (n + 1)).x i =
      (fun _ : ℕ => x0) i.val := by
    intro i
    funext k
    simp only [blkX, TimeDelayKalmanFilter.make, initX, slot_val]
    congr 1
    refine Fin.ext ?_
    simp only [Nat.add_mul_mod_self_left]
    exact Nat.mod_eq_of_lt k.isLt
  have := gen ops (TimeDelayKalmanFilter.make x0 P0 (n + 1)) (fun _ => x0) h0 ⟨δ, hδ⟩
  have h2 := getX_blk r.1 ⟨δ, hδ⟩
  simp only at h2
  rw [h2]
  exact congrArg _ this

end Follow

section Rest
variable {N : ℕ} (hN : 0 < N) (tf : Tf2) (p : EkfParams)

/-- Specification: the pose at which the vehicle stands. -/
structure Place where
  x : ℝ
  y : ℝ
  z : ℝ
  roll : ℝ
  pitch : ℝ
  yaw : ℝ

/-- Specification: a pose message says that the vehicle is at the place, with positive variances of
height, roll and pitch; the heading may be given with any number of full turns. -/
structure Place.Seen (a : Place) (m : PoseMsg) : Prop where
  px : m.px = some a.x
  py : m.py = some a.y
  pz : m.pz = some a.z
  roll : tf.getRoll m.ori = some a.roll
  pitch : tf.getPitch m.ori = some a.pitch
  yaw : ∃ (ψ : ℝ) (k : ℤ), tf.getYaw m.ori = some ψ ∧ ψ = a.yaw + k * (2 * Real.pi)
  cov : 0 < m.cov 14 ∧ 0 < m.cov 21 ∧ 0 < m.cov 28

/-- Specification: every message says that the vehicle stands at the place. Initial poses are given in
the map frame or in a frame whose transform makes them that place. -/
def Place.Agrees (a : Place) : Event → Prop
  | .initialPose m tries =>
    m.pz = some a.z ∧ tf.getRoll m.ori = some a.roll ∧ tf.getPitch m.ori = some a.pitch ∧
    (0 < m.cov 14 ∧ 0 < m.cov 21 ∧ 0 < m.cov 28) ∧
    ∀ parent child t, lookupTransform (tries parent child) = some t →
      m.px.map (· + t.tx) = some a.x ∧ m.py.map (· + t.ty) = some a.y ∧
      ((tf.getYaw m.ori).bind fun u => (tf.getYaw t.rot).map fun v => u + v) = some a.yaw
  | .pose m => a.Seen tf m
  | .twist m => m.vx = some 0 ∧ m.wz = some 0
  | .timer .. => True

/-- Specification: a message says that the vehicle stands at the place. -/
def Place.Shown (a : Place) : Output → Prop
  | .transform _ _ _ pose => pose = ⟨a.x, a.y, some a.z, some a.roll, some a.pitch, a.yaw⟩
  | .odometry _ _ _ pose _ vx wz _ =>
    pose = ⟨a.x, a.y, some a.z, some a.roll, some a.pitch, a.yaw⟩ ∧ vx = 0 ∧ wz = 0

/-- The state of a vehicle at rest. -/
def Place.state (a : Place) : Fin 6 → ℝ := ![a.x, a.y, a.yaw, 0, 0, 0]

/-- A one-dimensional filter at rest. -/
def FilterAt (v : ℝ) (f : Simple1DFilter) : Prop :=
  f.initialized = true → f.x = some v ∧ ∃ s, f.stddev = some s

theorem filterAt_update {v : ℝ} {f : Simple1DFilter} (h : FilterAt v f) {c : ℝ} (hc : 0 < c)
    (time : ℤ) : FilterAt v (f.update (some v) (sqrtOpt c) time) ∧
      (f.update (some v) (sqrtOpt c) time).initialized = true := by
  have ho : 0 < Real.sqrt c := Real.sqrt_pos.2 hc
  simp only [sqrtOpt, if_neg hc.not_gt]
  by_cases hi : f.initialized = true
  · obtain ⟨h1, s, h2⟩ := h hi
    simp only [Simple1DFilter.update, hi, Bool.not_true, h2]
    have hne : f.predicted s time * f.predicted s time + Real.sqrt c * Real.sqrt c ≠ 0 := by
      have := mul_self_nonneg (f.predicted s time)
      have := mul_pos ho ho
      linarith
    simp only [Bool.false_eq_true, if_false, if_neg hne, h1]
    refine ⟨fun _ => ⟨?_, _, rfl⟩, trivial⟩
    simp
  · have hi' : f.initialized = false := by simpa using hi
    simp only [Simple1DFilter.update, hi', Bool.not_false, if_true, Simple1DFilter.init]
    exact ⟨fun _ => ⟨rfl, _, rfl⟩, trivial⟩

/-- The node of a vehicle at rest. -/
structure AtRest (a : Place) (s : NodeState N) : Prop where
  ekf : ∀ f, s.ekf = some f → f.x = initX a.state N ∧ s.z.initialized = true ∧
    s.roll.initialized = true ∧ s.pitch.initialized = true
  z : FilterAt a.z s.z
  roll : FilterAt a.roll s.roll
  pitch : FilterAt a.pitch s.pitch
  poseQ : ∀ m ∈ s.poseQ.msgs, a.Seen tf m
  twistQ : ∀ m ∈ s.twistQ.msgs, m.vx = some 0 ∧ m.wz = some 0

theorem predict_rest {a : Place} (ha : -Real.pi < a.yaw ∧ a.yaw ≤ Real.pi) (dt : ℝ) :
    predictNextState a.state dt = a.state := by
  funext i
  fin_cases i <;> simp [predictNextState, Place.state, C38_fixes a.yaw ha.1 ha.2]

theorem initX_latest (x0 : Fin 6 → ℝ) (f : TimeDelayKalmanFilter ℝ N 6) (h : f.x = initX x0 N) :
    f.getLatestX hN = x0 := by
  funext k
  simp only [TimeDelayKalmanFilter.getLatestX, h, initX]
  congr 1
  exact Fin.ext (Nat.mod_eq_of_lt k.isLt)

theorem predictStep_rest {a : Place} (ha : -Real.pi < a.yaw ∧ a.yaw ≤ Real.pi) (dt : ℝ)
    {f : TimeDelayKalmanFilter ℝ N 6} (h : f.x = initX a.state N) :
    (predictStep hN p dt f).x = initX a.state N := by
  simp only [predictStep, initX_latest hN _ f h, predict_rest ha]
  simp only [TimeDelayKalmanFilter.predict, h]
  funext i
  simp only [updateX, initX]
  split
  · rename_i hi
    congr 1
    exact Fin.ext (Nat.mod_eq_of_lt hi).symm
  · rename_i hi
    congr 1
    refine Fin.ext ?_
    simp only
    omega

/-- A measurement that agrees with the state. -/
theorem process_rest {h : ℕ} {sing : Bool} {stateOf : (Fin 6 → ℝ) → (Fin h → ℝ)}
    {covOf : Matrix (Fin 6) (Fin 6) ℝ → Matrix (Fin h) (Fin h) ℝ} {C : Matrix (Fin h) (Fin 6) ℝ}
    {gate dt : ℝ} {now stamp : ℤ} {y : Fin h → Option ℝ} {R : Matrix (Fin h) (Fin h) ℝ}
    {f f' : TimeDelayKalmanFilter ℝ N 6} {x0 : Fin 6 → ℝ} (hf : f.x = initX x0 N)
    (hy : y = fun i => some ((C *ᵥ x0) i))
    (hp : processMeasurement hN sing stateOf covOf C gate now dt stamp y R f = .ok f') :
    f'.x = initX x0 N := by
  obtain ⟨n, rfl⟩ : ∃ n, N = n + 1 := ⟨N - 1, by omega⟩
  have hall : allFinite y = some (C *ᵥ x0) := by
    subst hy
    simp [allFinite]
  simp only [processMeasurement, bind, Except.bind] at hp
  cases hd : computeDelayStep (computeDelayTime now stamp : ℝ) dt with
  | error e => rw [hd] at hp; cases hp
  | ok δ =>
    rw [hd] at hp
    simp only [hall] at hp
    split_ifs at hp with h1
    · injection hp with hp; subst hp; exact hf
    · cases hx : f.getX δ with
      | error e => rw [hx] at hp; cases hp
      | ok x =>
        rw [hx] at hp
        simp only at hp
        split_ifs at hp with h2
        · injection hp with hp; subst hp; exact hf
        · cases hu : f.update (C *ᵥ x0) C R δ with
          | ok g =>
            rw [hu] at hp
            injection hp with hp
            subst hp
            rw [← hf]
            refine update_exact (fun i _ => ?_) hu
            congr 1
            funext k
            simp only [blkX, hf, initX, slot_val]
            congr 1
            refine Fin.ext ?_
            simp only [Nat.add_mul_mod_self_left]
            exact (Nat.mod_eq_of_lt k.isLt).symm
          | error e =>
            rw [hu] at hp
            cases e <;> first | (injection hp with hp; subst hp; exact hf) | cases hp

theorem pose_vector {a : Place} (ha : -Real.pi < a.yaw ∧ a.yaw ≤ Real.pi) {m : PoseMsg}
    (hm : a.Seen tf m) :
    poseMeasurementVector tf m = fun i => some ((poseMeasurementMatrix *ᵥ a.state) i) := by
  obtain ⟨ψ, k, h1, h2⟩ := hm.yaw
  have hψ : normalizeYaw ψ = a.yaw := by
    rw [← C38_fixes a.yaw ha.1 ha.2, h2]
    simp only [normalizeYaw, Real.sin_add_int_mul_two_pi, Real.cos_add_int_mul_two_pi]
  funext i
  fin_cases i
  · simp [poseMeasurementVector, poseMeasurementMatrix, Place.state, hm.px, Matrix.mulVec,
      dotProduct, Fin.sum_univ_succ]
  · simp [poseMeasurementVector, poseMeasurementMatrix, Place.state, hm.py, Matrix.mulVec,
      dotProduct, Fin.sum_univ_succ]
  · simp [poseMeasurementVector, poseMeasurementMatrix, Place.state, h1, hψ, Matrix.mulVec,
      dotProduct, Fin.sum_univ_succ]

theorem twist_vector (a : Place) {m : TwistMsg} (hm : m.vx = some 0 ∧ m.wz = some 0) :
    twistMeasurementVector m = fun i => some ((twistMeasurementMatrix *ᵥ a.state) i) := by
  funext i
  fin_cases i
  · simp [twistMeasurementVector, twistMeasurementMatrix, Place.state, hm.1, Matrix.mulVec,
      dotProduct, Fin.sum_univ_succ]
  · simp [twistMeasurementVector, twistMeasurementMatrix, Place.state, hm.2, Matrix.mulVec,
      dotProduct, Fin.sum_univ_succ]

theorem step_rest {a : Place} (ha : -Real.pi < a.yaw ∧ a.yaw ≤ Real.pi) {s s' : NodeState N}
    {e : Event} {out : List Output} (hs : AtRest tf a s) (he : a.Agrees tf e)
    (h : step hN tf p s e = .ok (s', out)) : AtRest tf a s' ∧ ∀ o ∈ out, a.Shown o := by
  cases e with
  | initialPose m tries =>
    obtain ⟨hz, hr, hpi, ⟨c1, c2, c3⟩, ht⟩ := he
    simp only [step, initialPoseCallback, bind, Except.bind] at h
    cases h1 : eraseBeginSlash p.poseFrame with
    | error x => rw [h1] at h; cases h
    | ok parent =>
      rw [h1] at h
      simp only at h
      cases h2 : eraseBeginSlash m.frame with
      | error x => rw [h2] at h; cases h
      | ok child =>
        rw [h2] at h
        simp only at h
        cases h3 : lookupTransform (tries parent child) with
        | none => rw [h3] at h; cases h
        | some t =>
          rw [h3] at h
          obtain ⟨hx, hy, hyaw⟩ := ht _ _ _ h3
          obtain ⟨px, hpx, hx⟩ := Option.map_eq_some_iff.1 hx
          obtain ⟨py, hpy, hy⟩ := Option.map_eq_some_iff.1 hy
          obtain ⟨u, hu, hyaw⟩ := Option.bind_eq_some_iff.1 hyaw
          obtain ⟨v, hv, hyaw⟩ := Option.map_eq_some_iff.1 hyaw
          simp only [hpx, hpy, hu, hv, pure, Except.pure] at h
          injection h with h
          injection h with h h'
          subst h; subst h'
          simp only [updateSimple1DFilters, hz, hr, hpi]
          have fz := filterAt_update hs.z c1 m.stamp
          have fr := filterAt_update hs.roll c2 m.stamp
          have fp := filterAt_update hs.pitch c3 m.stamp
          refine ⟨⟨?_, fz.1, fr.1, fp.1, by simp [AgedQueue.clear], by simp [AgedQueue.clear]⟩, by simp⟩
          intro f hf
          injection hf with hf
          subst hf
          refine ⟨?_, fz.2, fr.2, fp.2⟩
          simp only [TimeDelayKalmanFilter.make, initState, Place.state, hx, hy, hyaw]
  | pose m =>
    simp only [step] at h
    injection h with h
    injection h with h h'
    subst h; subst h'
    simp only [updateSimple1DFilters, he.pz, he.roll, he.pitch]
    have fz := filterAt_update hs.z he.cov.1 m.stamp
    have fr := filterAt_update hs.roll he.cov.2.1 m.stamp
    have fp := filterAt_update hs.pitch he.cov.2.2 m.stamp
    refine ⟨⟨fun f hf => ⟨(hs.ekf f hf).1, fz.2, fr.2, fp.2⟩, fz.1, fr.1, fp.1, ?_, hs.twistQ⟩, by simp⟩
    intro m' hm'
    simp only [AgedQueue.push, List.mem_append, List.mem_singleton] at hm'
    rcases hm' with hm' | rfl
    · exact hs.poseQ m' hm'
    · exact he
  | twist m =>
    simp only [step] at h
    injection h with h
    injection h with h h'
    subst h; subst h'
    refine ⟨⟨hs.ekf, hs.z, hs.roll, hs.pitch, hs.poseQ, ?_⟩, by simp⟩
    intro m' hm'
    simp only [AgedQueue.push, List.mem_append, List.mem_singleton] at hm'
    rcases hm' with hm' | rfl
    · exact hs.twistQ m' hm'
    · exact he
  | timer t1 t2 t3 t4 t5 sp st =>
    simp only [step, timerCallback] at h
    split at h
    · injection h with h
      injection h with h h'
      subst h; subst h'
      exact ⟨hs, by simp⟩
    · rename_i f hf
      split at h
      · injection h with h
        injection h with h h'
        subst h; subst h'
        exact ⟨⟨hs.ekf, hs.z, hs.roll, hs.pitch, hs.poseQ, hs.twistQ⟩, by simp⟩
      · cases h
      · rename_i dt iv hiv
        simp only [bind, Except.bind] at h
        have hp0 := predictStep_rest hN p ha dt (hs.ekf f hf).1
        cases h1 : updateAll (processPose hN tf sp p.poseGate p.poseSmoothing t2 dt) s.poseQ
            (predictStep hN p dt f) with
        | error x => rw [h1] at h; cases h
        | ok r1 =>
          obtain ⟨f1, q1⟩ := r1
          rw [h1] at h
          simp only at h
          obtain ⟨i1, j1⟩ := updateLoop_inv _ (fun f => f.x = initX a.state N) (a.Seen tf)
            (fun m f f' hm hI hp => process_rest hN hI (pose_vector tf ha hm) hp) _ _ _ _ _ _
            hp0 hs.poseQ h1
          cases h2 : updateAll (processTwist hN st p.twistGate p.twistSmoothing t3 dt) s.twistQ
              f1 with
          | error x => rw [h2] at h; cases h
          | ok r2 =>
            obtain ⟨f2, q2⟩ := r2
            rw [h2] at h
            simp only [pure, Except.pure] at h
            obtain ⟨i2, j2⟩ := updateLoop_inv _ (fun f => f.x = initX a.state N)
              (fun m : TwistMsg => m.vx = some 0 ∧ m.wz = some 0)
              (fun m f f' hm hI hp => process_rest hN hI (twist_vector a hm) hp) _ _ _ _ _ _
              i1 hs.twistQ h2
            injection h with h
            injection h with h h'
            subst h; subst h'
            have hi := hs.ekf f hf
            refine ⟨⟨?_, hs.z, hs.roll, hs.pitch, j1, j2⟩, ?_⟩
            · intro g hg
              injection hg with hg
              subst hg
              exact ⟨i2, hi.2⟩
            · have e1 := initX_latest hN _ _ i2
              have ez : s.z.getX = some a.z := (hs.z hi.2.1).1
              have er : s.roll.getX = some a.roll := (hs.roll hi.2.2.1).1
              have ep : s.pitch.getX = some a.pitch := (hs.pitch hi.2.2.2).1
              intro o ho
              simp only [publish, e1, ez, er, ep, List.mem_cons, List.not_mem_nil, or_false] at ho
              rcases ho with rfl | rfl
              · simp [Place.Shown, Place.state]
              · simp [Place.Shown, Place.state]

/-- C117: if every pose message says that the vehicle is at one place and every twist message that it
does not move, then in every execution every published message says that it stands there, whatever the
order and the times of the messages, their covariances, the parameters and the gates. -/
theorem C117_at_rest {a : Place} (ha : -Real.pi < a.yaw ∧ a.yaw ≤ Real.pi) (es : List Event)
    (hes : ∀ e ∈ es, a.Agrees tf e) {s' : NodeState N} {out : List Output}
    (h : run hN tf p (NodeState.make N p) es = .ok (s', out)) : ∀ o ∈ out, a.Shown o := by
  have gen : ∀ (es : List Event) (s s' : NodeState N) (out : List Output), AtRest tf a s →
      (∀ e ∈ es, a.Agrees tf e) → run hN tf p s es = .ok (s', out) → ∀ o ∈ out, a.Shown o := by
    intro es
    induction es with
    | nil =>
      intro s s' out _ _ h
      simp only [run] at h
      injection h with h
      injection h with _ h
      subst h; simp
    | cons e es ih =>
      intro s s' out hs hes h
      simp only [run, bind, Except.bind] at h
      cases h1 : step hN tf p s e with
      | error x => rw [h1] at h; cases h
      | ok r =>
        obtain ⟨s1, o1⟩ := r
        rw [h1] at h
        simp only at h
        obtain ⟨hs1, ho1⟩ := step_rest hN tf p ha hs (hes e (by simp)) h1
        cases h2 : run hN tf p s1 es with
        | error x => rw [h2] at h; cases h
        | ok r2 =>
          obtain ⟨s2, o2⟩ := r2
          rw [h2] at h
          simp only [pure, Except.pure] at h
          injection h with h
          injection h with _ h
          subst h
          intro o ho
          rcases List.mem_append.1 ho with ho | ho
          · exact ho1 o ho
          · exact ih s1 s2 o2 hs1 (fun e he => hes e (by simp [he])) h2 o ho
  refine gen es _ _ _ ⟨?_, ?_, ?_, ?_, ?_, ?_⟩ hes h
  · intro f hf; cases hf
  · intro hc; cases hc
  · intro hc; cases hc
  · intro hc; cases hc
  · intro m hm; simp [NodeState.make, AgedQueue.make] at hm
  · intro m hm; simp [NodeState.make, AgedQueue.make] at hm

/-- C117 on well-formed input (`C70`): the node publishes all that is due, and all of it says that the
vehicle stands at the place. -/
theorem C117_well_formed {a : Place} (ha : -Real.pi < a.yaw ∧ a.yaw ≤ Real.pi) (L : ℝ) (hL : 0 < L)
    (hL10 : L ≤ 10) (hLf : L ≤ 1 / max p.defaultFrequency (1 / 10)) (hframe : p.poseFrame ≠ [])
    (es : List Event) (hwf : WellFormed tf L es) (hes : ∀ e ∈ es, a.Agrees tf e) :
    ∃ s out, run hN tf p (NodeState.make N p) es = .ok (s, out) ∧
      out.map Output.header = expected p.poseFrame es ∧ ∀ o ∈ out, a.Shown o := by
  obtain ⟨s, out, h1, h2⟩ := C70_no_failure hN tf p L hL hL10 hLf hframe es hwf
  exact ⟨s, out, h1, h2, C117_at_rest hN tf p ha es hes h1⟩

end Rest

/-! Non-vacuity. -/

/-- One tick at a place of height 10 publishes two messages that say so. -/
example : ∃ (s : NodeState 3) (o1 o2 : Output),
    run (by norm_num) flatTf defaultParams (NodeState.make 3 defaultParams)
      [.initialPose (poseAt 10 0) identityTries, .pose (poseAt 10 0),
        .timer 0 0 0 0 0 (fun _ => true) (fun _ => true)] = .ok (s, [o1, o2]) ∧
    (⟨0, 0, 10, 0, 0, 0⟩ : Place).Shown o1 ∧ (⟨0, 0, 10, 0, 0, 0⟩ : Place).Shown o2 := by
  have hp := Real.pi_pos
  obtain ⟨s, out, h1, h2, h3⟩ := C117_well_formed (N := 3) (by norm_num) flatTf defaultParams
    (a := ⟨0, 0, 10, 0, 0, 0⟩) ⟨by simpa using hp, hp.le⟩ (1 / 50) (by norm_num) (by norm_num)
    (by norm_num [defaultParams]) (by simp [defaultParams])
    [.initialPose (poseAt 10 0) identityTries, .pose (poseAt 10 0),
      .timer 0 0 0 0 0 (fun _ => true) (fun _ => true)]
    ⟨by
      intro e he
      simp only [List.mem_cons, List.not_mem_nil, or_false] at he
      rcases he with rfl | rfl | rfl
      · exact ⟨by simp [poseAt], rfl, rfl, rfl, fun a b => ⟨⟨0, by norm_num, rfl⟩, fun k t _ => rfl⟩⟩
      all_goals trivial,
    by change List.Pairwise _ [0]; simp,
    by
      intro e he t1 t2 t3 t4 t5 sp st hee stamp hst
      simp only [List.mem_cons, List.not_mem_nil, or_false] at he
      have : 0 = stamp := by simpa [Event.poseStamp, poseAt] using hst
      subst this
      rcases he with rfl | rfl | rfl <;> cases hee
      norm_num,
    by
      intro e he t1 t2 t3 t4 t5 sp st hee stamp hst
      simp [Event.twistStamp] at hst⟩
    (by
      intro e he
      simp only [List.mem_cons, List.not_mem_nil, or_false] at he
      rcases he with rfl | rfl | rfl
      · refine ⟨rfl, rfl, rfl, by simp [poseAt], fun parent child t ht => ?_⟩
        have : t = ⟨0, 0, 0, ⟨1, 0, 0, 0⟩⟩ := by
          simpa [lookupTransform, lookupLoop, identityTries] using ht.symm
        subst this
        simp [poseAt, flatTf]
      · exact ⟨rfl, rfl, rfl, rfl, rfl, ⟨0, 0, rfl, by simp⟩, by simp [poseAt]⟩
      · trivial)
  have hl : out.length = 2 := by
    have := congrArg List.length h2
    rw [List.length_map] at this
    rw [this]
    rfl
  match out, hl with
  | [o1, o2], _ => exact ⟨s, o1, o2, h1, h3 o1 (by simp), h3 o2 (by simp)⟩

/-- A state that moves by one, measured when it has moved again: the old and the new state are held. -/
example : (follow (n := 1) (TimeDelayKalmanFilter.make ![(0 : ℚ)] 1 2) (fun _ => ![0])
    [.move ![1] 1 1, .move ![2] 1 1, .measure 1 1 1 1]).1.getX 1 = .ok ![1] := by
  have h := C117_truth_is_kept (n := 1) ![(0 : ℚ)] 1 [.move ![1] 1 1, .move ![2] 1 1, .measure 1 1 1 1]
    1 (by norm_num)
  have h' : (follow (n := 1) (TimeDelayKalmanFilter.make ![(0 : ℚ)] 1 2) (fun _ => ![0])
      [.move ![1] 1 1, .move ![2] 1 1, .measure 1 1 1 1]).2 1 = ![1] := by
    simp only [follow]
    split <;> simp
  exact h.trans (congrArg Except.ok h')

end Verif.Ekf
