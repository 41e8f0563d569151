/-
C169: height and uncertainty of initial poses that are given in other frames.
-/
import Verif.Props.C140

set_option autoImplicit false

namespace Verif.Ekf

open Matrix Verif.Kalman

/-! ### Specification -/

/-- Specification: the height of a vector rotated by a unit quaternion. -/
def rotatedHeight (q : Quat) (x y z : ℝ) : ℝ :=
  2 * (q.x * q.z - q.w * q.y) * x + 2 * (q.y * q.z + q.w * q.x) * y + (1 - 2 * (q.x ^ 2 + q.y ^ 2)) * z

/-- Specification: the height at which the rigid transform `t` puts a position. -/
def mappedHeight (t : Transform) (px py pz : ℝ) : ℝ := rotatedHeight t.rot px py pz + t.tz

/-- Specification: the covariance of x and y of a message. -/
def PoseMsg.covXY (m : PoseMsg) : Matrix (Fin 2) (Fin 2) ℝ := !![m.cov 0, m.cov 1; m.cov 6, m.cov 7]

/-- Specification: the turn in the plane by the angle whose half has cosine `c` and sine `d`. -/
def planeTurn (c d : ℝ) : Matrix (Fin 2) (Fin 2) ℝ :=
  !![c * c - d * d, -(2 * c * d); 2 * c * d, c * c - d * d]

/-- Specification: the covariance of a position that is turned. -/
def turnedCov (c d : ℝ) (C : Matrix (Fin 2) (Fin 2) ℝ) : Matrix (Fin 2) (Fin 2) ℝ :=
  planeTurn c d * C * (planeTurn c d)ᵀ

/-- Specification: the part for x and y. -/
def partXY (P : Matrix (Fin 6) (Fin 6) ℝ) : Matrix (Fin 2) (Fin 2) ℝ := !![P 0 0, P 0 1; P 1 0, P 1 1]

/-- The turn of the specification is the turn by the quaternion. -/
theorem planeTurn_rotateXY (c d x y z : ℝ) (h : c * c + d * d = 1) :
    planeTurn c d *ᵥ ![x, y] = ![(rotateXY ⟨c, 0, 0, d⟩ x y z).1, (rotateXY ⟨c, 0, 0, d⟩ x y z).2] := by
  ext i
  fin_cases i <;> simp [planeTurn, rotateXY, Matrix.mulVec, dotProduct, Fin.sum_univ_two]
  · linear_combination x * h
  · linear_combination y * h

/-! ### Height, roll and pitch -/

/-- C169: in every execution that begins with an initial pose, what is published as height (roll, pitch) before
another pose comes is what the message says, whatever the transform between the frames. -/
theorem C169_as_said {N : ℕ} (hN : 0 < N) (tf : Tf2) (p : EkfParams) (q : Part) (m : PoseMsg)
    (tries : List Char → List Char → ℕ → Option Transform) {es : List Event} (hes : poses es = [])
    {s s' : NodeState N} {out o : List Output}
    (hrun : Ekf.run hN tf p (NodeState.make N p) (.initialPose m tries :: es) = .ok (s, out)) {t1 t2 t3 t4 t5 : ℤ}
    {sp : PoseMsg → Bool} {st : TwistMsg → Bool}
    (hstep : step hN tf p s (.timer t1 t2 t3 t4 t5 sp st) = .ok (s', o)) :
    ∀ a ∈ o, q.published a.estimate = q.said tf m := by
  intro a ha
  rw [(timer_part hstep q).2 a ha, run_part q _ hrun]
  simp only [poses, hes, List.map_cons, List.map_nil, Simple1DFilter.run, List.foldl_cons, List.foldl_nil, Part.obs]
  cases q <;> rfl

/-- C169, what holds of the height: let the transform turn about the vertical axis. The height published is that of
the mapped position if and only if the origins of the two frames are at the same height. Missing: origins at different
heights (`C169_height_violated`). -/
theorem C169_height_partial {N : ℕ} (hN : 0 < N) (tf : Tf2) (p : EkfParams) (m : PoseMsg) (t : Transform) (c d : ℝ)
    (ht : t.rot = ⟨c, 0, 0, d⟩) (px py pz : ℝ) (hz : m.pz = some pz) {es : List Event} (hes : poses es = [])
    {s s' : NodeState N} {out o : List Output}
    (hrun : Ekf.run hN tf p (NodeState.make N p) (.initialPose m (fun _ _ _ => some t) :: es) = .ok (s, out))
    {t1 t2 t3 t4 t5 : ℤ} {sp : PoseMsg → Bool} {st : TwistMsg → Bool}
    (hstep : step hN tf p s (.timer t1 t2 t3 t4 t5 sp st) = .ok (s', o)) :
    ∀ a ∈ o, (a.estimate.z = some (mappedHeight t px py pz) ↔ t.tz = 0) := by
  intro a ha
  have h := C169_as_said hN tf p .height m _ hes hrun hstep a ha
  simp only [Part.published, Part.said] at h
  rw [h, hz, Option.some.injEq]
  simp [mappedHeight, rotatedHeight, ht]

/-- C169, violation: the frame of the initial pose lies `h` above the filter's frame. The height published is that of
the message, 2, not `2 + h`. -/
theorem C169_height_violated (h : ℝ) (hh : h ≠ 0) (t4 t5 : ℤ) (sp : PoseMsg → Bool) (st : TwistMsg → Bool) :
    ∃ (s' : NodeState 1) (o : List Output),
      Ekf.run Nat.one_pos flatTf defaultParams (NodeState.make 1 defaultParams)
        [.initialPose (poseAt 2 0) fun _ _ _ => some ⟨0, 0, h, ⟨1, 0, 0, 0⟩⟩, .timer 0 0 0 t4 t5 sp st] =
        .ok (s', o) ∧ o.length = 2 ∧
      ∀ a ∈ o, a.estimate.z = some 2 ∧ a.estimate.z ≠ some (mappedHeight ⟨0, 0, h, ⟨1, 0, 0, 0⟩⟩ 0 0 2) := by
  refine ⟨_, _, rfl, rfl, fun a ha => ?_⟩
  have e : a.estimate.z = some 2 := by
    simp only [List.mem_append, List.not_mem_nil, or_false, false_or] at ha
    rcases List.mem_cons.1 ha with rfl | ha
    · rfl
    · rcases List.mem_cons.1 ha with rfl | ha
      · rfl
      · exact absurd ha (by simp)
  refine ⟨e, ?_⟩
  rw [e]
  simpa [mappedHeight, rotatedHeight] using hh

/-! ### Uncertainty -/

/-- What the filter takes as covariance of x and y. -/
theorem initial_covariance {N : ℕ} (hN : 0 < N) (tf : Tf2) (p : EkfParams) (s : NodeState N)
    (m : PoseMsg) (t : Transform) (px py yaw0 yaw1 : ℝ) (hx : m.px = some px) (hy : m.py = some py)
    (hq : tf.getYaw m.ori = some yaw0) (hq1 : tf.getYaw t.rot = some yaw1) (hp : p.poseFrame ≠ [])
    (hm : m.frame ≠ []) :
    ∃ s' f, step hN tf p s (.initialPose m fun _ _ _ => some t) = .ok (s', []) ∧ s'.ekf = some f ∧
      partXY (f.getLatestP hN) = !![m.cov 0, 0; 0, m.cov 7] := by
  obtain ⟨a, ha, -⟩ := C42_names_partial _ hp
  obtain ⟨b, hb, -⟩ := C42_names_partial _ hm
  refine ⟨_, _, initialPose_ok hN tf p s m (fun _ _ _ => some t) a b ha hb t rfl px py yaw0 yaw1 hx hy
    hq hq1, rfl, ?_⟩
  simp [partXY, TimeDelayKalmanFilter.getLatestP, TimeDelayKalmanFilter.make, initP, initCovariance,
    Matrix.diagonal]

/-- C169, what holds of the uncertainty without a turn between the frames: the filter starts with the covariance of
x and y of the message if and only if the two are uncorrelated. Missing: correlated ones. -/
theorem C169_correlation_partial {N : ℕ} (hN : 0 < N) (tf : Tf2) (p : EkfParams) (s : NodeState N)
    (m : PoseMsg) (t : Transform) (ht : t.rot = ⟨1, 0, 0, 0⟩) (px py yaw0 yaw1 : ℝ) (hx : m.px = some px) (hy : m.py = some py)
    (hq : tf.getYaw m.ori = some yaw0) (hq1 : tf.getYaw t.rot = some yaw1) (hp : p.poseFrame ≠ [])
    (hm : m.frame ≠ []) :
    ∃ s' f, step hN tf p s (.initialPose m fun _ _ _ => some t) = .ok (s', []) ∧ s'.ekf = some f ∧
      (partXY (f.getLatestP hN) = turnedCov t.rot.w t.rot.z m.covXY ↔ m.cov 1 = 0 ∧ m.cov 6 = 0) := by
  obtain ⟨s', f, h1, h2, h3⟩ := initial_covariance hN tf p s m t px py yaw0 yaw1 hx hy hq hq1 hp hm
  refine ⟨s', f, h1, h2, ?_⟩
  rw [h3]
  have e : turnedCov 1 0 m.covXY = m.covXY := by
    ext i j
    fin_cases i <;> fin_cases j <;> simp [turnedCov, planeTurn, PoseMsg.covXY, Matrix.mul_apply, Fin.sum_univ_two]
  rw [ht, e, PoseMsg.covXY, ← Matrix.ext_iff]
  simp [Fin.forall_fin_two, eq_comm]

/-- C169, what holds of the uncertainty of uncorrelated x and y: let the transform turn about the vertical axis. The
filter starts with the covariance of the mapped position if and only if x and y are equally uncertain or the turn is by
a multiple of a half turn. Missing: all others (`C169_uncertainty_violated`). -/
theorem C169_uncertainty_partial {N : ℕ} (hN : 0 < N) (tf : Tf2) (p : EkfParams) (s : NodeState N)
    (m : PoseMsg) (t : Transform) (c d : ℝ) (hunit : c * c + d * d = 1) (ht : t.rot = ⟨c, 0, 0, d⟩)
    (h01 : m.cov 1 = 0) (h10 : m.cov 6 = 0) (px py yaw0 yaw1 : ℝ) (hx : m.px = some px) (hy : m.py = some py)
    (hq : tf.getYaw m.ori = some yaw0) (hq1 : tf.getYaw t.rot = some yaw1) (hp : p.poseFrame ≠ [])
    (hm : m.frame ≠ []) :
    ∃ s' f, step hN tf p s (.initialPose m fun _ _ _ => some t) = .ok (s', []) ∧ s'.ekf = some f ∧
      (partXY (f.getLatestP hN) = turnedCov t.rot.w t.rot.z m.covXY ↔ m.cov 0 = m.cov 7 ∨ c = 0 ∨ d = 0) := by
  obtain ⟨s', f, h1, h2, h3⟩ := initial_covariance hN tf p s m t px py yaw0 yaw1 hx hy hq hq1 hp hm
  refine ⟨s', f, h1, h2, ?_⟩
  rw [h3, ht]
  have u : (c * c - d * d) ^ 2 = 1 - (2 * c * d) ^ 2 := by
    linear_combination (c * c + d * d + 1) * hunit
  have e : turnedCov c d m.covXY =
      !![m.cov 0 + (2 * c * d) ^ 2 * (m.cov 7 - m.cov 0), (c * c - d * d) * (2 * c * d) * (m.cov 0 - m.cov 7);
        (c * c - d * d) * (2 * c * d) * (m.cov 0 - m.cov 7), m.cov 7 + (2 * c * d) ^ 2 * (m.cov 0 - m.cov 7)] := by
    ext i j
    fin_cases i <;> fin_cases j <;>
      simp [turnedCov, planeTurn, PoseMsg.covXY, Matrix.mul_apply, Fin.sum_univ_two, h01, h10]
    · linear_combination m.cov 0 * u
    · ring
    · ring
    · linear_combination m.cov 7 * u
  rw [e, ← Matrix.ext_iff]
  constructor
  · intro h
    have k := h 0 0
    simp at k
    rcases k with k | k
    · tauto
    · exact Or.inl (by linarith)
  · rintro (h | rfl | rfl) i j <;> fin_cases i <;> fin_cases j <;> simp [*]

/-- C169, violation: known to 2 metres along its frame's x axis and to 1 metre across, and the frames are turned against
each other. The filter takes 4 as variance of x, where it is 772/625. -/
theorem C169_uncertainty_violated {N : ℕ} (hN : 0 < N) (s : NodeState N) (m : PoseMsg)
    (hm : m = ⟨"odom".toList, 0, some 0, some 0, some 0, ⟨1, 0, 0, 0⟩, fun i => if i = 0 then 4 else if i = 7 then 1 else 0⟩) :
    ∃ s' f, step hN flatTf defaultParams s (.initialPose m fun _ _ _ => some ⟨0, 0, 0, ⟨3 / 5, 0, 0, 4 / 5⟩⟩) =
        .ok (s', []) ∧ s'.ekf = some f ∧ f.getLatestP hN 0 0 = 4 ∧
      turnedCov (3 / 5) (4 / 5) m.covXY 0 0 = 772 / 625 := by
  subst hm
  obtain ⟨s', f, h1, h2, h3⟩ := initial_covariance hN flatTf defaultParams s
    ⟨"odom".toList, 0, some 0, some 0, some 0, ⟨1, 0, 0, 0⟩, fun i => if i = 0 then 4 else if i = 7 then 1 else 0⟩
    ⟨0, 0, 0, ⟨3 / 5, 0, 0, 4 / 5⟩⟩ 0 0 0 0 rfl rfl rfl rfl (by decide) (by decide)
  refine ⟨s', f, h1, h2, ?_, ?_⟩
  · have := congrFun (congrFun h3 0) 0
    simpa [partXY] using this
  · have e1 : (6 : Fin 36) ≠ 0 ∧ (6 : Fin 36) ≠ 7 ∧ (7 : Fin 36) ≠ 0 ∧ (1 : Fin 36) ≠ 7 := by decide
    simp [turnedCov, planeTurn, PoseMsg.covXY, Matrix.mul_apply, Fin.sum_univ_two, e1]
    norm_num

/-! Non-vacuity. -/

/-- The hypotheses of `C169_height_partial`: frames a metre apart in height, so that the height is wrong. -/
example (sp : PoseMsg → Bool) (st : TwistMsg → Bool) {s s' : NodeState 1} {out o : List Output}
    (hrun : Ekf.run Nat.one_pos flatTf defaultParams (NodeState.make 1 defaultParams)
      [.initialPose (poseAt 2 0) fun _ _ _ => some ⟨0, 0, 1, ⟨3 / 5, 0, 0, 4 / 5⟩⟩] = .ok (s, out))
    (hstep : step Nat.one_pos flatTf defaultParams s (.timer 0 0 0 0 0 sp st) = .ok (s', o)) :
    ∀ a ∈ o, a.estimate.z ≠ some 3 := by
  intro a ha h
  have := (C169_height_partial Nat.one_pos flatTf defaultParams (poseAt 2 0) ⟨0, 0, 1, ⟨3 / 5, 0, 0, 4 / 5⟩⟩ (3 / 5)
    (4 / 5) rfl 0 0 2 rfl rfl hrun hstep a ha).1 (by rw [h]; norm_num [mappedHeight, rotatedHeight])
  norm_num at this

/-- Such a run exists and publishes. -/
example (sp : PoseMsg → Bool) (st : TwistMsg → Bool) : ∃ (s s' : NodeState 1) (out o : List Output),
    Ekf.run Nat.one_pos flatTf defaultParams (NodeState.make 1 defaultParams)
      [.initialPose (poseAt 2 0) fun _ _ _ => some ⟨0, 0, 1, ⟨3 / 5, 0, 0, 4 / 5⟩⟩] = .ok (s, out) ∧
    step Nat.one_pos flatTf defaultParams s (.timer 0 0 0 0 0 sp st) = .ok (s', o) ∧ o.length = 2 :=
  ⟨_, _, _, _, rfl, rfl, rfl⟩

/-- A turn by a half turn leaves variances 4 and 1 right. -/
example : ∃ s' f, step Nat.one_pos flatTf defaultParams (NodeState.make 1 defaultParams)
      (.initialPose ⟨"odom".toList, 0, some 0, some 0, some 0, ⟨1, 0, 0, 0⟩,
        fun i => if i = 0 then 4 else if i = 7 then 1 else 0⟩ fun _ _ _ => some ⟨0, 0, 0, ⟨0, 0, 0, 1⟩⟩) = .ok (s', []) ∧
    s'.ekf = some f ∧ partXY (f.getLatestP Nat.one_pos) =
      turnedCov 0 1 (PoseMsg.covXY ⟨"odom".toList, 0, some 0, some 0, some 0, ⟨1, 0, 0, 0⟩,
        fun i => if i = 0 then 4 else if i = 7 then 1 else 0⟩) := by
  obtain ⟨s', f, h1, h2, h3⟩ := C169_uncertainty_partial Nat.one_pos flatTf defaultParams
    (NodeState.make 1 defaultParams) ⟨"odom".toList, 0, some 0, some 0, some 0, ⟨1, 0, 0, 0⟩,
        fun i => if i = 0 then 4 else if i = 7 then 1 else 0⟩ ⟨0, 0, 0, ⟨0, 0, 0, 1⟩⟩ 0 1 (by norm_num) rfl
    (by simp) (by simp) 0 0 0 0 rfl rfl rfl rfl (by decide) (by decide)
  exact ⟨s', f, h1, h2, h3.2 (Or.inr (Or.inl rfl))⟩

/-- Correlated x and y, frames that agree: the correlation is lost. -/
example : ∃ s' f, step Nat.one_pos flatTf defaultParams (NodeState.make 1 defaultParams)
      (.initialPose (poseAt 2 0) fun _ _ _ => some ⟨0, 0, 0, ⟨1, 0, 0, 0⟩⟩) = .ok (s', []) ∧
    s'.ekf = some f ∧ partXY (f.getLatestP Nat.one_pos) ≠ turnedCov 1 0 (poseAt 2 0).covXY := by
  obtain ⟨s', f, h1, h2, h3⟩ := C169_correlation_partial Nat.one_pos flatTf defaultParams
    (NodeState.make 1 defaultParams) (poseAt 2 0) ⟨0, 0, 0, ⟨1, 0, 0, 0⟩⟩ rfl 0 0 0 0 rfl rfl rfl rfl
    (by decide) (by decide)
  refine ⟨s', f, h1, h2, fun h => ?_⟩
  have := (h3.1 h).1
  norm_num [poseAt] at this

end Verif.Ekf
