/-
C166: what a pose that is thrown away leaves behind.
-/
import Verif.Props.C162
import Verif.Props.C163

set_option autoImplicit false

namespace Verif.Ekf

open Matrix Verif.Kalman

/-! ### Specification -/

/-- Specification: what is published but for height, roll and pitch. -/
def Output.level : Output → Output
  | .transform t f c e => .transform t f c { e with z := none, roll := none, pitch := none }
  | .odometry t f c e P vx wz Q => .odometry t f c { e with z := none, roll := none, pitch := none } P vx wz Q

/-- Specification: the published height. -/
def Output.height : Output → Option ℝ
  | .transform _ _ _ e => e.z
  | .odometry _ _ _ e _ _ _ _ => e.z

theorem publish_level {N : ℕ} (hN : 0 < N) (p : EkfParams) (s s' : NodeState N) (f : TimeDelayKalmanFilter ℝ N 6)
    (t t' : ℤ) : (publish hN p s f t t').map Output.level = (publish hN p s' f t t').map Output.level := rfl

/-- The loop over messages that are all to be used again. -/
theorem updateAll_all {α F : Type} (process : α → F → Res F) (ms : List α) (as : List ℤ) (maxAge : ℤ) (f : F)
    (hl : as.length = ms.length) (ha : ∀ a ∈ as, a + 1 < maxAge) :
    updateAll process ⟨maxAge, ms, as⟩ f =
      (ms.foldlM (fun f m => process m f) f).map fun f => (f, ⟨maxAge, ms, as.map (· + 1)⟩) := by
  have := updateLoop_all process ms [] as [] maxAge 0 f hl rfl rfl ha
  simp only [List.append_nil, List.nil_append] at this
  exact this

/-- C166, what holds: if all poses that wait are to be used again, then in this tick a pose that is thrown away when
its turn comes makes no difference but to height, roll and pitch: the tick fails if it fails without that pose, and
if not, the filter is the same and all else that is published is the same. -/
theorem C166_tick_partial {N : ℕ} (hN : 0 < N) (tf : Tf2) (p : EkfParams) {s s' : NodeState N} (he : s'.ekf = s.ekf)
    (hi : s'.interval = s.interval) (ht : s'.twistQ = s.twistQ) {ms ms' : List PoseMsg} {m : PoseMsg} {as as' : List ℤ}
    {maxAge : ℤ} (hq : s.poseQ = ⟨maxAge, ms ++ m :: ms', as⟩) (hq' : s'.poseQ = ⟨maxAge, ms ++ ms', as'⟩)
    (hl : as.length = (ms ++ m :: ms').length) (hl' : as'.length = (ms ++ ms').length)
    (ha : ∀ a ∈ as, a + 1 < maxAge) (ha' : ∀ a ∈ as', a + 1 < maxAge) (t1 t2 t3 t4 t5 : ℤ) (sp : PoseMsg → Bool)
    (st : TwistMsg → Bool)
    (hm : ∀ f iv dt f', s.ekf = some f → s.interval.compute ((t1 : ℝ) / 1000000000) = (.ok dt, iv) →
      ms.foldlM (fun f m => processPose hN tf sp p.poseGate p.poseSmoothing t2 dt m f) (predictStep hN p dt f) = .ok f' →
      processPose hN tf sp p.poseGate p.poseSmoothing t2 dt m f' = .ok f') :
    (step hN tf p s (.timer t1 t2 t3 t4 t5 sp st)).map (fun r => (r.1.ekf, r.1.twistQ, r.2.map Output.level)) =
      (step hN tf p s' (.timer t1 t2 t3 t4 t5 sp st)).map (fun r => (r.1.ekf, r.1.twistQ, r.2.map Output.level)) := by
  simp only [step, timerCallback, he, hi]
  cases hf : s.ekf with
  | none => simp [Except.map, he, hf, ht]
  | some f =>
    rcases hc : s.interval.compute ((t1 : ℝ) / 1000000000) with ⟨r, iv⟩
    cases r with
    | error e => cases e <;> simp [Except.map, ht]
    | ok dt =>
      simp only [hq, hq', ht, updateAll_all _ _ _ _ _ hl ha, updateAll_all _ _ _ _ _ hl' ha', List.foldlM_append,
        List.foldlM_cons]
      have hm' := hm f iv dt
      cases h1 : ms.foldlM (fun f m => processPose hN tf sp p.poseGate p.poseSmoothing t2 dt m f)
          (predictStep hN p dt f) with
      | error e => rfl
      | ok f1 =>
        simp only [bind, Except.bind, hm' f1 hf hc h1]
        cases h2 : ms'.foldlM (fun f m => processPose hN tf sp p.poseGate p.poseSmoothing t2 dt m f) f1 with
        | error e => rfl
        | ok f2 =>
          simp only [Except.map]
          cases h3 : updateAll (processTwist hN st p.twistGate p.twistSmoothing t3 dt) s.twistQ f2 with
          | error e => rfl
          | ok r => rfl

/-- C166, what holds of twists: if all twists that wait are to be used again, then in this tick a twist that is thrown
away when its turn comes makes no difference to anything that is published, height, roll and pitch included. -/
theorem C166_twist_partial {N : ℕ} (hN : 0 < N) (tf : Tf2) (p : EkfParams) (s : NodeState N) {ms ms' : List TwistMsg}
    {m : TwistMsg} {as as' : List ℤ} {maxAge : ℤ} (hq : s.twistQ = ⟨maxAge, ms ++ m :: ms', as⟩)
    (hl : as.length = (ms ++ m :: ms').length) (hl' : as'.length = (ms ++ ms').length)
    (ha : ∀ a ∈ as, a + 1 < maxAge) (ha' : ∀ a ∈ as', a + 1 < maxAge) (t1 t2 t3 t4 t5 : ℤ) (sp : PoseMsg → Bool)
    (st : TwistMsg → Bool)
    (hm : ∀ f iv dt r f', s.ekf = some f → s.interval.compute ((t1 : ℝ) / 1000000000) = (.ok dt, iv) →
      updateAll (processPose hN tf sp p.poseGate p.poseSmoothing t2 dt) s.poseQ (predictStep hN p dt f) = .ok r →
      ms.foldlM (fun f m => processTwist hN st p.twistGate p.twistSmoothing t3 dt m f) r.1 = .ok f' →
      processTwist hN st p.twistGate p.twistSmoothing t3 dt m f' = .ok f') :
    (step hN tf p s (.timer t1 t2 t3 t4 t5 sp st)).map (fun r => (r.1.ekf, r.1.poseQ, r.2)) =
      (step hN tf p { s with twistQ := ⟨maxAge, ms ++ ms', as'⟩ } (.timer t1 t2 t3 t4 t5 sp st)).map
        (fun r => (r.1.ekf, r.1.poseQ, r.2)) := by
  simp only [step, timerCallback]
  cases hf : s.ekf with
  | none => simp [Except.map, hf]
  | some f =>
    rcases hc : s.interval.compute ((t1 : ℝ) / 1000000000) with ⟨r, iv⟩
    cases r with
    | error e => cases e <;> simp [Except.map]
    | ok dt =>
      simp only
      cases h1 : updateAll (processPose hN tf sp p.poseGate p.poseSmoothing t2 dt) s.poseQ (predictStep hN p dt f) with
      | error e => rfl
      | ok r =>
        simp only [bind, Except.bind, hq, updateAll_all _ _ _ _ _ hl ha, updateAll_all _ _ _ _ _ hl' ha',
          List.foldlM_append, List.foldlM_cons]
        cases h2 : ms.foldlM (fun f m => processTwist hN st p.twistGate p.twistSmoothing t3 dt m f) r.1 with
        | error e => rfl
        | ok f1 =>
          simp only [hm f iv dt r f1 hf hc h1 h2]
          cases h3 : ms'.foldlM (fun f m => processTwist hN st p.twistGate p.twistSmoothing t3 dt m f) f1 with
          | error e => rfl
          | ok f2 => rfl

/-! ### Poses that are used once -/

section Witness
variable {n : ℕ}

/-- A pose `e` metres ahead and `h` metres up, taken at the time of the tick, with unit variances. -/
noncomputable def highPose (e h : ℝ) : PoseMsg := { widePose e 1 with pz := some h }

/-- A run with some poses before the tick. -/
theorem gate_run {g : ℝ} (ms : List PoseMsg) {f' : TimeDelayKalmanFilter ℝ (n + 2) 6} {q : AgedQueue PoseMsg}
    (sp : PoseMsg → Bool) (st : TwistMsg → Bool)
    (hq : updateAll (processPose (n + 1).succ_pos flatTf sp (gateParams g).poseGate (gateParams g).poseSmoothing
      1000000000 1) (ms.foldl AgedQueue.push ⟨1, [], []⟩) (predictStep (n + 1).succ_pos offParams 1 (off0 (n := n + 1))) =
      .ok (f', q)) :
    ∃ (s s' : NodeState (n + 2)),
      run (n + 1).succ_pos flatTf (gateParams g) (NodeState.make (n + 2) (gateParams g)) (farEvents sp st ms) =
        .ok (s', publish (n + 1).succ_pos (gateParams g) s f' 1000000000 1000000000) ∧ s'.ekf = some f' ∧
      s.z = ms.foldl (fun z m => z.update m.pz (sqrtOpt (m.cov 14)) m.stamp)
        ((Simple1DFilter.make 1).update offStart.pz (sqrtOpt (offStart.cov 14)) offStart.stamp) := by
  have e1 : ∃ s1 : NodeState (n + 2), step (n + 1).succ_pos flatTf (gateParams g)
      (NodeState.make (n + 2) (gateParams g)) (.initialPose offStart identityTries) = .ok (s1, []) ∧
      s1.ekf = some off0 ∧ s1.interval = ⟨1, none⟩ ∧ s1.poseQ = ⟨1, [], []⟩ ∧ s1.twistQ = ⟨1, [], []⟩ ∧
      s1.z = (Simple1DFilter.make 1).update offStart.pz (sqrtOpt (offStart.cov 14)) offStart.stamp := by
    refine ⟨_, rfl, ?_, rfl, rfl, rfl, rfl⟩
    simp [updateSimple1DFilters, off0, offStart]
  obtain ⟨s1, r1, k1, i1, p1, t1, z1⟩ := e1
  have hg : ∀ (ms : List PoseMsg) (s : NodeState (n + 2)),
      (gathered flatTf s ms []).ekf = s.ekf ∧ (gathered flatTf s ms []).interval = s.interval ∧
      (gathered flatTf s ms []).poseQ = ms.foldl AgedQueue.push s.poseQ ∧
      (gathered flatTf s ms []).twistQ = s.twistQ ∧
      (gathered flatTf s ms []).z = ms.foldl (fun z m => z.update m.pz (sqrtOpt (m.cov 14)) m.stamp) s.z := by
    intro ms
    induction ms with
    | nil => intro s; exact ⟨rfl, rfl, rfl, rfl, rfl⟩
    | cons m ms ih => intro s; exact ih (updateSimple1DFilters flatTf { s with poseQ := s.poseQ.push m } m)
  have hp : ∀ ms : List PoseMsg, poses (ms.map Event.pose) = ms ∧ twists (ms.map Event.pose) = [] := by
    intro ms
    induction ms with
    | nil => exact ⟨rfl, rfl⟩
    | cons m ms ih => exact ⟨congrArg (m :: ·) ih.1, ih.2⟩
  obtain ⟨g1, g2, g3, g4, g5⟩ := hg ms s1
  set s := gathered flatTf s1 ms [] with hs
  have hc : s.interval.compute (((1000000000 : ℤ) : ℝ) / 1000000000) = (.ok 1, ⟨1, some 1⟩) := by
    rw [g2, i1]
    norm_num [UpdateInterval.compute, computeInterval]
  rw [← p1, ← g3] at hq
  have q1 : step (n + 1).succ_pos flatTf (gateParams g) s
      (.timer 1000000000 1000000000 1000000000 1000000000 1000000000 sp st) =
      .ok ({ s with ekf := some f', interval := ⟨1, some 1⟩, poseQ := q },
        publish (n + 1).succ_pos (gateParams g) s f' 1000000000 1000000000) := by
    simp only [step, timerCallback, g1, k1, hc, bind, Except.bind, far_predict, hq,
      updateAll_empty _ s.twistQ _ (by rw [g4, t1]), pure, Except.pure]
  refine ⟨s, { s with ekf := some f', interval := ⟨1, some 1⟩, poseQ := q }, ?_, rfl, by rw [g5, z1]⟩
  rw [farEvents, List.append_assoc, List.singleton_append, run, r1]
  simp only [bind, Except.bind]
  rw [run_gathered _ _ s1 (by simp [Event.measured]), (hp ms).1, (hp ms).2, ← hs, run, q1]
  rfl

/-- A pose too far away is thrown away. -/
theorem high_refused {g e : ℝ} (he : 101 / 100 * g ^ 2 < e ^ 2) (h : ℝ) (sp : PoseMsg → Bool) :
    processPose (n + 1).succ_pos flatTf sp (gateParams g).poseGate (gateParams g).poseSmoothing 1000000000 1
      (highPose e h) (predictStep (n + 1).succ_pos offParams 1 (off0 (n := n + 1))) =
      .ok (predictStep (n + 1).succ_pos offParams 1 (off0 (n := n + 1))) := by
  obtain ⟨h0, -, hM, -, -⟩ := far_blocks (n := n)
  refine (C159_pose_partial (p := gateParams g) (m := highPose e h) (v := ![e, 0, 0]) (δ := 0) (wide_delay e 1)
    (wide_vector e 1) rfl ?_).1 ?_
  · rw [hM, Matrix.det_diagonal]
    simp [Fin.prod_univ_three]
    norm_num
  · rw [hM, h0, wide_distance (by norm_num) one_pos (by norm_num), lt_div_iff₀ (by norm_num)]
    simp only [gateParams]
    linarith

/-- What is published of a filter on the axis. -/
theorem gate_shown {g x : ℝ} (s : NodeState (n + 2)) {f : TimeDelayKalmanFilter ℝ (n + 2) 6}
    (hx : blkX f.x 0 = ![x, 0, 0, 0, 0, 0]) :
    (publish (n + 1).succ_pos (gateParams g) s f 1000000000 1000000000).map Output.whereabouts =
      [(1000000000, x, 0, 0), (1000000000, x, 0, 0)] := by
  simp [publish, Output.whereabouts, latest_blkX, hx]

/-- C166, violated: a pose so far away that it is thrown away moves the height that is published. -/
theorem C166_height_violated {g e : ℝ} (he : 101 / 100 * g ^ 2 < e ^ 2) (h : ℝ) (sp : PoseMsg → Bool)
    (st : TwistMsg → Bool) :
    ∃ (f : TimeDelayKalmanFilter ℝ (n + 2) 6) (s1 s2 : NodeState (n + 2)) (o1 o2 : List Output),
      run (n + 1).succ_pos flatTf (gateParams g) (NodeState.make (n + 2) (gateParams g))
        (farEvents sp st []) = .ok (s1, o1) ∧
      run (n + 1).succ_pos flatTf (gateParams g) (NodeState.make (n + 2) (gateParams g))
        (farEvents sp st [highPose e h]) = .ok (s2, o2) ∧
      s1.ekf = some f ∧ s2.ekf = some f ∧ o1.map Output.level = o2.map Output.level ∧
      o1.map Output.height = [some 0, some 0] ∧ o2.map Output.height = [some (2 / 3 * h), some (2 / 3 * h)] := by
  obtain ⟨a1, b1, r1, k1, z1⟩ := gate_run (g := g) (n := n) [] sp st (updateAll_empty _ _ _ rfl)
  have hq : updateAll (processPose (n + 1).succ_pos flatTf sp (gateParams g).poseGate (gateParams g).poseSmoothing
      1000000000 1) ([highPose e h].foldl AgedQueue.push ⟨1, [], []⟩)
      (predictStep (n + 1).succ_pos offParams 1 (off0 (n := n + 1))) =
      .ok (predictStep (n + 1).succ_pos offParams 1 (off0 (n := n + 1)), ⟨1, [], []⟩) := by
    simp only [updateAll, AgedQueue.push, AgedQueue.size, List.foldl_cons, List.foldl_nil, List.nil_append,
      List.length_singleton, updateLoop, AgedQueue.pop, bind, Except.bind]
    simp [high_refused he h sp]
  obtain ⟨a2, b2, r2, k2, z2⟩ := gate_run [highPose e h] sp st hq
  have hz0 : (Simple1DFilter.make 1).update offStart.pz (sqrtOpt (offStart.cov 14)) offStart.stamp =
      ⟨true, some 0, some 1, 1, 0⟩ := by
    simp [Simple1DFilter.update, Simple1DFilter.make, Simple1DFilter.init, offStart, sqrtOpt]
  have hsq : sqrtOpt ((highPose e h).cov 14) = some 1 := by simp [highPose, widePose, sqrtOpt]
  rw [hz0, List.foldl_nil] at z1
  rw [hz0, List.foldl_cons, List.foldl_nil, hsq] at z2
  have hz2 : a2.z.getX = some (2 / 3 * h) := by
    rw [z2]
    change (Simple1DFilter.update ⟨true, some 0, some 1, 1, 0⟩ (some h) (some 1) 1000000000).getX = _
    rw [late_closed (f := ⟨true, some 0, some 1, 1, 0⟩) (s := 1) (d := 1) (v := 2) rfl rfl one_pos h 1000000000
      (by norm_num)]
    simp only [Simple1DFilter.getX, Option.map_some]
    congr 1
    ring
  refine ⟨_, b1, b2, _, _, r1, r2, k1, k2, rfl, ?_, ?_⟩
  · simp [publish, Output.height, Simple1DFilter.getX, z1]
  · simp [publish, Output.height, hz2]

/-- C166, violated: if poses are used once, a pose that is thrown away keeps the pose after it from being used in the
same tick: what is published is what is published without any pose, not what is published with the good one. -/
theorem C166_waits_violated {g d e : ℝ} (hd : 101 / 100 * g ^ 2 < d ^ 2) (he : e ^ 2 ≤ 101 / 100 * g ^ 2)
    (sp : PoseMsg → Bool) (st : TwistMsg → Bool) :
    ∃ (s1 s2 s3 : NodeState (n + 2)) (o1 o2 o3 : List Output),
      run (n + 1).succ_pos flatTf (gateParams g) (NodeState.make (n + 2) (gateParams g))
        (farEvents sp st []) = .ok (s1, o1) ∧
      run (n + 1).succ_pos flatTf (gateParams g) (NodeState.make (n + 2) (gateParams g))
        (farEvents sp st [farPose e]) = .ok (s2, o2) ∧
      run (n + 1).succ_pos flatTf (gateParams g) (NodeState.make (n + 2) (gateParams g))
        (farEvents sp st [highPose d 0, farPose e]) = .ok (s3, o3) ∧
      o1.map Output.whereabouts = [(1000000000, 0, 0, 0), (1000000000, 0, 0, 0)] ∧
      o2.map Output.whereabouts = [(1000000000, e / 2, 0, 0), (1000000000, e / 2, 0, 0)] ∧
      o3.map Output.level = o1.map Output.level := by
  obtain ⟨h0, h1, hM, h01, h11⟩ := far_blocks (n := n)
  obtain ⟨a1, b1, r1, -, -⟩ := gate_run (g := g) (n := n) [] sp st (updateAll_empty _ _ _ rfl)
  obtain ⟨f', hf', hx'⟩ := far_taken he h0 h1 hM h01 h11 sp
  have hq2 : updateAll (processPose (n + 1).succ_pos flatTf sp (gateParams g).poseGate (gateParams g).poseSmoothing
      1000000000 1) ([farPose e].foldl AgedQueue.push ⟨1, [], []⟩)
      (predictStep (n + 1).succ_pos offParams 1 (off0 (n := n + 1))) = .ok (f', ⟨1, [], []⟩) := by
    simp only [updateAll, AgedQueue.push, AgedQueue.size, List.foldl_cons, List.foldl_nil, List.nil_append,
      List.length_singleton, updateLoop, AgedQueue.pop, bind, Except.bind]
    simp [hf']
  obtain ⟨a2, b2, r2, -, -⟩ := gate_run [farPose e] sp st hq2
  have hq3 : updateAll (processPose (n + 1).succ_pos flatTf sp (gateParams g).poseGate (gateParams g).poseSmoothing
      1000000000 1) ([highPose d 0, farPose e].foldl AgedQueue.push ⟨1, [], []⟩)
      (predictStep (n + 1).succ_pos offParams 1 (off0 (n := n + 1))) =
      .ok (predictStep (n + 1).succ_pos offParams 1 (off0 (n := n + 1)), ⟨1, [farPose e], [0]⟩) := by
    simp only [updateAll, AgedQueue.push, AgedQueue.size, List.foldl_cons, List.foldl_nil, List.nil_append,
      List.cons_append, List.length_cons, List.length_nil, updateLoop, AgedQueue.pop, bind, Except.bind]
    simp [high_refused hd 0 sp]
  obtain ⟨a3, b3, r3, -, -⟩ := gate_run [highPose d 0, farPose e] sp st hq3
  refine ⟨b1, b2, b3, _, _, _, r1, r2, r3, ?_, gate_shown a2 hx', rfl⟩
  refine gate_shown a1 ?_
  rw [h0]
  funext i
  fin_cases i <;> rfl

end Witness

/-! Non-vacuity. -/

/-- A limit of two, a pose three metres away and one that is a metre away. -/
example : (101 / 100 * 2 ^ 2 : ℝ) < 3 ^ 2 ∧ (1 : ℝ) ^ 2 ≤ 101 / 100 * 2 ^ 2 := by norm_num

/-- Two poses that wait to be used again, of which the first is thrown away. -/
example (sp : PoseMsg → Bool) (s : NodeState 2) (hs : s.ekf = some off0) (hi : s.interval = ⟨1, none⟩) :
    (∀ a ∈ [(0 : ℤ), 0], a + 1 < 2) ∧
    ∀ f iv dt f', s.ekf = some f → s.interval.compute (((1000000000 : ℤ) : ℝ) / 1000000000) = (.ok dt, iv) →
      ([] : List PoseMsg).foldlM (fun f m => processPose two_pos flatTf sp (gateParams 2).poseGate
        (gateParams 2).poseSmoothing 1000000000 dt m f) (predictStep two_pos (gateParams 2) dt f) = .ok f' →
      processPose two_pos flatTf sp (gateParams 2).poseGate (gateParams 2).poseSmoothing 1000000000 dt
        (highPose 3 0) f' = .ok f' := by
  refine ⟨by simp, ?_⟩
  intro f iv dt f' hf hc hr
  have hdt : dt = 1 := by
    have : s.interval.compute (((1000000000 : ℤ) : ℝ) / 1000000000) = (.ok 1, ⟨1, some 1⟩) := by
      rw [hi]
      norm_num [UpdateInterval.compute, computeInterval]
    rw [this] at hc
    injection hc with hc _
    injection hc with hc
    exact hc.symm
  subst hdt
  rw [hs] at hf
  injection hf with hf
  subst hf
  injection hr with hr
  subst hr
  exact high_refused (n := 0) (g := 2) (e := 3) (by norm_num) 0 sp

/-- A twist with NaN is thrown away, whatever the filter. -/
example (st : TwistMsg → Bool) (f : TimeDelayKalmanFilter ℝ 2 6) :
    processTwist two_pos st (gateParams 2).twistGate (gateParams 2).twistSmoothing 1000000000 1
      ⟨['b'], 1000000000, none, some 0, fun _ => 1⟩ f = .ok f := by
  have hd := wide_delay (n := 0) 0 1
  have hy : allFinite (twistMeasurementVector ⟨['b'], 1000000000, none, some 0, fun _ => 1⟩) = none := by
    rw [allFinite, dif_neg]
    intro h
    have := h 0
    simp [twistMeasurementVector] at this
  have hd' : computeDelayStep (computeDelayTime 1000000000 1000000000 : ℝ) 1 =
      .ok (((0 : Fin 2).val : ℕ) : ℤ) := hd
  simp only [processTwist, processMeasurement, hd', bind, Except.bind, hy]
  split <;> rfl

end Verif.Ekf
