/-
C167: poses and twists given in other frames.
-/
import Verif.Props.C166
import Verif.Lemmas.EkfNaNRefines

set_option autoImplicit false

namespace Verif.Ekf

open Matrix Verif.Kalman

/-! ### Specification -/

/-- Specification: a pose without the name of its frame. -/
def PoseMsg.unnamed (m : PoseMsg) : PoseMsg := { m with frame := [] }

/-- Specification: a twist without the name of its frame. -/
def TwistMsg.unnamed (m : TwistMsg) : TwistMsg := { m with frame := [] }

/-- Specification: what is received, but for the names of the frames of measured poses and twists. -/
def Event.unnamed : Event → Event
  | .pose m => .pose m.unnamed
  | .twist m => .twist m.unnamed
  | e => e

/-- Specification: what the gates answer for singular covariances has nothing to do with names of frames. -/
def Event.NamesIrrelevant : Event → Prop
  | .timer _ _ _ _ _ sp st => (∀ m, sp m.unnamed = sp m) ∧ ∀ m, st m.unnamed = st m
  | _ => True

/-- Specification: the pose in the frame called `c`, if the origin of its own frame is `e` metres ahead in that one
and the axes are parallel. -/
noncomputable def PoseMsg.movedTo (c : List Char) (e : ℝ) (m : PoseMsg) : PoseMsg :=
  { m with frame := c, px := m.px.map (· + e) }

/-! ### Names of frames do not count -/

section Names
variable {N : ℕ} {hN : 0 < N} {tf : Tf2} {p : EkfParams}

/-- The node with the names erased. -/
def NodeState.unnamed (s : NodeState N) : NodeState N :=
  { s with poseQ := EkfNaN.mapQueue PoseMsg.unnamed s.poseQ, twistQ := EkfNaN.mapQueue TwistMsg.unnamed s.twistQ }

theorem map_id_res {α : Type} (r : Res α) : r.map id = r := by cases r <;> rfl

theorem pushed_map {α β : Type} (g : α → β) (q : AgedQueue α) (m : α) :
    (EkfNaN.mapQueue g q).push (g m) = EkfNaN.mapQueue g (q.push m) := by
  simp [EkfNaN.mapQueue, AgedQueue.push]

theorem step_unnamed (s : NodeState N) (e : Event) (he : e.NamesIrrelevant) :
    step hN tf p s.unnamed e.unnamed = (step hN tf p s e).map fun r => (r.1.unnamed, r.2) := by
  cases e with
  | pose m =>
    simp only [step, Event.unnamed, Except.map]
    congr 2
    have := pushed_map PoseMsg.unnamed s.poseQ m
    simp only [updateSimple1DFilters, NodeState.unnamed, this]
    rfl
  | twist m =>
    simp only [step, Event.unnamed, Except.map]
    congr 2
    have := pushed_map TwistMsg.unnamed s.twistQ m
    simp only [NodeState.unnamed, this]
  | initialPose m tries =>
    simp only [step, Event.unnamed, initialPoseCallback, bind, Except.bind]
    cases eraseBeginSlash p.poseFrame with
    | error x => rfl
    | ok parent =>
      cases eraseBeginSlash m.frame with
      | error x => rfl
      | ok child =>
        simp only
        cases lookupTransform (tries parent child) with
        | none => rfl
        | some t =>
          simp only
          cases m.px <;> cases m.py <;> cases tf.getYaw m.ori <;> cases tf.getYaw t.rot <;> rfl
  | timer t1 t2 t3 t4 t5 sp st =>
    obtain ⟨hsp, hst⟩ := he
    simp only [step, Event.unnamed, timerCallback]
    have h1 : s.unnamed.ekf = s.ekf := rfl
    have h2 : s.unnamed.interval = s.interval := rfl
    rw [h1, h2]
    cases hf : s.ekf with
    | none => rfl
    | some f =>
      rcases hc : s.interval.compute ((t1 : ℝ) / 1000000000) with ⟨r, iv⟩
      cases r with
      | error e => cases e <;> rfl
      | ok dt =>
        have hpose : ∀ (m : PoseMsg) (f : TimeDelayKalmanFilter ℝ N 6),
            processPose hN tf sp p.poseGate p.poseSmoothing t2 dt m.unnamed (id f) =
              (processPose hN tf sp p.poseGate p.poseSmoothing t2 dt m f).map id := by
          intro m f
          rw [map_id_res]
          simp only [processPose, hsp]
          rfl
        have htwist : ∀ (m : TwistMsg) (f : TimeDelayKalmanFilter ℝ N 6),
            processTwist hN st p.twistGate p.twistSmoothing t3 dt m.unnamed (id f) =
              (processTwist hN st p.twistGate p.twistSmoothing t3 dt m f).map id := by
          intro m f
          rw [map_id_res]
          simp only [processTwist, hst]
          rfl
        have e1 := EkfNaN.updateAll_of PoseMsg.unnamed id _ _ hpose s.poseQ (predictStep hN p dt f)
        have e2 := fun f => EkfNaN.updateAll_of TwistMsg.unnamed id _ _ htwist s.twistQ f
        simp only [id] at e1 e2
        have q1 : s.unnamed.poseQ = EkfNaN.mapQueue PoseMsg.unnamed s.poseQ := rfl
        have q2 : s.unnamed.twistQ = EkfNaN.mapQueue TwistMsg.unnamed s.twistQ := rfl
        simp only [q1, q2, e1]
        cases h3 : updateAll (processPose hN tf sp p.poseGate p.poseSmoothing t2 dt) s.poseQ (predictStep hN p dt f) with
        | error x => rfl
        | ok r =>
          simp only [Except.map, bind, Except.bind, e2]
          cases h4 : updateAll (processTwist hN st p.twistGate p.twistSmoothing t3 dt) s.twistQ r.1 with
          | error x => rfl
          | ok r' => rfl

theorem run_unnamed : ∀ (es : List Event) (s : NodeState N), (∀ e ∈ es, e.NamesIrrelevant) →
    run hN tf p s.unnamed (es.map Event.unnamed) = (run hN tf p s es).map fun r => (r.1.unnamed, r.2) := by
  intro es
  induction es with
  | nil => intro s _; rfl
  | cons e es ih =>
    intro s he
    rw [List.map_cons, run, run, step_unnamed s e (he e List.mem_cons_self)]
    cases step hN tf p s e with
    | error x => rfl
    | ok r =>
      simp only [Except.map, bind, Except.bind]
      rw [ih r.1 fun e h => he e (List.mem_cons_of_mem _ h)]
      cases run hN tf p r.1 es with
      | error x => rfl
      | ok r' => rfl

/-- C167, what holds: if what is received differs from what would be received in the frame of the filter in the names
of the frames only, then all is published as it should be. The same theorem says that names of frames never count:
with whatever names poses and twists arrive, the node does and publishes the same. -/
theorem C167_names_partial (hN : 0 < N) (tf : Tf2) (p : EkfParams) {es es' : List Event}
    (h : es.map Event.unnamed = es'.map Event.unnamed) (hi : ∀ e ∈ es, e.NamesIrrelevant)
    (hi' : ∀ e ∈ es', e.NamesIrrelevant) :
    (run hN tf p (NodeState.make N p) es).map Prod.snd = (run hN tf p (NodeState.make N p) es').map Prod.snd := by
  have e1 := run_unnamed (hN := hN) (tf := tf) (p := p) es (NodeState.make N p) hi
  have e2 := run_unnamed (hN := hN) (tf := tf) (p := p) es' (NodeState.make N p) hi'
  rw [h, e2] at e1
  cases h1 : run hN tf p (NodeState.make N p) es with
  | error x =>
    cases h2 : run hN tf p (NodeState.make N p) es' with
    | error y =>
      rw [h1, h2] at e1
      simp only [Except.map] at e1 ⊢
      injection e1 with e1
      rw [e1]
    | ok r =>
      rw [h1, h2] at e1
      simp [Except.map] at e1
  | ok r =>
    cases h2 : run hN tf p (NodeState.make N p) es' with
    | error y =>
      rw [h1, h2] at e1
      simp [Except.map] at e1
    | ok r' =>
      rw [h1, h2] at e1
      simp only [Except.map] at e1 ⊢
      injection e1 with e1
      injection e1 with _ e1
      rw [e1]

end Names

/-! ### A frame with another origin -/

section Witness
variable {n : ℕ}

/-- C167, violated: a pose at the origin of another frame, which is `e` metres ahead in the frame of the filter, is used
as if it were at the origin of the frame of the filter. -/
theorem C167_elsewhere_violated {g e : ℝ} (he : e ^ 2 ≤ 101 / 100 * g ^ 2) (hne : e ≠ 0) (c : List Char)
    (sp : PoseMsg → Bool) (st : TwistMsg → Bool) :
    ∃ (m : PoseMsg) (s1 s2 : NodeState (n + 2)) (o1 o2 : List Output),
      m.frame = c ∧
      run (n + 1).succ_pos flatTf (gateParams g) (NodeState.make (n + 2) (gateParams g))
        (farEvents sp st [m]) = .ok (s1, o1) ∧
      run (n + 1).succ_pos flatTf (gateParams g) (NodeState.make (n + 2) (gateParams g))
        (farEvents sp st [m.movedTo (gateParams g).poseFrame e]) = .ok (s2, o2) ∧
      o1.map Output.whereabouts = [(1000000000, 0, 0, 0), (1000000000, 0, 0, 0)] ∧
      o2.map Output.whereabouts = [(1000000000, e / 2, 0, 0), (1000000000, e / 2, 0, 0)] ∧ e / 2 ≠ 0 := by
  obtain ⟨h0, h1, hM, h01, h11⟩ := far_blocks (n := n)
  set f := predictStep (n + 1).succ_pos offParams 1 (off0 (n := n + 1)) with hf
  have one : ∀ (m : PoseMsg) (x : ℝ) (f' : TimeDelayKalmanFilter ℝ (n + 2) 6),
      processPose (n + 1).succ_pos flatTf sp (gateParams g).poseGate (gateParams g).poseSmoothing 1000000000 1 m f =
        .ok f' → blkX f'.x 0 = ![x, 0, 0, 0, 0, 0] →
      ∃ (s : NodeState (n + 2)) (o : List Output),
        run (n + 1).succ_pos flatTf (gateParams g) (NodeState.make (n + 2) (gateParams g))
          (farEvents sp st [m]) = .ok (s, o) ∧
        o.map Output.whereabouts = [(1000000000, x, 0, 0), (1000000000, x, 0, 0)] := by
    intro m x f' hp hx
    have hq : updateAll (processPose (n + 1).succ_pos flatTf sp (gateParams g).poseGate (gateParams g).poseSmoothing
        1000000000 1) ([m].foldl AgedQueue.push ⟨1, [], []⟩) f = .ok (f', ⟨1, [], []⟩) := by
      simp only [updateAll, AgedQueue.push, AgedQueue.size, List.foldl_cons, List.foldl_nil, List.nil_append,
        List.length_singleton, updateLoop, AgedQueue.pop, bind, Except.bind]
      simp [hp]
    obtain ⟨a, b, r, -, -⟩ := gate_run [m] sp st hq
    exact ⟨b, _, r, gate_shown a hx⟩
  have renamed : ∀ (c : List Char) (x : ℝ),
      processPose (n + 1).succ_pos flatTf (fun _ => sp { farPose x with frame := c }) (gateParams g).poseGate
        (gateParams g).poseSmoothing 1000000000 1 (farPose x) f =
      processPose (n + 1).succ_pos flatTf sp (gateParams g).poseGate (gateParams g).poseSmoothing 1000000000 1
        { farPose x with frame := c } f := fun _ _ => rfl
  obtain ⟨f1, p1, x1⟩ := far_taken (g := g) (e := 0) (by nlinarith [sq_nonneg g]) h0 h1 hM h01 h11
    (fun _ => sp { farPose 0 with frame := c })
  obtain ⟨f2, p2, x2⟩ := far_taken he h0 h1 hM h01 h11
    (fun _ => sp { farPose e with frame := (gateParams g).poseFrame })
  rw [renamed] at p1 p2
  obtain ⟨s1, o1, r1, k1⟩ := one _ _ f1 p1 x1
  obtain ⟨s2, o2, r2, k2⟩ := one _ _ f2 p2 x2
  have hmoved : PoseMsg.movedTo (gateParams g).poseFrame e { farPose 0 with frame := c } =
      { farPose e with frame := (gateParams g).poseFrame } := by
    simp [PoseMsg.movedTo, farPose]
  refine ⟨{ farPose 0 with frame := c }, s1, s2, o1, o2, rfl, r1, ?_, ?_, k2, by simpa using hne⟩
  · rw [hmoved]
    exact r2
  · rw [k1]
    simp

end Witness

/-! Non-vacuity. -/

/-- A pose of a frame `odom` in place of one of the frame `map`, in a run with a tick. -/
example (m : PoseMsg) :
    [Event.pose { m with frame := "odom".toList }, .timer 0 0 0 0 0 (fun _ => true) fun _ => true].map Event.unnamed =
      [Event.pose { m with frame := "map".toList }, .timer 0 0 0 0 0 (fun _ => true) fun _ => true].map Event.unnamed ∧
    ∀ e ∈ [Event.pose { m with frame := "odom".toList }, .timer 0 0 0 0 0 (fun _ => true) fun _ => true],
      e.NamesIrrelevant := by
  refine ⟨rfl, ?_⟩
  simp [Event.NamesIrrelevant]

/-- A limit of two and a frame whose origin is two metres ahead. -/
example : (2 : ℝ) ^ 2 ≤ 101 / 100 * 2 ^ 2 ∧ (2 : ℝ) ≠ 0 := by norm_num

end Verif.Ekf
