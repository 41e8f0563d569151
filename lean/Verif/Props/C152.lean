/-
C152: a clock that goes back silences the localizer.
-/
import Verif.Props.C151

set_option autoImplicit false

namespace Verif.Ekf

open Matrix Verif.Kalman

variable {n : ℕ}

/-! ### Specification -/

/-- The ticks that are to publish something: those after an initial pose that are not earlier, by the clock, than
the last one that published. `started` tells whether there has been an initial pose, `last` is the reading of the
clock at the last tick that published. -/
def showing : Bool → Option ℤ → List Event → List Event
  | _, _, [] => []
  | started, last, .timer t t2 t3 t4 t5 sp st :: es =>
    if started ∧ ∀ l ∈ last, l ≤ t then
      .timer t t2 t3 t4 t5 sp st :: showing started (some t) es
    else showing started last es
  | _, last, .initialPose _ _ :: es => showing true last es
  | started, last, _ :: es => showing started last es

/-! ### The node -/

theorem compute_reading (u : UpdateInterval ℝ) (last : Option ℤ) (t : ℤ)
    (hu : u.lastTime = last.map fun l : ℤ => (l : ℝ) / 1000000000) :
    if ∀ l ∈ last, l ≤ t then
      ∃ dt, u.compute ((t : ℝ) / 1000000000) = (.ok dt, ⟨u.defaultFrequency, some ((t : ℝ) / 1000000000)⟩)
    else u.compute ((t : ℝ) / 1000000000) = (.error .invalidArgument, u) := by
  cases last with
  | none =>
    rw [if_pos (by simp)]
    simp only [UpdateInterval.compute, hu, Option.map_none]
    exact ⟨_, rfl⟩
  | some l =>
    have e : (t : ℝ) / 1000000000 < (l : ℝ) / 1000000000 ↔ ¬ l ≤ t := by
      rw [not_le, div_lt_div_iff_of_pos_right (by norm_num)]
      exact_mod_cast Iff.rfl
    simp only [UpdateInterval.compute, hu, Option.map_some, Option.mem_some_iff, forall_eq']
    by_cases h : l ≤ t
    · rw [if_pos h, if_neg (by rw [e]; exact not_not.2 h)]
      exact ⟨_, rfl⟩
    · rw [if_neg h, if_pos (e.2 h)]

theorem announced_cons (frame : List Char) (t t2 t3 t4 t5 : ℤ) (sp : PoseMsg → Bool) (st : TwistMsg → Bool)
    (es : List Event) : announced frame (.timer t t2 t3 t4 t5 sp st :: es) =
      [(true, t4, frame, "base_link".toList), (false, t5, frame, "base_link".toList)] ++ announced frame es := rfl

theorem run_showing {tf : Tf2} {p : EkfParams} : ∀ (es : List Event) (s s' : NodeState (n + 1))
    (out : List Output) (last : Option ℤ),
    s.interval.lastTime = last.map (fun l : ℤ => (l : ℝ) / 1000000000) →
    run n.succ_pos tf p s es = .ok (s', out) →
    out.map Output.header = announced p.poseFrame (showing s.ekf.isSome last es)
  | [], s, s', out, last, _, h => by
    simp only [run, Except.ok.injEq, Prod.mk.injEq] at h
    rw [← h.2]
    rfl
  | e :: es, s, s', out, last, hl, h => by
    simp only [run, bind, Except.bind] at h
    cases h1 : step n.succ_pos tf p s e with
    | error x => rw [h1] at h; cases h
    | ok r =>
      rw [h1] at h
      simp only at h
      cases h2 : run n.succ_pos tf p r.1 es with
      | error x => rw [h2] at h; cases h
      | ok r2 =>
        rw [h2] at h
        simp only [pure, Except.pure, Except.ok.injEq, Prod.mk.injEq] at h
        rw [← h.2, List.map_append]
        have fin : ∀ last', r.1.interval.lastTime = last'.map (fun l : ℤ => (l : ℝ) / 1000000000) →
            r2.2.map Output.header = announced p.poseFrame (showing r.1.ekf.isSome last' es) := fun last' hl' =>
          run_showing es r.1 r2.1 r2.2 last' hl' h2
        cases e with
        | pose m =>
          simp only [step, Except.ok.injEq] at h1
          have := fin last (by rw [← h1]; exact hl)
          rw [this, ← h1]
          rfl
        | twist m =>
          simp only [step, Except.ok.injEq] at h1
          have := fin last (by rw [← h1]; exact hl)
          rw [this, ← h1]
          rfl
        | initialPose m tries =>
          obtain ⟨-, -, k3, k4⟩ := initial_queues (s' := r.1) (o := r.2) h1
          have hr : r.2 = [] := by
            simp only [step, bind, Except.bind] at h1
            split at h1
            · cases h1
            · simp only [pure, Except.pure, Except.ok.injEq] at h1
              rw [← h1]
          rw [fin last (by rw [k3]; exact hl), hr, k4]
          rfl
        | timer t1 t2 t3 t4 t5 sp st =>
          rw [showing]
          simp only [step, timerCallback] at h1
          cases hf : s.ekf with
          | none =>
            rw [hf] at h1
            simp only [Except.ok.injEq] at h1
            rw [if_neg (by simp), fin last (by rw [← h1]; exact hl), ← h1, hf]
            rfl
          | some f =>
            rw [hf] at h1
            simp only at h1
            have hc := compute_reading s.interval last t1 hl
            by_cases hle : ∀ l ∈ last, l ≤ t1
            · rw [if_pos ⟨rfl, hle⟩]
              rw [if_pos hle] at hc
              obtain ⟨dt, hc⟩ := hc
              rw [hc] at h1
              simp only [bind, Except.bind] at h1
              split at h1
              · cases h1
              · split at h1
                · cases h1
                · simp only [pure, Except.pure, Except.ok.injEq] at h1
                  rw [fin (some t1) (by rw [← h1]; rfl), ← h1, announced_cons]
                  rfl
            · rw [if_neg (fun h => hle h.2)]
              rw [if_neg hle] at hc
              rw [hc] at h1
              simp only [Except.ok.injEq] at h1
              rw [fin last (by rw [← h1]; exact hl), ← h1]
              simp

theorem showing_behind : ∀ (es : List Event) (b : Bool) (T : ℤ), (∀ t ∈ es.filterMap Event.clock, t < T) →
    showing b (some T) es = []
  | [], _, _, _ => rfl
  | .pose _ :: es, b, T, h => showing_behind es b T h
  | .twist _ :: es, b, T, h => showing_behind es b T h
  | .initialPose _ _ :: es, _, T, h => showing_behind es true T h
  | .timer t _ _ _ _ _ _ :: es, b, T, h => by
    have ht : t < T := h t List.mem_cons_self
    rw [showing, if_neg (fun hc => absurd (hc.2 T rfl) (not_le.2 ht))]
    exact showing_behind es b T fun c hc => h c (List.mem_cons_of_mem t hc)

/-! ### C152 -/

/-- Full claim: after an initial pose the localizer publishes at every tick. Proved here, for all sequences of
callbacks that do not fail, whatever the clock does: it publishes one transform and one odometry message exactly at
the ticks that are not earlier than the last one at which it published. For the others the claim is false
(`C152_silent_violated`). -/
theorem C152_publishes_partial (tf : Tf2) (p : EkfParams) (es : List Event) (s : NodeState (n + 1))
    (out : List Output) (h : run n.succ_pos tf p (NodeState.make (n + 1) p) es = .ok (s, out)) :
    out.map Output.header = announced p.poseFrame (showing false none es) :=
  run_showing es _ s out none rfl h

/-- The claim is false once the clock has been ahead: after a tick at the time `T` that published something,
nothing is published as long as the clock shows less than `T`, however many new initial poses are given, and whatever
else happens. -/
theorem C152_silent_violated (tf : Tf2) (p : EkfParams) (after : List Event) (T t2 t3 t4 t5 : ℤ)
    (sp : PoseMsg → Bool) (st : TwistMsg → Bool) (s s1 s2 : NodeState (n + 1)) (o out : List Output)
    (h1 : step n.succ_pos tf p s (.timer T t2 t3 t4 t5 sp st) = .ok (s1, o)) (ho : o ≠ [])
    (hT : ∀ t ∈ after.filterMap Event.clock, t < T)
    (h2 : run n.succ_pos tf p s1 after = .ok (s2, out)) : out = [] := by
  have h3 := run_showing after s1 s2 out (some T) (published_tick h1 ho).2 h2
  rw [showing_behind after _ T hT] at h3
  exact List.map_eq_nil_iff.1 h3

/-! Non-vacuity: the clock shows 10 s at the first tick, then it is set back; a new initial pose is given, and the
ticks at 5 s and 6 s publish nothing; the one at 10 s is the next that does. -/

theorem besideStart (s : NodeState 3) : ∃ s', step (by norm_num) flatTf defaultParams s
    (.initialPose (besideMsg 0 0) identityTries) = .ok (s', []) ∧ s'.interval = s.interval ∧ s'.ekf.isSome := by
  cases h : step (N := 3) (by norm_num) flatTf defaultParams s (.initialPose (besideMsg 0 0) identityTries) with
  | error x =>
    exfalso
    simp [step, initialPoseCallback, eraseBeginSlash, defaultParams, besideMsg, lookupTransform, lookupLoop,
      identityTries, flatTf, bind, Except.bind, pure, Except.pure] at h
  | ok r =>
    obtain ⟨-, -, k3, k4⟩ := initial_queues (n := 2) (s' := r.1) (o := r.2) h
    refine ⟨r.1, ?_, k3, k4⟩
    simp only [step, bind, Except.bind] at h
    split at h
    · cases h
    · simp only [pure, Except.pure, Except.ok.injEq] at h
      rw [← h]

example : ∃ (s : NodeState 3) (out : List Output),
    run (by norm_num) flatTf defaultParams (NodeState.make 3 defaultParams)
      ([.initialPose (besideMsg 0 0) identityTries,
        .timer 10000000000 10000000000 10000000000 10000000000 10000000000 (fun _ => true) (fun _ => true)] ++
        ([.initialPose (besideMsg 0 0) identityTries] ++
         [.timer 5000000000 0 0 0 0 (fun _ => true) (fun _ => true),
          .timer 6000000000 0 0 0 0 (fun _ => true) (fun _ => true)])) = .ok (s, out) ∧ out.length = 2 := by
  obtain ⟨s1, out, h1, h2⟩ := C70_no_failure (N := 3) (by norm_num) flatTf defaultParams (1 / 50) (by norm_num)
    (by norm_num) (by norm_num [defaultParams]) (by simp [defaultParams]) _ (replayed_wellFormed 10000000000)
  obtain ⟨s0, o0, o1, k1, k2, k3⟩ := run_append (n := 2) [_] [_] h1
  have hlen : out.length = 2 := by
    have := congrArg List.length h2
    rw [List.length_map] at this
    rw [this]
    rfl
  have hlast : s1.interval.lastTime = some (((10000000000 : ℤ) : ℝ) / 1000000000) := by
    simp only [run, bind, Except.bind] at k2
    cases h3 : step (N := 3) (by norm_num) flatTf defaultParams s0
        (.timer 10000000000 10000000000 10000000000 10000000000 10000000000 (fun _ => true) (fun _ => true)) with
    | error x => rw [h3] at k2; cases k2
    | ok r =>
      rw [h3] at k2
      simp only [pure, Except.pure, Except.ok.injEq, Prod.mk.injEq, List.append_nil] at k2
      rw [← k2.1]
      refine (published_tick (n := 2) (s1 := r.1) (o := r.2) h3 ?_).2
      intro h0
      have ho0 : o0 = [] := by
        obtain ⟨s', b1, -, -⟩ := besideStart (NodeState.make 3 defaultParams)
        simp only [run, b1, bind, Except.bind, pure, Except.pure, Except.ok.injEq, Prod.mk.injEq] at k1
        rw [← k1.2]
        rfl
      rw [ho0, ← k2.2, h0] at k3
      rw [k3] at hlen
      cases hlen
  obtain ⟨s2, b1, b2, b3⟩ := besideStart s1
  obtain ⟨s3, c1, -⟩ := run_behind (n := 2) flatTf defaultParams (((10000000000 : ℤ) : ℝ) / 1000000000)
    [.timer 5000000000 0 0 0 0 (fun _ => true) (fun _ => true),
      .timer 6000000000 0 0 0 0 (fun _ => true) (fun _ => true)] s2 (by simp [Event.isInitial])
    (by
      intro t ht
      have : t = 5000000000 ∨ t = 6000000000 := by simpa [Event.clock] using ht
      rcases this with rfl | rfl <;> norm_num) b3 (by rw [b2]; exact hlast)
  refine ⟨s3, out ++ ([] ++ []), run_append_ok (n := 2) _ _ h1 (run_append_ok (n := 2) _ _ ?_ c1), by simpa using hlen⟩
  simp only [run, b1, bind, Except.bind, pure, Except.pure]
  rfl

example (sp : PoseMsg → Bool) (st : TwistMsg → Bool) (m : PoseMsg)
    (tries : List Char → List Char → ℕ → Option Transform) :
    (showing false none [.timer 0 0 0 0 0 sp st, .initialPose m tries, .timer 10 0 0 0 0 sp st,
      .timer 5 0 0 0 0 sp st, .initialPose m tries, .timer 6 0 0 0 0 sp st, .timer 10 1 0 0 0 sp st]) =
      [.timer 10 0 0 0 0 sp st, .timer 10 1 0 0 0 sp st] := by
  simp [showing]

end Verif.Ekf
