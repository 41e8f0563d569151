/-
C163: height, roll and pitch when poses arrive in another order.
-/
import Verif.Props.C140
import Verif.Props.C149

set_option autoImplicit false

namespace Verif.Ekf

open Matrix Verif.Kalman

/-! ### Poses and twists -/

/-- Specification: the twists among the events. -/
def twists : List Event → List TwistMsg
  | [] => []
  | .twist m :: es => m :: twists es
  | _ :: es => twists es

/-- Specification: a pose or a twist is received. -/
def Event.measured : Event → Prop
  | .pose _ => True
  | .twist _ => True
  | _ => False

/-- The node after poses and twists. -/
noncomputable def gathered {N : ℕ} (tf : Tf2) (s : NodeState N) (ps : List PoseMsg) (ts : List TwistMsg) : NodeState N :=
  let s := ps.foldl (fun s m => updateSimple1DFilters tf { s with poseQ := s.poseQ.push m } m) s
  { s with twistQ := ts.foldl AgedQueue.push s.twistQ }

theorem gathered_twist {N : ℕ} (tf : Tf2) (m : TwistMsg) (ts : List TwistMsg) : ∀ (ps : List PoseMsg) (s : NodeState N),
    gathered tf { s with twistQ := s.twistQ.push m } ps ts = gathered tf s ps (m :: ts) := by
  intro ps
  induction ps with
  | nil => intro s; rfl
  | cons a ps ih => intro s; exact ih (updateSimple1DFilters tf { s with poseQ := s.poseQ.push a } a)

theorem run_gathered {N : ℕ} {hN : 0 < N} {tf : Tf2} {p : EkfParams} (post : List Event) : ∀ (es : List Event)
    (s : NodeState N), (∀ e ∈ es, e.measured) →
    run hN tf p s (es ++ post) = run hN tf p (gathered tf s (poses es) (twists es)) post := by
  intro es
  induction es with
  | nil => intro s _; rfl
  | cons e es ih =>
    intro s h
    have h' : ∀ e ∈ es, e.measured := fun x hx => h x (List.mem_cons_of_mem _ hx)
    have tail : ∀ s1 : NodeState N, step hN tf p s e = .ok (s1, []) →
        run hN tf p s (e :: es ++ post) = run hN tf p s1 (es ++ post) := by
      intro s1 h1
      rw [List.cons_append, run, h1]
      simp only [bind, Except.bind, pure, Except.pure, List.nil_append]
      cases run hN tf p s1 (es ++ post) <;> rfl
    cases e with
    | initialPose m tries => exact (h _ List.mem_cons_self).elim
    | timer t1 t2 t3 t4 t5 sp st => exact (h _ List.mem_cons_self).elim
    | pose m => rw [tail _ rfl, ih _ h']; rfl
    | twist m => rw [tail _ rfl, ih _ h', gathered_twist]; rfl

/-- C163: whether a pose or a twist comes first between two other callbacks makes no difference to anything: only the
order of the poses among each other and of the twists among each other can count. -/
theorem C163_kinds {N : ℕ} (hN : 0 < N) (tf : Tf2) (p : EkfParams) (s : NodeState N) {es es' : List Event}
    (h : ∀ e ∈ es, e.measured) (h' : ∀ e ∈ es', e.measured) (hp : poses es = poses es') (ht : twists es = twists es')
    (post : List Event) : run hN tf p s (es ++ post) = run hN tf p s (es' ++ post) := by
  rw [run_gathered post es s h, run_gathered post es' s h', hp, ht]

/-! ### Poses of the same time -/

/-- An update in closed form. -/
theorem late_closed {f : Simple1DFilter} {s d : ℝ} (hi : f.initialized = true) (hs : f.stddev = some s) (hd : 0 < d)
    (y : ℝ) (t : ℤ) {v : ℝ} (hv : v = s * s + (f.proc * (((t - f.latest : ℤ) : ℝ) / 1000000000)) ^ 2) :
    f.update (some y) (some d) t =
      ⟨true, f.x.map fun x => y + d ^ 2 / (v + d ^ 2) * (x - y), some (Real.sqrt (v * (d ^ 2 / (v + d ^ 2)))),
        f.proc, t⟩ := by
  have hv0 : 0 ≤ v := hv ▸ add_nonneg (mul_self_nonneg s) (sq_nonneg _)
  have hpred : f.predicted s t = Real.sqrt v := by
    rw [hv]
    simp only [Simple1DFilter.predicted]
    congr 1
    ring
  have hsq : Real.sqrt v * Real.sqrt v = v := Real.mul_self_sqrt hv0
  have hpos : 0 < v + d ^ 2 := by positivity
  have hne : ¬ v + d * d = 0 := by nlinarith
  have hg1 : 1 - v / (v + d * d) = d ^ 2 / (v + d ^ 2) := by
    field_simp
    ring
  simp only [Simple1DFilter.update, hi, hs, Bool.not_true, Bool.false_eq_true, if_false, hpred, hsq, if_neg hne, hg1]
  congr 1
  · cases f.x with
    | none => rfl
    | some x =>
      simp only [Option.map_some, bind, Option.bind, pure, Option.some.injEq]
      field_simp
      ring
  · rw [Option.some.injEq, ← Real.sqrt_mul (by positivity), mul_comm]

/-- Two observations of the same time can change places. -/
theorem update_comm (f : Simple1DFilter) {y1 y2 d1 d2 : ℝ} (h1 : 0 < d1) (h2 : 0 < d2) (t : ℤ) :
    (f.update (some y1) (some d1) t).update (some y2) (some d2) t =
      (f.update (some y2) (some d2) t).update (some y1) (some d1) t := by
  cases hi : f.initialized with
  | false =>
    have e : ∀ y d : ℝ, f.update (some y) (some d) t = ⟨true, some y, some d, f.proc, t⟩ := by
      intro y d
      simp [Simple1DFilter.update, hi, Simple1DFilter.init]
    rw [e, e, late_closed rfl rfl h2 y2 t (v := d1 ^ 2) (by simp; ring),
      late_closed rfl rfl h1 y1 t (v := d2 ^ 2) (by simp; ring)]
    congr 1
    · simp only [Option.map_some, Option.some.injEq]
      field_simp
      ring
    · rw [Option.some.injEq]
      congr 1
      field_simp
      ring
  | true =>
    cases hs : f.stddev with
    | none =>
      have e : ∀ y d : ℝ, f.update (some y) (some d) t = ⟨true, none, none, f.proc, t⟩ := by
        intro y d
        simp [Simple1DFilter.update, hi, hs]
      rw [e, e]
      simp [Simple1DFilter.update]
    | some s =>
      set v := s * s + (f.proc * (((t - f.latest : ℤ) : ℝ) / 1000000000)) ^ 2 with hv
      have hv0 : 0 ≤ v := add_nonneg (mul_self_nonneg s) (sq_nonneg _)
      have second : ∀ d : ℝ, v * (d ^ 2 / (v + d ^ 2)) =
          Real.sqrt (v * (d ^ 2 / (v + d ^ 2))) * Real.sqrt (v * (d ^ 2 / (v + d ^ 2))) +
            (f.proc * (((t - t : ℤ) : ℝ) / 1000000000)) ^ 2 := by
        intro d
        rw [Real.mul_self_sqrt (by positivity)]
        simp
      have p1 : 0 < v + d1 ^ 2 := by positivity
      have p2 : 0 < v + d2 ^ 2 := by positivity
      have q1 : 0 < v * (d1 ^ 2 / (v + d1 ^ 2)) + d2 ^ 2 := by positivity
      have q2 : 0 < v * (d2 ^ 2 / (v + d2 ^ 2)) + d1 ^ 2 := by positivity
      have q1' : v * (d1 ^ 2 / (v + d1 ^ 2)) + d2 ^ 2 = (v * d1 ^ 2 + v * d2 ^ 2 + d1 ^ 2 * d2 ^ 2) / (v + d1 ^ 2) := by
        field_simp
        ring
      have q2' : v * (d2 ^ 2 / (v + d2 ^ 2)) + d1 ^ 2 = (v * d1 ^ 2 + v * d2 ^ 2 + d1 ^ 2 * d2 ^ 2) / (v + d2 ^ 2) := by
        field_simp
        ring
      have q3 : 0 < v * d1 ^ 2 + v * d2 ^ 2 + d1 ^ 2 * d2 ^ 2 := by positivity
      rw [late_closed hi hs h1 y1 t hv, late_closed hi hs h2 y2 t hv,
        late_closed rfl rfl h2 y2 t (second d1), late_closed rfl rfl h1 y1 t (second d2), q1', q2']
      congr 1
      · cases f.x with
        | none => rfl
        | some x =>
          simp only [Option.map_some, Option.some.injEq]
          field_simp
          ring
      · rw [Option.some.injEq]
        congr 1
        field_simp

/-- C163, what holds: two histories in which the same poses have been received, the last ones in another order, make
the node publish the same height, roll and pitch if those are stamped with the same time, say a number and have a
positive variance. -/
theorem C163_same_time_partial {N : ℕ} (hN : 0 < N) (tf : Tf2) (p : EkfParams) (q : Part) {es es' : List Event}
    {before ms ms' : List PoseMsg} (hes : poses es = before ++ ms) (hes' : poses es' = before ++ ms')
    (hperm : ms.Perm ms') (T : ℤ) (hT : ∀ m ∈ ms, m.stamp = T) (hy : ∀ m ∈ ms, (q.said tf m).isSome)
    (hv : ∀ m ∈ ms, 0 < q.variance m) {s s' r r' : NodeState N} {out out' o o' : List Output}
    (hrun : run hN tf p (NodeState.make N p) es = .ok (s, out))
    (hrun' : run hN tf p (NodeState.make N p) es' = .ok (s', out')) {t1 t2 t3 t4 t5 t1' t2' t3' t4' t5' : ℤ}
    {sp sp' : PoseMsg → Bool} {st st' : TwistMsg → Bool}
    (hstep : step hN tf p s (.timer t1 t2 t3 t4 t5 sp st) = .ok (r, o))
    (hstep' : step hN tf p s' (.timer t1' t2' t3' t4' t5' sp' st') = .ok (r', o')) :
    ∀ a ∈ o, ∀ a' ∈ o', q.published a.estimate = q.published a'.estimate := by
  have key : ∀ g : Simple1DFilter, g.run (ms.map (q.obs tf)) = g.run (ms'.map (q.obs tf)) := by
    intro g
    refine (hperm.map (q.obs tf)).foldl_eq' ?_ g
    intro a ha b hb z
    obtain ⟨m, hm, rfl⟩ := List.mem_map.1 ha
    obtain ⟨m', hm', rfl⟩ := List.mem_map.1 hb
    obtain ⟨y, hy1⟩ := Option.isSome_iff_exists.1 (hy m hm)
    obtain ⟨y', hy2⟩ := Option.isSome_iff_exists.1 (hy m' hm')
    simp only [Part.obs, hy1, hy2, hT m hm, hT m' hm', sqrtOpt, if_neg (not_lt.2 (hv m hm).le),
      if_neg (not_lt.2 (hv m' hm').le)]
    exact update_comm z (Real.sqrt_pos.2 (hv m hm)) (Real.sqrt_pos.2 (hv m' hm')) T
  intro a ha a' ha'
  rw [(timer_part hstep q).2 a ha, (timer_part hstep' q).2 a' ha', run_part q es hrun, run_part q es' hrun', hes, hes',
    List.map_append, List.map_append]
  have app : ∀ (g : Simple1DFilter) (l l' : List Obs), g.run (l ++ l') = (g.run l).run l' := by
    intro g l l'
    exact List.foldl_append
  rw [app, app, key]

/-! ### Late poses -/

/-- C163: a pose that is late by some time compared with the one received before counts exactly as much for height, roll
and pitch as one that is newer by this time. -/
theorem C163_mirror {N : ℕ} (hN : 0 < N) (tf : Tf2) (p : EkfParams) (q : Part) {es es' : List Event}
    {before : List PoseMsg} {m0 m m' : PoseMsg} (hes : poses es = before ++ [m0, m])
    (hes' : poses es' = before ++ [m0, m']) (hsaid : q.said tf m = q.said tf m')
    (hvar : q.variance m = q.variance m') (hmirror : m0.stamp - m.stamp = m'.stamp - m0.stamp)
    {s s' r r' : NodeState N} {out out' o o' : List Output}
    (hrun : run hN tf p (NodeState.make N p) es = .ok (s, out))
    (hrun' : run hN tf p (NodeState.make N p) es' = .ok (s', out')) {t1 t2 t3 t4 t5 t1' t2' t3' t4' t5' : ℤ}
    {sp sp' : PoseMsg → Bool} {st st' : TwistMsg → Bool}
    (hstep : step hN tf p s (.timer t1 t2 t3 t4 t5 sp st) = .ok (r, o))
    (hstep' : step hN tf p s' (.timer t1' t2' t3' t4' t5' sp' st') = .ok (r', o')) :
    ∀ a ∈ o, ∀ a' ∈ o', q.published a.estimate = q.published a'.estimate := by
  have late : ∀ (g : Simple1DFilter), g.latest = m0.stamp → g.initialized = true → ∀ y d,
      (g.update y d m.stamp).x = (g.update y d m'.stamp).x := by
    intro g hg hi y d
    have hp : ∀ s, g.predicted s m.stamp = g.predicted s m'.stamp := by
      intro s
      have : ((m.stamp - g.latest : ℤ) : ℝ) = -((m'.stamp - g.latest : ℤ) : ℝ) := by
        rw [hg, ← hmirror]
        push_cast
        ring
      simp only [Simple1DFilter.predicted, this]
      congr 1
      ring
    simp only [Simple1DFilter.update, hi, Bool.not_true, Bool.false_eq_true, if_false]
    cases g.stddev with
    | none => rfl
    | some s =>
      cases d with
      | none => rfl
      | some d =>
        simp only [hp]
        split <;> rfl
  have known : ∀ (g : Simple1DFilter) (y d : Option ℝ) (t : ℤ),
      (g.update y d t).latest = t ∧ (g.update y d t).initialized = true := by
    intro g y d t
    simp only [Simple1DFilter.update]
    split
    · exact ⟨rfl, rfl⟩
    · split
      · split <;> exact ⟨rfl, rfl⟩
      · exact ⟨rfl, rfl⟩
  intro a ha a' ha'
  rw [(timer_part hstep q).2 a ha, (timer_part hstep' q).2 a' ha', run_part q es hrun, run_part q es' hrun', hes, hes']
  simp only [Simple1DFilter.run, List.map_append, List.foldl_append, List.map_cons, List.map_nil, List.foldl_cons,
    List.foldl_nil, Part.obs, hsaid, hvar]
  exact late _ (known _ _ _ _).1 (known _ _ _ _).2 _ _

/-- An initial pose, two poses and a tick at two seconds. -/
def lateTwoEvents (a b : PoseMsg) (sp : PoseMsg → Bool) (st : TwistMsg → Bool) : List Event :=
  [.initialPose (poseAt 0 0) identityTries, .pose a, .pose b] ++
    [.timer 2000000000 2000000000 2000000000 2000000000 2000000000 sp st]

/-- The node does not fail and publishes the height of the filter. -/
theorem late_run {N : ℕ} (hN : 0 < N) {x y z : ℝ} {s t : ℤ} (hs : 0 ≤ s) (ht : 0 ≤ t) (sp : PoseMsg → Bool)
    (st : TwistMsg → Bool)
    (hz : ((Simple1DFilter.make 1).run [(some 0, some 1, 0), (some x, some 1, s), (some y, some 1, t)]).x = some z) :
    ∃ (r : NodeState N) (out : List Output), run hN flatTf defaultParams (NodeState.make N defaultParams)
        (lateTwoEvents (poseAt x s) (poseAt y t) sp st) = .ok (r, out) ∧
      out.map (fun a => a.estimate.z) = [some z, some z] := by
  have hwf : WellFormed flatTf (1 / 50) (lateTwoEvents (poseAt x s) (poseAt y t) sp st) := by
    refine ⟨?_, ?_, ?_, ?_⟩
    · intro e he
      simp only [lateTwoEvents, List.cons_append, List.nil_append, List.mem_cons, List.not_mem_nil, or_false] at he
      rcases he with rfl | rfl | rfl | rfl
      · exact ⟨by simp [poseAt], rfl, rfl, rfl, fun a b => ⟨⟨0, by norm_num, rfl⟩, fun k t _ => rfl⟩⟩
      all_goals trivial
    · change List.Pairwise _ [2000000000]
      simp
    · intro e he t1 t2 t3 t4 t5 sp' st' hee stamp hst
      simp only [lateTwoEvents, List.cons_append, List.nil_append, List.mem_cons, List.not_mem_nil, or_false] at he
      have hst' : stamp = s ∨ stamp = t := by
        simpa [lateTwoEvents, Event.poseStamp, poseAt, eq_comm] using hst
      have h0 : (0 : ℝ) ≤ (stamp : ℝ) := by
        rcases hst' with rfl | rfl
        · exact_mod_cast hs
        · exact_mod_cast ht
      rcases he with rfl | rfl | rfl | rfl <;> cases hee
      push_cast
      rw [div_lt_iff₀ (by norm_num)]
      linarith
    · intro e he t1 t2 t3 t4 t5 sp' st' hee stamp hst
      simp [lateTwoEvents, Event.twistStamp] at hst
  obtain ⟨r, out, hrun, hhead⟩ := C70_no_failure hN flatTf defaultParams (1 / 50) (by norm_num) (by norm_num)
    (by norm_num [defaultParams]) (by simp [defaultParams]) _ hwf
  refine ⟨r, out, hrun, ?_⟩
  have hlen : out.length = 2 := by
    have := congrArg List.length hhead
    rw [List.length_map] at this
    rw [this]
    rfl
  obtain ⟨s1, o1, o2, k1, k2, rfl⟩ := run_split _ _ _ _ _ hrun
  have ho1 : o1 = [] := by
    rw [run] at k1
    cases h1 : step hN flatTf defaultParams (NodeState.make N defaultParams)
        (.initialPose (poseAt 0 0) identityTries) with
    | error x => rw [h1] at k1; cases k1
    | ok r1 =>
      obtain ⟨s2, o2'⟩ := r1
      have ho : o2' = [] := by
        simp only [step, bind, Except.bind, pure, Except.pure] at h1
        split at h1
        · cases h1
        · injection h1 with h1
          injection h1 with _ h1
          exact h1.symm
      rw [h1] at k1
      simp only [run, step, bind, Except.bind, pure, Except.pure, ho, List.nil_append] at k1
      injection k1 with k1
      injection k1 with _ k1
      exact k1.symm
  have hall : ∀ a ∈ o2, a.estimate.z = some z := by
    rw [run] at k2
    cases h1 : step hN flatTf defaultParams s1
        (.timer 2000000000 2000000000 2000000000 2000000000 2000000000 sp st) with
    | error x => rw [h1] at k2; cases k2
    | ok r1 =>
      obtain ⟨s2, o2'⟩ := r1
      rw [h1] at k2
      simp only [run, bind, Except.bind, pure, Except.pure, List.append_nil] at k2
      injection k2 with k2
      injection k2 with _ k2
      subst k2
      intro a ha
      have h3 := (timer_part h1 .height).2 a ha
      rw [run_part .height _ k1] at h3
      refine h3.trans (Eq.trans ?_ hz)
      have e1 : sqrtOpt (1 : ℝ) = some 1 := by simp [sqrtOpt]
      simp only [poses, List.map_cons, List.map_nil, Part.obs, Part.said, Part.variance, poseAt, e1]
      rfl
  rw [ho1, List.nil_append] at hlen ⊢
  match o2, hlen, hall with
  | [a, b], _, hall =>
    rw [List.map_cons, List.map_cons, List.map_nil, hall a (by simp), hall b (by simp)]

/-- C163, violated: the node starts at height zero; one pose taken after a second says `e`, one taken after two
seconds says zero, all of variance one. If they arrive in the order in which they were taken the node says `e / 4`, if
the first is late it says `11 / 17 e`: the old pose counts more, not less, than the new one. -/
theorem C163_late_violated {N : ℕ} (hN : 0 < N) {e : ℝ} (he : e ≠ 0) (sp : PoseMsg → Bool) (st : TwistMsg → Bool) :
    ∃ (r r' : NodeState N) (out out' : List Output),
      run hN flatTf defaultParams (NodeState.make N defaultParams)
        (lateTwoEvents (poseAt e 1000000000) (poseAt 0 2000000000) sp st) = .ok (r, out) ∧
      run hN flatTf defaultParams (NodeState.make N defaultParams)
        (lateTwoEvents (poseAt 0 2000000000) (poseAt e 1000000000) sp st) = .ok (r', out') ∧
      out.map (fun a => a.estimate.z) = [some (1 / 4 * e), some (1 / 4 * e)] ∧
      out'.map (fun a => a.estimate.z) = [some (11 / 17 * e), some (11 / 17 * e)] ∧ 1 / 4 * e ≠ 11 / 17 * e := by
  have first : (Simple1DFilter.make 1).update (some 0) (some 1) 0 = ⟨true, some 0, some 1, 1, 0⟩ := rfl
  obtain ⟨r, out, h1, h2⟩ := late_run (x := e) (y := 0) (z := 1 / 4 * e) (s := 1000000000) (t := 2000000000) hN
    (by norm_num) (by norm_num) sp st (by
      simp only [Simple1DFilter.run, List.foldl_cons, List.foldl_nil, first]
      rw [late_closed (v := 2) rfl rfl one_pos e 1000000000 (by norm_num),
        late_closed (v := 5 / 3) rfl rfl one_pos 0 2000000000 (by
          rw [Real.mul_self_sqrt (by norm_num)]; norm_num)]
      simp only [Option.map_some, Option.some.injEq]
      ring)
  obtain ⟨r', out', h3, h4⟩ := late_run (x := 0) (y := e) (z := 11 / 17 * e) (s := 2000000000) (t := 1000000000) hN
    (by norm_num) (by norm_num) sp st (by
      simp only [Simple1DFilter.run, List.foldl_cons, List.foldl_nil, first]
      rw [late_closed (v := 5) rfl rfl one_pos 0 2000000000 (by norm_num),
        late_closed (v := 11 / 6) rfl rfl one_pos e 1000000000 (by
          rw [Real.mul_self_sqrt (by norm_num)]; norm_num)]
      simp only [Option.map_some, Option.some.injEq]
      ring)
  refine ⟨r, r', out, out', h1, h3, h2, h4, ?_⟩
  intro h
  apply he
  linarith

/-! Non-vacuity. -/

/-- A pose before or after two twists. -/
example (a b : TwistMsg) (m : PoseMsg) : (∀ e ∈ [Event.pose m, .twist a, .twist b], e.measured) ∧
    (∀ e ∈ [Event.twist a, .twist b, .pose m], e.measured) ∧
    poses [Event.pose m, .twist a, .twist b] = poses [Event.twist a, .twist b, .pose m] ∧
    twists [Event.pose m, .twist a, .twist b] = twists [Event.twist a, .twist b, .pose m] := by
  simp [Event.measured, poses, twists]

/-- Two poses of the same second, of different heights, in both orders. -/
example (sp : PoseMsg → Bool) (st : TwistMsg → Bool) :
    poses (lateTwoEvents (poseAt 3 1000000000) (poseAt 7 1000000000) sp st) =
        [poseAt 0 0] ++ [poseAt 3 1000000000, poseAt 7 1000000000] ∧
      poses (lateTwoEvents (poseAt 7 1000000000) (poseAt 3 1000000000) sp st) =
        [poseAt 0 0] ++ [poseAt 7 1000000000, poseAt 3 1000000000] ∧
      [poseAt 3 1000000000, poseAt 7 1000000000].Perm [poseAt 7 1000000000, poseAt 3 1000000000] :=
  ⟨rfl, rfl, List.Perm.swap _ _ _⟩

end Verif.Ekf
