/-
C164: which way up the vehicle is.
-/
import Verif.Props.C163

set_option autoImplicit false

namespace Verif.Ekf

open Matrix Verif.Rot Verif.Msg

/-! ### Specification -/

/-- Specification: how far the vertical axis of the vehicle points up in a message: the vertical component of the
rotated unit vector. Positive if the vehicle is upright, negative if it is upside down. -/
def PoseMsg.upward (m : PoseMsg) : ℝ := (m.ori.toRot.toRotationMatrix *ᵥ ![0, 0, 1]) 2

/-- Specification: the same for what is published, for roll, pitch and yaw that are numbers. -/
noncomputable def upwardOf (roll pitch yaw : ℝ) : ℝ :=
  ((rotZ yaw * rotY pitch * rotX roll) *ᵥ ![0, 0, 1]) 2

/-! ### Reading roll and pitch -/

theorem upwardOf_eq (r p y : ℝ) : upwardOf r p y = Real.cos p * Real.cos r := by
  rw [← (rpy_entries r p y).2.2.1]
  simp [upwardOf, Matrix.mulVec, dotProduct, Fin.sum_univ_succ]

/-- Roll and pitch read from the orientation of an upright vehicle are less than a right angle. -/
theorem read_upright {m : PoseMsg} (hq : m.ori.toRot.IsUnit) (hu : 0 < m.upward) :
    ∃ r p, Part.said tf2 m .roll = some r ∧ Part.said tf2 m .pitch = some p ∧
      r ∈ Set.Ioo (-(Real.pi / 2)) (Real.pi / 2) ∧ p ∈ Set.Ioo (-(Real.pi / 2)) (Real.pi / 2) := by
  have hm := (tf2Matrix_unit hq).2
  have hR := toRotationMatrix_rotation _ hq
  set R := m.ori.toRot.toRotationMatrix with hRd
  have h22 : 0 < R 2 2 := by
    have : m.upward = R 2 2 := by
      rw [PoseMsg.upward, ← hRd]
      simp [Matrix.mulVec, dotProduct, Fin.sum_univ_succ]
    rwa [← this]
  obtain ⟨-, hrow, -⟩ := rotation_equations R hR
  have r22 := hrow 2 2
  simp [Fin.sum_univ_succ] at r22
  have hlt : |R 2 0| < 1 := by
    rw [← sq_lt_one_iff_abs_lt_one]
    nlinarith [sq_nonneg (R 2 1)]
  have hasin : -(Real.pi / 2) < Real.arcsin (R 2 0) ∧ Real.arcsin (R 2 0) < Real.pi / 2 :=
    ⟨Real.neg_pi_div_two_lt_arcsin.2 (abs_lt.1 hlt).1, Real.arcsin_lt_pi_div_two.2 (abs_lt.1 hlt).2⟩
  have hp : -Real.arcsin (R 2 0) ∈ Set.Ioo (-(Real.pi / 2)) (Real.pi / 2) := ⟨by linarith, by linarith⟩
  have hc : 0 < Real.cos (-Real.arcsin (R 2 0)) := Real.cos_pos_of_mem_Ioo hp
  refine ⟨tf2Roll R, tf2Pitch R, by simp [Part.said, tf2, hm], by simp [Part.said, tf2, hm], ?_, ?_⟩
  · have : |tf2Roll R| < Real.pi / 2 := by
      rw [tf2Roll, if_neg (not_le.2 hlt)]
      exact Complex.abs_arg_lt_pi_div_two_iff.2 (Or.inl (div_pos h22 hc))
    exact ⟨(abs_lt.1 this).1, (abs_lt.1 this).2⟩
  · rw [tf2Pitch, if_neg (not_le.2 hlt)]
    exact hp

/-- What is filtered stays within an interval that has all the observations. -/
theorem stays_within {a b : ℝ} : ∀ (os : List Obs) (f : Simple1DFilter) (x s : ℝ), f.initialized = true →
    f.x = some x → f.stddev = some s → x ∈ Set.Ioo a b →
    (∀ o ∈ os, ∃ y d, o.1 = some y ∧ o.2.1 = some d ∧ y ∈ Set.Ioo a b ∧ 0 < d) →
    ∃ x', (f.run os).x = some x' ∧ x' ∈ Set.Ioo a b := by
  intro os
  induction os with
  | nil => intro f x s _ hx _ hab _; exact ⟨x, hx, hab⟩
  | cons o os ih =>
    intro f x s hi hx hs hab hos
    obtain ⟨y, d, e1, e2, hy, hd⟩ := hos o List.mem_cons_self
    obtain ⟨x1, s1, g1, g2, g3, -, -, v, hv, g6, -, -⟩ := update_error (y := y) hi hx hs hd o.2.2
    have hv0 : 0 ≤ v := hv ▸ add_nonneg (mul_self_nonneg s) (sq_nonneg _)
    have hq0 : 0 < d ^ 2 / (v + d ^ 2) := by positivity
    have hq1 : d ^ 2 / (v + d ^ 2) ≤ 1 := (div_le_one (by positivity)).2 (by linarith)
    have hx1 : x1 ∈ Set.Ioo a b := by
      rw [g6]
      constructor
      · nlinarith [hy.1, hab.1, mul_pos hq0 (sub_pos.2 hab.1), mul_nonneg (sub_nonneg.2 hq1) (sub_pos.2 hy.1).le]
      · nlinarith [hy.2, hab.2, mul_pos hq0 (sub_pos.2 hab.2), mul_nonneg (sub_nonneg.2 hq1) (sub_pos.2 hy.2).le]
    have := ih (f.update (some y) (some d) o.2.2) x1 s1 g1 g2 g3 hx1 fun o' ho' => hos o' (List.mem_cons_of_mem _ ho')
    simpa only [Simple1DFilter.run, List.foldl_cons, e1, e2] using this

/-- What is published lies between the numbers received. -/
theorem published_within {N : ℕ} {hN : 0 < N} {tf : Tf2} {p : EkfParams} (q : Part) {a b : ℝ} {es : List Event}
    (hne : poses es ≠ []) (hms : ∀ m ∈ poses es, (∃ y, q.said tf m = some y ∧ y ∈ Set.Ioo a b) ∧ 0 < q.variance m)
    {s r : NodeState N} {out o : List Output} (hrun : run hN tf p (NodeState.make N p) es = .ok (s, out))
    {t1 t2 t3 t4 t5 : ℤ} {sp : PoseMsg → Bool} {st : TwistMsg → Bool}
    (hstep : step hN tf p s (.timer t1 t2 t3 t4 t5 sp st) = .ok (r, o)) :
    ∃ y, (∀ c ∈ o, q.published c.estimate = some y) ∧ y ∈ Set.Ioo a b := by
  cases hp : poses es with
  | nil => exact absurd hp hne
  | cons m ms =>
    rw [hp] at hms
    obtain ⟨⟨y, hy, hab⟩, hv⟩ := hms m List.mem_cons_self
    obtain ⟨f, hf, f1, f2, f3, -, -⟩ := first_part (N := N) (p := p) tf q m ms y hy hv.le
    obtain ⟨x', h1, h2⟩ := stays_within (ms.map (q.obs tf)) f y _ f1 f2 f3 hab (by
      intro o' ho'
      obtain ⟨m', hm', rfl⟩ := List.mem_map.1 ho'
      obtain ⟨⟨y', hy', hab'⟩, hv'⟩ := hms m' (List.mem_cons_of_mem _ hm')
      refine ⟨y', Real.sqrt (q.variance m'), hy', ?_, hab', Real.sqrt_pos.2 hv'⟩
      simp only [Part.obs, sqrtOpt, if_neg (not_lt.2 hv'.le)])
    refine ⟨x', fun c hc => ?_, h2⟩
    rw [(timer_part hstep q).2 c hc, run_part q es hrun, hp, hf, h1]

/-- C164, what holds: if every pose received says that the vehicle is upright, with positive variances of roll and pitch,
every pose published says so too, whatever its yaw. -/
theorem C164_upright_partial {N : ℕ} (hN : 0 < N) (p : EkfParams) {es : List Event} (hne : poses es ≠ [])
    (hunit : ∀ m ∈ poses es, m.ori.toRot.IsUnit) (hup : ∀ m ∈ poses es, 0 < m.upward)
    (hroll : ∀ m ∈ poses es, 0 < m.cov 21) (hpitch : ∀ m ∈ poses es, 0 < m.cov 28)
    {s r : NodeState N} {out o : List Output} (hrun : run hN tf2 p (NodeState.make N p) es = .ok (s, out))
    {t1 t2 t3 t4 t5 : ℤ} {sp : PoseMsg → Bool} {st : TwistMsg → Bool}
    (hstep : step hN tf2 p s (.timer t1 t2 t3 t4 t5 sp st) = .ok (r, o)) :
    ∃ roll pitch, ∀ c ∈ o, c.estimate.roll = some roll ∧ c.estimate.pitch = some pitch ∧
      0 < upwardOf roll pitch c.estimate.yaw := by
  obtain ⟨roll, h1, h2⟩ := published_within .roll hne (fun m hm => by
    obtain ⟨a, b, k1, -, k3, -⟩ := read_upright (hunit m hm) (hup m hm)
    exact ⟨⟨a, k1, k3⟩, hroll m hm⟩) hrun hstep
  obtain ⟨pitch, h3, h4⟩ := published_within .pitch hne (fun m hm => by
    obtain ⟨a, b, -, k2, -, k4⟩ := read_upright (hunit m hm) (hup m hm)
    exact ⟨⟨b, k2, k4⟩, hpitch m hm⟩) hrun hstep
  refine ⟨roll, pitch, fun c hc => ⟨h1 c hc, h3 c hc, ?_⟩⟩
  rw [upwardOf_eq]
  exact mul_pos (Real.cos_pos_of_mem_Ioo h4) (Real.cos_pos_of_mem_Ioo h2)

/-! ### Upside down -/

/-- A pose at the origin, rolled by an angle, with unit variances. -/
noncomputable def rolledPose (θ : ℝ) : PoseMsg :=
  let q := rpyToQuaternionXYZ θ 0 0
  ⟨"map".toList, 0, some 0, some 0, some 0, ⟨q.w, q.x, q.y, q.z⟩, fun _ => 1⟩

theorem rolled_upward (θ : ℝ) : (rolledPose θ).ori.toRot.IsUnit ∧ (rolledPose θ).upward = Real.cos θ := by
  obtain ⟨h1, -, h3⟩ := C50_rpy θ 0 0
  refine ⟨h1, ?_⟩
  have : (rolledPose θ).upward = upwardOf θ 0 0 := by
    unfold PoseMsg.upward upwardOf
    rw [← h3]
    rfl
  rw [this, upwardOf_eq, Real.cos_zero, one_mul]

theorem rolled_said {θ : ℝ} (h : -Real.pi < θ ∧ θ ≤ Real.pi) :
    Part.said tf2 (rolledPose θ) .roll = some θ ∧ Part.said tf2 (rolledPose θ) .pitch = some 0 := by
  obtain ⟨h1, -, h3⟩ := C50_rpy θ 0 0
  have hp := Real.pi_pos
  have := C138_read (roll := θ) (pitch := 0) (yaw := 0) ⟨h, ⟨by linarith, by linarith⟩, ⟨by linarith, hp.le⟩⟩
    (rolledPose θ).ori h1 h3
  exact ⟨this.1, this.2.1⟩

/-- An initial pose, a pose and a tick. -/
noncomputable def rolledEvents (θ η : ℝ) (sp : PoseMsg → Bool) (st : TwistMsg → Bool) : List Event :=
  [.initialPose (rolledPose θ) identityTries, .pose (rolledPose η)] ++ [.timer 0 0 0 0 0 sp st]

/-- C164, violated: the initial pose and a pose both say that the vehicle is upside down, rolled by almost half a turn,
the one to the left and the other to the right; the angle between them is `2 δ`. The node publishes that the vehicle is
upright. -/
theorem C164_upside_down_violated {N : ℕ} (hN : 0 < N) {δ : ℝ} (h0 : 0 < δ) (h1 : δ < Real.pi / 2)
    (sp : PoseMsg → Bool) (st : TwistMsg → Bool) :
    (rolledPose (Real.pi - δ)).upward < 0 ∧ (rolledPose (-(Real.pi - δ))).upward < 0 ∧
    ∃ (r : NodeState N) (out : List Output), run hN tf2 defaultParams (NodeState.make N defaultParams)
        (rolledEvents (Real.pi - δ) (-(Real.pi - δ)) sp st) = .ok (r, out) ∧ out.length = 2 ∧
      ∀ c ∈ out, c.estimate.roll = some 0 ∧ c.estimate.pitch = some 0 ∧ upwardOf 0 0 c.estimate.yaw = 1 := by
  have hpi := Real.pi_pos
  have hc : 0 < Real.cos δ := Real.cos_pos_of_mem_Ioo ⟨by linarith, h1⟩
  refine ⟨?_, ?_, ?_⟩
  · rw [(rolled_upward _).2, Real.cos_pi_sub]
    linarith
  · rw [(rolled_upward _).2, Real.cos_neg, Real.cos_pi_sub]
    linarith
  have hwf : WellFormed tf2 (1 / 50) (rolledEvents (Real.pi - δ) (-(Real.pi - δ)) sp st) := by
    refine ⟨?_, ?_, ?_, ?_⟩
    · intro e he
      simp only [rolledEvents, List.cons_append, List.nil_append, List.mem_cons, List.not_mem_nil, or_false] at he
      rcases he with rfl | rfl | rfl
      · exact ⟨by simp [rolledPose], rfl, rfl, rfl, fun a b => ⟨⟨0, by norm_num, rfl⟩, fun k t _ => rfl⟩⟩
      all_goals trivial
    · change List.Pairwise _ [0]
      simp
    · intro e he t1 t2 t3 t4 t5 sp' st' hee stamp hst
      simp only [rolledEvents, List.cons_append, List.nil_append, List.mem_cons, List.not_mem_nil, or_false] at he
      have hst' : stamp = 0 := by
        simpa [rolledEvents, Event.poseStamp, rolledPose, eq_comm] using hst
      subst hst'
      rcases he with rfl | rfl | rfl <;> cases hee
      norm_num
    · intro e he t1 t2 t3 t4 t5 sp' st' hee stamp hst
      simp [rolledEvents, Event.twistStamp] at hst
  obtain ⟨r, out, hrun, hhead⟩ := C70_no_failure hN tf2 defaultParams (1 / 50) (by norm_num) (by norm_num)
    (by norm_num [defaultParams]) (by simp [defaultParams]) _ hwf
  refine ⟨r, out, hrun, ?_, ?_⟩
  · have := congrArg List.length hhead
    rw [List.length_map] at this
    rw [this]
    rfl
  obtain ⟨s1, o1, o2, k1, k2, rfl⟩ := run_split _ _ _ _ _ hrun
  have ho1 : o1 = [] := by
    rw [run] at k1
    cases h1 : step hN tf2 defaultParams (NodeState.make N defaultParams)
        (.initialPose (rolledPose (Real.pi - δ)) identityTries) with
    | error x => rw [h1] at k1; cases k1
    | ok r1 =>
      obtain ⟨s2, o2'⟩ := r1
      have ho : o2' = [] := by
        simp only [step, bind, Except.bind, pure, Except.pure] at h1
        split at h1
        · cases h1
        · injection h1 with h1
          injection h1 with _ h1
          exact h1.symm
      rw [h1] at k1
      simp only [run, step, bind, Except.bind, pure, Except.pure, ho, List.nil_append] at k1
      injection k1 with k1
      injection k1 with _ k1
      exact k1.symm
  rw [ho1, List.nil_append]
  have e1 : sqrtOpt (1 : ℝ) = some 1 := by simp [sqrtOpt]
  have hcov : ∀ (θ : ℝ) i, (rolledPose θ).cov i = 1 := fun _ _ => rfl
  have hstamp : ∀ θ : ℝ, (rolledPose θ).stamp = 0 := fun _ => rfl
  have s1r := rolled_said (θ := Real.pi - δ) ⟨by linarith, by linarith⟩
  have s2r := rolled_said (θ := -(Real.pi - δ)) ⟨by linarith, by linarith⟩
  rw [run] at k2
  cases hst : step hN tf2 defaultParams s1 (.timer 0 0 0 0 0 sp st) with
  | error x => rw [hst] at k2; cases k2
  | ok r1 =>
    obtain ⟨s2, o2'⟩ := r1
    rw [hst] at k2
    simp only [run, bind, Except.bind, pure, Except.pure, List.append_nil] at k2
    injection k2 with k2
    injection k2 with _ k2
    subst k2
    have mid : ∀ (rate x : ℝ), ((Simple1DFilter.make rate).run [(some x, some 1, 0), (some (-x), some 1, 0)]).x =
        some 0 := by
      intro rate x
      have first : (Simple1DFilter.make rate).update (some x) (some 1) 0 = ⟨true, some x, some 1, rate, 0⟩ := rfl
      simp only [Simple1DFilter.run, List.foldl_cons, List.foldl_nil, first]
      rw [late_closed (v := 1) rfl rfl one_pos (-x) 0 (by norm_num)]
      simp only [Option.map_some, Option.some.injEq]
      ring
    intro c hc'
    refine ⟨?_, ?_, ?_⟩
    · have h3 := (timer_part hst .roll).2 c hc'
      rw [run_part .roll _ k1] at h3
      refine h3.trans (Eq.trans ?_ (mid (1 / 10) (Real.pi - δ)))
      simp only [poses, List.map_cons, List.map_nil, Part.obs, s1r.1, s2r.1, Part.variance, hcov, e1, hstamp]
      rfl
    · have h3 := (timer_part hst .pitch).2 c hc'
      rw [run_part .pitch _ k1] at h3
      have := mid (1 / 10) 0
      rw [neg_zero] at this
      refine h3.trans (Eq.trans ?_ this)
      simp only [poses, List.map_cons, List.map_nil, Part.obs, s1r.2, s2r.2, Part.variance, hcov, e1, hstamp]
      rfl
    · rw [upwardOf_eq]
      simp

/-! Non-vacuity: poses rolled by less than a right angle are upright. -/

example : 0 < (rolledPose 1).upward ∧ (rolledPose 1).ori.toRot.IsUnit ∧ 0 < (rolledPose 1).cov 21 ∧
    poses [.initialPose (rolledPose 1) identityTries] ≠ [] := by
  refine ⟨?_, (rolled_upward 1).1, one_pos, by simp [poses]⟩
  rw [(rolled_upward 1).2]
  exact Real.cos_one_pos

end Verif.Ekf
