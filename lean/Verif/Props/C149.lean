/-
C149: a start that is wrong along the heading or in the heading.
-/
import Verif.Props.C123
import Verif.Props.C148

set_option autoImplicit false

namespace Verif.Ekf

open Matrix Verif.Kalman

/-! ### Fresh messages -/

section Fresh
variable {n : ℕ} {tf : Tf2} {p : EkfParams}

/-- Specification: between two ticks there are at most one pose message and one twist message, and at the
tick each is less than half of `L` seconds old. The arguments are the messages that wait. -/
def FreshAll (L : ℝ) : Option PoseMsg → Option TwistMsg → List Event → Prop
  | _, _, [] => True
  | wp, wt, .pose m :: es => wp = none ∧ FreshAll L (some m) wt es
  | wp, wt, .twist m :: es => wt = none ∧ FreshAll L wp (some m) es
  | wp, wt, .timer _ t2 t3 _ _ _ _ :: es =>
    (∀ m ∈ wp, ((t2 - m.stamp : ℤ) : ℝ) / 1000000000 < L / 2) ∧
    (∀ m ∈ wt, ((t3 - m.stamp : ℤ) : ℝ) / 1000000000 < L / 2) ∧ FreshAll L none none es
  | _, _, .initialPose .. :: _ => False

/-- Specification: the messages that wait after the events. -/
def stillWaiting : Option PoseMsg → Option TwistMsg → List Event → Option PoseMsg × Option TwistMsg
  | wp, wt, [] => (wp, wt)
  | _, wt, .pose m :: es => stillWaiting (some m) wt es
  | wp, _, .twist m :: es => stillWaiting wp (some m) es
  | _, _, .timer .. :: es => stillWaiting none none es
  | wp, wt, .initialPose .. :: es => stillWaiting wp wt es

/-- Specification: the number of ticks. -/
def ticksOf : List Event → ℕ
  | [] => 0
  | .timer .. :: es => ticksOf es + 1
  | _ :: es => ticksOf es

/-- Specification: what may come after the initial pose. -/
def Following (Jp : PoseMsg → Prop) (Jt : TwistMsg → Prop) : Event → Prop
  | .initialPose .. => False
  | .pose m => Jp m
  | .twist m => Jt m
  | .timer .. => True

theorem freshAll_append {L : ℝ} : ∀ (es es' : List Event) (wp : Option PoseMsg) (wt : Option TwistMsg),
    FreshAll L wp wt (es ++ es') → FreshAll L wp wt es ∧
      FreshAll L (stillWaiting wp wt es).1 (stillWaiting wp wt es).2 es' := by
  intro es
  induction es with
  | nil => intro es' wp wt h; exact ⟨trivial, h⟩
  | cons e es ih =>
    intro es' wp wt h
    cases e with
    | initialPose m tries => exact h.elim
    | pose m =>
      obtain ⟨h1, h2⟩ := h
      exact ⟨⟨h1, (ih _ _ _ h2).1⟩, (ih _ _ _ h2).2⟩
    | twist m =>
      obtain ⟨h1, h2⟩ := h
      exact ⟨⟨h1, (ih _ _ _ h2).1⟩, (ih _ _ _ h2).2⟩
    | timer t1 t2 t3 t4 t5 sp st =>
      obtain ⟨h1, h2, h3⟩ := h
      exact ⟨⟨h1, h2, (ih _ _ _ h3).1⟩, (ih _ _ _ h3).2⟩

theorem run_split {N : ℕ} {hN : 0 < N} : ∀ (es es' : List Event) (s s' : NodeState N) (out : List Output),
    run hN tf p s (es ++ es') = .ok (s', out) →
    ∃ s1 o1 o2, run hN tf p s es = .ok (s1, o1) ∧ run hN tf p s1 es' = .ok (s', o2) ∧ out = o1 ++ o2 := by
  intro es
  induction es with
  | nil => intro es' s s' out h; exact ⟨s, [], out, rfl, h, rfl⟩
  | cons e es ih =>
    intro es' s s' out h
    simp only [List.cons_append, run, bind, Except.bind] at h ⊢
    cases h1 : step hN tf p s e with
    | error x => rw [h1] at h; cases h
    | ok r =>
      obtain ⟨s1, o1⟩ := r
      rw [h1] at h
      simp only at h
      cases h2 : run hN tf p s1 (es ++ es') with
      | error x => rw [h2] at h; cases h
      | ok r2 =>
        obtain ⟨s2, o2⟩ := r2
        rw [h2] at h
        simp only [pure, Except.pure] at h
        injection h with h
        injection h with h h'
        subst h; subst h'
        obtain ⟨s3, o3, o4, k1, k2, rfl⟩ := ih es' s1 s2 o2 h2
        refine ⟨s3, o1 ++ o3, o4, ?_, k2, by rw [List.append_assoc]⟩
        simp only [k1]
        rfl

/-- A message that waits, if there is one, has been processed. -/
def Considered {α F : Type} (process : α → F → Res F) : Option α → F → F → Prop
  | none, f, f' => f' = f
  | some m, f, f' => process m f = .ok f'

theorem updateAll_one {α F : Type} {process : α → F → Res F} {w : Option α} {f f' : F} {q' : AgedQueue α}
    (h : updateAll process ⟨1, w.toList, w.toList.map fun _ => 0⟩ f = .ok (f', q')) :
    Considered process w f f' ∧ q' = ⟨1, [], []⟩ := by
  cases w with
  | none =>
    rw [updateAll_empty _ _ _ rfl] at h
    injection h with h
    injection h with h h'
    exact ⟨h.symm, h'.symm⟩
  | some m =>
    change updateLoop process 1 0 ⟨1, [m], [0]⟩ f = _ at h
    have hpop : (⟨1, [m], [0]⟩ : AgedQueue α).pop = .ok (m, ⟨1, [], []⟩) := by
      simp [AgedQueue.pop]
    rw [updateLoop, if_pos (by simp [AgedQueue.size])] at h
    simp only [bind, Except.bind, hpop] at h
    cases hp : process m f with
    | error e => rw [hp] at h; cases h
    | ok g =>
      rw [hp] at h
      simp only [updateLoop] at h
      injection h with h
      injection h with h h'
      subst h
      exact ⟨hp, h'.symm⟩

theorem delay_zero {now stamp : ℤ} {L dt : ℝ} (hL : 0 < L) (hdt : L ≤ dt)
    (h : ((now - stamp : ℤ) : ℝ) / 1000000000 < L / 2) :
    computeDelayStep (computeDelayTime now stamp : ℝ) dt = .ok 0 := by
  have hdt0 : 0 < dt := by linarith
  have h' : (computeDelayTime now stamp : ℝ) < L / 2 := h
  obtain ⟨k, k1, k2, k3, k4⟩ := C31_delay_step (computeDelayTime now stamp : ℝ) dt hdt0 (by
    rw [div_lt_iff₀ hdt0]; linarith)
  rw [k1]
  have : max (computeDelayTime now stamp : ℝ) 0 / dt < 1 / 2 := by
    rw [div_lt_iff₀ hdt0]
    exact max_lt (by linarith) (by linarith)
  have hk : (k : ℝ) < 1 := by linarith
  have hk' : k < 1 := by exact_mod_cast hk
  have : k = 0 := by omega
  rw [this]

/-- The node with a filter of a kind and at most one waiting message of each kind. -/
structure ReadyWith (p : EkfParams) (I : TimeDelayKalmanFilter ℝ (n + 1) 6 → Prop) (Jp : PoseMsg → Prop)
    (Jt : TwistMsg → Prop) (wp : Option PoseMsg) (wt : Option TwistMsg) (s : NodeState (n + 1)) : Prop where
  ekf : ∃ f, s.ekf = some f ∧ I f
  poseQ : s.poseQ = ⟨1, wp.toList, wp.toList.map fun _ => 0⟩
  twistQ : s.twistQ = ⟨1, wt.toList, wt.toList.map fun _ => 0⟩
  poses : ∀ m ∈ wp, Jp m
  twists : ∀ m ∈ wt, Jt m
  freq : s.interval.defaultFrequency = p.defaultFrequency

/-- One tick with fresh messages. -/
theorem fresh_step {I : TimeDelayKalmanFilter ℝ (n + 1) 6 → Prop} {Jp : PoseMsg → Prop}
    {Jt : TwistMsg → Prop} {L : ℝ} (hL : 0 < L) (hL10 : L ≤ 10)
    (hLf : L ≤ 1 / max p.defaultFrequency (1 / 10)) {wp : Option PoseMsg} {wt : Option TwistMsg}
    {s s' : NodeState (n + 1)} {o : List Output} (hs : ReadyWith p I Jp Jt wp wt s)
    {t1 t2 t3 t4 t5 : ℤ} {sp : PoseMsg → Bool} {st : TwistMsg → Bool}
    (hwp : ∀ m ∈ wp, ((t2 - m.stamp : ℤ) : ℝ) / 1000000000 < L / 2)
    (hwt : ∀ m ∈ wt, ((t3 - m.stamp : ℤ) : ℝ) / 1000000000 < L / 2)
    (hlast : ∀ last, s.interval.lastTime = some last → last + L ≤ (t1 : ℝ) / 1000000000)
    (h : step n.succ_pos tf p s (.timer t1 t2 t3 t4 t5 sp st) = .ok (s', o)) :
    ∃ f dt f1 f2, I f ∧ L ≤ dt ∧
      (∀ m ∈ wp, Jp m ∧ computeDelayStep (computeDelayTime t2 m.stamp : ℝ) dt = .ok 0) ∧
      (∀ m ∈ wt, Jt m ∧ computeDelayStep (computeDelayTime t3 m.stamp : ℝ) dt = .ok 0) ∧
      Considered (processPose n.succ_pos tf sp p.poseGate p.poseSmoothing t2 dt) wp
        (predictStep n.succ_pos p dt f) f1 ∧
      Considered (processTwist n.succ_pos st p.twistGate p.twistSmoothing t3 dt) wt f1 f2 ∧
      o = publish n.succ_pos p s f2 t4 t5 ∧ s'.interval.lastTime = some ((t1 : ℝ) / 1000000000) ∧
      ∀ I' : TimeDelayKalmanFilter ℝ (n + 1) 6 → Prop, I' f2 → ReadyWith p I' Jp Jt none none s' := by
  obtain ⟨f, hf, hI⟩ := hs.ekf
  have hdt : ∃ dt, s.interval.compute ((t1 : ℝ) / 1000000000) =
      (.ok dt, ⟨p.defaultFrequency, some ((t1 : ℝ) / 1000000000)⟩) ∧ L ≤ dt := by
    cases hlt : s.interval.lastTime with
    | none =>
      refine ⟨computeInterval (p.defaultFrequency : WithTop ℝ), ?_, hLf⟩
      simp only [UpdateInterval.compute, hlt, hs.freq]
    | some last =>
      have h0 := hlast last hlt
      refine ⟨min ((t1 : ℝ) / 1000000000 - last) 10, ?_, le_min (by linarith) hL10⟩
      rw [compute_interval _ last _ hlt, if_neg (by linarith), hs.freq]
  obtain ⟨dt, hdt, hLdt⟩ := hdt
  simp only [step, timerCallback, hf, hdt, bind, Except.bind] at h
  cases hu : updateAll (processPose n.succ_pos tf sp p.poseGate p.poseSmoothing t2 dt) s.poseQ
      (predictStep n.succ_pos p dt f) with
  | error x => rw [hu] at h; cases h
  | ok r =>
    obtain ⟨f1, q1⟩ := r
    rw [hu] at h
    simp only at h
    cases hv : updateAll (processTwist n.succ_pos st p.twistGate p.twistSmoothing t3 dt) s.twistQ f1 with
    | error x => rw [hv] at h; cases h
    | ok r =>
      obtain ⟨f2, q2⟩ := r
      rw [hv] at h
      simp only [pure, Except.pure] at h
      injection h with h
      injection h with h h'
      subst h; subst h'
      rw [hs.poseQ] at hu
      rw [hs.twistQ] at hv
      obtain ⟨c1, rfl⟩ := updateAll_one hu
      obtain ⟨c2, rfl⟩ := updateAll_one hv
      exact ⟨f, dt, f1, f2, hI, hLdt, fun m hm => ⟨hs.poses m hm, delay_zero hL hLdt (hwp m hm)⟩,
        fun m hm => ⟨hs.twists m hm, delay_zero hL hLdt (hwt m hm)⟩, c1, c2, rfl, rfl,
        fun I' hI' => ⟨⟨f2, rfl, hI'⟩, rfl, rfl, by simp, by simp, rfl⟩⟩

/-- Executions with fresh messages: as long as nothing good has been published, all is as described. -/
theorem run_fresh (I : ℕ → TimeDelayKalmanFilter ℝ (n + 1) 6 → Prop) {Jp : PoseMsg → Prop}
    {Jt : TwistMsg → Prop} (Good Bad : Output → Prop) {L : ℝ} (hL : 0 < L) (hL10 : L ≤ 10)
    (hLf : L ≤ 1 / max p.defaultFrequency (1 / 10))
    (htick : ∀ k f wp wt dt sp st t2 t3 f1 f2, I k f → L ≤ dt →
      (∀ m ∈ wp, Jp m ∧ computeDelayStep (computeDelayTime t2 m.stamp : ℝ) dt = .ok 0) →
      (∀ m ∈ wt, Jt m ∧ computeDelayStep (computeDelayTime t3 m.stamp : ℝ) dt = .ok 0) →
      Considered (processPose n.succ_pos tf sp p.poseGate p.poseSmoothing t2 dt) wp
        (predictStep n.succ_pos p dt f) f1 →
      Considered (processTwist n.succ_pos st p.twistGate p.twistSmoothing t3 dt) wt f1 f2 →
      (I (k + 1) f2 ∧ ∀ s t4 t5, ∀ o ∈ publish n.succ_pos p s f2 t4 t5, Bad o) ∨
        ∀ s t4 t5, ∃ o ∈ publish n.succ_pos p s f2 t4 t5, Good o) :
    ∀ (es : List Event) (k : ℕ) (wp : Option PoseMsg) (wt : Option TwistMsg) (s s' : NodeState (n + 1))
      (out : List Output), ReadyWith p (I k) Jp Jt wp wt s → FreshAll L wp wt es →
      (∀ e ∈ es, Following Jp Jt e) → ∀ later : List ℤ,
      (∀ last, s.interval.lastTime = some last →
        ∀ t ∈ es.filterMap Event.clock ++ later, last + L ≤ (t : ℝ) / 1000000000) →
      ((es.filterMap Event.clock ++ later).Pairwise fun a b : ℤ =>
        (a : ℝ) / 1000000000 + L ≤ (b : ℝ) / 1000000000) →
      run n.succ_pos tf p s es = .ok (s', out) →
      (∃ o ∈ out, Good o) ∨ (ReadyWith p (I (k + ticksOf es)) Jp Jt (stillWaiting wp wt es).1
        (stillWaiting wp wt es).2 s' ∧ (∀ last, s'.interval.lastTime = some last →
          ∀ t ∈ later, last + L ≤ (t : ℝ) / 1000000000) ∧ ∀ o ∈ out, Bad o) := by
  intro es
  induction es with
  | nil =>
    intro k wp wt s s' out hs _ _ later hlast _ h
    simp only [run] at h
    injection h with h
    injection h with h h'
    subst h; subst h'
    exact .inr ⟨hs, by simpa using hlast, by simp⟩
  | cons e es ih =>
    intro k wp wt s s' out hs hfresh hes later hlast hgaps h
    simp only [run, bind, Except.bind] at h
    cases h1 : step n.succ_pos tf p s e with
    | error x => rw [h1] at h; cases h
    | ok r =>
      obtain ⟨s1, o1⟩ := r
      rw [h1] at h
      simp only at h
      cases h2 : run n.succ_pos tf p s1 es with
      | error x => rw [h2] at h; cases h
      | ok r2 =>
        obtain ⟨s2, o2⟩ := r2
        rw [h2] at h
        simp only [pure, Except.pure] at h
        injection h with h
        injection h with h h'
        subst h; subst h'
        have hes' : ∀ e ∈ es, Following Jp Jt e := fun e he => hes e (List.mem_cons_of_mem _ he)
        have he := hes e List.mem_cons_self
        cases e with
        | initialPose m tries => exact he.elim
        | pose m =>
          obtain ⟨rfl, hfresh⟩ := hfresh
          simp only [step] at h1
          injection h1 with h1
          injection h1 with h1 h1'
          subst h1'
          have hR : ReadyWith p (I k) Jp Jt (some m) wt s1 ∧ s1.interval = s.interval := by
            rw [← h1]
            refine ⟨⟨hs.ekf, ?_, hs.twistQ, ?_, hs.twists, hs.freq⟩, rfl⟩
            · simp only [updateSimple1DFilters, hs.poseQ, AgedQueue.push]; rfl
            · intro m' hm'
              have : m = m' := by simpa using hm'
              subst this
              exact he
          have := ih k (some m) wt s1 s2 o2 hR.1 hfresh hes' later (by rw [hR.2]; exact hlast) hgaps h2
          simpa [stillWaiting, ticksOf] using this
        | twist m =>
          obtain ⟨rfl, hfresh⟩ := hfresh
          simp only [step] at h1
          injection h1 with h1
          injection h1 with h1 h1'
          subst h1'
          have hR : ReadyWith p (I k) Jp Jt wp (some m) s1 ∧ s1.interval = s.interval := by
            rw [← h1]
            refine ⟨⟨hs.ekf, hs.poseQ, ?_, hs.poses, ?_, hs.freq⟩, rfl⟩
            · simp only [hs.twistQ, AgedQueue.push]; rfl
            · intro m' hm'
              have : m = m' := by simpa using hm'
              subst this
              exact he
          have := ih k wp (some m) s1 s2 o2 hR.1 hfresh hes' later (by rw [hR.2]; exact hlast) hgaps h2
          simpa [stillWaiting, ticksOf] using this
        | timer t1 t2 t3 t4 t5 sp st =>
          obtain ⟨hwp, hwt, hfresh⟩ := hfresh
          rw [List.filterMap_cons] at hgaps
          simp only [Event.clock, List.cons_append] at hgaps
          obtain ⟨g1, g2⟩ := List.pairwise_cons.1 hgaps
          obtain ⟨f, dt, f1, f2, hI, hdt, q1, q2, q3, q4, rfl, hl, hr⟩ := fresh_step hL hL10 hLf hs hwp hwt
            (fun last hl => hlast last hl t1 (by simp [Event.clock])) h1
          rcases htick k f wp wt dt sp st t2 t3 f1 f2 hI hdt q1 q2 q3 q4 with ⟨hI', hb⟩ | hg
          · have := ih (k + 1) none none s1 s2 o2 (hr _ hI') hfresh hes' later (by
                intro last hl' t ht
                rw [hl] at hl'
                injection hl' with hl'
                rw [← hl']
                exact g1 t ht) g2 h2
            rcases this with ⟨o, ho, hgo⟩ | ⟨r1, r2, r3⟩
            · exact .inl ⟨o, List.mem_append_right _ ho, hgo⟩
            · refine .inr ⟨?_, r2, fun o ho => ?_⟩
              · simpa [stillWaiting, ticksOf, Nat.add_assoc, Nat.add_comm 1] using r1
              · rcases List.mem_append.1 ho with ho | ho
                · exact hb s t4 t5 o ho
                · exact r3 o ho
          · obtain ⟨o, ho, hgo⟩ := hg s t4 t5
            exact .inl ⟨o, List.mem_append_left _ ho, hgo⟩

end Fresh

/-! ### The newest state under fresh messages -/

section Newest
variable {n h : ℕ}

/-- Estimate and covariance of the newest state. -/
structure NewestIs (f : TimeDelayKalmanFilter ℝ (n + 1) 6) (x : Fin 6 → ℝ) (P : Matrix (Fin 6) (Fin 6) ℝ) :
    Prop where
  psd : f.P.PosSemidef
  pd : P.PosDef
  x : blkX f.x 0 = x
  P : blk f.P 0 0 = P

theorem newest_predict {f : TimeDelayKalmanFilter ℝ (n + 1) 6} {x : Fin 6 → ℝ}
    {P : Matrix (Fin 6) (Fin 6) ℝ} (h : NewestIs f x P) (p : EkfParams) (dt : ℝ) :
    NewestIs (predictStep n.succ_pos p dt f) (predictNextState x dt)
      (createStateTransitionMatrix x dt * P * (createStateTransitionMatrix x dt)ᵀ +
        processNoiseCovariance (p.variance.timeScaledVariances dt)) := by
  have hx0 : f.getLatestX n.succ_pos = x := by rw [latest_blkX, h.x]
  set A := createStateTransitionMatrix x dt with hAdef
  set Q := processNoiseCovariance (p.variance.timeScaledVariances dt) with hQ
  have hstep : predictStep n.succ_pos p dt f = f.predict n.succ_pos (predictNextState x dt) A Q := by
    simp only [predictStep, hx0, hAdef, hQ]
  have hb : 6 ≤ (n + 1) * 6 := by omega
  refine ⟨predictStep_psd p dt f h.psd, ?_, ?_, ?_⟩
  · refine Matrix.PosDef.add_posSemidef ?_ (C37_process_noise_psd p.variance dt)
    refine Matrix.PosDef.of_dotProduct_mulVec_pos ?_ fun z hz => ?_
    · have := (h.pd.posSemidef.mul_mul_conjTranspose_same A).isHermitian
      rwa [← tr_eq] at this
    · simp only [star_trivial]
      rw [quad_conj]
      have hne : Aᵀ *ᵥ z ≠ 0 := by
        intro h0
        have hu' : IsUnit Aᵀ.det := by
          rw [Matrix.det_transpose, hAdef, transition_det]
          exact isUnit_one
        refine hz ?_
        have := congrArg (fun v => Aᵀ⁻¹ *ᵥ v) h0
        simpa [Matrix.mulVec_mulVec, Matrix.nonsing_inv_mul _ hu'] using this
      have := h.pd.dotProduct_mulVec_pos hne
      simpa only [star_trivial] using this
  · rw [hstep, predict_blk]
    exact dif_pos rfl
  · rw [hstep]
    have := updateP_blk_00 hb f.P A Q
    rw [h.P] at this
    exact this

/-- The gain of a measurement of the newest state. -/
noncomputable def gainOf (P : Matrix (Fin 6) (Fin 6) ℝ) (C : Matrix (Fin h) (Fin 6) ℝ)
    (R : Matrix (Fin h) (Fin h) ℝ) : Matrix (Fin 6) (Fin h) ℝ := P * Cᵀ * (R + C * P * Cᵀ)⁻¹

theorem newest_process {sing : Bool} {stateOf : (Fin 6 → ℝ) → (Fin h → ℝ)}
    {covOf : Matrix (Fin 6) (Fin 6) ℝ → Matrix (Fin h) (Fin h) ℝ} {C : Matrix (Fin h) (Fin 6) ℝ}
    {gate dt : ℝ} {now stamp : ℤ} {y : Fin h → Option ℝ} {R : Matrix (Fin h) (Fin h) ℝ}
    {f f' : TimeDelayKalmanFilter ℝ (n + 1) 6} {v : Fin h → ℝ} {x : Fin 6 → ℝ}
    {P : Matrix (Fin 6) (Fin 6) ℝ} (hf : NewestIs f x P) (hy : y = fun i => some (v i)) (hR : R.PosDef)
    (hd : computeDelayStep (computeDelayTime now stamp : ℝ) dt = .ok 0)
    (hp : processMeasurement n.succ_pos sing stateOf covOf C gate now dt stamp y R f = .ok f') :
    (mahalanobisGate sing gate (stateOf x) v (covOf P) = false ∧ f' = f) ∨
    (mahalanobisGate sing gate (stateOf x) v (covOf P) = true ∧
      NewestIs f' (x + gainOf P C R *ᵥ (v - C *ᵥ x)) (P - gainOf P C R * C * P) ∧
      f.update v C R ((0 : Fin (n + 1)).val : ℤ) = .ok f') := by
  have hgx : mahalanobisGate sing gate (stateOf x) v (covOf P) =
      mahalanobisGate sing gate (stateOf (blkX f.x 0)) v (covOf (f.getLatestP n.succ_pos)) := by
    rw [getLatestP_blk, hf.x, hf.P]
  cases hg : mahalanobisGate sing gate (stateOf x) v (covOf P) with
  | true =>
    obtain ⟨f1, hu⟩ := C34_accepted f v C R 0 hf.psd hR
    have := process_taken (δ := 0) hy hd (hgx ▸ hg) hu
    rw [this] at hp
    injection hp with hp
    subst hp
    obtain ⟨k1, k2⟩ := update_definite hf.psd (hf.P.symm ▸ hf.pd) hR hu
    obtain ⟨hc1, hc2⟩ := C33_blocks f v C R 0
    by_cases hdet : (R + C * blk f.P 0 0 * Cᵀ).det = 0
    · rw [hc1 hdet] at hu; cases hu
    · obtain ⟨g, hg', hX, hP⟩ := hc2 hdet
      rw [hg'] at hu
      injection hu with hu
      subst hu
      have hP0 := hP 0 0
      have hX0 := hX 0
      rw [hf.P] at hP0 hX0
      rw [hf.x] at hX0
      exact .inr ⟨rfl, ⟨k1, hP0 ▸ k2, hX0, hP0⟩, hg'⟩
  | false =>
    rcases process_cases hy hp with rfl | ⟨δ, h1, h2, -⟩
    · exact .inl ⟨rfl, rfl⟩
    · rw [hd] at h1
      injection h1 with h1
      have : δ = 0 := Fin.ext (by rw [Fin.val_zero]; omega)
      subst this
      rw [← hgx, hg] at h2
      cases h2

theorem gain_joseph {P : Matrix (Fin 6) (Fin 6) ℝ} {C : Matrix (Fin h) (Fin 6) ℝ}
    {R : Matrix (Fin h) (Fin h) ℝ} (hP : P.PosSemidef) (hR : R.PosDef) :
    P - gainOf P C R * C * P =
      (1 - gainOf P C R * C) * P * (1 - gainOf P C R * C)ᵀ + gainOf P C R * R * (gainOf P C R)ᵀ := by
  have hS : (R + C * P * Cᵀ).PosDef := hR.add_posSemidef (by
    have := hP.mul_mul_conjTranspose_same C
    rwa [← tr_eq] at this)
  have hdet : (R + C * (P * Cᵀ)).det ≠ 0 := by
    rw [← Matrix.mul_assoc]
    exact ((isUnit_iff_isUnit_det _).1 hS.isUnit).ne_zero
  refine updateCovariance_joseph (G := gainOf P C R) hP hR.posSemidef ?_
  simp only [calcKalmanGain, if_neg hdet, gainOf, Matrix.mul_assoc]

/-! ### The error compared with the covariance -/

/-- The error is at most so many standard deviations in every direction. -/
def Spread {m : ℕ} (V : ℝ) (P : Matrix (Fin m) (Fin m) ℝ) (E : Fin m → ℝ) : Prop :=
  ∀ z : Fin m → ℝ, (z ⬝ᵥ E) ^ 2 ≤ V * (z ⬝ᵥ (P *ᵥ z))

theorem Spread.conj {m k : ℕ} {V : ℝ} {P : Matrix (Fin m) (Fin m) ℝ} {E : Fin m → ℝ} (h : Spread V P E)
    (hV : 0 ≤ V) (M : Matrix (Fin k) (Fin m) ℝ) {N : Matrix (Fin k) (Fin k) ℝ} (hN : N.PosSemidef) :
    Spread V (M * P * Mᵀ + N) (M *ᵥ E) := by
  intro z
  have h1 := h (Mᵀ *ᵥ z)
  have h2 := hN.dotProduct_mulVec_nonneg z
  rw [star_trivial] at h2
  rw [Matrix.add_mulVec, dotProduct_add, quad_conj]
  have h3 : z ⬝ᵥ M *ᵥ E = (Mᵀ *ᵥ z) ⬝ᵥ E := by
    rw [Matrix.dotProduct_mulVec, ← Matrix.mulVec_transpose]
  rw [h3]
  nlinarith [mul_nonneg hV h2]

theorem Spread.inverse {m : ℕ} {V : ℝ} {P : Matrix (Fin m) (Fin m) ℝ} {E : Fin m → ℝ} (h : Spread V P E)
    (hV : 0 ≤ V) (hP : P.PosDef) : E ⬝ᵥ (P⁻¹ *ᵥ E) ≤ V := by
  have h1 := h (P⁻¹ *ᵥ E)
  have hu : IsUnit P.det := (isUnit_iff_isUnit_det _).1 hP.isUnit
  rw [Matrix.mulVec_mulVec, Matrix.mul_nonsing_inv _ hu, Matrix.one_mulVec] at h1
  have h2 := hP.inv.posSemidef.dotProduct_mulVec_nonneg E
  rw [star_trivial] at h2
  rw [dotProduct_comm] at h1
  by_contra hlt
  push Not at hlt
  nlinarith

/-! ### Directions that do not mix -/

/-- The error lies in a subspace, and the covariance does not mix it with its complement. -/
structure Parted (T : Matrix (Fin 6) (Fin 6) ℝ) (P : Matrix (Fin 6) (Fin 6) ℝ) (E : Fin 6 → ℝ) : Prop where
  err : T *ᵥ E = E
  cov : P * T = T * P

theorem Parted.gain {T : Matrix (Fin 6) (Fin 6) ℝ} {P : Matrix (Fin 6) (Fin 6) ℝ} {E : Fin 6 → ℝ}
    (hE : Parted T P E) (hT : Tᵀ = T) {C : Matrix (Fin h) (Fin 6) ℝ} {R T' : Matrix (Fin h) (Fin h) ℝ}
    (hT' : T'ᵀ = T') (hC : C * T = T' * C) (hRc : R * T' = T' * R) (hP : P.PosSemidef) (hR : R.PosDef) :
    T * (gainOf P C R * C) = gainOf P C R * C * T := by
  have hS : (R + C * P * Cᵀ).PosDef := hR.add_posSemidef (by
    have := hP.mul_mul_conjTranspose_same C
    rwa [← tr_eq] at this)
  have hu : IsUnit (R + C * P * Cᵀ).det := (isUnit_iff_isUnit_det _).1 hS.isUnit
  have hCT : Cᵀ * T' = T * Cᵀ := by
    have := congrArg Matrix.transpose hC
    rw [Matrix.transpose_mul, Matrix.transpose_mul, hT, hT'] at this
    exact this.symm
  have hcp := hE.cov
  set S := R + C * P * Cᵀ with hSdef
  have hSc : S * T' = T' * S := by
    rw [hSdef, Matrix.add_mul, Matrix.mul_add, hRc]
    congr 1
    calc C * P * Cᵀ * T' = C * P * (Cᵀ * T') := Matrix.mul_assoc _ _ _
      _ = C * (P * T) * Cᵀ := by rw [hCT]; simp only [Matrix.mul_assoc]
      _ = C * T * P * Cᵀ := by rw [hcp]; simp only [Matrix.mul_assoc]
      _ = T' * (C * P * Cᵀ) := by rw [hC]; simp only [Matrix.mul_assoc]
  have hSi : S⁻¹ * T' = T' * S⁻¹ := by
    calc S⁻¹ * T' = S⁻¹ * (T' * S) * S⁻¹ := by
          rw [Matrix.mul_assoc, Matrix.mul_assoc, Matrix.mul_nonsing_inv _ hu, Matrix.mul_one]
      _ = S⁻¹ * (S * T') * S⁻¹ := by rw [hSc]
      _ = T' * S⁻¹ := by rw [← Matrix.mul_assoc S⁻¹, Matrix.nonsing_inv_mul _ hu, Matrix.one_mul]
  unfold gainOf
  rw [← hSdef]
  calc T * (P * Cᵀ * S⁻¹ * C) = (T * P) * Cᵀ * S⁻¹ * C := by simp only [Matrix.mul_assoc]
    _ = P * (T * Cᵀ) * S⁻¹ * C := by rw [← hcp]; simp only [Matrix.mul_assoc]
    _ = P * Cᵀ * (T' * S⁻¹) * C := by rw [← hCT]; simp only [Matrix.mul_assoc]
    _ = P * Cᵀ * S⁻¹ * (T' * C) := by rw [← hSi]; simp only [Matrix.mul_assoc]
    _ = P * Cᵀ * S⁻¹ * C * T := by rw [← hC]; simp only [Matrix.mul_assoc]

theorem Parted.update {T : Matrix (Fin 6) (Fin 6) ℝ} {P : Matrix (Fin 6) (Fin 6) ℝ} {E : Fin 6 → ℝ}
    (hE : Parted T P E) (hT : Tᵀ = T) {C : Matrix (Fin h) (Fin 6) ℝ} {R T' : Matrix (Fin h) (Fin h) ℝ}
    (hT' : T'ᵀ = T') (hC : C * T = T' * C) (hRc : R * T' = T' * R) (hP : P.PosSemidef) (hR : R.PosDef) :
    Parted T (P - gainOf P C R * C * P) ((1 - gainOf P C R * C) *ᵥ E) := by
  have hg := hE.gain hT hT' hC hRc hP hR
  constructor
  · rw [Matrix.mulVec_mulVec, Matrix.mul_sub, Matrix.mul_one, hg, Matrix.sub_mulVec, ← Matrix.mulVec_mulVec,
      hE.err, Matrix.sub_mulVec, Matrix.one_mulVec]
  · rw [Matrix.sub_mul, Matrix.mul_sub, hE.cov, ← Matrix.mul_assoc T, hg, Matrix.mul_assoc _ P, hE.cov,
      Matrix.mul_assoc _ T]

theorem Parted.predict {T : Matrix (Fin 6) (Fin 6) ℝ} {P : Matrix (Fin 6) (Fin 6) ℝ} {E : Fin 6 → ℝ}
    (hE : Parted T P E) (hT : Tᵀ = T) {A Q : Matrix (Fin 6) (Fin 6) ℝ} (hA : A * T = T * A)
    (hQ : Q * T = T * Q) : Parted T (A * P * Aᵀ + Q) (A *ᵥ E) := by
  have hAT : Aᵀ * T = T * Aᵀ := by
    have := congrArg Matrix.transpose hA
    rw [Matrix.transpose_mul, Matrix.transpose_mul, hT] at this
    exact this.symm
  constructor
  · rw [Matrix.mulVec_mulVec, ← hA, ← Matrix.mulVec_mulVec, hE.err]
  · rw [Matrix.add_mul, Matrix.mul_add, hQ]
    congr 1
    calc A * P * Aᵀ * T = A * P * (Aᵀ * T) := Matrix.mul_assoc _ _ _
      _ = A * (P * T) * Aᵀ := by rw [hAT]; simp only [Matrix.mul_assoc]
      _ = A * T * P * Aᵀ := by rw [hE.cov]; simp only [Matrix.mul_assoc]
      _ = T * (A * P * Aᵀ) := by rw [hA]; simp only [Matrix.mul_assoc]

end Newest

/-! ### Wrong along the heading -/

section Ahead
variable {n : ℕ} {tf : Tf2} {p : EkfParams}

/-- Position along the heading and speed. -/
noncomputable def aheadPlane (ψ : ℝ) : Matrix (Fin 6) (Fin 6) ℝ :=
  !![Real.cos ψ * Real.cos ψ, Real.cos ψ * Real.sin ψ, 0, 0, 0, 0;
     Real.cos ψ * Real.sin ψ, Real.sin ψ * Real.sin ψ, 0, 0, 0, 0;
     0, 0, 0, 0, 0, 0;
     0, 0, 0, 0, 0, 0;
     0, 0, 0, 0, 1, 0;
     0, 0, 0, 0, 0, 0]

/-- The same among the measured poses. -/
noncomputable def aheadPlane3 (ψ : ℝ) : Matrix (Fin 3) (Fin 3) ℝ :=
  !![Real.cos ψ * Real.cos ψ, Real.cos ψ * Real.sin ψ, 0;
     Real.cos ψ * Real.sin ψ, Real.sin ψ * Real.sin ψ, 0;
     0, 0, 0]

/-- The direction of the heading. -/
noncomputable def aheadVec (ψ : ℝ) : Fin 6 → ℝ := ![Real.cos ψ, Real.sin ψ, 0, 0, 0, 0]

theorem aheadPlane_tr (ψ : ℝ) : (aheadPlane ψ)ᵀ = aheadPlane ψ := by
  ext i j
  fin_cases i <;> fin_cases j <;> rfl

theorem aheadPlane3_tr (ψ : ℝ) : (aheadPlane3 ψ)ᵀ = aheadPlane3 ψ := by
  ext i j
  fin_cases i <;> fin_cases j <;> rfl

theorem ahead_pose (ψ : ℝ) :
    poseMeasurementMatrix * aheadPlane ψ = aheadPlane3 ψ * poseMeasurementMatrix := by
  ext i j
  fin_cases i <;> fin_cases j <;>
    simp [poseMeasurementMatrix, aheadPlane, aheadPlane3, Matrix.mul_apply, Fin.sum_univ_succ]

theorem ahead_twist (ψ : ℝ) :
    twistMeasurementMatrix * aheadPlane ψ =
      (Matrix.diagonal ![1, 0] : Matrix (Fin 2) (Fin 2) ℝ) * twistMeasurementMatrix := by
  ext i j
  fin_cases i <;> fin_cases j <;>
    simp [twistMeasurementMatrix, aheadPlane, Matrix.mul_apply, Fin.sum_univ_succ, Matrix.diagonal]

theorem ahead_form {ψ : ℝ} {E : Fin 6 → ℝ} (h : aheadPlane ψ *ᵥ E = E) :
    E 0 = (aheadVec ψ ⬝ᵥ E) * Real.cos ψ ∧ E 1 = (aheadVec ψ ⬝ᵥ E) * Real.sin ψ ∧ E 2 = 0 ∧ E 3 = 0 ∧
      E 5 = 0 := by
  have h0 := congrFun h 0
  have h1 := congrFun h 1
  have h2 := congrFun h 2
  have h3 := congrFun h 3
  have h5 := congrFun h 5
  simp [aheadPlane, Matrix.mulVec, dotProduct, Fin.sum_univ_succ] at h0 h1 h2 h3 h5
  simp [aheadVec, dotProduct, Fin.sum_univ_succ]
  refine ⟨?_, ?_, h2.symm, h3.symm, h5.symm⟩ <;> linarith

theorem ahead_state (a : Place) {E : Fin 6 → ℝ} (h : aheadPlane a.yaw *ᵥ E = E) (dt : ℝ)
    (ha : -Real.pi < a.yaw ∧ a.yaw ≤ Real.pi) :
    predictNextState (a.state + E) dt =
      a.state + createStateTransitionMatrix (a.state + E) dt *ᵥ E := by
  obtain ⟨-, -, h2, h3, h5⟩ := ahead_form h
  funext i
  fin_cases i <;>
    simp [predictNextState, createStateTransitionMatrix, Place.state, h2, h3, h5, dotProduct,
      Fin.sum_univ_succ, C38_fixes a.yaw ha.1 ha.2] <;> ring

theorem ahead_transition (a : Place) {E : Fin 6 → ℝ} (h : aheadPlane a.yaw *ᵥ E = E) (dt : ℝ) :
    createStateTransitionMatrix (a.state + E) dt * aheadPlane a.yaw =
      aheadPlane a.yaw * createStateTransitionMatrix (a.state + E) dt := by
  obtain ⟨-, -, h2, h3, h5⟩ := ahead_form h
  have hs := Real.sin_sq_add_cos_sq a.yaw
  ext i j
  fin_cases i <;> fin_cases j <;>
    simp [createStateTransitionMatrix, aheadPlane, Place.state, h2, h3, Matrix.mul_apply,
      Fin.sum_univ_succ]
  all_goals first
    | ring1
    | linear_combination (-(Real.cos a.yaw * dt)) * hs
    | linear_combination (-(Real.sin a.yaw * dt)) * hs

theorem ahead_noise (v : Fin 4 → ℝ) (ψ : ℝ) :
    processNoiseCovariance v * aheadPlane ψ = aheadPlane ψ * processNoiseCovariance v := by
  ext i j
  fin_cases i <;> fin_cases j <;>
    simp [processNoiseCovariance, aheadPlane, Matrix.mul_apply, Matrix.diagonal]

/-- Specification: an initial pose with a position, a heading and their variances. -/
structure StartsAt (tf : Tf2) (X Y ψ c cψ : ℝ) (m : PoseMsg)
    (tries : List Char → List Char → ℕ → Option Transform) : Prop where
  pose : ∀ parent child t, lookupTransform (tries parent child) = some t →
    m.px.map (· + t.tx) = some X ∧ m.py.map (· + t.ty) = some Y ∧
    ((tf.getYaw m.ori).bind fun u => (tf.getYaw t.rot).map fun v => u + v) = some ψ
  cx : m.cov 0 = c
  cy : m.cov 7 = c
  cyaw : m.cov 35 = cψ
  pos : 0 < c
  posyaw : 0 < cψ

/-- Specification: a vehicle at rest, with uncorrelated errors of vx and wz. -/
structure RestingApart (m : TwistMsg) : Prop where
  rest : Resting m
  apart : m.cov 5 = 0

/-- Specification: the variance that a published pose covariance gives to the direction of the heading. -/
noncomputable def aheadVariance (ψ : ℝ) (c : Fin 36 → ℝ) : ℝ :=
  Real.cos ψ ^ 2 * c 0 + Real.cos ψ * Real.sin ψ * (c 1 + c 6) + Real.sin ψ ^ 2 * c 7

/-- Specification: a pose that is `e` ahead of the place. -/
def Place.IsAhead (a : Place) (e : ℝ) (pose : Estimate) : Prop :=
  pose.x = a.x + e * Real.cos a.yaw ∧ pose.y = a.y + e * Real.sin a.yaw ∧ pose.yaw = a.yaw

/-- Specification: a message says that the vehicle is `e` ahead of the place, `e` being at most √V of the
standard deviations that it claims; and so for the speed. -/
def Place.ShownAhead (a : Place) (V : ℝ) : Output → Prop
  | .transform _ _ _ pose => ∃ e, a.IsAhead e pose
  | .odometry _ _ _ pose pc vx wz tc =>
    ∃ e, a.IsAhead e pose ∧ e ^ 2 ≤ V * aheadVariance a.yaw pc ∧ vx ^ 2 ≤ V * tc 0 ∧ wz = 0

/-- Specification: a message says that the vehicle is ahead of the place or behind it, the square of the
distance being at most `B`. -/
def Place.ShownNear (a : Place) (B : ℝ) : Output → Prop
  | .transform _ _ _ pose => ∃ e, a.IsAhead e pose ∧ e ^ 2 ≤ B
  | .odometry _ _ _ pose _ _ _ _ => ∃ e, a.IsAhead e pose ∧ e ^ 2 ≤ B

/-- The newest state is wrong along the heading only. -/
def WrongAhead (a : Place) (V : ℝ) (f : TimeDelayKalmanFilter ℝ (n + 1) 6) : Prop :=
  ∃ E P, NewestIs f (a.state + E) P ∧ Parted (aheadPlane a.yaw) P E ∧ Spread V P E

theorem start_at {X Y ψ c cψ : ℝ} {m : PoseMsg} {tries : List Char → List Char → ℕ → Option Transform}
    (hm : StartsAt tf X Y ψ c cψ m tries) {s s1 : NodeState (n + 1)} {o : List Output}
    (h : step n.succ_pos tf p s (.initialPose m tries) = .ok (s1, o)) :
    o = [] ∧ s1.poseQ = s.poseQ.clear ∧ s1.twistQ = s.twistQ.clear ∧ s1.interval = s.interval ∧
    ∃ f, s1.ekf = some f ∧ NewestIs f (initState X Y ψ) (Matrix.diagonal ![c, c, cψ, 1 / 10000, 1 / 100, 1 / 100]) := by
  have hB : (⟨X, Y, 0, 0, 0, ψ⟩ : Place).StartsBeside tf 0 c m tries := by
    refine ⟨fun parent child t ht => ?_, hm.cx, hm.cy, hm.pos, by rw [hm.cyaw]; exact hm.posyaw⟩
    simpa using hm.pose parent child t ht
  obtain ⟨h1, h2, h3, h4, h5⟩ := start_step hB h
  refine ⟨h1, h2, h3, h4, _, h5, ?_⟩
  have hA := aside_start (n := n) (a := ⟨X, Y, 0, 0, 0, ψ⟩) (d := 0) hm.cx hm.cy hm.pos
    (by rw [hm.cyaw]; exact hm.posyaw)
  have hP : blk (initP (initCovariance m.cov) (n + 1)) 0 0 =
      Matrix.diagonal ![c, c, cψ, 1 / 10000, 1 / 100, 1 / 100] := by
    funext k l
    simp only [blk, initP_slot, initCovariance, hm.cx, hm.cy, hm.cyaw]
    rfl
  refine ⟨hA.psd, ?_, ?_, hP⟩
  · have := hA.pd
    simp only [TimeDelayKalmanFilter.make, hP] at this
    exact this
  · rw [hA.state]
    funext k
    fin_cases k <;> simp [Place.state, initState]

theorem pose_cov_one {m : PoseMsg} (hm : Round m) :
    poseMeasurementCovariance m.cov 1 = Matrix.diagonal ![m.cov 0, m.cov 0, m.cov 35] := by
  ext i j
  fin_cases i <;> fin_cases j <;>
    simp [poseMeasurementCovariance, hm.same, hm.plane.1, hm.plane.2, hm.cross.1, hm.cross.2.1,
      hm.cross.2.2.1, hm.cross.2.2.2]

theorem twist_cov_one {m : TwistMsg} (hm : RestingApart m) :
    twistMeasurementCovariance m.cov 1 = Matrix.diagonal ![m.cov 0, m.cov 35] := by
  have h30 : m.cov 30 = 0 := by rw [← hm.rest.sym, hm.apart]
  ext i j
  fin_cases i <;> fin_cases j <;> simp [twistMeasurementCovariance, hm.apart, h30]

theorem poseCovariance_eq (P : Matrix (Fin 6) (Fin 6) ℝ) :
    poseCovariance P = poseMeasurementMatrix * P * poseMeasurementMatrixᵀ := by
  ext i j
  fin_cases i <;> fin_cases j <;>
    simp [poseMeasurementMatrix, poseCovariance, Matrix.mul_apply, Matrix.vecMul, dotProduct,
      Fin.sum_univ_succ]

theorem getPoseState_eq (x : Fin 6 → ℝ) : getPoseState x = poseMeasurementMatrix *ᵥ x := by
  funext i
  fin_cases i <;> simp [getPoseState, poseMeasurementMatrix, Matrix.mulVec, dotProduct, Fin.sum_univ_succ]

/-- The change of the error by an exact measurement. -/
theorem error_update {h : ℕ} (x0 E : Fin 6 → ℝ) (K : Matrix (Fin 6) (Fin h) ℝ) (C : Matrix (Fin h) (Fin 6) ℝ) :
    x0 + E + K *ᵥ (C *ᵥ x0 - C *ᵥ (x0 + E)) = x0 + (1 - K * C) *ᵥ E := by
  rw [Matrix.mulVec_add, sub_add_cancel_left, Matrix.mulVec_neg, Matrix.sub_mulVec, Matrix.one_mulVec,
    Matrix.mulVec_mulVec]
  abel

theorem ahead_predict {a : Place} (ha : -Real.pi < a.yaw ∧ a.yaw ≤ Real.pi) {V : ℝ} (hV : 0 ≤ V) (dt : ℝ)
    {f : TimeDelayKalmanFilter ℝ (n + 1) 6} (hf : WrongAhead a V f) :
    WrongAhead a V (predictStep n.succ_pos p dt f) := by
  obtain ⟨E, P, h1, h2, h3⟩ := hf
  have k1 := newest_predict h1 p dt
  rw [ahead_state a h2.err dt ha] at k1
  exact ⟨_, _, k1, h2.predict (aheadPlane_tr _) (ahead_transition a h2.err dt) (ahead_noise _ _),
    h3.conj hV _ (C37_process_noise_psd p.variance dt)⟩

theorem ahead_process_pose {a : Place} (ha : -Real.pi < a.yaw ∧ a.yaw ≤ Real.pi) {V : ℝ} (hV : 0 ≤ V)
    (hps : p.poseSmoothing = 1) (hgate : V ≤ p.poseGate ^ 2) {m : PoseMsg} (hm : a.Told tf m ∧ Round m)
    {dt : ℝ} {t2 : ℤ} {sp : PoseMsg → Bool}
    (hd : computeDelayStep (computeDelayTime t2 m.stamp : ℝ) dt = .ok 0)
    {f f' : TimeDelayKalmanFilter ℝ (n + 1) 6} (hf : WrongAhead a V f)
    (hp : processPose n.succ_pos tf sp p.poseGate p.poseSmoothing t2 dt m f = .ok f') :
    WrongAhead a V f' ∧ aheadVec a.yaw ⬝ᵥ (blk f'.P 0 0 *ᵥ aheadVec a.yaw) ≤ m.cov 0 := by
  obtain ⟨E, P, h1, h2, h3⟩ := hf
  obtain ⟨hR, -⟩ := round_definite hm.2 Nat.one_pos a.yaw
  have ht : toSizeT p.poseSmoothing = 1 := by rw [hps]; decide
  unfold processPose at hp
  rw [ht] at hp
  have hpsd := h1.pd.posSemidef
  rcases newest_process h1 (told_vector ha hm.1) hR hd hp with ⟨hg, -⟩ | ⟨-, k1, hu⟩
  · exfalso
    rw [getPoseState_eq, poseCovariance_eq] at hg
    have hpd3 : (poseMeasurementMatrix * P * poseMeasurementMatrixᵀ).PosDef := by
      rw [← poseCovariance_eq]
      exact h1.pd.submatrix (e := fun i : Fin 3 => (⟨i.val, by omega⟩ : Fin 6)) (fun i j hij => by
        simp only [Fin.mk.injEq] at hij
        exact Fin.ext hij)
    have hdet := ((isUnit_iff_isUnit_det _).1 hpd3.isUnit).ne_zero
    have hs := (h3.conj hV poseMeasurementMatrix (N := 0) Matrix.PosSemidef.zero)
    rw [add_zero] at hs
    have hle := hs.inverse hV hpd3
    have hdiff : poseMeasurementMatrix *ᵥ (a.state + E) - poseMeasurementMatrix *ᵥ a.state =
        poseMeasurementMatrix *ᵥ E := by
      rw [Matrix.mulVec_add]; abel
    simp only [mahalanobisGate, squaredMahalanobis, if_neg hdet, hdiff, decide_eq_false_iff_not,
      not_le] at hg
    nlinarith
  · rw [error_update] at k1
    have hRc : poseMeasurementCovariance m.cov 1 * aheadPlane3 a.yaw =
        aheadPlane3 a.yaw * poseMeasurementCovariance m.cov 1 := by
      rw [pose_cov_one hm.2]
      ext i j
      fin_cases i <;> fin_cases j <;>
        simp [aheadPlane3, Matrix.mul_apply, Matrix.diagonal] <;> ring
    refine ⟨⟨_, _, k1, h2.update (aheadPlane_tr _) (aheadPlane3_tr _) (ahead_pose _) hRc hpsd hR, ?_⟩, ?_⟩
    · rw [gain_joseph hpsd hR]
      refine h3.conj hV _ ?_
      have := hR.posSemidef.mul_mul_conjTranspose_same (gainOf P poseMeasurementMatrix (poseMeasurementCovariance m.cov 1))
      rwa [← tr_eq] at this
    · have hv := C123_variance f f' _ _ _ 0 h1.psd hR.posSemidef hu
      have hz := hv.dotProduct_mulVec_nonneg ![Real.cos a.yaw, Real.sin a.yaw, 0]
      rw [star_trivial, Matrix.sub_mulVec, dotProduct_sub, quad_conj, pose_cov_one hm.2] at hz
      have e1 : poseMeasurementMatrixᵀ *ᵥ ![Real.cos a.yaw, Real.sin a.yaw, 0] = aheadVec a.yaw := by
        funext i
        fin_cases i <;> simp [poseMeasurementMatrix, aheadVec, Matrix.mulVec, dotProduct, Fin.sum_univ_succ]
      have e2 : (![Real.cos a.yaw, Real.sin a.yaw, 0] : Fin 3 → ℝ) ⬝ᵥ
          (Matrix.diagonal ![m.cov 0, m.cov 0, m.cov 35] *ᵥ ![Real.cos a.yaw, Real.sin a.yaw, 0]) = m.cov 0 := by
        have := Real.sin_sq_add_cos_sq a.yaw
        simp [Matrix.mulVec_diagonal, dotProduct, Fin.sum_univ_succ]
        linear_combination m.cov 0 * this
      rw [e1, e2] at hz
      linarith

theorem ahead_process_twist {a : Place} {V : ℝ} (hV : 0 ≤ V) (hts : p.twistSmoothing = 1) {m : TwistMsg}
    (hm : RestingApart m) {dt : ℝ} {t3 : ℤ} {st : TwistMsg → Bool}
    (hd : computeDelayStep (computeDelayTime t3 m.stamp : ℝ) dt = .ok 0)
    {f f' : TimeDelayKalmanFilter ℝ (n + 1) 6} (hf : WrongAhead a V f)
    (hp : processTwist n.succ_pos st p.twistGate p.twistSmoothing t3 dt m f = .ok f') :
    WrongAhead a V f' ∧ aheadVec a.yaw ⬝ᵥ (blk f'.P 0 0 *ᵥ aheadVec a.yaw) ≤
      aheadVec a.yaw ⬝ᵥ (blk f.P 0 0 *ᵥ aheadVec a.yaw) := by
  obtain ⟨E, P, h1, h2, h3⟩ := hf
  have hR := twist_definite hm.rest Nat.one_pos
  have ht : toSizeT p.twistSmoothing = 1 := by rw [hts]; decide
  unfold processTwist at hp
  rw [ht] at hp
  have hpsd := h1.pd.posSemidef
  rcases newest_process h1 (twist_vector a ⟨hm.rest.vx, hm.rest.wz⟩) hR hd hp with ⟨-, rfl⟩ | ⟨-, k1, hu⟩
  · exact ⟨⟨E, P, h1, h2, h3⟩, le_rfl⟩
  · rw [error_update] at k1
    have hRc : twistMeasurementCovariance m.cov 1 * Matrix.diagonal ![1, 0] =
        Matrix.diagonal ![1, 0] * twistMeasurementCovariance m.cov 1 := by
      rw [twist_cov_one hm, Matrix.diagonal_mul_diagonal, Matrix.diagonal_mul_diagonal]
      congr 1
      funext i
      ring
    refine ⟨⟨_, _, k1, h2.update (aheadPlane_tr _) (Matrix.diagonal_transpose _) (ahead_twist _) hRc hpsd hR,
      ?_⟩, ?_⟩
    · rw [gain_joseph hpsd hR]
      refine h3.conj hV _ ?_
      have := hR.posSemidef.mul_mul_conjTranspose_same (gainOf P twistMeasurementMatrix (twistMeasurementCovariance m.cov 1))
      rwa [← tr_eq] at this
    · have hv := C34_update_decreases f f' _ _ _ _ h1.psd hR.posSemidef hu
      have hz := (hv.submatrix fun k => slot (0 : Fin (n + 1)) k).dotProduct_mulVec_nonneg (aheadVec a.yaw)
      have e : (f.P - f'.P).submatrix (fun k => slot (0 : Fin (n + 1)) k) (fun k => slot 0 k) =
          blk f.P 0 0 - blk f'.P 0 0 := rfl
      rw [e, star_trivial, Matrix.sub_mulVec, dotProduct_sub] at hz
      linarith

theorem ahead_published {a : Place} {V : ℝ} {f : TimeDelayKalmanFilter ℝ (n + 1) 6} (hf : WrongAhead a V f)
    (s : NodeState (n + 1)) (t4 t5 : ℤ) : ∀ o ∈ publish n.succ_pos p s f t4 t5, a.ShownAhead V o ∧
      ∀ B, V * (aheadVec a.yaw ⬝ᵥ (blk f.P 0 0 *ᵥ aheadVec a.yaw)) ≤ B → a.ShownNear B o := by
  obtain ⟨E, P, h1, h2, h3⟩ := hf
  obtain ⟨k0, k1, k2, k3, k5⟩ := ahead_form h2.err
  have hx : f.getLatestX n.succ_pos = a.state + E := by rw [latest_blkX, h1.x]
  have hs := h3 (aheadVec a.yaw)
  have hv := h3 ![0, 0, 0, 0, 1, 0]
  generalize aheadVec a.yaw ⬝ᵥ E = e at k0 k1 hs
  have hI : a.IsAhead e ⟨(a.state + E) 0, (a.state + E) 1, s.z.getX, s.roll.getX, s.pitch.getX,
      (a.state + E) 2 + (a.state + E) 3⟩ := by
    refine ⟨?_, ?_, ?_⟩ <;> simp [Place.state, k0, k1, k2, k3]
  intro o ho
  simp only [publish, hx, List.mem_cons, List.not_mem_nil, or_false] at ho
  rw [h1.P]
  rcases ho with rfl | rfl
  · exact ⟨⟨e, hI⟩, fun B hB => ⟨e, hI, hs.trans hB⟩⟩
  · refine ⟨⟨e, hI, ?_, ?_, ?_⟩, fun B hB => ⟨e, hI, hs.trans hB⟩⟩
    · rw [getLatestP_blk, h1.P]
      refine hs.trans (le_of_eq ?_)
      congr 1
      simp [aheadVariance, ekfCovarianceToPoseMessageCovariance, aheadVec, dotProduct, Matrix.mulVec,
        Fin.sum_univ_succ]
      ring
    · rw [getLatestP_blk, h1.P]
      simp [dotProduct, Matrix.mulVec, Fin.sum_univ_succ] at hv
      simpa [Place.state, ekfCovarianceToTwistMessageCovariance] using hv
    · simp [Place.state, k5]

theorem ahead_start (a : Place) (d : ℝ) {c cψ : ℝ} (hc : 0 < c) (hψ : 0 < cψ)
    {f : TimeDelayKalmanFilter ℝ (n + 1) 6}
    (hf : NewestIs f (initState (a.x + d * Real.cos a.yaw) (a.y + d * Real.sin a.yaw) a.yaw)
      (Matrix.diagonal ![c, c, cψ, 1 / 10000, 1 / 100, 1 / 100])) : WrongAhead a (d ^ 2 / c) f := by
  have e : initState (a.x + d * Real.cos a.yaw) (a.y + d * Real.sin a.yaw) a.yaw =
      a.state + d • aheadVec a.yaw := by
    funext i
    fin_cases i <;> simp [initState, Place.state, aheadVec]
  rw [e] at hf
  refine ⟨_, _, hf, ⟨?_, ?_⟩, fun z => ?_⟩
  · have := Real.sin_sq_add_cos_sq a.yaw
    rw [Matrix.mulVec_smul]
    congr 1
    funext i
    fin_cases i <;> simp [aheadPlane, aheadVec, Matrix.mulVec, dotProduct, Fin.sum_univ_succ]
    · linear_combination Real.cos a.yaw * this
    · linear_combination Real.sin a.yaw * this
  · ext i j
    fin_cases i <;> fin_cases j <;>
      simp [aheadPlane, Matrix.mul_apply, Matrix.diagonal] <;> ring
  · have hs := Real.sin_sq_add_cos_sq a.yaw
    have e1 : z ⬝ᵥ (d • aheadVec a.yaw) = d * (Real.cos a.yaw * z 0 + Real.sin a.yaw * z 1) := by
      simp [aheadVec, dotProduct, Fin.sum_univ_succ]
      ring
    have e2 : z ⬝ᵥ (Matrix.diagonal ![c, c, cψ, 1 / 10000, 1 / 100, 1 / 100] *ᵥ z) =
        c * (z 0 ^ 2 + z 1 ^ 2) + (cψ * z 2 ^ 2 + 1 / 10000 * z 3 ^ 2 + 1 / 100 * z 4 ^ 2 + 1 / 100 * z 5 ^ 2) := by
      simp [Matrix.mulVec_diagonal, dotProduct, Fin.sum_univ_succ]
      ring
    have e0 : ∀ u v : ℝ, d ^ 2 / c * (c * u + v) = d ^ 2 * u + d ^ 2 / c * v := by
      intro u v
      field_simp
    rw [e1, e2, e0]
    have e3 : d ^ 2 * (z 0 ^ 2 + z 1 ^ 2) - (d * (Real.cos a.yaw * z 0 + Real.sin a.yaw * z 1)) ^ 2 =
        (d * (Real.sin a.yaw * z 0 - Real.cos a.yaw * z 1)) ^ 2 := by
      linear_combination (-(d ^ 2 * (z 0 ^ 2 + z 1 ^ 2))) * hs
    have e4 : 0 ≤ d ^ 2 / c * (cψ * z 2 ^ 2 + 1 / 10000 * z 3 ^ 2 + 1 / 100 * z 4 ^ 2 + 1 / 100 * z 5 ^ 2) := by
      positivity
    nlinarith [sq_nonneg (d * (Real.sin a.yaw * z 0 - Real.cos a.yaw * z 1))]

/-- C149: if the initial pose is wrong along the heading by at most the gate times its standard deviation,
the vehicle stands still and the messages are true, fresh and used once, then no pose message is thrown
away. At all times the heading is right, and the error is at most as many of the standard deviations that
the node claims as it was at the start; when a pose message of variance `r` has been used, the error is at
most the initial one times `√(r / c)`. -/
theorem C149_ahead {a : Place} (ha : -Real.pi < a.yaw ∧ a.yaw ≤ Real.pi) {d c cψ : ℝ} {m : PoseMsg}
    {tries : List Char → List Char → ℕ → Option Transform}
    (hm : StartsAt tf (a.x + d * Real.cos a.yaw) (a.y + d * Real.sin a.yaw) a.yaw c cψ m tries)
    (hgate : d ^ 2 ≤ p.poseGate ^ 2 * c) (hps : p.poseSmoothing = 1) (hts : p.twistSmoothing = 1)
    {L : ℝ} (hL : 0 < L) (hL10 : L ≤ 10) (hLf : L ≤ 1 / max p.defaultFrequency (1 / 10))
    (hframe : p.poseFrame ≠ []) (es : List Event)
    (hes : ∀ e ∈ es, Following (fun m => a.Told tf m ∧ Round m) RestingApart e)
    {t1 t2 t3 t4 t5 : ℤ} {sp : PoseMsg → Bool} {st : TwistMsg → Bool}
    (hfresh : FreshAll L none none (es ++ [Event.timer t1 t2 t3 t4 t5 sp st]))
    (hwf : WellFormed tf L (.initialPose m tries :: (es ++ [Event.timer t1 t2 t3 t4 t5 sp st]))) :
    ∃ s out o, run n.succ_pos tf p (NodeState.make (n + 1) p)
        (.initialPose m tries :: (es ++ [Event.timer t1 t2 t3 t4 t5 sp st])) = .ok (s, out ++ o) ∧
      o.length = 2 ∧ (∀ x ∈ out ++ o, a.ShownAhead (d ^ 2 / c) x) ∧
      ∀ m' ∈ (stillWaiting none none es).1, ∀ x ∈ o, a.ShownNear (d ^ 2 * (m'.cov 0 / c)) x := by
  have hc := hm.pos
  have hV : 0 ≤ d ^ 2 / c := by positivity
  have hVg : d ^ 2 / c ≤ p.poseGate ^ 2 := by rwa [div_le_iff₀ hc]
  obtain ⟨s', out, h, -⟩ := C70_no_failure n.succ_pos tf p L hL hL10 hLf hframe _ hwf
  obtain ⟨s1, o1, o2, h1, h2, rfl⟩ := run_split (p := p) [.initialPose m tries] _ _ _ _ h
  obtain ⟨s2, o3, o4, h3, h4, rfl⟩ := run_split (p := p) es _ _ _ _ h2
  simp only [run, bind, Except.bind] at h1
  cases hi : step n.succ_pos tf p (NodeState.make (n + 1) p) (.initialPose m tries) with
  | error x => rw [hi] at h1; cases h1
  | ok r =>
    obtain ⟨s1', o1'⟩ := r
    rw [hi] at h1
    simp only [pure, Except.pure, List.append_nil] at h1
    injection h1 with h1
    injection h1 with h1 h1'
    subst h1; subst h1'
    obtain ⟨rfl, hq1, hq2, hiv, f, hf, hN⟩ := start_at hm hi
    obtain ⟨hfr1, hfr2⟩ := freshAll_append es _ _ _ hfresh
    have hgaps := hwf.gaps
    have hclock : (Event.initialPose m tries :: (es ++ [Event.timer t1 t2 t3 t4 t5 sp st])).filterMap
        Event.clock = es.filterMap Event.clock ++ [t1] := by
      simp [List.filterMap_cons, Event.clock]
    rw [hclock] at hgaps
    have htick : ∀ (k : ℕ) (f : TimeDelayKalmanFilter ℝ (n + 1) 6) wp wt dt sp st t2 t3 f1 f2,
        WrongAhead a (d ^ 2 / c) f → L ≤ dt →
        (∀ m ∈ wp, (a.Told tf m ∧ Round m) ∧
          computeDelayStep (computeDelayTime t2 m.stamp : ℝ) dt = .ok 0) →
        (∀ m ∈ wt, RestingApart m ∧ computeDelayStep (computeDelayTime t3 m.stamp : ℝ) dt = .ok 0) →
        Considered (processPose n.succ_pos tf sp p.poseGate p.poseSmoothing t2 dt) wp
          (predictStep n.succ_pos p dt f) f1 →
        Considered (processTwist n.succ_pos st p.twistGate p.twistSmoothing t3 dt) wt f1 f2 →
        WrongAhead a (d ^ 2 / c) f2 ∧
          ∀ m ∈ wp, aheadVec a.yaw ⬝ᵥ (blk f2.P 0 0 *ᵥ aheadVec a.yaw) ≤ m.cov 0 := by
      intro k f wp wt dt sp st t2 t3 f1 f2 hI _ hwp hwt c1 c2
      have hI0 := ahead_predict (p := p) ha hV dt hI
      have hI1 : WrongAhead a (d ^ 2 / c) f1 ∧
          ∀ m ∈ wp, aheadVec a.yaw ⬝ᵥ (blk f1.P 0 0 *ᵥ aheadVec a.yaw) ≤ m.cov 0 := by
        cases wp with
        | none => rw [show f1 = _ from c1]; exact ⟨hI0, by simp⟩
        | some m' =>
          obtain ⟨k1, k2⟩ := hwp m' rfl
          obtain ⟨k3, k4⟩ := ahead_process_pose ha hV hps hVg k1 k2 hI0 c1
          refine ⟨k3, fun m'' hm'' => ?_⟩
          have : m' = m'' := by simpa using hm''
          rwa [← this]
      cases wt with
      | none => rw [show f2 = _ from c2]; exact hI1
      | some m' =>
        obtain ⟨k1, k2⟩ := hwt m' rfl
        obtain ⟨k3, k4⟩ := ahead_process_twist hV hts k1 k2 hI1.1 c2
        exact ⟨k3, fun m'' hm'' => k4.trans (hI1.2 m'' hm'')⟩
    rcases run_fresh (n := n) (tf := tf) (p := p) (fun _ => WrongAhead a (d ^ 2 / c)) (fun _ => False)
      (a.ShownAhead (d ^ 2 / c)) hL hL10 hLf (fun k f wp wt dt sp st t2 t3 f1 f2 g1 g2 g3 g4 g5 g6 => by
        have := (htick k f wp wt dt sp st t2 t3 f1 f2 g1 g2 g3 g4 g5 g6).1
        exact .inl ⟨this, fun s t4 t5 o ho => (ahead_published this s t4 t5 o ho).1⟩)
      es 0 none none s1' s2 o3
      ⟨⟨f, hf, ahead_start a d hm.pos hm.posyaw hN⟩, by rw [hq1, NodeState.make, hps]; rfl,
        by rw [hq2, NodeState.make, hts]; rfl, by simp, by simp, by rw [hiv]; rfl⟩ hfr1 hes [t1]
      (by intro last hl; rw [hiv] at hl; simp [NodeState.make, UpdateInterval.make] at hl) hgaps h3 with
      ⟨o, -, ho⟩ | ⟨r1, r2, r3⟩
    · exact ho.elim
    · simp only [run, bind, Except.bind] at h4
      cases hl : step n.succ_pos tf p s2 (.timer t1 t2 t3 t4 t5 sp st) with
      | error x => rw [hl] at h4; cases h4
      | ok r =>
        obtain ⟨s3, o5⟩ := r
        rw [hl] at h4
        simp only [pure, Except.pure, List.append_nil] at h4
        injection h4 with h4
        injection h4 with h4 h4'
        subst h4; subst h4'
        obtain ⟨f, dt, f1, f2, g1, g2, g3, g4, g5, g6, rfl, -, -⟩ := fresh_step hL hL10 hLf r1 hfr2.1 hfr2.2.1
          (fun last hl => r2 last hl t1 (by simp)) hl
        obtain ⟨q1, q2⟩ := htick 0 f _ _ dt sp st t2 t3 f1 f2 g1 g2 g3 g4 g5 g6
        have hpub := ahead_published (p := p) q1 s2 t4 t5
        refine ⟨s3, o3, _, h, rfl, fun x hx => ?_, fun m' hm' x hx => (hpub x hx).2 _ ?_⟩
        · rcases List.mem_append.1 hx with hx | hx
          · exact r3 x hx
          · exact (hpub x hx).1
        · have := mul_le_mul_of_nonneg_left (q2 m' hm') hV
          refine this.trans (le_of_eq ?_)
          ring

end Ahead

/-! ### Wrong in the heading -/

section Heading
variable {n : ℕ} {tf : Tf2} {p : EkfParams}

/-- The heading. -/
def turnVec : Fin 6 → ℝ := ![0, 0, 1, 0, 0, 0]

/-- The speed of turning. -/
def spinVec : Fin 6 → ℝ := ![0, 0, 0, 0, 0, 1]

/-- Heading and speed of turning. -/
def turnPlane : Matrix (Fin 6) (Fin 6) ℝ := Matrix.diagonal ![0, 0, 1, 0, 0, 1]

theorem turn_entries {P : Matrix (Fin 6) (Fin 6) ℝ} (hP : P.PosDef) (h : P * turnPlane = turnPlane * P) :
    P *ᵥ turnVec = P 2 2 • turnVec + P 2 5 • spinVec ∧ P *ᵥ spinVec = P 2 5 • turnVec + P 5 5 • spinVec ∧
    0 < P 2 2 ∧ 0 < P 5 5 ∧ P 2 5 ^ 2 < P 2 2 * P 5 5 := by
  have hsym : P 5 2 = P 2 5 := by
    have := congrFun (congrFun hP.isHermitian 2) 5
    simpa using this
  have col : ∀ i j : Fin 6, P i j * (![0, 0, 1, 0, 0, 1] : Fin 6 → ℝ) j =
      (![0, 0, 1, 0, 0, 1] : Fin 6 → ℝ) i * P i j := by
    intro i j
    have := congrFun (congrFun h i) j
    simpa [turnPlane, Matrix.mul_diagonal, Matrix.diagonal_mul] using this
  have c02 := col 0 2
  have c12 := col 1 2
  have c32 := col 3 2
  have c42 := col 4 2
  have c05 := col 0 5
  have c15 := col 1 5
  have c35 := col 3 5
  have c45 := col 4 5
  simp at c02 c12 c32 c42 c05 c15 c35 c45
  have hPt : P *ᵥ turnVec = P 2 2 • turnVec + P 2 5 • spinVec := by
    funext i
    fin_cases i <;> simp [turnVec, spinVec, Matrix.mulVec, dotProduct, Fin.sum_univ_succ, c02, c12, c32, c42,
      hsym]
  have hPs : P *ᵥ spinVec = P 2 5 • turnVec + P 5 5 • spinVec := by
    funext i
    fin_cases i <;> simp [turnVec, spinVec, Matrix.mulVec, dotProduct, Fin.sum_univ_succ, c05, c15, c35, c45]
  have h22 : 0 < P 2 2 := hP.diag_pos
  have h55 : 0 < P 5 5 := hP.diag_pos
  refine ⟨hPt, hPs, h22, h55, ?_⟩
  have hne : P 2 5 • turnVec - P 2 2 • spinVec ≠ 0 := by
    intro h0
    have := congrFun h0 5
    simp [turnVec, spinVec] at this
    exact h22.ne' this
  have := hP.dotProduct_mulVec_pos hne
  rw [star_trivial, Matrix.mulVec_sub, Matrix.mulVec_smul, Matrix.mulVec_smul, hPt, hPs] at this
  simp [turnVec, spinVec, dotProduct, Fin.sum_univ_succ] at this
  have e : P 2 2 * (P 2 2 * P 5 5 - P 2 5 ^ 2) > 0 := by nlinarith
  have := pos_of_mul_pos_right e h22.le
  linarith

/-- Specification: a pose at the place, with the heading wrong by `e`. -/
def Place.IsTurned (a : Place) (e : ℝ) (pose : Estimate) : Prop :=
  pose.x = a.x ∧ pose.y = a.y ∧ pose.yaw = a.yaw + e

/-- Specification: a message gives such a pose. -/
def Place.ShownTurned (a : Place) (e : ℝ) : Output → Prop
  | .transform _ _ _ pose => a.IsTurned e pose
  | .odometry _ _ _ pose _ _ _ _ => a.IsTurned e pose

/-- The newest state is wrong in the heading only, by `e`, and the variance of the heading is at least
`μ`. -/
def WrongTurned (a : Place) (e μ : ℝ) (f : TimeDelayKalmanFilter ℝ (n + 1) 6) : Prop :=
  ∃ P, NewestIs f (a.state + e • turnVec) P ∧ P * turnPlane = turnPlane * P ∧
    (P - μ • Matrix.vecMulVec turnVec turnVec).PosSemidef

theorem turnPlane_tr : turnPlaneᵀ = turnPlane := Matrix.diagonal_transpose _

theorem turn_pose : poseMeasurementMatrix * turnPlane =
    (Matrix.diagonal ![0, 0, 1] : Matrix (Fin 3) (Fin 3) ℝ) * poseMeasurementMatrix := by
  ext i j
  rw [turnPlane, Matrix.mul_diagonal, Matrix.diagonal_mul]
  fin_cases i <;> fin_cases j <;> simp [poseMeasurementMatrix]

theorem turn_twist : twistMeasurementMatrix * turnPlane =
    (Matrix.diagonal ![0, 1] : Matrix (Fin 2) (Fin 2) ℝ) * twistMeasurementMatrix := by
  ext i j
  rw [turnPlane, Matrix.mul_diagonal, Matrix.diagonal_mul]
  fin_cases i <;> fin_cases j <;> simp [twistMeasurementMatrix]

theorem turn_noise (v : Fin 4 → ℝ) :
    processNoiseCovariance v * turnPlane = turnPlane * processNoiseCovariance v := by
  rw [processNoiseCovariance, turnPlane, Matrix.diagonal_mul_diagonal, Matrix.diagonal_mul_diagonal]
  congr 1
  funext i
  ring

theorem turn_transition (a : Place) (e dt : ℝ) :
    createStateTransitionMatrix (a.state + e • turnVec) dt * turnPlane =
      turnPlane * createStateTransitionMatrix (a.state + e • turnVec) dt ∧
    createStateTransitionMatrix (a.state + e • turnVec) dt *ᵥ turnVec = turnVec := by
  constructor
  · ext i j
    rw [turnPlane, Matrix.mul_diagonal, Matrix.diagonal_mul]
    fin_cases i <;> fin_cases j <;> simp [createStateTransitionMatrix, Place.state, turnVec]
  · funext i
    fin_cases i <;> simp [createStateTransitionMatrix, Place.state, turnVec, Matrix.mulVec, dotProduct,
      Fin.sum_univ_succ]

theorem turn_state {a : Place} {e : ℝ} (ha : -Real.pi < a.yaw + e ∧ a.yaw + e ≤ Real.pi) (dt : ℝ) :
    predictNextState (a.state + e • turnVec) dt = a.state + e • turnVec := by
  funext i
  fin_cases i <;> simp [predictNextState, Place.state, turnVec, C38_fixes _ ha.1 ha.2]

theorem lower_conj {m k : ℕ} {P : Matrix (Fin m) (Fin m) ℝ} {μ : ℝ} {v : Fin m → ℝ}
    (h : (P - μ • Matrix.vecMulVec v v).PosSemidef) (M : Matrix (Fin k) (Fin m) ℝ)
    {N : Matrix (Fin k) (Fin k) ℝ} {ν : ℝ} {w : Fin k → ℝ} (hw : M *ᵥ v = w)
    (hN : (N - ν • Matrix.vecMulVec w w).PosSemidef) :
    (M * P * Mᵀ + N - (μ + ν) • Matrix.vecMulVec w w).PosSemidef := by
  have h1 := h.mul_mul_conjTranspose_same M
  rw [← tr_eq] at h1
  have e : M * (P - μ • Matrix.vecMulVec v v) * Mᵀ = M * P * Mᵀ - μ • Matrix.vecMulVec w w := by
    rw [Matrix.mul_sub, Matrix.sub_mul, Matrix.mul_smul, Matrix.smul_mul, Matrix.mul_vecMulVec,
      Matrix.vecMulVec_mul, Matrix.vecMul_transpose, hw]
  rw [e] at h1
  have := h1.add hN
  have e2 : M * P * Mᵀ - μ • Matrix.vecMulVec w w + (N - ν • Matrix.vecMulVec w w) =
      M * P * Mᵀ + N - (μ + ν) • Matrix.vecMulVec w w := by
    rw [add_smul]; abel
  rwa [e2] at this

theorem turned_predict {a : Place} {e μ : ℝ} (ha : -Real.pi < a.yaw + e ∧ a.yaw + e ≤ Real.pi) {L dt : ℝ}
    (hL : 0 < L) (hdt : L ≤ dt) {f : TimeDelayKalmanFilter ℝ (n + 1) 6} (hf : WrongTurned a e μ f) :
    WrongTurned a e (μ + (p.variance.yaw * L) ^ 2) (predictStep n.succ_pos p dt f) := by
  obtain ⟨P, h1, h2, h3⟩ := hf
  have k1 := newest_predict h1 p dt
  rw [turn_state ha] at k1
  obtain ⟨t1, t2⟩ := turn_transition a e dt
  have hpart : Parted turnPlane P (e • turnVec) := ⟨by
    rw [Matrix.mulVec_smul]
    congr 1
    funext i
    rw [turnPlane, Matrix.mulVec_diagonal]
    fin_cases i <;> simp [turnVec], h2⟩
  refine ⟨_, k1, (hpart.predict turnPlane_tr t1 (turn_noise _)).cov, lower_conj h3 _ t2 ?_⟩
  have e1 : processNoiseCovariance (p.variance.timeScaledVariances dt) -
      (p.variance.yaw * L) ^ 2 • Matrix.vecMulVec turnVec turnVec =
      Matrix.diagonal ![0, 0, timeScaledVariance p.variance.yaw dt - (p.variance.yaw * L) ^ 2,
        timeScaledVariance p.variance.yawBias dt, timeScaledVariance p.variance.vx dt,
        timeScaledVariance p.variance.wz dt] := by
    ext i j
    fin_cases i <;> fin_cases j <;>
      simp [processNoiseCovariance, DefaultVariance.timeScaledVariances, turnVec]
  rw [e1]
  refine Matrix.PosSemidef.diagonal fun i => ?_
  have hn : ∀ s : ℝ, 0 ≤ timeScaledVariance s dt := fun s => by
    have : timeScaledVariance s dt = (s * dt) ^ 2 := by simp only [timeScaledVariance]; ring
    rw [this]; positivity
  have hy : 0 ≤ timeScaledVariance p.variance.yaw dt - (p.variance.yaw * L) ^ 2 := by
    have e2 : timeScaledVariance p.variance.yaw dt - (p.variance.yaw * L) ^ 2 =
        p.variance.yaw ^ 2 * ((dt - L) * (dt + L)) := by simp only [timeScaledVariance]; ring
    rw [e2]
    have : 0 ≤ (dt - L) * (dt + L) := mul_nonneg (by linarith) (by linarith)
    positivity
  fin_cases i
  · exact le_rfl
  · exact le_rfl
  · exact hy
  · exact hn _
  · exact hn _
  · exact hn _

theorem turned_twist {a : Place} {e μ : ℝ} (hts : p.twistSmoothing = 1) {m : TwistMsg}
    (hm : RestingApart m) {dt : ℝ} {t3 : ℤ} {st : TwistMsg → Bool}
    (hd : computeDelayStep (computeDelayTime t3 m.stamp : ℝ) dt = .ok 0)
    {f f' : TimeDelayKalmanFilter ℝ (n + 1) 6} (hf : WrongTurned a e μ f)
    (hp : processTwist n.succ_pos st p.twistGate p.twistSmoothing t3 dt m f = .ok f') :
    WrongTurned a e μ f' := by
  obtain ⟨P, h1, h2, h3⟩ := hf
  have hR := twist_definite hm.rest Nat.one_pos
  have ht : toSizeT p.twistSmoothing = 1 := by rw [hts]; decide
  unfold processTwist at hp
  rw [ht] at hp
  have hpsd := h1.pd.posSemidef
  rcases newest_process h1 (twist_vector a ⟨hm.rest.vx, hm.rest.wz⟩) hR hd hp with ⟨-, rfl⟩ | ⟨-, k1, -⟩
  · exact ⟨P, h1, h2, h3⟩
  · rw [error_update] at k1
    have hC0 : twistMeasurementMatrix *ᵥ turnVec = 0 := by
      funext i
      fin_cases i <;> simp [twistMeasurementMatrix, turnVec, Matrix.mulVec, dotProduct, Fin.sum_univ_succ]
    have hM : (1 - gainOf P twistMeasurementMatrix (twistMeasurementCovariance m.cov 1) *
        twistMeasurementMatrix) *ᵥ turnVec = turnVec := by
      rw [Matrix.sub_mulVec, Matrix.one_mulVec, ← Matrix.mulVec_mulVec, hC0, Matrix.mulVec_zero, sub_zero]
    rw [Matrix.mulVec_smul, hM] at k1
    have hRc : twistMeasurementCovariance m.cov 1 * Matrix.diagonal ![0, 1] =
        Matrix.diagonal ![0, 1] * twistMeasurementCovariance m.cov 1 := by
      rw [twist_cov_one hm, Matrix.diagonal_mul_diagonal, Matrix.diagonal_mul_diagonal]
      congr 1
      funext i
      ring
    have hpart : Parted turnPlane P 0 := ⟨by simp, h2⟩
    refine ⟨_, k1, (hpart.update turnPlane_tr (Matrix.diagonal_transpose _) turn_twist hRc hpsd hR).cov, ?_⟩
    rw [gain_joseph hpsd hR]
    have := lower_conj h3 _ (ν := 0) hM (N := gainOf P twistMeasurementMatrix (twistMeasurementCovariance m.cov 1) *
      twistMeasurementCovariance m.cov 1 *
        (gainOf P twistMeasurementMatrix (twistMeasurementCovariance m.cov 1))ᵀ) (by
      rw [zero_smul, sub_zero]
      have := hR.posSemidef.mul_mul_conjTranspose_same
        (gainOf P twistMeasurementMatrix (twistMeasurementCovariance m.cov 1))
      rwa [← tr_eq] at this)
    rwa [add_zero] at this

theorem gain_eigen {h : ℕ} {P : Matrix (Fin 6) (Fin 6) ℝ} {C : Matrix (Fin h) (Fin 6) ℝ}
    {R : Matrix (Fin h) (Fin h) ℝ} (hP : P.PosSemidef) (hR : R.PosDef) {v : Fin 6 → ℝ} {w : Fin h → ℝ}
    {r g : ℝ} (hv : C *ᵥ v = w) (hw : Cᵀ *ᵥ w = v) (hr : R *ᵥ w = r • w) (hg : C *ᵥ (P *ᵥ v) = g • w)
    (hpos : 0 < g + r) :
    (1 - gainOf P C R * C) *ᵥ v = v - (g + r)⁻¹ • (P *ᵥ v) := by
  have hS : (R + C * P * Cᵀ).PosDef := hR.add_posSemidef (by
    have := hP.mul_mul_conjTranspose_same C
    rwa [← tr_eq] at this)
  have hdet := ((isUnit_iff_isUnit_det _).1 hS.isUnit).ne_zero
  have he : (R + C * P * Cᵀ) *ᵥ w = (g + r) • w := by
    rw [Matrix.add_mulVec, ← Matrix.mulVec_mulVec, ← Matrix.mulVec_mulVec, hw, hg, hr, add_smul, add_comm]
  have hi := inv_eigen hdet hpos.ne' he
  rw [Matrix.sub_mulVec, Matrix.one_mulVec, ← Matrix.mulVec_mulVec, hv, gainOf, ← Matrix.mulVec_mulVec, hi,
    Matrix.mulVec_smul, ← Matrix.mulVec_mulVec, hw]

/-- The heading has been corrected in part, and a twist message cannot undo it. -/
def Corrected (a : Place) (e : ℝ) (f : TimeDelayKalmanFilter ℝ (n + 1) 6) : Prop :=
  ∃ P θ φ, NewestIs f (a.state + e • (θ • turnVec - φ • spinVec)) P ∧ P * turnPlane = turnPlane * P ∧
    0 < θ ∧ θ < 1 ∧ 0 ≤ φ * P 2 5 ∧ φ * P 2 5 ≤ (1 - θ) * P 5 5

theorem turned_pose {a : Place} {e μ : ℝ} (ha : -Real.pi < a.yaw ∧ a.yaw ≤ Real.pi)
    (hps : p.poseSmoothing = 1) {m : PoseMsg} (hm : a.Told tf m ∧ Round m) {dt : ℝ} {t2 : ℤ}
    {sp : PoseMsg → Bool} (hd : computeDelayStep (computeDelayTime t2 m.stamp : ℝ) dt = .ok 0)
    {f f' : TimeDelayKalmanFilter ℝ (n + 1) 6} (hf : WrongTurned a e μ f)
    (hp : processPose n.succ_pos tf sp p.poseGate p.poseSmoothing t2 dt m f = .ok f') :
    (WrongTurned a e μ f' ∧ p.poseGate ^ 2 * μ < e ^ 2) ∨ Corrected a e f' := by
  obtain ⟨P, h1, h2, h3⟩ := hf
  obtain ⟨hR, -⟩ := round_definite hm.2 Nat.one_pos a.yaw
  have ht : toSizeT p.poseSmoothing = 1 := by rw [hps]; decide
  unfold processPose at hp
  rw [ht] at hp
  have hpsd := h1.pd.posSemidef
  obtain ⟨et, es, hp0, hs0, hq⟩ := turn_entries h1.pd h2
  have hCt : poseMeasurementMatrix *ᵥ turnVec = ![0, 0, 1] := by
    funext i
    fin_cases i <;> simp [poseMeasurementMatrix, turnVec, Matrix.mulVec, dotProduct, Fin.sum_univ_succ]
  have hCs : poseMeasurementMatrix *ᵥ spinVec = 0 := by
    funext i
    fin_cases i <;> simp [poseMeasurementMatrix, spinVec, Matrix.mulVec, dotProduct, Fin.sum_univ_succ]
  have hCT : poseMeasurementMatrixᵀ *ᵥ ![0, 0, 1] = turnVec := by
    funext i
    fin_cases i <;> simp [poseMeasurementMatrix, turnVec, Matrix.mulVec, dotProduct, Fin.sum_univ_succ]
  have hCP : poseMeasurementMatrix *ᵥ (P *ᵥ turnVec) = P 2 2 • ![0, 0, 1] := by
    rw [et, Matrix.mulVec_add, Matrix.mulVec_smul, Matrix.mulVec_smul, hCt, hCs, smul_zero, add_zero]
  have hμ : μ ≤ P 2 2 := by
    have := h3.dotProduct_mulVec_nonneg turnVec
    rw [star_trivial, Matrix.sub_mulVec, dotProduct_sub, et, Matrix.smul_mulVec] at this
    simp [turnVec, spinVec, dotProduct, Fin.sum_univ_succ] at this
    linarith
  rcases newest_process h1 (told_vector ha hm.1) hR hd hp with ⟨hg, rfl⟩ | ⟨-, k1, -⟩
  · left
    refine ⟨⟨P, h1, h2, h3⟩, ?_⟩
    rw [getPoseState_eq, poseCovariance_eq] at hg
    have hpd3 : (poseMeasurementMatrix * P * poseMeasurementMatrixᵀ).PosDef := by
      rw [← poseCovariance_eq]
      exact h1.pd.submatrix (e := fun i : Fin 3 => (⟨i.val, by omega⟩ : Fin 6)) (fun i j hij => by
        simp only [Fin.mk.injEq] at hij
        exact Fin.ext hij)
    have hdet := ((isUnit_iff_isUnit_det _).1 hpd3.isUnit).ne_zero
    have hi := inv_eigen hdet hp0.ne' (v := ![0, 0, 1]) (by
      rw [← Matrix.mulVec_mulVec, ← Matrix.mulVec_mulVec, hCT, hCP])
    have hdiff : poseMeasurementMatrix *ᵥ (a.state + e • turnVec) - poseMeasurementMatrix *ᵥ a.state =
        e • ![0, 0, 1] := by
      rw [Matrix.mulVec_add, Matrix.mulVec_smul, hCt]; abel
    simp only [mahalanobisGate, squaredMahalanobis, if_neg hdet, hdiff, Matrix.mulVec_smul, hi,
      decide_eq_false_iff_not, not_le] at hg
    have hval : (e • (![0, 0, 1] : Fin 3 → ℝ)) ⬝ᵥ (e • (P 2 2)⁻¹ • ![0, 0, 1]) = e ^ 2 / P 2 2 := by
      simp [dotProduct, Fin.sum_univ_succ]
      field_simp
    rw [hval, lt_div_iff₀ hp0] at hg
    nlinarith [mul_self_nonneg p.poseGate]
  · right
    rw [error_update] at k1
    have hr0 : 0 < m.cov 35 := by
      have : 0 < poseMeasurementCovariance m.cov 1 2 2 := hR.diag_pos
      rw [pose_cov_one hm.2] at this
      simpa using this
    have hRw : poseMeasurementCovariance m.cov 1 *ᵥ ![0, 0, 1] = m.cov 35 • ![0, 0, 1] := by
      rw [pose_cov_one hm.2]
      funext i
      fin_cases i <;> simp [Matrix.mulVec_diagonal]
    have hpr : 0 < P 2 2 + m.cov 35 := by linarith
    have hK := gain_eigen hpsd hR hCt hCT hRw hCP hpr
    set M := 1 - gainOf P poseMeasurementMatrix (poseMeasurementCovariance m.cov 1) * poseMeasurementMatrix
      with hM
    have hMs : M *ᵥ spinVec = spinVec := by
      rw [hM, Matrix.sub_mulVec, Matrix.one_mulVec, ← Matrix.mulVec_mulVec, hCs, Matrix.mulVec_zero, sub_zero]
    have hMt : M *ᵥ turnVec = (m.cov 35 / (P 2 2 + m.cov 35)) • turnVec -
        (P 2 5 / (P 2 2 + m.cov 35)) • spinVec := by
      rw [hK, et, smul_add, smul_smul, smul_smul]
      funext i
      simp only [Pi.sub_apply, Pi.add_apply, Pi.smul_apply, smul_eq_mul]
      field_simp
      ring
    rw [Matrix.mulVec_smul, hMt] at k1
    have hRc : poseMeasurementCovariance m.cov 1 * Matrix.diagonal ![0, 0, 1] =
        Matrix.diagonal ![0, 0, 1] * poseMeasurementCovariance m.cov 1 := by
      rw [pose_cov_one hm.2, Matrix.diagonal_mul_diagonal, Matrix.diagonal_mul_diagonal]
      congr 1
      funext i
      ring
    have hpart : Parted turnPlane P 0 := ⟨by simp, h2⟩
    have hcov := (hpart.update turnPlane_tr (Matrix.diagonal_transpose _) turn_pose hRc hpsd hR).cov
    have hPM : P - gainOf P poseMeasurementMatrix (poseMeasurementCovariance m.cov 1) *
        poseMeasurementMatrix * P = M * P := by
      rw [hM, Matrix.sub_mul, Matrix.one_mul]
    rw [hPM] at k1 hcov
    have hMs2 : (M * P) *ᵥ spinVec = (P 2 5 * (m.cov 35 / (P 2 2 + m.cov 35))) • turnVec +
        (P 5 5 - P 2 5 * (P 2 5 / (P 2 2 + m.cov 35))) • spinVec := by
      rw [← Matrix.mulVec_mulVec, es, Matrix.mulVec_add, Matrix.mulVec_smul, Matrix.mulVec_smul, hMt, hMs]
      funext i
      simp only [Pi.sub_apply, Pi.add_apply, Pi.smul_apply, smul_eq_mul]
      ring
    have hcol : ∀ (Q : Matrix (Fin 6) (Fin 6) ℝ) i, (Q *ᵥ spinVec) i = Q i 5 := by
      intro Q i
      simp [spinVec, Matrix.mulVec, dotProduct, Fin.sum_univ_succ]
    have h25 : (M * P) 2 5 = P 2 5 * (m.cov 35 / (P 2 2 + m.cov 35)) := by
      rw [← hcol (M * P) 2, hMs2]
      simp [turnVec, spinVec]
    have h55 : (M * P) 5 5 = P 5 5 - P 2 5 * (P 2 5 / (P 2 2 + m.cov 35)) := by
      rw [← hcol (M * P) 5, hMs2]
      simp [turnVec, spinVec]
    refine ⟨M * P, _, _, k1, hcov, by positivity, by rw [div_lt_one hpr]; linarith, ?_, ?_⟩
    · rw [h25]
      have : P 2 5 / (P 2 2 + m.cov 35) * (P 2 5 * (m.cov 35 / (P 2 2 + m.cov 35))) =
          P 2 5 ^ 2 * m.cov 35 / (P 2 2 + m.cov 35) ^ 2 := by
        field_simp
      rw [this]
      positivity
    · rw [h25, h55]
      have e1 : (1 - m.cov 35 / (P 2 2 + m.cov 35)) * (P 5 5 - P 2 5 * (P 2 5 / (P 2 2 + m.cov 35))) -
          P 2 5 / (P 2 2 + m.cov 35) * (P 2 5 * (m.cov 35 / (P 2 2 + m.cov 35))) =
          (P 2 2 * P 5 5 - P 2 5 ^ 2) / (P 2 2 + m.cov 35) := by
        field_simp
        ring
      have : 0 ≤ (P 2 2 * P 5 5 - P 2 5 ^ 2) / (P 2 2 + m.cov 35) := div_nonneg (by linarith) hpr.le
      linarith

theorem corrected_twist {a : Place} {e : ℝ} (hts : p.twistSmoothing = 1) {m : TwistMsg}
    (hm : RestingApart m) {dt : ℝ} {t3 : ℤ} {st : TwistMsg → Bool}
    (hd : computeDelayStep (computeDelayTime t3 m.stamp : ℝ) dt = .ok 0)
    {f f' : TimeDelayKalmanFilter ℝ (n + 1) 6} (hf : Corrected a e f)
    (hp : processTwist n.succ_pos st p.twistGate p.twistSmoothing t3 dt m f = .ok f') :
    ∃ θ φ : ℝ, 0 < θ ∧ θ < 1 ∧ blkX f'.x 0 = a.state + e • (θ • turnVec - φ • spinVec) := by
  obtain ⟨P, θ, φ, h1, h2, h3, h4, h5, h6⟩ := hf
  have hR := twist_definite hm.rest Nat.one_pos
  have ht : toSizeT p.twistSmoothing = 1 := by rw [hts]; decide
  unfold processTwist at hp
  rw [ht] at hp
  have hpsd := h1.pd.posSemidef
  obtain ⟨et, es, hp0, hs0, hq⟩ := turn_entries h1.pd h2
  rcases newest_process h1 (twist_vector a ⟨hm.rest.vx, hm.rest.wz⟩) hR hd hp with ⟨-, rfl⟩ | ⟨-, k1, -⟩
  · exact ⟨θ, φ, h3, h4, h1.x⟩
  · rw [error_update] at k1
    have hCt : twistMeasurementMatrix *ᵥ turnVec = 0 := by
      funext i
      fin_cases i <;> simp [twistMeasurementMatrix, turnVec, Matrix.mulVec, dotProduct, Fin.sum_univ_succ]
    have hCs : twistMeasurementMatrix *ᵥ spinVec = ![0, 1] := by
      funext i
      fin_cases i <;> simp [twistMeasurementMatrix, spinVec, Matrix.mulVec, dotProduct, Fin.sum_univ_succ]
    have hCT : twistMeasurementMatrixᵀ *ᵥ ![0, 1] = spinVec := by
      funext i
      fin_cases i <;> simp [twistMeasurementMatrix, spinVec, Matrix.mulVec, dotProduct, Fin.sum_univ_succ]
    have hCP : twistMeasurementMatrix *ᵥ (P *ᵥ spinVec) = P 5 5 • ![0, 1] := by
      rw [es, Matrix.mulVec_add, Matrix.mulVec_smul, Matrix.mulVec_smul, hCt, hCs, smul_zero, zero_add]
    have hr0 : 0 < m.cov 35 := by
      have : 0 < twistMeasurementCovariance m.cov 1 1 1 := hR.diag_pos
      rw [twist_cov_one hm] at this
      simpa using this
    have hRw : twistMeasurementCovariance m.cov 1 *ᵥ ![0, 1] = m.cov 35 • ![0, 1] := by
      rw [twist_cov_one hm]
      funext i
      fin_cases i <;> simp [Matrix.mulVec_diagonal]
    have hsr : 0 < P 5 5 + m.cov 35 := by linarith
    have hK := gain_eigen hpsd hR hCs hCT hRw hCP hsr
    set M := 1 - gainOf P twistMeasurementMatrix (twistMeasurementCovariance m.cov 1) * twistMeasurementMatrix
      with hM
    have hMt : M *ᵥ turnVec = turnVec := by
      rw [hM, Matrix.sub_mulVec, Matrix.one_mulVec, ← Matrix.mulVec_mulVec, hCt, Matrix.mulVec_zero, sub_zero]
    refine ⟨θ + φ * P 2 5 / (P 5 5 + m.cov 35), φ * (1 - P 5 5 / (P 5 5 + m.cov 35)), ?_, ?_, ?_⟩
    · have : 0 ≤ φ * P 2 5 / (P 5 5 + m.cov 35) := div_nonneg h5 hsr.le
      linarith
    · have : φ * P 2 5 / (P 5 5 + m.cov 35) < 1 - θ := by
        rw [div_lt_iff₀ hsr]
        have : 0 < (1 - θ) * m.cov 35 := mul_pos (by linarith) hr0
        nlinarith
      linarith
    · rw [k1.x, Matrix.mulVec_smul, Matrix.mulVec_sub, Matrix.mulVec_smul, Matrix.mulVec_smul, hMt, hK, es]
      congr 2
      funext i
      simp only [Pi.sub_apply, Pi.add_apply, Pi.smul_apply, smul_eq_mul]
      field_simp
      ring

theorem turned_published {a : Place} {e θ φ : ℝ} {f : TimeDelayKalmanFilter ℝ (n + 1) 6}
    (hf : blkX f.x 0 = a.state + e • (θ • turnVec - φ • spinVec)) (s : NodeState (n + 1)) (t4 t5 : ℤ) :
    ∀ o ∈ publish n.succ_pos p s f t4 t5, a.ShownTurned (θ * e) o := by
  have hx : f.getLatestX n.succ_pos = a.state + e • (θ • turnVec - φ • spinVec) := by rw [latest_blkX, hf]
  intro o ho
  simp only [publish, hx, List.mem_cons, List.not_mem_nil, or_false] at ho
  have hI : a.IsTurned (θ * e) ⟨(a.state + e • (θ • turnVec - φ • spinVec)) 0,
      (a.state + e • (θ • turnVec - φ • spinVec)) 1, s.z.getX, s.roll.getX, s.pitch.getX,
      (a.state + e • (θ • turnVec - φ • spinVec)) 2 + (a.state + e • (θ • turnVec - φ • spinVec)) 3⟩ := by
    refine ⟨?_, ?_, ?_⟩ <;> simp [Place.state, turnVec, spinVec]
    ring
  rcases ho with rfl | rfl
  · exact hI
  · exact hI

/-- One tick. -/
theorem turned_tick {a : Place} {e μ : ℝ} (ha : -Real.pi < a.yaw ∧ a.yaw ≤ Real.pi)
    (ha' : -Real.pi < a.yaw + e ∧ a.yaw + e ≤ Real.pi) (hps : p.poseSmoothing = 1)
    (hts : p.twistSmoothing = 1) {L dt : ℝ} (hL : 0 < L) (hdt : L ≤ dt)
    {f f1 f2 : TimeDelayKalmanFilter ℝ (n + 1) 6} (hf : WrongTurned a e μ f) {wp : Option PoseMsg}
    {wt : Option TwistMsg} {sp : PoseMsg → Bool} {st : TwistMsg → Bool} {t2 t3 : ℤ}
    (hwp : ∀ m ∈ wp, (a.Told tf m ∧ Round m) ∧
      computeDelayStep (computeDelayTime t2 m.stamp : ℝ) dt = .ok 0)
    (hwt : ∀ m ∈ wt, RestingApart m ∧ computeDelayStep (computeDelayTime t3 m.stamp : ℝ) dt = .ok 0)
    (c1 : Considered (processPose n.succ_pos tf sp p.poseGate p.poseSmoothing t2 dt) wp
      (predictStep n.succ_pos p dt f) f1)
    (c2 : Considered (processTwist n.succ_pos st p.twistGate p.twistSmoothing t3 dt) wt f1 f2) :
    (WrongTurned a e (μ + (p.variance.yaw * L) ^ 2) f2 ∧
      (wp ≠ none → p.poseGate ^ 2 * (μ + (p.variance.yaw * L) ^ 2) < e ^ 2)) ∨
    ∃ θ φ : ℝ, 0 < θ ∧ θ < 1 ∧ blkX f2.x 0 = a.state + e • (θ • turnVec - φ • spinVec) := by
  have hI0 := turned_predict (p := p) ha' hL hdt hf
  have hI1 : (WrongTurned a e (μ + (p.variance.yaw * L) ^ 2) f1 ∧
      (wp ≠ none → p.poseGate ^ 2 * (μ + (p.variance.yaw * L) ^ 2) < e ^ 2)) ∨ Corrected a e f1 := by
    cases wp with
    | none => rw [show f1 = _ from c1]; exact .inl ⟨hI0, fun h => (h rfl).elim⟩
    | some m =>
      obtain ⟨k1, k2⟩ := hwp m rfl
      rcases turned_pose ha hps k1 k2 hI0 c1 with ⟨k3, k4⟩ | k3
      · exact .inl ⟨k3, fun _ => k4⟩
      · exact .inr k3
  rcases hI1 with ⟨k1, k2⟩ | k1
  · left
    refine ⟨?_, k2⟩
    cases wt with
    | none => rw [show f2 = _ from c2]; exact k1
    | some m =>
      obtain ⟨k3, k4⟩ := hwt m rfl
      exact turned_twist hts k3 k4 k1 c2
  · right
    cases wt with
    | none =>
      rw [show f2 = _ from c2]
      obtain ⟨P, θ, φ, h1, -, h3, h4, -⟩ := k1
      exact ⟨θ, φ, h3, h4, h1.x⟩
    | some m =>
      obtain ⟨k3, k4⟩ := hwt m rfl
      exact corrected_twist hts k3 k4 k1 c2

/-- C149: if the initial pose is wrong in the heading by `e`, the vehicle stands still and the messages are
true, fresh and used once, then the claimed variance of the heading grows by at least `(σL)²` at each tick,
`σ` being the parameter for it, so that after a number of ticks that depends on the error and on the
gate a pose message is used. The heading is then between the wrong one and the right one. -/
theorem C149_heading {a : Place} (ha : -Real.pi < a.yaw ∧ a.yaw ≤ Real.pi) {e c cψ : ℝ}
    (ha' : -Real.pi < a.yaw + e ∧ a.yaw + e ≤ Real.pi) {m : PoseMsg}
    {tries : List Char → List Char → ℕ → Option Transform}
    (hm : StartsAt tf a.x a.y (a.yaw + e) c cψ m tries) (hps : p.poseSmoothing = 1)
    (hts : p.twistSmoothing = 1) {L : ℝ} (hL : 0 < L) (hL10 : L ≤ 10)
    (hLf : L ≤ 1 / max p.defaultFrequency (1 / 10)) (hframe : p.poseFrame ≠ []) (es : List Event)
    (hes : ∀ e ∈ es, Following (fun m => a.Told tf m ∧ Round m) RestingApart e)
    {t1 t2 t3 t4 t5 : ℤ} {sp : PoseMsg → Bool} {st : TwistMsg → Bool}
    (hfresh : FreshAll L none none (es ++ [Event.timer t1 t2 t3 t4 t5 sp st]))
    (hwf : WellFormed tf L (.initialPose m tries :: (es ++ [Event.timer t1 t2 t3 t4 t5 sp st])))
    (hwaits : (stillWaiting none none es).1 ≠ none)
    (hlong : e ^ 2 ≤ p.poseGate ^ 2 * (cψ + (ticksOf es + 1) * (p.variance.yaw * L) ^ 2)) :
    ∃ s out, run n.succ_pos tf p (NodeState.make (n + 1) p)
        (.initialPose m tries :: (es ++ [Event.timer t1 t2 t3 t4 t5 sp st])) = .ok (s, out) ∧
      ∃ o ∈ out, ∃ θ, 0 < θ ∧ θ < 1 ∧ a.ShownTurned (θ * e) o := by
  obtain ⟨s', out, h, -⟩ := C70_no_failure n.succ_pos tf p L hL hL10 hLf hframe _ hwf
  obtain ⟨s1, o1, o2, h1, h2, rfl⟩ := run_split (p := p) [.initialPose m tries] _ _ _ _ h
  obtain ⟨s2, o3, o4, h3, h4, rfl⟩ := run_split (p := p) es _ _ _ _ h2
  refine ⟨s', _, h, ?_⟩
  simp only [run, bind, Except.bind] at h1
  cases hi : step n.succ_pos tf p (NodeState.make (n + 1) p) (.initialPose m tries) with
  | error x => rw [hi] at h1; cases h1
  | ok r =>
    obtain ⟨s1', o1'⟩ := r
    rw [hi] at h1
    simp only [pure, Except.pure, List.append_nil] at h1
    injection h1 with h1
    injection h1 with h1 h1'
    subst h1; subst h1'
    obtain ⟨rfl, hq1, hq2, hiv, f, hf, hN⟩ := start_at hm hi
    obtain ⟨hfr1, hfr2⟩ := freshAll_append es _ _ _ hfresh
    have hgaps := hwf.gaps
    have hclock : (Event.initialPose m tries :: (es ++ [Event.timer t1 t2 t3 t4 t5 sp st])).filterMap
        Event.clock = es.filterMap Event.clock ++ [t1] := by
      simp [List.filterMap_cons, Event.clock]
    rw [hclock] at hgaps
    have hI0 : WrongTurned a e (cψ + ((0 : ℕ) : ℝ) * (p.variance.yaw * L) ^ 2) f := by
      have e0 : initState a.x a.y (a.yaw + e) = a.state + e • turnVec := by
        funext i
        fin_cases i <;> simp [initState, Place.state, turnVec]
      rw [e0] at hN
      refine ⟨_, hN, ?_, ?_⟩
      · rw [turnPlane, Matrix.diagonal_mul_diagonal, Matrix.diagonal_mul_diagonal]
        congr 1
        funext i
        ring
      · have e1 : Matrix.diagonal ![c, c, cψ, 1 / 10000, 1 / 100, 1 / 100] -
            (cψ + ((0 : ℕ) : ℝ) * (p.variance.yaw * L) ^ 2) • Matrix.vecMulVec turnVec turnVec =
            Matrix.diagonal ![c, c, 0, 1 / 10000, 1 / 100, 1 / 100] := by
          ext i j
          fin_cases i <;> fin_cases j <;> simp [turnVec]
        rw [e1]
        refine Matrix.PosSemidef.diagonal fun i => ?_
        have := hm.pos
        fin_cases i <;> simp <;> linarith
    have hstep : ∀ k : ℕ, cψ + (k : ℝ) * (p.variance.yaw * L) ^ 2 + (p.variance.yaw * L) ^ 2 =
        cψ + ((k + 1 : ℕ) : ℝ) * (p.variance.yaw * L) ^ 2 := by
      intro k
      push_cast
      ring
    rcases run_fresh (n := n) (tf := tf) (p := p)
      (fun k => WrongTurned a e (cψ + (k : ℝ) * (p.variance.yaw * L) ^ 2))
      (fun o => ∃ θ, 0 < θ ∧ θ < 1 ∧ a.ShownTurned (θ * e) o) (fun _ => True) hL hL10 hLf
      (fun k f wp wt dt sp st t2 t3 f1 f2 g1 g2 g3 g4 g5 g6 => by
        rcases turned_tick ha ha' hps hts hL g2 g1 g3 g4 g5 g6 with ⟨q1, -⟩ | ⟨θ, φ, q1, q2, q3⟩
        · left
          rw [hstep] at q1
          exact ⟨q1, fun _ _ _ _ _ => trivial⟩
        · right
          intro s t4 t5
          have := turned_published (p := p) q3 s t4 t5
          exact ⟨_, List.mem_cons_self, θ, q1, q2, this _ List.mem_cons_self⟩)
      es 0 none none s1' s2 o3
      ⟨⟨f, hf, hI0⟩, by rw [hq1, NodeState.make, hps]; rfl,
        by rw [hq2, NodeState.make, hts]; rfl, by simp, by simp, by rw [hiv]; rfl⟩ hfr1 hes [t1]
      (by intro last hl; rw [hiv] at hl; simp [NodeState.make, UpdateInterval.make] at hl) hgaps h3 with
      ⟨o, ho, hgo⟩ | ⟨r1, r2, -⟩
    · exact ⟨o, List.mem_append_right _ (List.mem_append_left _ ho), hgo⟩
    · simp only [run, bind, Except.bind] at h4
      cases hl : step n.succ_pos tf p s2 (.timer t1 t2 t3 t4 t5 sp st) with
      | error x => rw [hl] at h4; cases h4
      | ok r =>
        obtain ⟨s3, o5⟩ := r
        rw [hl] at h4
        simp only [pure, Except.pure, List.append_nil] at h4
        injection h4 with h4
        injection h4 with h4 h4'
        subst h4; subst h4'
        obtain ⟨f, dt, f1, f2, g1, g2, g3, g4, g5, g6, rfl, -, -⟩ := fresh_step hL hL10 hLf r1 hfr2.1 hfr2.2.1
          (fun last hl => r2 last hl t1 (by simp)) hl
        rcases turned_tick ha ha' hps hts hL g2 g1 g3 g4 g5 g6 with ⟨-, q1⟩ | ⟨θ, φ, q1, q2, q3⟩
        · exfalso
          have := q1 hwaits
          rw [hstep] at this
          push_cast at this
          simp only [zero_add] at this
          linarith
        · have := turned_published (p := p) q3 s2 t4 t5
          exact ⟨_, List.mem_append_right _ (List.mem_append_right _ List.mem_cons_self), θ, q1, q2,
            this _ List.mem_cons_self⟩

end Heading

/-! Non-vacuity. -/

/-- The angles of quaternions near the identity. -/
def dialTf : Tf2 := ⟨fun q => some q.z, fun _ => some 0, fun _ => some 0⟩

/-- A message at `x = px` with a heading, variances of 1 and no correlations. -/
def headedMsg (px yaw : ℝ) : PoseMsg :=
  ⟨"map".toList, 0, some px, some 0, some 0, ⟨1, 0, 0, yaw⟩, fun i => if i.val % 7 = 0 then 1 else 0⟩

/-- A vehicle at rest. -/
def restMsg : TwistMsg := ⟨[], 0, some 0, some 0, fun i => if i.val % 7 = 0 then 1 else 0⟩

theorem headed_starts (px yaw : ℝ) : StartsAt dialTf px 0 yaw 1 1 (headedMsg px yaw) identityTries := by
  refine ⟨fun parent child t ht => ?_, by simp [headedMsg], by simp [headedMsg], by simp [headedMsg],
    one_pos, one_pos⟩
  have : t = ⟨0, 0, 0, ⟨1, 0, 0, 0⟩⟩ := by
    simpa [lookupTransform, lookupLoop, identityTries] using ht.symm
  subst this
  simp [headedMsg, dialTf]

theorem headed_told : (⟨0, 0, 0, 0, 0, 0⟩ : Place).Told dialTf (headedMsg 0 0) ∧ Round (headedMsg 0 0) :=
  ⟨⟨rfl, rfl, 0, 0, rfl, by simp⟩, ⟨by simp [headedMsg], by simp [headedMsg], by simp [headedMsg],
    by simp [headedMsg], by simp [headedMsg]⟩⟩

theorem rest_apart : RestingApart restMsg :=
  ⟨⟨rfl, rfl, by simp [restMsg], by simp [restMsg], by simp [restMsg]⟩, by simp [restMsg]⟩

theorem headed_following : ∀ e ∈ [Event.pose (headedMsg 0 0), Event.twist restMsg],
    Following (fun m => (⟨0, 0, 0, 0, 0, 0⟩ : Place).Told dialTf m ∧ Round m) RestingApart e := by
  intro e he
  simp only [List.mem_cons, List.not_mem_nil, or_false] at he
  rcases he with rfl | rfl
  · exact headed_told
  · exact rest_apart

theorem headed_fresh : FreshAll (1 / 50) none none ([Event.pose (headedMsg 0 0), Event.twist restMsg] ++
    [.timer 0 0 0 0 0 (fun _ => true) (fun _ => true)]) := by
  refine ⟨rfl, rfl, fun m hm => ?_, fun m hm => ?_, trivial⟩
  · have : headedMsg 0 0 = m := by simpa using hm
    subst this
    norm_num [headedMsg]
  · have : restMsg = m := by simpa using hm
    subst this
    norm_num [restMsg]

theorem headed_wellFormed (px yaw : ℝ) : WellFormed dialTf (1 / 50)
    (.initialPose (headedMsg px yaw) identityTries :: ([.pose (headedMsg 0 0), .twist restMsg] ++
      [.timer 0 0 0 0 0 (fun _ => true) (fun _ => true)])) := by
  refine ⟨?_, ?_, ?_, ?_⟩
  · intro e he
    simp only [List.mem_cons, List.cons_append, List.nil_append, List.not_mem_nil, or_false] at he
    rcases he with rfl | rfl | rfl | rfl
    · exact ⟨by simp [headedMsg], rfl, rfl, rfl, fun a b => ⟨⟨0, by norm_num, rfl⟩, fun k t _ => rfl⟩⟩
    all_goals trivial
  · change List.Pairwise _ [0]; simp
  · intro e he t1 t2 t3 t4 t5 sp st hee stamp hst
    simp only [List.mem_cons, List.cons_append, List.nil_append, List.not_mem_nil, or_false] at he
    have : 0 = stamp := by simpa [Event.poseStamp, headedMsg] using hst
    subst this
    rcases he with rfl | rfl | rfl | rfl <;> cases hee
    norm_num
  · intro e he t1 t2 t3 t4 t5 sp st hee stamp hst
    simp only [List.mem_cons, List.cons_append, List.nil_append, List.not_mem_nil, or_false] at he
    have : 0 = stamp := by simpa [Event.twistStamp, restMsg] using hst
    subst this
    rcases he with rfl | rfl | rfl | rfl <;> cases hee
    norm_num

/-- An error of 3 along the heading with the default gate. -/
example : ∃ (s : NodeState 3) (out o : List Output),
    run (by norm_num) dialTf { defaultParams with poseSmoothing := 1, twistSmoothing := 1 }
      (NodeState.make 3 { defaultParams with poseSmoothing := 1, twistSmoothing := 1 })
      (.initialPose (headedMsg 3 0) identityTries :: ([.pose (headedMsg 0 0), .twist restMsg] ++
      [.timer 0 0 0 0 0 (fun _ => true) (fun _ => true)])) = .ok (s, out ++ o) ∧ o.length = 2 ∧
    ∀ x ∈ o, (⟨0, 0, 0, 0, 0, 0⟩ : Place).ShownAhead 9 x := by
  have hp := Real.pi_pos
  obtain ⟨s, out, o, h1, h2, h3, -⟩ := C149_ahead (n := 2) (tf := dialTf)
    (p := { defaultParams with poseSmoothing := 1, twistSmoothing := 1 })
    (a := ⟨0, 0, 0, 0, 0, 0⟩) ⟨by simpa using hp, hp.le⟩ (d := 3) (c := 1) (cψ := 1)
    (by simpa using headed_starts 3 0) (by norm_num [defaultParams]) rfl rfl (L := 1 / 50) (by norm_num)
    (by norm_num) (by norm_num [defaultParams]) (by simp [defaultParams]) _ headed_following headed_fresh
    (headed_wellFormed 3 0)
  refine ⟨s, out, o, h1, h2, fun x hx => ?_⟩
  have := h3 x (List.mem_append_right _ hx)
  norm_num at this
  exact this

/-- An error of 2 in the heading with a gate of 1 and a variance that grows fast: at the start the error is
two standard deviations, so that the message would have been thrown away. -/
example : ∃ (s : NodeState 3) (out : List Output),
    run (by norm_num) dialTf
      { defaultParams with poseSmoothing := 1, twistSmoothing := 1, poseGate := 1, yawCov := 100 }
      (NodeState.make 3
        { defaultParams with poseSmoothing := 1, twistSmoothing := 1, poseGate := 1, yawCov := 100 })
      (.initialPose (headedMsg 0 2) identityTries :: ([.pose (headedMsg 0 0), .twist restMsg] ++
      [.timer 0 0 0 0 0 (fun _ => true) (fun _ => true)])) = .ok (s, out) ∧
    ∃ o ∈ out, ∃ θ, 0 < θ ∧ θ < 1 ∧ (⟨0, 0, 0, 0, 0, 0⟩ : Place).ShownTurned (θ * 2) o := by
  have hp := Real.pi_gt_three
  exact C149_heading (n := 2) (tf := dialTf)
    (p := { defaultParams with poseSmoothing := 1, twistSmoothing := 1, poseGate := 1, yawCov := 100 })
    (a := ⟨0, 0, 0, 0, 0, 0⟩) ⟨by simp only; linarith, by simp only; linarith⟩
    ⟨by simp only; linarith, by simp only; linarith⟩ (c := 1) (cψ := 1)
    (by simpa using headed_starts 0 2) rfl rfl (L := 1 / 50) (by norm_num)
    (by norm_num) (by norm_num [defaultParams]) (by simp [defaultParams]) _ headed_following headed_fresh
    (headed_wellFormed 0 2) (by simp [stillWaiting])
    (by norm_num [defaultParams, EkfParams.variance, ticksOf])

end Verif.Ekf
