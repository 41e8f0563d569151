/-
C151: what the nodes keep stays bounded, however long they run.
-/
import Verif.Props.C148
import Verif.Props.C54
import Verif.Model.Sync

set_option autoImplicit false

namespace Verif.Ekf

open Matrix Verif.Kalman

variable {n : ℕ}

/-! ### Specification -/

/-- Between two ticks of the timer come at most `a` pose messages and `b` twist messages. -/
def Rate (a b : ℕ) (es : List Event) : Prop :=
  ∀ bs, bs <:+: es → (∀ e ∈ bs, e.clock = none) → poseCount bs ≤ a ∧ twistCount bs ≤ b

/-- The clock never goes backwards. -/
def ClockForward (es : List Event) : Prop := (es.filterMap Event.clock).Pairwise (· ≤ ·)

/-- The bound for a queue whose messages are used `s` times (once for `s < 1`), if at most `a` come between two
ticks. -/
def queueBound (s : ℤ) (a : ℕ) : ℤ := (max 1 s + 1) ^ 2 * a / 2

/-! ### The queue -/

theorem AgedQueue.pop_size {α : Type} {q q' : AgedQueue α} {m : α} (hp : q.pop = .ok (m, q')) :
    q'.size ≤ q.size := by
  obtain ⟨M, ms, as⟩ := q
  cases ms with
  | nil => simp [AgedQueue.pop] at hp
  | cons x ms =>
    cases as with
    | nil => simp [AgedQueue.pop] at hp
    | cons a as =>
      simp only [AgedQueue.pop] at hp
      split_ifs at hp <;> (rw [Except.ok.injEq, Prod.mk.injEq] at hp; rw [← hp.2]; simp [AgedQueue.size])

/-- The loop ends when it has used as many messages as are left. -/
theorem updateLoop_left {α F : Type} (process : α → F → Res F) : ∀ (fuel i : ℕ) (q q' : AgedQueue α)
    (f f' : F), q.Due → q.size ≤ i + fuel → updateLoop process fuel i q f = .ok (f', q') →
    q'.Due ∧ q'.maxAge = q.maxAge ∧ q'.left + q'.size ≤ q.left + i := by
  intro fuel
  induction fuel with
  | zero =>
    intro i q q' f f' hq hs h
    simp only [updateLoop, Except.ok.injEq, Prod.mk.injEq] at h
    rw [← h.2]
    exact ⟨hq, rfl, by omega⟩
  | succ fuel ih =>
    intro i q q' f f' hq hs h
    rw [updateLoop] at h
    by_cases hi : i < q.size
    · rw [if_pos hi] at h
      simp only [bind, Except.bind] at h
      cases hp : q.pop with
      | error e => rw [hp] at h; cases h
      | ok r =>
        rw [hp] at h
        simp only at h
        cases hm : process r.1 f with
        | error e => rw [hm] at h; cases h
        | ok f1 =>
          rw [hm] at h
          obtain ⟨a1, a2, a3⟩ := AgedQueue.Due.pop (m := r.1) (q' := r.2) hq hp
          have a4 := AgedQueue.pop_size (m := r.1) (q' := r.2) hp
          obtain ⟨b1, b2, b3⟩ := ih (i + 1) r.2 q' f1 f' a1 (by omega) h
          refine ⟨b1, b2.trans a2, ?_⟩
          push_cast at b3
          omega
    · rw [if_neg hi, Except.ok.injEq, Prod.mk.injEq] at h
      rw [← h.2]
      exact ⟨hq, rfl, by omega⟩

theorem sum_le_of {M : ℤ} : ∀ (l : List ℤ), (∀ a ∈ l, 0 ≤ a) → (l.map fun a => M - a).sum ≤ M * l.length
  | [], _ => by simp
  | a :: l, h => by
    have h1 := h a List.mem_cons_self
    have h2 := sum_le_of (M := M) l fun b hb => h b (List.mem_cons_of_mem _ hb)
    simp only [List.length_cons, List.map_cons, List.sum_cons]
    push_cast
    linarith

/-- The queue after `c` of at most `a` messages since the last tick. -/
structure AgedQueue.Within {α : Type} (q : AgedQueue α) (M : ℤ) (a c : ℕ) : Prop where
  due : q.Due
  age : q.maxAge = M
  weight : q.left + q.size ≤ max 1 M * (max 1 M + 1) * a + (max 1 M + 1) * c

theorem AgedQueue.Within.bound {α : Type} {q : AgedQueue α} {M : ℤ} {a c : ℕ} (h : q.Within M a c)
    (hc : c ≤ a) : (q.size : ℤ) ≤ queueBound M a := by
  have h1 := h.due.left_nonneg
  have h2 := h.weight
  have h3 : (c : ℤ) ≤ a := by exact_mod_cast hc
  have h4 : (0 : ℤ) ≤ max 1 M := by omega
  have e : (q.msgs.length : ℤ) = q.size := rfl
  rw [e] at h1
  unfold queueBound
  rw [Int.le_ediv_iff_mul_le (by norm_num)]
  nlinarith

theorem AgedQueue.Within.push {α : Type} {q : AgedQueue α} {M : ℤ} {a c : ℕ} (h : q.Within M a c) (m : α) :
    (q.push m).Within M a (c + 1) := by
  obtain ⟨h1, h2⟩ := h.due.push m
  refine ⟨h1, h.age, ?_⟩
  have h3 := h.weight
  have h4 : (q.push m).size = q.size + 1 := by simp [AgedQueue.push, AgedQueue.size]
  rw [h2, h4, h.age]
  push_cast
  linarith

theorem AgedQueue.Within.clear {α : Type} {q : AgedQueue α} {M : ℤ} (hM : q.maxAge = M) (a c : ℕ) :
    q.clear.Within M a c := by
  obtain ⟨h1, h2⟩ := AgedQueue.clear_due q
  refine ⟨h1, hM, ?_⟩
  have h4 : q.clear.size = 0 := rfl
  rw [h2, h4]
  have : (0 : ℤ) ≤ max 1 M := by omega
  positivity

/-- A tick makes room. -/
theorem AgedQueue.Within.update {α F : Type} {q q' : AgedQueue α} {M : ℤ} {a c : ℕ} (h : q.Within M a c)
    (hc : c ≤ a) {process : α → F → Res F} {f f' : F} (hu : updateAll process q f = .ok (f', q')) :
    q'.Within M a 0 := by
  obtain ⟨h1, h2, h3⟩ := updateLoop_left process q.size 0 q q' f f' h.due (by omega) hu
  refine ⟨h1, h2.trans h.age, ?_⟩
  have h4 := h.weight
  have h5 : q.left ≤ max 1 q.maxAge * q.size := by
    have := sum_le_of (M := max 1 q.maxAge) q.ages fun x hx => (h.due.2 x hx).1
    rw [show q.size = q.ages.length from h.due.1]
    exact this
  rw [h.age] at h5
  have h6 : (c : ℤ) ≤ a := by exact_mod_cast hc
  have h7 : (0 : ℤ) < max 1 M := by omega
  push_cast
  rw [mul_zero, add_zero]
  have h8 : (max 1 M + 1) * q.left ≤ max 1 M * ((max 1 M + 1) * (max 1 M * a + a)) := by
    have k1 : q.left + q.size ≤ (max 1 M + 1) * (max 1 M * a + a) := by nlinarith
    have k2 := mul_le_mul_of_nonneg_left k1 h7.le
    nlinarith
  have h9 : q.left ≤ max 1 M * (max 1 M * a + a) := by
    by_contra hcon
    rw [not_le] at hcon
    nlinarith
  push_cast at h3
  nlinarith

/-! ### The node -/

/-- Without an initial pose, whatever comes is kept. -/
theorem run_before (tf : Tf2) (p : EkfParams) : ∀ (es : List Event) (s : NodeState (n + 1)),
    (∀ e ∈ es, e.isInitial = false) → s.ekf = none →
    ∃ s', run n.succ_pos tf p s es = .ok (s', []) ∧ s'.ekf = none ∧ s'.interval = s.interval ∧
      s'.poseQ.maxAge = s.poseQ.maxAge ∧ s'.twistQ.maxAge = s.twistQ.maxAge ∧
      s'.poseQ.size = s.poseQ.size + poseCount es ∧ s'.twistQ.size = s.twistQ.size + twistCount es
  | [], s, _, hs => ⟨s, rfl, hs, rfl, rfl, rfl, rfl, rfl⟩
  | e :: es, s, hes, hs => by
    have he := hes e List.mem_cons_self
    have hes' := fun e' he' => hes e' (List.mem_cons_of_mem e he')
    have fin : ∀ s1 : NodeState (n + 1), step n.succ_pos tf p s e = .ok (s1, []) → s1.ekf = none →
        s1.interval = s.interval → s1.poseQ.maxAge = s.poseQ.maxAge → s1.twistQ.maxAge = s.twistQ.maxAge →
        s1.poseQ.size = s.poseQ.size + poseCount [e] → s1.twistQ.size = s.twistQ.size + twistCount [e] →
        ∃ s', run n.succ_pos tf p s (e :: es) = .ok (s', []) ∧ s'.ekf = none ∧ s'.interval = s.interval ∧
          s'.poseQ.maxAge = s.poseQ.maxAge ∧ s'.twistQ.maxAge = s.twistQ.maxAge ∧
          s'.poseQ.size = s.poseQ.size + poseCount (e :: es) ∧
          s'.twistQ.size = s.twistQ.size + twistCount (e :: es) := by
      intro s1 h1 h2 h3 h4 h5 h6 h7
      obtain ⟨s', k1, k2, k3, k4, k5, k6, k7⟩ := run_before tf p es s1 hes' h2
      refine ⟨s', ?_, k2, k3.trans h3, k4.trans h4, k5.trans h5, ?_, ?_⟩
      · simp only [run, h1, k1, bind, Except.bind, pure, Except.pure, List.append_nil]
      · rw [k6, h6]
        simp only [poseCount, List.countP_cons, List.countP_nil]
        omega
      · rw [k7, h7]
        simp only [twistCount, List.countP_cons, List.countP_nil]
        omega
    cases e with
    | initialPose m tries => cases he
    | pose m =>
      exact fin _ rfl hs rfl rfl rfl (by simp [updateSimple1DFilters, AgedQueue.push, AgedQueue.size, poseCount])
        (by simp [updateSimple1DFilters, twistCount])
    | twist m =>
      exact fin _ rfl hs rfl rfl rfl (by simp [poseCount])
        (by simp [AgedQueue.push, AgedQueue.size, twistCount])
    | timer t1 t2 t3 t4 t5 sp st =>
      exact fin s (by simp only [step, timerCallback, hs]) hs rfl rfl rfl (by simp [poseCount])
        (by simp [twistCount])

/-- While the clock shows less than it did, whatever comes is kept. -/
theorem run_behind (tf : Tf2) (p : EkfParams) (last : ℝ) : ∀ (es : List Event) (s : NodeState (n + 1)),
    (∀ e ∈ es, e.isInitial = false) → (∀ t ∈ es.filterMap Event.clock, (t : ℝ) / 1000000000 < last) →
    s.ekf.isSome → s.interval.lastTime = some last →
    ∃ s', run n.succ_pos tf p s es = .ok (s', []) ∧ s'.ekf.isSome ∧ s'.interval.lastTime = some last ∧
      s'.poseQ.size = s.poseQ.size + poseCount es ∧ s'.twistQ.size = s.twistQ.size + twistCount es
  | [], s, _, _, hs, hi => ⟨s, rfl, hs, hi, rfl, rfl⟩
  | e :: es, s, hes, ht, hs, hi => by
    have he := hes e List.mem_cons_self
    have hes' := fun e' he' => hes e' (List.mem_cons_of_mem e he')
    have ht' : ∀ t ∈ es.filterMap Event.clock, (t : ℝ) / 1000000000 < last := by
      intro t h
      refine ht t ?_
      rw [List.filterMap_cons]
      cases e.clock with
      | none => exact h
      | some c => exact List.mem_cons_of_mem _ h
    have fin : ∀ s1 : NodeState (n + 1), step n.succ_pos tf p s e = .ok (s1, []) → s1.ekf.isSome →
        s1.interval.lastTime = some last →
        s1.poseQ.size = s.poseQ.size + poseCount [e] → s1.twistQ.size = s.twistQ.size + twistCount [e] →
        ∃ s', run n.succ_pos tf p s (e :: es) = .ok (s', []) ∧ s'.ekf.isSome ∧
          s'.interval.lastTime = some last ∧
          s'.poseQ.size = s.poseQ.size + poseCount (e :: es) ∧
          s'.twistQ.size = s.twistQ.size + twistCount (e :: es) := by
      intro s1 h1 h2 h3 h6 h7
      obtain ⟨s', k1, k2, k3, k6, k7⟩ := run_behind tf p last es s1 hes' ht' h2 h3
      refine ⟨s', ?_, k2, k3, ?_, ?_⟩
      · simp only [run, h1, k1, bind, Except.bind, pure, Except.pure, List.append_nil]
      · rw [k6, h6]
        simp only [poseCount, List.countP_cons, List.countP_nil]
        omega
      · rw [k7, h7]
        simp only [twistCount, List.countP_cons, List.countP_nil]
        omega
    cases e with
    | initialPose m tries => cases he
    | pose m =>
      exact fin _ rfl hs hi (by simp [updateSimple1DFilters, AgedQueue.push, AgedQueue.size, poseCount])
        (by simp [updateSimple1DFilters, twistCount])
    | twist m =>
      exact fin _ rfl hs hi (by simp [poseCount]) (by simp [AgedQueue.push, AgedQueue.size, twistCount])
    | timer t1 t2 t3 t4 t5 sp st =>
      have hlt := ht t1 (by simp [Event.clock])
      obtain ⟨f, hf⟩ := Option.isSome_iff_exists.1 hs
      refine fin s ?_ hs hi (by simp [poseCount]) (by simp [twistCount])
      simp only [step, timerCallback, hf, compute_interval _ _ _ hi, if_pos hlt]
      rw [← hf]

theorem run_append {tf : Tf2} {p : EkfParams} : ∀ (as bs : List Event) {s s' : NodeState (n + 1)}
    {out : List Output}, run n.succ_pos tf p s (as ++ bs) = .ok (s', out) →
    ∃ s1 o1 o2, run n.succ_pos tf p s as = .ok (s1, o1) ∧ run n.succ_pos tf p s1 bs = .ok (s', o2) ∧
      out = o1 ++ o2
  | [], bs, s, s', out, h => ⟨s, [], out, rfl, h, rfl⟩
  | a :: as, bs, s, s', out, h => by
    simp only [List.cons_append, run, bind, Except.bind] at h ⊢
    cases h1 : step n.succ_pos tf p s a with
    | error x => rw [h1] at h; cases h
    | ok r =>
      rw [h1] at h
      simp only at h
      cases h2 : run n.succ_pos tf p r.1 (as ++ bs) with
      | error x => rw [h2] at h; cases h
      | ok r2 =>
        rw [h2] at h
        simp only [pure, Except.pure, Except.ok.injEq, Prod.mk.injEq] at h
        obtain ⟨s1, o1, o2, k1, k2, k3⟩ := run_append as bs (out := r2.2) (s' := s') (by rw [h2, ← h.1])
        refine ⟨s1, r.2 ++ o1, o2, ?_, k2, ?_⟩
        · simp only [k1]
          rfl
        · rw [← h.2, k3, List.append_assoc]

theorem Rate.tail {a b : ℕ} {e : Event} {es : List Event} (h : Rate a b (e :: es)) : Rate a b es :=
  fun bs hbs => h bs (hbs.trans (List.suffix_cons e es).isInfix)

/-- A step of the node with an initial pose. -/
theorem initial_queues {tf : Tf2} {p : EkfParams} {s s' : NodeState (n + 1)} {m : PoseMsg}
    {tries : List Char → List Char → ℕ → Option Transform} {o : List Output}
    (h : step n.succ_pos tf p s (.initialPose m tries) = .ok (s', o)) :
    s'.poseQ = s.poseQ.clear ∧ s'.twistQ = s.twistQ.clear ∧ s'.interval = s.interval ∧ s'.ekf.isSome := by
  simp only [step, initialPoseCallback, bind, Except.bind] at h
  split at h
  · cases h
  · rename_i s1 hs1
    split at hs1
    · cases hs1
    · split at hs1
      · cases hs1
      · split at hs1
        · cases hs1
        · split at hs1
          · simp only [pure, Except.pure, Except.ok.injEq, Prod.mk.injEq] at hs1 h
            rw [← h.1, ← hs1]
            exact ⟨rfl, rfl, rfl, rfl⟩
          · cases hs1

/-- A step of the node with a tick that is not earlier than the one before. -/
theorem tick_queues {tf : Tf2} {p : EkfParams} {s s' : NodeState (n + 1)} {t1 t2 t3 t4 t5 : ℤ}
    {sp : PoseMsg → Bool} {st : TwistMsg → Bool} {o : List Output} {a b c d : ℕ}
    (hp : s.poseQ.Within p.poseSmoothing a c) (ht : s.twistQ.Within p.twistSmoothing b d) (hc : c ≤ a)
    (hd : d ≤ b) (hf : s.ekf.isSome)
    (hi : ∀ last, s.interval.lastTime = some last → last ≤ (t1 : ℝ) / 1000000000)
    (h : step n.succ_pos tf p s (.timer t1 t2 t3 t4 t5 sp st) = .ok (s', o)) :
    s'.poseQ.Within p.poseSmoothing a 0 ∧ s'.twistQ.Within p.twistSmoothing b 0 ∧ s'.ekf.isSome ∧
      s'.interval.lastTime = some ((t1 : ℝ) / 1000000000) := by
  obtain ⟨f, hf⟩ := Option.isSome_iff_exists.1 hf
  have hiv : ∃ dt, s.interval.compute ((t1 : ℝ) / 1000000000) =
      (.ok dt, ⟨s.interval.defaultFrequency, some ((t1 : ℝ) / 1000000000)⟩) := by
    unfold UpdateInterval.compute
    cases hl : s.interval.lastTime with
    | none => exact ⟨_, rfl⟩
    | some last =>
      simp only
      rw [if_neg (not_lt.2 (hi last hl))]
      exact ⟨_, rfl⟩
  obtain ⟨dt, hiv⟩ := hiv
  simp only [step, timerCallback, hf, hiv, bind, Except.bind] at h
  cases hu : updateAll (processPose n.succ_pos tf sp p.poseGate p.poseSmoothing t2 dt) s.poseQ
      (predictStep n.succ_pos p dt f) with
  | error e => rw [hu] at h; cases h
  | ok u =>
    rw [hu] at h
    simp only at h
    cases hv : updateAll (processTwist n.succ_pos st p.twistGate p.twistSmoothing t3 dt) s.twistQ u.1 with
    | error e => rw [hv] at h; cases h
    | ok v =>
      rw [hv] at h
      simp only [pure, Except.pure, Except.ok.injEq, Prod.mk.injEq] at h
      rw [← h.1]
      exact ⟨hp.update hc (f' := u.1) (q' := u.2) hu, ht.update hd (f' := v.1) (q' := v.2) hv, rfl, rfl⟩

theorem run_within {tf : Tf2} {p : EkfParams} {a b : ℕ} : ∀ (es : List Event) (s s' : NodeState (n + 1))
    (out : List Output) (c d : ℕ), s.poseQ.Within p.poseSmoothing a c → s.twistQ.Within p.twistSmoothing b d →
    s.ekf.isSome → c ≤ a → d ≤ b →
    (∀ bs, bs <+: es → (∀ e ∈ bs, e.clock = none) → c + poseCount bs ≤ a ∧ d + twistCount bs ≤ b) →
    Rate a b es → ClockForward es →
    (∀ last, s.interval.lastTime = some last → ∀ t ∈ es.filterMap Event.clock, last ≤ (t : ℝ) / 1000000000) →
    run n.succ_pos tf p s es = .ok (s', out) →
    (s'.poseQ.size : ℤ) ≤ queueBound p.poseSmoothing a ∧ (s'.twistQ.size : ℤ) ≤ queueBound p.twistSmoothing b
  | [], s, s', out, c, d, hp, ht, _, hc, hd, _, _, _, _, h => by
    simp only [run, Except.ok.injEq, Prod.mk.injEq] at h
    rw [← h.1]
    exact ⟨hp.bound hc, ht.bound hd⟩
  | e :: es, s, s', out, c, d, hp, ht, hf, hc, hd, hpre, hr, hcl, hi, h => by
    simp only [run, bind, Except.bind] at h
    cases h1 : step n.succ_pos tf p s e with
    | error x => rw [h1] at h; cases h
    | ok r =>
      rw [h1] at h
      simp only at h
      cases h2 : run n.succ_pos tf p r.1 es with
      | error x => rw [h2] at h; cases h
      | ok r2 =>
        rw [h2] at h
        simp only [pure, Except.pure, Except.ok.injEq, Prod.mk.injEq] at h
        rw [← h.1]
        cases e with
        | pose m =>
          simp only [step, Except.ok.injEq] at h1
          have hone := hpre [.pose m] ⟨es, rfl⟩ (by simp [Event.clock])
          refine run_within es r.1 r2.1 r2.2 (c + 1) d ?_ ?_ ?_ (by simpa [poseCount] using hone.1) hd ?_ hr.tail
            hcl ?_ h2
          · rw [← h1]; exact hp.push m
          · rw [← h1]; exact ht
          · rw [← h1]; exact hf
          · intro bs hbs hn
            have := hpre (.pose m :: bs) (by simpa using hbs) (by simpa [Event.clock] using hn)
            simp only [poseCount, twistCount, List.countP_cons] at this ⊢
            simp at this
            omega
          · rw [← h1]; exact hi
        | twist m =>
          simp only [step, Except.ok.injEq] at h1
          have hone := hpre [.twist m] ⟨es, rfl⟩ (by simp [Event.clock])
          refine run_within es r.1 r2.1 r2.2 c (d + 1) ?_ ?_ ?_ hc (by simpa [twistCount] using hone.2) ?_ hr.tail
            hcl ?_ h2
          · rw [← h1]; exact hp
          · rw [← h1]; exact ht.push m
          · rw [← h1]; exact hf
          · intro bs hbs hn
            have := hpre (.twist m :: bs) (by simpa using hbs) (by simpa [Event.clock] using hn)
            simp only [poseCount, twistCount, List.countP_cons] at this ⊢
            simp at this
            omega
          · rw [← h1]; exact hi
        | initialPose m tries =>
          obtain ⟨k1, k2, k3, k4⟩ := initial_queues (s' := r.1) (o := r.2) h1
          refine run_within es r.1 r2.1 r2.2 c d ?_ ?_ k4 hc hd ?_ hr.tail
            hcl ?_ h2
          · rw [k1]; exact AgedQueue.Within.clear hp.age a c
          · rw [k2]; exact AgedQueue.Within.clear ht.age b d
          · intro bs hbs hn
            have := hpre (.initialPose m tries :: bs) (by simpa using hbs) (by simpa [Event.clock] using hn)
            simpa [poseCount, twistCount, List.countP_cons] using this
          · rw [k3]; exact hi
        | timer t1 t2 t3 t4 t5 sp st =>
          obtain ⟨k1, k2, k3, k4⟩ := tick_queues (s' := r.1) (o := r.2) hp ht hc hd hf
            (fun last hl => hi last hl t1 (by simp [Event.clock])) h1
          have hcl' := List.pairwise_cons.1 (show (t1 :: es.filterMap Event.clock).Pairwise (· ≤ ·) from hcl)
          refine run_within es r.1 r2.1 r2.2 0 0 k1 k2 k3 (Nat.zero_le _) (Nat.zero_le _) ?_ hr.tail hcl'.2 ?_ h2
          · intro bs hbs hn
            have := hr.tail bs hbs.isInfix hn
            omega
          · intro last hl t ht'
            rw [k4, Option.some.injEq] at hl
            rw [← hl]
            have : (t1 : ℝ) ≤ t := by exact_mod_cast hcl'.1 t ht'
            linarith

/-! ### C151 -/

/-- Full claim: what the filter node keeps stays bounded however long it runs. Proved here from the first initial
pose on if the clock does not go backwards (before it and while the clock is behind the claim is false:
`C151_before_start_violated`, `C151_clock_violated`): if at most `a` pose messages and `b` twist messages come
between two ticks, the queues never hold more than `queueBound`, for messages used once twice as many as come
between two ticks. What is neither a queue nor of a fixed size the node does not have. -/
theorem C151_queues_partial (tf : Tf2) (p : EkfParams) (a b : ℕ) (before after : List Event) (m : PoseMsg)
    (tries : List Char → List Char → ℕ → Option Transform) (hb : ∀ e ∈ before, e.isInitial = false)
    (hr : Rate a b after) (hcl : ClockForward after) (s : NodeState (n + 1)) (out : List Output)
    (h : run n.succ_pos tf p (NodeState.make (n + 1) p) (before ++ .initialPose m tries :: after) =
      .ok (s, out)) :
    (s.poseQ.size : ℤ) ≤ queueBound p.poseSmoothing a ∧
    (s.twistQ.size : ℤ) ≤ queueBound p.twistSmoothing b := by
  obtain ⟨s1, o1, o2, h1, h2, -⟩ := run_append before _ h
  obtain ⟨s1', k1, k2, k3, k4, k5, -, -⟩ := run_before tf p before (NodeState.make (n + 1) p) hb rfl
  rw [h1, Except.ok.injEq, Prod.mk.injEq] at k1
  rw [← k1.1] at k3 k4 k5
  simp only [run, bind, Except.bind] at h2
  cases h3 : step n.succ_pos tf p s1 (.initialPose m tries) with
  | error x => rw [h3] at h2; cases h2
  | ok r =>
    rw [h3] at h2
    simp only at h2
    cases h4 : run n.succ_pos tf p r.1 after with
    | error x => rw [h4] at h2; cases h2
    | ok r2 =>
      rw [h4] at h2
      simp only [pure, Except.pure, Except.ok.injEq, Prod.mk.injEq] at h2
      rw [← h2.1]
      obtain ⟨q1, q2, q3, q4⟩ := initial_queues (s' := r.1) (o := r.2) h3
      refine run_within after r.1 r2.1 r2.2 0 0 ?_ ?_ q4 (Nat.zero_le _) (Nat.zero_le _) ?_ hr hcl ?_ h4
      · rw [q1]; exact AgedQueue.Within.clear k4 a 0
      · rw [q2]; exact AgedQueue.Within.clear k5 b 0
      · intro bs hbs hn
        have := hr bs hbs.isInfix hn
        omega
      · rw [q3, k3]
        intro last hl
        cases hl

/-- C151, before the first initial pose: every message that comes is kept, whatever the timer does. -/
theorem C151_before_start (tf : Tf2) (p : EkfParams) (es : List Event) (hes : ∀ e ∈ es, e.isInitial = false) :
    ∃ s : NodeState (n + 1), run n.succ_pos tf p (NodeState.make (n + 1) p) es = .ok (s, []) ∧
      s.poseQ.size = poseCount es ∧ s.twistQ.size = twistCount es := by
  obtain ⟨s, k1, -, -, -, -, k6, k7⟩ := run_before tf p es (NodeState.make (n + 1) p) hes rfl
  refine ⟨s, k1, ?_, ?_⟩
  · rw [k6]; simp [NodeState.make, AgedQueue.make, AgedQueue.size]
  · rw [k7]; simp [NodeState.make, AgedQueue.make, AgedQueue.size]

/-- A tick that published something. -/
theorem published_tick {tf : Tf2} {p : EkfParams} {T t2 t3 t4 t5 : ℤ} {sp : PoseMsg → Bool} {st : TwistMsg → Bool}
    {s s1 : NodeState (n + 1)} {o : List Output}
    (h1 : step n.succ_pos tf p s (.timer T t2 t3 t4 t5 sp st) = .ok (s1, o)) (ho : o ≠ []) :
    s1.ekf.isSome ∧ s1.interval.lastTime = some ((T : ℝ) / 1000000000) := by
  simp only [step, timerCallback] at h1
  cases hf : s.ekf with
  | none =>
    rw [hf] at h1
    simp only [Except.ok.injEq, Prod.mk.injEq] at h1
    exact absurd h1.2.symm ho
  | some f =>
    rw [hf] at h1
    simp only at h1
    cases hc : s.interval.compute ((T : ℝ) / 1000000000) with
    | mk r iv =>
      rw [hc] at h1
      cases r with
      | error e =>
        cases e <;> simp only [reduceCtorEq, Except.ok.injEq, Prod.mk.injEq] at h1
        exact absurd h1.2.symm ho
      | ok dt =>
        simp only [bind, Except.bind] at h1
        split at h1
        · cases h1
        · split at h1
          · cases h1
          · simp only [pure, Except.pure, Except.ok.injEq, Prod.mk.injEq] at h1
            rw [← h1.1]
            refine ⟨rfl, ?_⟩
            simp only
            unfold UpdateInterval.compute at hc
            split at hc
            · rw [Prod.mk.injEq] at hc
              rw [← hc.2]
            · split_ifs at hc
              · rw [Prod.mk.injEq] at hc
                cases hc.1
              · rw [Prod.mk.injEq] at hc
                rw [← hc.2]

/-- C151, when the clock has gone back (a recording is played again): after a tick that published something, at
the time `T`, every message is kept as long as the clock shows less than `T`, whatever the timer does. -/
theorem C151_clock_behind (tf : Tf2) (p : EkfParams) (after : List Event) (T t2 t3 t4 t5 : ℤ)
    (sp : PoseMsg → Bool) (st : TwistMsg → Bool) (s s1 : NodeState (n + 1)) (o : List Output)
    (h1 : step n.succ_pos tf p s (.timer T t2 t3 t4 t5 sp st) = .ok (s1, o)) (ho : o ≠ [])
    (hafter : ∀ e ∈ after, e.isInitial = false) (hT : ∀ t ∈ after.filterMap Event.clock, t < T) :
    ∃ s2, run n.succ_pos tf p s1 after = .ok (s2, []) ∧ s2.poseQ.size = s1.poseQ.size + poseCount after ∧
      s2.twistQ.size = s1.twistQ.size + twistCount after := by
  have key := published_tick h1 ho
  obtain ⟨s2, k1, -, -, k2, k3⟩ := run_behind tf p ((T : ℝ) / 1000000000) after s1 hafter (by
    intro t ht
    have : (t : ℝ) < T := by exact_mod_cast hT t ht
    linarith) key.1 key.2
  exact ⟨s2, k1, k2, k3⟩

/-- `k` times a pose message and a tick, every 20 ms from `t` on. -/
def posesAndTicks (m : PoseMsg) : ℕ → ℤ → List Event
  | 0, _ => []
  | k + 1, t => .pose m :: .timer t t t t t (fun _ => true) (fun _ => true) ::
      posesAndTicks m k (t + 20000000)

theorem posesAndTicks_count (m : PoseMsg) : ∀ (k : ℕ) (t : ℤ), poseCount (posesAndTicks m k t) = k
  | 0, _ => rfl
  | k + 1, t => by
    have := posesAndTicks_count m k (t + 20000000)
    simp only [poseCount, posesAndTicks, List.countP_cons] at this ⊢
    rw [this]
    rfl

theorem posesAndTicks_initial (m : PoseMsg) : ∀ (k : ℕ) (t : ℤ), ∀ e ∈ posesAndTicks m k t, e.isInitial = false
  | 0, _, e, he => by cases he
  | k + 1, t, e, he => by
    simp only [posesAndTicks, List.mem_cons] at he
    rcases he with rfl | rfl | he
    · rfl
    · rfl
    · exact posesAndTicks_initial m k _ e he

theorem posesAndTicks_clock (m : PoseMsg) : ∀ (k : ℕ) (t : ℤ), ∀ c ∈ (posesAndTicks m k t).filterMap Event.clock,
    t ≤ c ∧ c < t + 20000000 * k
  | 0, _, c, hc => by cases hc
  | k + 1, t, c, hc => by
    have hc' : c ∈ t :: (posesAndTicks m k (t + 20000000)).filterMap Event.clock := hc
    push_cast
    rcases List.mem_cons.1 hc' with rfl | hc'
    · omega
    · have := posesAndTicks_clock m k _ c hc'
      omega

theorem posesAndTicks_forward (m : PoseMsg) : ∀ (k : ℕ) (t : ℤ), ClockForward (posesAndTicks m k t)
  | 0, _ => List.Pairwise.nil
  | k + 1, t => by
    change (t :: (posesAndTicks m k (t + 20000000)).filterMap Event.clock).Pairwise (· ≤ ·)
    refine List.pairwise_cons.2 ⟨fun c hc => ?_, posesAndTicks_forward m k _⟩
    have := posesAndTicks_clock m k _ c hc
    omega

theorem posesAndTicks_rate (m : PoseMsg) : ∀ (k : ℕ) (t : ℤ), Rate 1 0 (posesAndTicks m k t)
  | 0, _, bs, hbs, _ => by
    rw [show bs = [] from List.infix_nil.1 hbs]
    simp [poseCount, twistCount]
  | k + 1, t, bs, hbs, hn => by
    have tick : ∀ l, l <+: .timer t t t t t (fun _ => true) (fun _ => true) ::
        posesAndTicks m k (t + 20000000) → (∀ e ∈ l, e.clock = none) → l = [] := by
      intro l hl hn'
      rcases List.prefix_cons_iff.1 hl with rfl | ⟨l', rfl, -⟩
      · rfl
      · exact absurd (hn' _ List.mem_cons_self) (by simp [Event.clock])
    rw [posesAndTicks, List.infix_cons_iff] at hbs
    rcases hbs with hbs | hbs
    · rcases List.prefix_cons_iff.1 hbs with rfl | ⟨l', rfl, hl'⟩
      · simp [poseCount, twistCount]
      · rw [tick l' hl' fun e he => hn e (List.mem_cons_of_mem _ he)]
        simp [poseCount, twistCount]
    · rcases List.infix_cons_iff.1 hbs with hbs | hbs
      · rw [tick bs hbs hn]
        simp [poseCount, twistCount]
      · exact posesAndTicks_rate m k _ bs hbs hn

/-- The claim is false before the first initial pose: with one pose message per tick and a clock that goes forward
the queue grows beyond every bound. -/
theorem C151_before_start_violated (tf : Tf2) (p : EkfParams) (m : PoseMsg) (B : ℕ) :
    ∃ es, Rate 1 0 es ∧ ClockForward es ∧ ∃ s : NodeState (n + 1),
      run n.succ_pos tf p (NodeState.make (n + 1) p) es = .ok (s, []) ∧ B < s.poseQ.size := by
  obtain ⟨s, h1, h2, -⟩ := C151_before_start (n := n) tf p (posesAndTicks m (B + 1) 0) (posesAndTicks_initial m _ _)
  refine ⟨_, posesAndTicks_rate m (B + 1) 0, posesAndTicks_forward m _ _, s, h1, ?_⟩
  rw [h2, posesAndTicks_count]
  exact Nat.lt_succ_self B

theorem run_append_ok {tf : Tf2} {p : EkfParams} : ∀ (as bs : List Event) {s s1 s2 : NodeState (n + 1)}
    {o1 o2 : List Output}, run n.succ_pos tf p s as = .ok (s1, o1) → run n.succ_pos tf p s1 bs = .ok (s2, o2) →
    run n.succ_pos tf p s (as ++ bs) = .ok (s2, o1 ++ o2)
  | [], bs, s, s1, s2, o1, o2, h1, h2 => by
    simp only [run, Except.ok.injEq, Prod.mk.injEq] at h1
    rw [← h1.2, h1.1]
    exact h2
  | a :: as, bs, s, s1, s2, o1, o2, h1, h2 => by
    simp only [List.cons_append, run, bind, Except.bind] at h1 ⊢
    cases h3 : step n.succ_pos tf p s a with
    | error x => rw [h3] at h1; cases h1
    | ok r =>
      rw [h3] at h1
      simp only at h1 ⊢
      cases h4 : run n.succ_pos tf p r.1 as with
      | error x => rw [h4] at h1; cases h1
      | ok r2 =>
        rw [h4] at h1
        simp only [pure, Except.pure, Except.ok.injEq, Prod.mk.injEq] at h1
        have := run_append_ok as bs (s1 := s1) (o1 := r2.2) (s := r.1) (by rw [h4, ← h1.1]) h2
        simp only [this, pure, Except.pure, Except.ok.injEq, Prod.mk.injEq]
        exact ⟨trivial, by rw [← h1.2, List.append_assoc]⟩

theorem replayed_wellFormed (T : ℤ) : WellFormed flatTf (1 / 50) [.initialPose (besideMsg 0 0) identityTries,
    .timer T T T T T (fun _ => true) (fun _ => true)] := by
  refine ⟨?_, ?_, ?_, ?_⟩
  · intro e he
    simp only [List.mem_cons, List.not_mem_nil, or_false] at he
    rcases he with rfl | rfl
    · exact ⟨by simp [besideMsg], rfl, rfl, rfl, fun a b => ⟨⟨0, by norm_num, rfl⟩, fun k t _ => rfl⟩⟩
    · trivial
  · change List.Pairwise _ [T]; simp
  · intro e he t1 t2 t3 t4 t5 sp st hee stamp hst
    simp [Event.poseStamp] at hst
  · intro e he t1 t2 t3 t4 t5 sp st hee stamp hst
    simp [Event.twistStamp] at hst

/-- The claim is false when the clock goes back: after an initial pose and one tick at the end of a recording, which
is then played again with one pose message per tick, the queue grows beyond every bound (for recordings that are
long enough). -/
theorem C151_clock_violated (B : ℕ) :
    ∃ (T : ℤ) (es : List Event), Rate 1 0 es ∧ ClockForward es ∧ ∃ (s : NodeState (n + 1)) (out : List Output),
      run n.succ_pos flatTf defaultParams (NodeState.make (n + 1) defaultParams)
        ([.initialPose (besideMsg 0 0) identityTries, .timer T T T T T (fun _ => true) (fun _ => true)] ++ es) =
        .ok (s, out) ∧ B < s.poseQ.size := by
  set T : ℤ := 20000000 * (B + 1 : ℕ) with hT
  obtain ⟨s1, out, h1, h2⟩ := C70_no_failure (N := n + 1) n.succ_pos flatTf defaultParams (1 / 50) (by norm_num)
    (by norm_num) (by norm_num [defaultParams]) (by simp [defaultParams]) _ (replayed_wellFormed T)
  have hout : out ≠ [] := by
    intro h0
    rw [h0] at h2
    cases h2
  obtain ⟨s0, o0, o1, k1, k2, k3⟩ := run_append [_] [_] h1
  simp only [run, bind, Except.bind] at k2
  cases h3 : step n.succ_pos flatTf defaultParams s0 (.timer T T T T T (fun _ => true) (fun _ => true)) with
  | error x => rw [h3] at k2; cases k2
  | ok r =>
    rw [h3] at k2
    simp only [pure, Except.pure, Except.ok.injEq, Prod.mk.injEq] at k2
    have ho0 : o0 = [] := by
      simp only [run, bind, Except.bind] at k1
      cases h4 : step n.succ_pos flatTf defaultParams (NodeState.make (n + 1) defaultParams)
          (.initialPose (besideMsg 0 0) identityTries) with
      | error x => rw [h4] at k1; cases k1
      | ok r' =>
        rw [h4] at k1
        simp only [pure, Except.pure, Except.ok.injEq, Prod.mk.injEq] at k1
        rw [← k1.2]
        simp only [step, bind, Except.bind] at h4
        split at h4
        · cases h4
        · simp only [pure, Except.pure, Except.ok.injEq] at h4
          rw [← h4]
          rfl
    have hr2 : r.2 ≠ [] := by
      intro h0
      rw [ho0, List.nil_append, ← k2.2, h0] at k3
      exact hout k3
    obtain ⟨s2, l1, l2, -⟩ := C151_clock_behind flatTf defaultParams (posesAndTicks (besideMsg 0 0) (B + 1) 0)
      T T T T T _ _ s0 s1 r.2 (by rw [h3, ← k2.1]) hr2 (posesAndTicks_initial _ _ _) (by
        intro t ht
        have := posesAndTicks_clock _ _ _ t ht
        omega)
    refine ⟨T, _, posesAndTicks_rate _ (B + 1) 0, posesAndTicks_forward _ _ _, s2, _,
      run_append_ok _ _ h1 l1, ?_⟩
    rw [l2, posesAndTicks_count]
    omega

/-! Non-vacuity: the hypotheses of `C151_queues_partial` hold of an initial pose, a pose message and a tick. -/

example : ∃ s : NodeState 3, ∃ out, run (by norm_num) flatTf defaultParams (NodeState.make 3 defaultParams)
    ([] ++ .initialPose (besideMsg 3 0) identityTries :: [.pose (besideMsg 0 0),
      .timer 0 0 0 0 0 (fun _ => true) (fun _ => true)]) = .ok (s, out) ∧
    (s.poseQ.size : ℤ) ≤ queueBound defaultParams.poseSmoothing 1 := by
  obtain ⟨s, out, h1, -⟩ := C70_no_failure (N := 3) (by norm_num) flatTf defaultParams (1 / 50) (by norm_num)
    (by norm_num) (by norm_num [defaultParams]) (by simp [defaultParams]) _ (beside_wellFormed 3)
  exact ⟨s, out, h1, (C151_queues_partial (n := 2) flatTf defaultParams 1 0 [] _ _ _ (by simp)
    (posesAndTicks_rate (besideMsg 0 0) 1 0) (posesAndTicks_forward (besideMsg 0 0) 1 0) s out h1).1⟩

/-- Used once, two messages per message between two ticks; used five times, eighteen. -/
example : queueBound 1 3 = 6 ∧ queueBound 5 1 = 18 := by decide

end Verif.Ekf

namespace Verif.Store

variable {K Scan : Type} [CommRing K] [LinearOrder K] [IsStrictOrderedRing K]

/-- The claim is false of the localization node, and not only in special cases: whenever no prior is more than a
second newer than any scan, under every interleaving every prior that was ever received is still kept, one for each
time stamp. Nothing is ever thrown away. -/
theorem C151_priors_violated (run : Scan → Rot.Pose → Res Opt.Result) (second : K) (sched : List (Act K Scan))
    (n : Node K Scan) (h : exec run second (Node.new K Scan) sched = .ok n)
    (hold : ∀ e ∈ received sched, ∀ m ∈ scans sched, e.1 ≤ m.stamp + second) :
    size n.store = ((received sched).map Prod.fst).toFinset.card := by
  rw [(store_eq_received run second sched n h hold).1]
  exact C54_size _

/-- Three priors and two scans that are handled: all three are kept, though the scans are minutes apart. -/
example : ∃ n, exec still (1 : ℤ) (Node.new ℤ Unit)
    [.insert 0 poseA, .insert 1 poseB, .size ⟨1, ()⟩, .closest, .remove, .publish, .insert 300 poseB,
     .size ⟨300, ()⟩, .closest, .remove, .publish] = .ok n ∧ size n.store = 3 := ⟨_, rfl, rfl⟩

example : ∀ e ∈ received [Act.insert (4 : ℤ) poseA, .size ⟨5, ()⟩, .insert 5 poseB, .size ⟨(6 : ℤ), ()⟩],
    ∀ m ∈ scans [Act.insert (4 : ℤ) poseA, .size ⟨5, ()⟩, .insert 5 poseB, .size ⟨(6 : ℤ), ()⟩],
      e.1 ≤ m.stamp + 1 := by
  simp [received, scans]

end Verif.Store

namespace Verif.Sync

variable {A B : Type}

/-- What the synchroniser keeps after a sequence of messages. -/
def kept (q : ℕ) (evs : List (Event A B)) : Pending A B := evs.foldl (fun s e => (add q s e).2) []

theorem trim_length {q : ℕ} (hq : 0 < q) (s : Pending A B) : (trim q s).length ≤ q := by
  rw [trim, if_neg hq.ne', List.length_drop]
  omega

theorem checkTuple_length {q : ℕ} (hq : 0 < q) (t : ℤ) (s : Pending A B) : (checkTuple q t s).2.length ≤ q := by
  unfold checkTuple
  split
  · exact trim_length hq _
  · exact trim_length hq _

theorem kept_length {q : ℕ} (hq : 0 < q) (evs : List (Event A B)) : (kept q evs).length ≤ q := by
  induction evs using List.reverseRecOn with
  | nil => simp [kept]
  | append_singleton evs e _ =>
    rw [kept, List.foldl_append, List.foldl_cons, List.foldl_nil]
    cases e with
    | left t a => exact checkTuple_length hq _ _
    | right t b => exact checkTuple_length hq _ _

/-- C151: of the clouds that wait for their partners the localization node never keeps more than 10 time stamps and
the mapping node never more than 1000, whatever arrives. -/
theorem C151_pending (evs : List (Event A B)) :
    (kept localizationQueue evs).length ≤ 10 ∧ (kept mappingQueue evs).length ≤ 1000 :=
  ⟨kept_length (by decide) evs, kept_length (by decide) evs⟩

/-- Twelve edge clouds without partners: ten are kept. -/
example : (kept localizationQueue ((List.range 12).map fun i => (Event.left (i : ℤ) () : Event Unit Unit))).length =
    10 := by decide

end Verif.Sync
