/-
Lemmas about the filter on numbers that may be NaN.
-/
import Verif.Model.EkfNaN

set_option autoImplicit false

namespace Verif.EkfNaN

open Verif.Kalman Verif.Ekf
open Verif.Extraction.NaN (Number)

variable {k m n N h : ℕ}

@[simp] theorem add_some (a b : ℝ) : add (some a) (some b) = some (a + b) := rfl
@[simp] theorem sub_some (a b : ℝ) : sub (some a) (some b) = some (a - b) := rfl
@[simp] theorem mul_some (a b : ℝ) : mul (some a) (some b) = some (a * b) := rfl
@[simp] theorem none_add (a : Number) : add none a = none := rfl
@[simp] theorem none_sub (a : Number) : sub none a = none := rfl
@[simp] theorem none_mul (a : Number) : mul none a = none := rfl
@[simp] theorem add_none (a : Number) : add a none = none := by cases a <;> rfl
@[simp] theorem sub_none (a : Number) : sub a none = none := by cases a <;> rfl
@[simp] theorem mul_none (a : Number) : mul a none = none := by cases a <;> rfl

theorem add_isSome {a b : Number} (ha : a.isSome) (hb : b.isSome) : (add a b).isSome := by
  obtain ⟨x, rfl⟩ := Option.isSome_iff_exists.1 ha
  obtain ⟨y, rfl⟩ := Option.isSome_iff_exists.1 hb
  rfl

theorem sub_isSome {a b : Number} (ha : a.isSome) (hb : b.isSome) : (sub a b).isSome := by
  obtain ⟨x, rfl⟩ := Option.isSome_iff_exists.1 ha
  obtain ⟨y, rfl⟩ := Option.isSome_iff_exists.1 hb
  rfl

theorem mul_isSome {a b : Number} (ha : a.isSome) (hb : b.isSome) : (mul a b).isSome := by
  obtain ⟨x, rfl⟩ := Option.isSome_iff_exists.1 ha
  obtain ⟨y, rfl⟩ := Option.isSome_iff_exists.1 hb
  rfl

theorem sum_none {v : Vec n} (i : Fin n) (hi : v i = none) : sum v = none := by
  unfold sum
  rw [dif_neg]
  intro hall
  have := hall i
  rw [hi] at this
  cases this

theorem sum_isSome {v : Vec n} (hv : ∀ i, (v i).isSome) : (sum v).isSome := by
  unfold sum
  rw [dif_pos hv]
  rfl

theorem sum_some (v : Fin n → ℝ) : (sum fun i => (some (v i) : Number)) = some (∑ i, v i) := by
  unfold sum
  exact dif_pos (fun i => rfl)

theorem mulVec_isSome {A : Mat m n} {x : Vec n} (hA : ∀ i j, (A i j).isSome)
    (hx : ∀ i, (x i).isSome) (i : Fin m) : (mulVec A x i).isSome :=
  sum_isSome fun j => mul_isSome (hA i j) (hx j)

theorem mulMat_isSome {A : Mat m n} {B : Mat n k} (hA : ∀ i j, (A i j).isSome)
    (hB : ∀ i j, (B i j).isSome) (i : Fin m) (j : Fin k) : (mulMat A B i j).isSome :=
  sum_isSome fun l => mul_isSome (hA i l) (hB l j)

/-- Whatever a NaN in a column of the right factor is multiplied with, the column becomes NaN. -/
theorem mulMat_none_right {A : Mat m n} {B : Mat n k} {l : Fin n} {j : Fin k} (hB : B l j = none)
    (i : Fin m) : mulMat A B i j = none :=
  sum_none l (by rw [hB, mul_none])

theorem mulMat_none_left {A : Mat m n} {B : Mat n k} {l : Fin n} {i : Fin m} (hA : A i l = none)
    (j : Fin k) : mulMat A B i j = none :=
  sum_none l (by rw [hA, none_mul])

theorem mulVec_none {A : Mat m n} {x : Vec n} {l : Fin n} (hx : x l = none) (i : Fin m) :
    mulVec A x i = none :=
  sum_none l (by rw [hx, mul_none])

theorem allNumbers_iff {A : Mat m n} : allNumbers A = true ↔ ∀ i j, (A i j).isSome := by
  unfold allNumbers
  rw [decide_eq_true_iff]

/-! ### The loop over the messages -/

theorem updateLoop_inv {α F : Type} (process : α → F → Res F) (I : F → Prop)
    (hp : ∀ m f f', I f → process m f = .ok f' → I f') :
    ∀ (fuel i : ℕ) (q q' : AgedQueue α) (f f' : F), I f →
      updateLoop process fuel i q f = .ok (f', q') → I f' := by
  intro fuel
  induction fuel with
  | zero =>
    intro i q q' f f' hI h
    injection h with h
    rw [Prod.mk.injEq] at h
    exact h.1 ▸ hI
  | succ fuel ih =>
    intro i q q' f f' hI h
    rw [updateLoop] at h
    by_cases hi : i < q.size
    · rw [if_pos hi] at h
      cases hq : q.pop with
      | error e => rw [hq] at h; cases h
      | ok r =>
        obtain ⟨m, q1⟩ := r
        rw [hq] at h
        simp only [bind, Except.bind] at h
        cases hm : process m f with
        | error e => rw [hm] at h; cases h
        | ok f1 =>
          rw [hm] at h
          exact ih _ _ _ _ _ (hp m f f1 hI hm) h
    · rw [if_neg hi] at h
      injection h with h
      rw [Prod.mk.injEq] at h
      exact h.1 ▸ hI

theorem updateAll_inv {α F : Type} (process : α → F → Res F) (I : F → Prop)
    (hp : ∀ m f f', I f → process m f = .ok f' → I f') (q q' : AgedQueue α) (f f' : F) (hI : I f)
    (h : updateAll process q f = .ok (f', q')) : I f' :=
  updateLoop_inv process I hp _ _ _ _ _ _ hI h

/-- What the body of the loops can do: nothing, or an update with a message of numbers that the
gate let through. -/
theorem processMeasurement_cases (lib : Inverse) (hN : 0 < N) (sing : Bool)
    (stateOf : Vec 6 → Vec h) (covOf : Mat 6 6 → Mat h h) (C : Mat h 6) (gateDist : ℝ) (now : ℤ)
    (dt : ℝ) (stamp : ℤ) (y : Vec h) (R : Mat h h) (f f' : Filter N)
    (hok : processMeasurement lib hN sing stateOf covOf C gateDist now dt stamp y R f = .ok f') :
    f' = f ∨ ∃ (δ : ℤ) (x : Vec 6), (∀ i, (y i).isSome) ∧ f.getX δ = .ok x ∧
      mahalanobisGate lib sing gateDist (stateOf x) y (covOf (f.getLatestP hN)) = true ∧
      f.update lib y C R δ = .ok f' := by
  unfold processMeasurement at hok
  cases hd : computeDelayStep (computeDelayTime now stamp : ℝ) dt with
  | error e => rw [hd] at hok; cases hok
  | ok δ =>
    rw [hd] at hok
    simp only [bind, Except.bind, pure, Except.pure] at hok
    split_ifs at hok with h1 h2
    · injection hok with hok; exact .inl hok.symm
    · cases hx : f.getX δ with
      | error e => rw [hx] at hok; cases hok
      | ok x =>
        rw [hx] at hok
        simp only at hok
        split_ifs at hok with h3
        · injection hok with hok; exact .inl hok.symm
        · cases hu : f.update lib y C R δ with
          | error e =>
            rw [hu] at hok
            cases e <;> first | (cases hok; done) | (injection hok with hok; exact .inl hok.symm)
          | ok f1 =>
            rw [hu] at hok
            injection hok with hok
            subst hok
            refine .inr ⟨δ, x, h2, hx, ?_, hu⟩
            simpa using h3
    · injection hok with hok; exact .inl hok.symm

/-- What `update` assigns, if it does. -/
theorem update_ok {lib : Inverse} {f f' : Filter N} {y : Vec h} {C : Mat h 6} {R : Mat h h} {δ : ℤ}
    (hok : f.update lib y C R δ = .ok f') :
    0 ≤ δ ∧ δ < N ∧ ∃ G : Mat (N * 6) h,
      G = calcKalmanGain lib f.P (makeMeasurementMatrix C N δ.toNat) R ∧ (∀ i j, (G i j).isSome) ∧
      f'.x = updateState f.x y (makeMeasurementMatrix C N δ.toNat) G ∧
      f'.P = updateCovariance f.P (makeMeasurementMatrix C N δ.toNat) G := by
  unfold Filter.update at hok
  simp only at hok
  split_ifs at hok with h1 h2 h3
  refine ⟨by omega, by omega, _, rfl, allNumbers_iff.1 h3, ?_⟩
  injection hok with hok
  subst hok
  exact ⟨rfl, rfl⟩

theorem makeMeasurementMatrix_isSome {C : Mat h 6} (hC : ∀ i j, (C i j).isSome) (δ : ℕ) (i : Fin h)
    (j : Fin (N * 6)) : (makeMeasurementMatrix C N δ i j).isSome := by
  unfold makeMeasurementMatrix
  split
  · exact hC _ _
  · rfl

/-! ### Executions -/

variable (lib : Inverse) (hN : 0 < N) (tf : Tf2) (p : EkfParams)

theorem run_ind (I : NodeState N → Prop) (O : Output → Prop) :
    ∀ (es : List Event),
      (∀ e ∈ es, ∀ s s' o, I s → step lib hN tf p s e = .ok (s', o) → I s' ∧ ∀ q ∈ o, O q) →
      ∀ (s s' : NodeState N) (os : List Output), I s → run lib hN tf p s es = .ok (s', os) →
        I s' ∧ ∀ q ∈ os, O q := by
  intro es
  induction es with
  | nil =>
    intro _ s s' os hI h
    injection h with h
    rw [Prod.mk.injEq] at h
    obtain ⟨rfl, rfl⟩ := h
    exact ⟨hI, by simp⟩
  | cons e es ih =>
    intro hstep s s' os hI h
    rw [run] at h
    cases h1 : step lib hN tf p s e with
    | error er => rw [h1] at h; cases h
    | ok r =>
      obtain ⟨s1, o1⟩ := r
      rw [h1] at h
      simp only [bind, Except.bind] at h
      cases h2 : run lib hN tf p s1 es with
      | error er => rw [h2] at h; cases h
      | ok r =>
        obtain ⟨s2, o2⟩ := r
        rw [h2] at h
        simp only [pure, Except.pure] at h
        injection h with h
        rw [Prod.mk.injEq] at h
        obtain ⟨rfl, rfl⟩ := h
        obtain ⟨hI1, hO1⟩ := hstep e List.mem_cons_self _ _ _ hI h1
        obtain ⟨hI2, hO2⟩ :=
          ih (fun e' he' => hstep e' (List.mem_cons_of_mem _ he')) _ _ _ hI1 h2
        refine ⟨hI2, fun q hq => ?_⟩
        rcases List.mem_append.1 hq with hq | hq
        · exact hO1 q hq
        · exact hO2 q hq

/-- A tick: nothing, or prediction, pose messages, twist messages, publication. -/
theorem timer_cases (s s' : NodeState N) (o : List Output) (t1 t2 t3 t4 t5 : ℤ)
    (sp : PoseMsg → Bool) (st : TwistMsg → Bool)
    (hok : timerCallback lib hN tf p s t1 t2 t3 t4 t5 sp st = .ok (s', o)) :
    (s'.ekf = s.ekf ∧ o = [] ∧ s'.z = s.z ∧ s'.roll = s.roll ∧ s'.pitch = s.pitch) ∨
    ∃ (f f1 f2 : Filter N) (dt : ℝ) (q1 : AgedQueue PoseMsg) (q2 : AgedQueue TwistMsg),
      s.ekf = some f ∧
      updateAll (processPose lib hN tf sp p.poseGate p.poseSmoothing t2 dt) s.poseQ
        (predictStep hN p dt f) = .ok (f1, q1) ∧
      updateAll (processTwist lib hN st p.twistGate p.twistSmoothing t3 dt) s.twistQ f1
        = .ok (f2, q2) ∧
      s'.ekf = some f2 ∧ o = publish hN p s f2 t4 t5 ∧ s'.z = s.z ∧ s'.roll = s.roll ∧
      s'.pitch = s.pitch := by
  unfold timerCallback at hok
  cases hf : s.ekf with
  | none =>
    rw [hf] at hok
    injection hok with hok
    rw [Prod.mk.injEq] at hok
    obtain ⟨rfl, rfl⟩ := hok
    exact .inl ⟨hf, rfl, rfl, rfl, rfl⟩
  | some f =>
    rw [hf] at hok
    simp only at hok
    cases hc : s.interval.compute ((t1 : ℝ) / 1000000000) with
    | mk r iv =>
      rw [hc] at hok
      cases r with
      | error e =>
        cases e <;> first
          | (cases hok; done)
          | (injection hok with hok
             rw [Prod.mk.injEq] at hok
             obtain ⟨rfl, rfl⟩ := hok
             exact .inl ⟨rfl, rfl, rfl, rfl, rfl⟩)
      | ok dt =>
        simp only [bind, Except.bind] at hok
        cases h1 : updateAll (processPose lib hN tf sp p.poseGate p.poseSmoothing t2 dt) s.poseQ
            (predictStep hN p dt f) with
        | error e => rw [h1] at hok; cases hok
        | ok r1 =>
          obtain ⟨f1, q1⟩ := r1
          rw [h1] at hok
          simp only at hok
          cases h2 : updateAll (processTwist lib hN st p.twistGate p.twistSmoothing t3 dt) s.twistQ f1
              with
          | error e => rw [h2] at hok; cases hok
          | ok r2 =>
            obtain ⟨f2, q2⟩ := r2
            rw [h2] at hok
            simp only [pure, Except.pure] at hok
            injection hok with hok
            rw [Prod.mk.injEq] at hok
            obtain ⟨rfl, rfl⟩ := hok
            exact .inr ⟨f, f1, f2, dt, q1, q2, rfl, h1, h2, rfl, rfl, rfl, rfl, rfl⟩

/-- What an initial pose does, if a transform is found. -/
theorem initialPose_ok (s s' : NodeState N) (msg : PoseMsg)
    (tries : List Char → List Char → ℕ → Option Transform)
    (hok : initialPoseCallback tf p s msg tries = .ok s') :
    ∃ parent child t, eraseBeginSlash p.poseFrame = .ok parent ∧
      eraseBeginSlash msg.frame = .ok child ∧ lookupTransform (tries parent child) = some t ∧
      s'.ekf = some (Filter.make
        (initState (add msg.px (some t.tx)) (add msg.py (some t.ty))
          (add (tf.getYaw msg.ori) (tf.getYaw t.rot))) (initCovariance msg.cov) N) ∧
      s'.z = s.z.update msg.pz (sqrt (msg.cov 14)) msg.stamp := by
  unfold initialPoseCallback at hok
  cases h1 : eraseBeginSlash p.poseFrame with
  | error e => rw [h1] at hok; cases hok
  | ok parent =>
    cases h2 : eraseBeginSlash msg.frame with
    | error e => rw [h1, h2] at hok; cases hok
    | ok child =>
      rw [h1, h2] at hok
      simp only [bind, Except.bind] at hok
      cases h3 : lookupTransform (tries parent child) with
      | none => rw [h3] at hok; cases hok
      | some t =>
        rw [h3] at hok
        simp only [pure, Except.pure] at hok
        injection hok with hok
        subst hok
        exact ⟨parent, child, t, rfl, rfl, h3, rfl, rfl⟩

/-- An invariant of the filter, `I` between the callbacks and `J` from the prediction to the end of a
tick, holds in whatever is published. -/
theorem run_filter (I J : Filter N → Prop) (es : List Event)
    (hinit : ∀ msg tries, Event.initialPose msg tries ∈ es → ∀ s s' : NodeState N, ∀ f,
      initialPoseCallback tf p s msg tries = .ok s' → s'.ekf = some f → I f)
    (hpred : ∀ dt f, I f → J (predictStep hN p dt f))
    (hpose : ∀ sp now dt msg f f', J f →
      processPose lib hN tf sp p.poseGate p.poseSmoothing now dt msg f = .ok f' → J f')
    (htwist : ∀ st now dt msg f f', J f →
      processTwist lib hN st p.twistGate p.twistSmoothing now dt msg f = .ok f' → J f')
    (hJI : ∀ f, J f → I f)
    (s s' : NodeState N) (os : List Output) (hs : ∀ f, s.ekf = some f → I f)
    (hrun : run lib hN tf p s es = .ok (s', os)) :
    (∀ f, s'.ekf = some f → I f) ∧
      ∀ o ∈ os, ∃ (s1 : NodeState N) (f : Filter N) (t4 t5 : ℤ),
        J f ∧ o ∈ publish hN p s1 f t4 t5 := by
  refine run_ind lib hN tf p (fun s => ∀ f, s.ekf = some f → I f)
    (fun o => ∃ (s1 : NodeState N) (f : Filter N) (t4 t5 : ℤ), J f ∧ o ∈ publish hN p s1 f t4 t5)
    es ?_ s s' os hs hrun
  intro e he s s' o hI hst
  cases e with
  | initialPose msg tries =>
    rw [step] at hst
    cases h1 : initialPoseCallback tf p s msg tries with
    | error er => rw [h1] at hst; cases hst
    | ok s1 =>
      rw [h1] at hst
      simp only [bind, Except.bind, pure, Except.pure] at hst
      injection hst with hst
      rw [Prod.mk.injEq] at hst
      obtain ⟨rfl, rfl⟩ := hst
      exact ⟨fun f hf => hinit msg tries he s s1 f h1 hf, by simp⟩
  | pose msg =>
    injection hst with hst
    rw [Prod.mk.injEq] at hst
    obtain ⟨rfl, rfl⟩ := hst
    exact ⟨hI, by simp⟩
  | twist msg =>
    injection hst with hst
    rw [Prod.mk.injEq] at hst
    obtain ⟨rfl, rfl⟩ := hst
    exact ⟨hI, by simp⟩
  | timer t1 t2 t3 t4 t5 sp st =>
    rcases timer_cases lib hN tf p s s' o t1 t2 t3 t4 t5 sp st hst with
      ⟨h1, rfl, -⟩ | ⟨f, f1, f2, dt, q1, q2, hf, h1, h2, hs', rfl, -⟩
    · exact ⟨by rw [h1]; exact hI, by simp⟩
    · have hJ0 := hpred dt f (hI f hf)
      have hJ1 := updateAll_inv _ J (fun msg f f' => hpose sp t2 dt msg f f') _ _ _ _ hJ0 h1
      have hJ2 := updateAll_inv _ J (fun msg f f' => htwist st t3 dt msg f f') _ _ _ _ hJ1 h2
      refine ⟨fun g hg => ?_, fun q hq => ⟨s, f2, t4, t5, hJ2, hq⟩⟩
      rw [hs'] at hg
      injection hg with hg
      exact hg ▸ hJI f2 hJ2

end Verif.EkfNaN
