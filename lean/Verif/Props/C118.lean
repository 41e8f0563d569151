/-
C118: logging does no harm.
-/
import Verif.Model.Warning
import Verif.Lemmas.Printf
import Verif.Props.C69

set_option autoImplicit false

namespace Verif.Ekf

open Matrix Verif.Kalman

/-- Specification: numbers are written without `%`. -/
structure Fmt.Plain (fmt : Fmt) : Prop where
  real : ∀ x, Verif.Plain (fmt.real x)
  int : ∀ x, Verif.Plain (fmt.int x)
  fixed : ∀ x, Verif.Plain (fmt.fixed x)

/-- Specification: the frame of a measurement has no `%` in its name. -/
def Event.PlainFrame : Event → Prop
  | .pose m => Plain m.frame
  | .twist m => Plain m.frame
  | _ => True

/-- The duration in force for a throttled warning of the given duration, in nanoseconds. -/
def Throttle.limit (t : Throttle) (ms : ℤ) : ℤ :=
  match t.duration with
  | some d => d
  | none => ms * 1000000

theorem Throttle.warn_shown {t : Throttle} {now ms : ℤ} (text : List Char)
    (h : t.last + t.limit ms ≤ now) :
    t.warn now ms text = (printf text).bind fun line => .ok (⟨some (t.limit ms), now⟩, some line) := by
  unfold Throttle.warn
  exact if_pos h

theorem Throttle.warn_hidden {t : Throttle} {now ms : ℤ} (text : List Char)
    (h : now < t.last + t.limit ms) :
    t.warn now ms text = .ok (⟨some (t.limit ms), t.last⟩, none) := by
  unfold Throttle.warn
  exact if_neg (not_le.2 h)

/-- The text of a request. -/
def Request.text : Request → List Char
  | .throttled _ t => t
  | .always t => t

theorem Log.add_plain (clk : ℕ → ℤ) (l : Log) (r : Request) (h : Plain r.text) :
    ∃ l', l.add clk r = .ok l' := by
  cases r with
  | always t =>
    have hp : printf t = .ok t := printf_plain h
    simp only [Log.add, hp, bind, Except.bind]
    exact ⟨_, rfl⟩
  | throttled ms t =>
    have hp : printf t = .ok t := printf_plain h
    simp only [Log.add, Throttle.warn, hp, bind, Except.bind]
    split
    · rename_i h'
      split_ifs at h'
    · exact ⟨_, rfl⟩

theorem Log.addIf_plain (clk : ℕ → ℤ) (l : Log) (c : Bool) (r : Request) (h : Plain r.text) :
    ∃ l', l.addIf clk c r = .ok l' := by
  unfold Log.addIf
  cases c with
  | true => exact Log.add_plain clk l r h
  | false => exact ⟨l, rfl⟩

theorem plain_frameId {a b : List Char} (ha : Plain a) (hb : Plain b) :
    Plain (frameIdWarning a b).text := by
  refine Plain.append (Plain.append (Plain.append (Plain.append ?_ ha) ?_) hb) ?_ <;>
    simp [Plain]

theorem plain_delayTime {fmt : Fmt} (hf : fmt.Plain) (d : ℝ) : Plain (delayTimeWarning fmt d).text := by
  refine Plain.append (Plain.append ?_ (hf.real d)) ?_ <;> simp [Plain]

theorem plain_delayStep {fmt : Fmt} (hf : fmt.Plain) (a b : ℤ) :
    Plain (delayStepWarning fmt a b).text := by
  refine Plain.append (Plain.append (Plain.append (Plain.append ?_ (hf.int a)) ?_) (hf.int b)) ?_ <;>
    simp [Plain]

theorem plain_jumpBack {fmt : Fmt} (hf : fmt.Plain) (a b : ℝ) : Plain (jumpBackWarning fmt a b).text := by
  refine Plain.append (Plain.append (Plain.append ?_ (hf.fixed a)) ?_) (hf.fixed b) <;> simp [Plain]

theorem plain_gate : Plain mahalanobisGateWarning.text := by
  simp [Plain, mahalanobisGateWarning, Request.text]

theorem plain_nanInf : Plain nanInfWarning.text := by
  simp [Plain, nanInfWarning, Request.text]

theorem plain_update {N : ℕ} (d : ℤ) : Plain (updateWarning (N := N) d).text := by
  unfold updateWarning
  split_ifs <;> simp [Plain, Request.text]

/-- With the log, a computation has the same outcome. -/
def Lifts {F : Type} (r : Res F) (g : Res (F × Log)) : Prop :=
  match r with
  | .ok f => ∃ l, g = .ok (f, l)
  | .error e => g = .error e

section Process
variable {N h : ℕ} (fmt : Fmt) (clk : ℕ → ℤ) (hN : 0 < N) (sing : Bool)
  (stateOf : (Fin 6 → ℝ) → (Fin h → ℝ))
  (covOf : Matrix (Fin 6) (Fin 6) ℝ → Matrix (Fin h) (Fin h) ℝ) (C : Matrix (Fin h) (Fin 6) ℝ)
  (gateDist : ℝ) (now : ℤ) (dt : ℝ) (frame expected : List Char) (stamp : ℤ)
  (y : Fin h → Option ℝ) (R : Matrix (Fin h) (Fin h) ℝ)

theorem processLogged_lifts (hf : fmt.Plain) (h1 : Plain frame) (h2 : Plain expected)
    (f : TimeDelayKalmanFilter ℝ N 6) (l : Log) :
    Lifts (processMeasurement hN sing stateOf covOf C gateDist now dt stamp y R f)
      (processLogged fmt clk hN sing stateOf covOf C gateDist now dt frame expected stamp y R (f, l)) := by
  obtain ⟨l1, e1⟩ := l.addIf_plain clk (decide (frame ≠ expected)) _ (plain_frameId h1 h2)
  obtain ⟨l2, e2⟩ := l1.addIf_plain clk (decide (now < stamp)) _
    (plain_delayTime hf (computeDelayTime now stamp))
  simp only [processLogged, processMeasurement, e1, e2, bind, Except.bind]
  cases hd : computeDelayStep (computeDelayTime now stamp : ℝ) dt with
  | error e => rfl
  | ok δ =>
    simp only
    by_cases hc : (!checkDelayStep δ N) = true
    · rw [if_pos hc, if_pos hc]
      obtain ⟨l3, e3⟩ := l2.add_plain clk _ (plain_delayStep hf δ N)
      rw [e3]
      exact ⟨l3, rfl⟩
    · rw [if_neg hc, if_neg hc]
      cases hy : allFinite y with
      | none =>
        obtain ⟨l3, e3⟩ := l2.add_plain clk _ plain_nanInf
        simp only [e3]
        exact ⟨l3, rfl⟩
      | some y' =>
        simp only
        cases hx : f.getX δ with
        | error e => rfl
        | ok x =>
          simp only
          by_cases hg : (!mahalanobisGate sing gateDist (stateOf x) y' (covOf (f.getLatestP hN))) = true
          · rw [if_pos hg, if_pos hg]
            obtain ⟨l3, e3⟩ := l2.add_plain clk _ plain_gate
            rw [e3]
            exact ⟨l3, rfl⟩
          · rw [if_neg hg, if_neg hg]
            cases hu : f.update y' C R δ with
            | ok f' => exact ⟨l2, rfl⟩
            | error e =>
              obtain ⟨l3, e3⟩ := l2.add_plain clk _ (plain_update (N := N) δ)
              cases e <;> first | rfl | (simp only [e3]; exact ⟨l3, rfl⟩)

/-- What a success with the log says, at most one branch of the loop body each. -/
theorem processLogged_ok {f f' : TimeDelayKalmanFilter ℝ N 6} {l l' : Log}
    (hp : processLogged fmt clk hN sing stateOf covOf C gateDist now dt frame expected stamp y R (f, l) =
      .ok (f', l')) :
    ∃ l1 l2 δ, l.addIf clk (decide (frame ≠ expected)) (frameIdWarning frame expected) = .ok l1 ∧
      l1.addIf clk (decide (now < stamp)) (delayTimeWarning fmt (computeDelayTime now stamp)) = .ok l2 ∧
      computeDelayStep (computeDelayTime now stamp : ℝ) dt = .ok δ ∧
      ((checkDelayStep δ N = false ∧ f' = f ∧ l2.add clk (delayStepWarning fmt δ N) = .ok l') ∨
       (checkDelayStep δ N = true ∧ allFinite y = none ∧ f' = f ∧ l2.add clk nanInfWarning = .ok l') ∨
       ∃ y' x, checkDelayStep δ N = true ∧ allFinite y = some y' ∧ f.getX δ = .ok x ∧
        ((mahalanobisGate sing gateDist (stateOf x) y' (covOf (f.getLatestP hN)) = false ∧ f' = f ∧
            l2.add clk mahalanobisGateWarning = .ok l') ∨
         (mahalanobisGate sing gateDist (stateOf x) y' (covOf (f.getLatestP hN)) = true ∧
          ((f.update y' C R δ = .ok f' ∧ l' = l2) ∨
           (f.update y' C R δ = .error .invalidArgument ∧ f' = f ∧
            l2.add clk (updateWarning (N := N) δ) = .ok l'))))) := by
  simp only [processLogged, bind, Except.bind] at hp
  cases e1 : l.addIf clk (decide (frame ≠ expected)) (frameIdWarning frame expected) with
  | error e => rw [e1] at hp; cases hp
  | ok l1 =>
    rw [e1] at hp
    simp only at hp
    cases e2 : l1.addIf clk (decide (now < stamp)) (delayTimeWarning fmt (computeDelayTime now stamp)) with
    | error e => rw [e2] at hp; cases hp
    | ok l2 =>
      rw [e2] at hp
      simp only at hp
      cases hd : computeDelayStep (computeDelayTime now stamp : ℝ) dt with
      | error e => rw [hd] at hp; cases hp
      | ok δ =>
        rw [hd] at hp
        simp only at hp
        refine ⟨l1, l2, δ, rfl, e2, rfl, ?_⟩
        cases hc : checkDelayStep δ N with
        | false =>
          left
          rw [hc] at hp
          simp only [Bool.not_false, if_true] at hp
          cases e3 : l2.add clk (delayStepWarning fmt δ N) with
          | error e => rw [e3] at hp; cases hp
          | ok l3 =>
            rw [e3] at hp
            injection hp with hp
            injection hp with hp1 hp2
            subst hp1; subst hp2
            exact ⟨rfl, rfl, rfl⟩
        | true =>
          right
          rw [hc] at hp
          simp only [Bool.not_true, Bool.false_eq_true, if_false] at hp
          cases hy : allFinite y with
          | none =>
            left
            rw [hy] at hp
            simp only at hp
            cases e3 : l2.add clk nanInfWarning with
            | error e => rw [e3] at hp; cases hp
            | ok l3 =>
              rw [e3] at hp
              injection hp with hp
              injection hp with hp1 hp2
              subst hp1; subst hp2
              exact ⟨rfl, rfl, rfl, rfl⟩
          | some y' =>
            right
            rw [hy] at hp
            simp only at hp
            cases hx : f.getX δ with
            | error e => rw [hx] at hp; cases hp
            | ok x =>
              rw [hx] at hp
              simp only at hp
              refine ⟨y', x, rfl, rfl, rfl, ?_⟩
              cases hg : mahalanobisGate sing gateDist (stateOf x) y' (covOf (f.getLatestP hN)) with
              | false =>
                left
                rw [hg] at hp
                simp only [Bool.not_false, if_true] at hp
                cases e3 : l2.add clk mahalanobisGateWarning with
                | error e => rw [e3] at hp; cases hp
                | ok l3 =>
                  rw [e3] at hp
                  injection hp with hp
                  injection hp with hp1 hp2
                  subst hp1; subst hp2
                  exact ⟨rfl, rfl, rfl⟩
              | true =>
                right
                refine ⟨rfl, ?_⟩
                rw [hg] at hp
                simp only [Bool.not_true, Bool.false_eq_true, if_false] at hp
                cases hu : f.update y' C R δ with
                | ok g =>
                  left
                  rw [hu] at hp
                  injection hp with hp
                  injection hp with hp1 hp2
                  subst hp1; subst hp2
                  exact ⟨rfl, rfl⟩
                | error e =>
                  rw [hu] at hp
                  cases e <;> first
                    | cases hp
                    | skip
                  right
                  simp only at hp
                  cases e3 : l2.add clk (updateWarning (N := N) δ) with
                  | error e => rw [e3] at hp; cases hp
                  | ok l3 =>
                    rw [e3] at hp
                    injection hp with hp
                    injection hp with hp1 hp2
                    subst hp1; subst hp2
                    exact ⟨rfl, rfl, rfl⟩

theorem processLogged_forget {f f' : TimeDelayKalmanFilter ℝ N 6} {l l' : Log}
    (hp : processLogged fmt clk hN sing stateOf covOf C gateDist now dt frame expected stamp y R (f, l) =
      .ok (f', l')) :
    processMeasurement hN sing stateOf covOf C gateDist now dt stamp y R f = .ok f' := by
  obtain ⟨l1, l2, δ, -, -, hd, h⟩ := processLogged_ok fmt clk hN sing stateOf covOf C gateDist now dt
    frame expected stamp y R hp
  simp only [processMeasurement, hd, bind, Except.bind]
  rcases h with ⟨hc, rfl, -⟩ | ⟨hc, hy, rfl, -⟩ | ⟨y', x, hc, hy, hx, h⟩
  · simp [hc, pure, Except.pure]
  · simp [hc, hy, pure, Except.pure]
  · simp only [hc, hy, hx, Bool.not_true, Bool.false_eq_true, if_false]
    rcases h with ⟨hg, rfl, -⟩ | ⟨hg, ⟨hu, -⟩ | ⟨hu, rfl, -⟩⟩
    · simp [hg, pure, Except.pure]
    · simp [hg, hu, pure, Except.pure]
    · simp [hg, hu, pure, Except.pure]

end Process

theorem pop_mem {α : Type} {q : AgedQueue α} {r : α × AgedQueue α} (hpop : q.pop = .ok r) :
    r.1 ∈ q.msgs ∧ ∀ x ∈ r.2.msgs, x ∈ q.msgs := by
  unfold AgedQueue.pop at hpop
  split at hpop
  · rename_i m ms a as e1 e2
    simp only at hpop
    split_ifs at hpop
    · injection hpop with hpop
      rw [← hpop, e1]
      refine ⟨List.mem_cons_self, fun x hx => ?_⟩
      simp only [List.mem_append, List.mem_singleton] at hx
      rcases hx with hx | rfl
      · exact List.mem_cons_of_mem _ hx
      · exact List.mem_cons_self
    · injection hpop with hpop
      rw [← hpop, e1]
      exact ⟨List.mem_cons_self, fun x hx => List.mem_cons_of_mem _ hx⟩
  · cases hpop

theorem updateLoop_lifts {α F : Type} (process : α → F → Res F)
    (processL : α → F × Log → Res (F × Log)) (J : α → Prop)
    (hp : ∀ m f l, J m → Lifts (process m f) (processL m (f, l))) :
    ∀ (fuel i : ℕ) (q : AgedQueue α) (f : F) (l : Log), (∀ m ∈ q.msgs, J m) →
      match updateLoop process fuel i q f with
      | .ok (f', q') => ∃ l', updateLoop processL fuel i q (f, l) = .ok ((f', l'), q')
      | .error e => updateLoop processL fuel i q (f, l) = .error e := by
  intro fuel
  induction fuel with
  | zero => intro i q f l _; exact ⟨l, rfl⟩
  | succ fuel ih =>
    intro i q f l hq
    simp only [updateLoop]
    by_cases hi : i < q.size
    · rw [if_pos hi, if_pos hi]
      simp only [bind, Except.bind]
      cases hpop : q.pop with
      | error e => rfl
      | ok r =>
        have hmem := pop_mem hpop
        simp only
        have h1 := hp r.1 f l (hq _ hmem.1)
        cases hf : process r.1 f with
        | error e =>
          rw [hf] at h1
          simp only [Lifts] at h1
          simp only [h1]
        | ok f' =>
          rw [hf] at h1
          obtain ⟨l', h1⟩ := h1
          simp only [h1]
          exact ih (i + 1) r.2 f' l' (fun m hm => hq m (hmem.2 m hm))
    · rw [if_neg hi, if_neg hi]
      exact ⟨l, rfl⟩

theorem updateLoop_forget {α F : Type} (process : α → F → Res F)
    (processL : α → F × Log → Res (F × Log))
    (hp : ∀ m f l f' l', processL m (f, l) = .ok (f', l') → process m f = .ok f') :
    ∀ (fuel i : ℕ) (q q' : AgedQueue α) (f f' : F) (l l' : Log),
      updateLoop processL fuel i q (f, l) = .ok ((f', l'), q') →
      updateLoop process fuel i q f = .ok (f', q') := by
  intro fuel
  induction fuel with
  | zero =>
    intro i q q' f f' l l' h
    simp only [updateLoop] at h ⊢
    injection h with h
    injection h with h1 h2
    injection h1 with h1 h3
    subst h1; subst h2
    rfl
  | succ fuel ih =>
    intro i q q' f f' l l' h
    simp only [updateLoop] at h ⊢
    by_cases hi : i < q.size
    · rw [if_pos hi] at h ⊢
      simp only [bind, Except.bind] at h ⊢
      cases hpop : q.pop with
      | error e => rw [hpop] at h; cases h
      | ok r =>
        rw [hpop] at h
        simp only at h ⊢
        cases hf : processL r.1 (f, l) with
        | error e => rw [hf] at h; cases h
        | ok w =>
          obtain ⟨f1, l1⟩ := w
          rw [hf] at h
          simp only at h
          rw [hp _ _ _ _ _ hf]
          exact ih _ _ _ _ _ _ _ h
    · rw [if_neg hi] at h ⊢
      injection h with h
      injection h with h1 h2
      injection h1 with h1 h3
      subst h1; subst h2
      rfl

section Node
variable {N : ℕ} (fmt : Fmt) (hN : 0 < N) (tf : Tf2) (p : EkfParams)

theorem processPose_forget (clk : ℕ → ℤ) (sing : PoseMsg → Bool) (now : ℤ) (dt : ℝ) (m : PoseMsg)
    (f : TimeDelayKalmanFilter ℝ N 6) (l : Log) (f' : TimeDelayKalmanFilter ℝ N 6) (l' : Log)
    (h : processPoseLogged fmt clk hN tf sing p now dt m (f, l) = .ok (f', l')) :
    processPose hN tf sing p.poseGate p.poseSmoothing now dt m f = .ok f' := by
  unfold processPoseLogged at h
  unfold processPose
  exact processLogged_forget _ _ _ _ _ _ _ _ _ _ _ _ _ _ _ h

theorem processTwist_forget (clk : ℕ → ℤ) (sing : TwistMsg → Bool) (now : ℤ) (dt : ℝ) (m : TwistMsg)
    (f : TimeDelayKalmanFilter ℝ N 6) (l : Log) (f' : TimeDelayKalmanFilter ℝ N 6) (l' : Log)
    (h : processTwistLogged fmt clk hN sing p now dt m (f, l) = .ok (f', l')) :
    processTwist hN sing p.twistGate p.twistSmoothing now dt m f = .ok f' := by
  unfold processTwistLogged at h
  unfold processTwist
  exact processLogged_forget _ _ _ _ _ _ _ _ _ _ _ _ _ _ _ h

theorem processPose_lifts (hf : fmt.Plain) (hpf : Plain p.poseFrame) (clk : ℕ → ℤ)
    (sing : PoseMsg → Bool) (now : ℤ) (dt : ℝ) (m : PoseMsg)
    (f : TimeDelayKalmanFilter ℝ N 6) (l : Log) (hm : Plain m.frame) :
    Lifts (processPose hN tf sing p.poseGate p.poseSmoothing now dt m f)
      (processPoseLogged fmt clk hN tf sing p now dt m (f, l)) := by
  unfold processPoseLogged processPose
  exact processLogged_lifts fmt clk hN _ _ _ _ _ _ _ _ _ _ _ _ hf hm hpf f l

theorem processTwist_lifts (hf : fmt.Plain) (clk : ℕ → ℤ) (sing : TwistMsg → Bool) (now : ℤ) (dt : ℝ)
    (m : TwistMsg) (f : TimeDelayKalmanFilter ℝ N 6) (l : Log) (hm : Plain m.frame) :
    Lifts (processTwist hN sing p.twistGate p.twistSmoothing now dt m f)
      (processTwistLogged fmt clk hN sing p now dt m (f, l)) := by
  unfold processTwistLogged processTwist
  exact processLogged_lifts fmt clk hN _ _ _ _ _ _ _ _ _ _ _ _ hf hm (by simp [Plain]) f l

theorem stepLogged_forget {clk : ℕ → ℤ} {s s' : NodeState N} {t : Throttle} {e : Event}
    {o : List Output} {l : Log} (h : stepLogged fmt clk hN tf p s t e = .ok (s', o, l)) :
    step hN tf p s e = .ok (s', o) := by
  have other : ∀ e : Event, (step hN tf p s e).bind (fun r => Except.ok (r.1, r.2, (⟨t, 0, []⟩ : Log))) =
      .ok (s', o, l) → step hN tf p s e = .ok (s', o) := by
    intro e h
    cases hs : step hN tf p s e with
    | error x => rw [hs] at h; cases h
    | ok r =>
      rw [hs] at h
      simp only [Except.bind] at h
      injection h with h
      injection h with h1 h2
      injection h2 with h2 h3
      rw [← h1, ← h2]
  cases e with
  | initialPose m tries => exact other _ h
  | pose m => exact other _ h
  | twist m => exact other _ h
  | timer t1 t2 t3 t4 t5 sp st =>
    simp only [stepLogged, timerLogged] at h
    simp only [step, timerCallback]
    cases hekf : s.ekf with
    | none =>
      rw [hekf] at h
      injection h with h
      injection h with h1 h2
      injection h2 with h2 h3
      subst h1; subst h2
      rfl
    | some f =>
      rw [hekf] at h
      simp only at h ⊢
      rcases hc : s.interval.compute ((t1 : ℝ) / 1000000000) with ⟨r, iv⟩
      rw [hc] at h
      cases r with
      | error x =>
        cases x with
        | invalidArgument =>
          simp only [bind, Except.bind] at h ⊢
          split at h
          · split at h
            · simp only [reduceCtorEq] at h
            · simp only [Except.ok.injEq, Prod.mk.injEq] at h ⊢
              exact ⟨h.1, h.2.1⟩
          · simp only [Except.ok.injEq, Prod.mk.injEq] at h ⊢
            exact ⟨h.1, h.2.1⟩
        | _ => simp only [reduceCtorEq] at h
      | ok dt =>
        simp only [bind, Except.bind, updateAll] at h ⊢
        cases u1 : updateLoop (processPoseLogged fmt clk hN tf sp p t2 dt) s.poseQ.size 0 s.poseQ
            (predictStep hN p dt f, ⟨t, 0, []⟩) with
        | error x => rw [u1] at h; cases h
        | ok r1 =>
          obtain ⟨⟨f1, l1⟩, q1⟩ := r1
          rw [u1] at h
          simp only at h
          have v1 := updateLoop_forget (processPose hN tf sp p.poseGate p.poseSmoothing t2 dt)
            (processPoseLogged fmt clk hN tf sp p t2 dt)
            (processPose_forget fmt hN tf p clk sp t2 dt) _ _ _ _ _ _ _ _ u1
          simp only [v1]
          cases u2 : updateLoop (processTwistLogged fmt clk hN st p t3 dt) s.twistQ.size 0 s.twistQ
              (f1, l1) with
          | error x => rw [u2] at h; cases h
          | ok r2 =>
            obtain ⟨⟨f2, l2⟩, q2⟩ := r2
            rw [u2] at h
            simp only at h
            have v2 := updateLoop_forget (processTwist hN st p.twistGate p.twistSmoothing t3 dt)
              (processTwistLogged fmt clk hN st p t3 dt)
              (processTwist_forget fmt hN p clk st t3 dt) _ _ _ _ _ _ _ _ u2
            simp only [v2]
            injection h with h
            injection h with h1 h2
            injection h2 with h2 h3
            subst h1; subst h2
            rfl

/-- C118: what the node does and publishes does not depend on the log: if it runs with logging, it runs the same
without. -/
theorem C118_forget (es : List (Event × (ℕ → ℤ))) {s s' : NodeState N} {t : Throttle}
    {out : List Output} {logs : List Log} (h : runLogged fmt hN tf p s t es = .ok (s', out, logs)) :
    run hN tf p s (es.map Prod.fst) = .ok (s', out) := by
  induction es generalizing s t out logs with
  | nil =>
    simp only [runLogged] at h
    injection h with h
    injection h with h1 h2
    injection h2 with h2 h3
    subst h1; subst h2
    rfl
  | cons e es ih =>
    obtain ⟨e, clk⟩ := e
    simp only [runLogged, bind, Except.bind] at h
    cases h1 : stepLogged fmt clk hN tf p s t e with
    | error x => rw [h1] at h; cases h
    | ok r =>
      obtain ⟨s1, o1, l1⟩ := r
      rw [h1] at h
      simp only at h
      cases h2 : runLogged fmt hN tf p s1 l1.throttle es with
      | error x => rw [h2] at h; cases h
      | ok r2 =>
        obtain ⟨s2, o2, l2⟩ := r2
        rw [h2] at h
        simp only [pure, Except.pure] at h
        injection h with h
        injection h with ha hb
        injection hb with hb hc
        subst ha; subst hb
        simp only [List.map_cons, run, stepLogged_forget fmt hN tf p h1, bind, Except.bind, ih h2, pure,
          Except.pure]

/-- The frames of the waiting messages have no `%`. -/
def NodeState.PlainQueues (s : NodeState N) : Prop :=
  (∀ m ∈ s.poseQ.msgs, Plain m.frame) ∧ ∀ m ∈ s.twistQ.msgs, Plain m.frame

theorem step_plain {s s' : NodeState N} {e : Event} {o : List Output} (hs : s.PlainQueues)
    (he : e.PlainFrame) (h : step hN tf p s e = .ok (s', o)) : s'.PlainQueues := by
  cases e with
  | initialPose m tries =>
    simp only [step, bind, Except.bind] at h
    cases hi : initialPoseCallback tf p s m tries with
    | error x =>
      rw [hi] at h
      simp only [reduceCtorEq] at h
    | ok s1 =>
      rw [hi] at h
      simp only [pure, Except.pure, Except.ok.injEq, Prod.mk.injEq] at h
      rw [← h.1]
      simp only [initialPoseCallback, bind, Except.bind, pure, Except.pure] at hi
      repeat' (split at hi)
      all_goals cases hi
      exact ⟨fun m' hm' => (by cases hm'), fun m' hm' => (by cases hm')⟩
  | pose m =>
    simp only [step] at h
    injection h with h
    injection h with h h'
    subst h
    refine ⟨fun m' hm' => ?_, hs.2⟩
    simp only [updateSimple1DFilters, AgedQueue.push, List.mem_append, List.mem_singleton] at hm'
    rcases hm' with hm' | rfl
    · exact hs.1 _ hm'
    · exact he
  | twist m =>
    simp only [step] at h
    injection h with h
    injection h with h h'
    subst h
    refine ⟨hs.1, fun m' hm' => ?_⟩
    simp only [AgedQueue.push, List.mem_append, List.mem_singleton] at hm'
    rcases hm' with hm' | rfl
    · exact hs.2 _ hm'
    · exact he
  | timer t1 t2 t3 t4 t5 sp st =>
    simp only [step, timerCallback] at h
    cases hekf : s.ekf with
    | none =>
      rw [hekf] at h
      simp only [Except.ok.injEq, Prod.mk.injEq] at h
      rw [← h.1]
      exact hs
    | some f =>
      rw [hekf] at h
      simp only at h
      rcases hc : s.interval.compute ((t1 : ℝ) / 1000000000) with ⟨r, iv⟩
      rw [hc] at h
      cases r with
      | error x =>
        cases x with
        | invalidArgument =>
          simp only [Except.ok.injEq, Prod.mk.injEq] at h
          rw [← h.1]
          exact hs
        | _ => simp only [reduceCtorEq] at h
      | ok dt =>
        simp only [bind, Except.bind] at h
        cases h1 : updateAll (processPose hN tf sp p.poseGate p.poseSmoothing t2 dt) s.poseQ
            (predictStep hN p dt f) with
        | error x => rw [h1] at h; cases h
        | ok r1 =>
          rw [h1] at h
          simp only at h
          cases h2 : updateAll (processTwist hN st p.twistGate p.twistSmoothing t3 dt) s.twistQ
              r1.1 with
          | error x => rw [h2] at h; cases h
          | ok r2 =>
            rw [h2] at h
            simp only [pure, Except.pure] at h
            injection h with h
            injection h with h h'
            subst h
            have k1 := updateLoop_inv _ (fun _ => True) (fun m : PoseMsg => Plain m.frame)
              (fun _ _ _ _ _ _ => trivial) _ _ _ _ _ _ trivial hs.1 h1
            have k2 := updateLoop_inv _ (fun _ => True) (fun m : TwistMsg => Plain m.frame)
              (fun _ _ _ _ _ _ => trivial) _ _ _ _ _ _ trivial hs.2 h2
            exact ⟨k1.2, k2.2⟩

theorem stepLogged_lifts (hf : fmt.Plain) (hpf : Plain p.poseFrame) (clk : ℕ → ℤ) (s : NodeState N)
    (hs : s.PlainQueues) (t : Throttle) (e : Event) :
    match step hN tf p s e with
    | .ok (s', o) => ∃ l, stepLogged fmt clk hN tf p s t e = .ok (s', o, l)
    | .error x => stepLogged fmt clk hN tf p s t e = .error x := by
  have other : ∀ r : Res (NodeState N × List Output), match r with
      | .ok (s', o) => ∃ l, r.bind (fun r => Except.ok (r.1, r.2, (⟨t, 0, []⟩ : Log))) = .ok (s', o, l)
      | .error x => r.bind (fun r => Except.ok (r.1, r.2, (⟨t, 0, []⟩ : Log))) = .error x := by
    intro r
    cases r with
    | error x => rfl
    | ok r => exact ⟨_, rfl⟩
  cases e with
  | initialPose m tries => exact other (step hN tf p s (.initialPose m tries))
  | pose m => exact other (step hN tf p s (.pose m))
  | twist m => exact other (step hN tf p s (.twist m))
  | timer t1 t2 t3 t4 t5 sp st =>
    simp only [stepLogged, timerLogged, step, timerCallback]
    cases hekf : s.ekf with
    | none => exact ⟨_, rfl⟩
    | some f =>
      simp only
      rcases hc : s.interval.compute ((t1 : ℝ) / 1000000000) with ⟨r, iv⟩
      cases r with
      | error x =>
        cases x with
        | invalidArgument =>
          simp only [bind, Except.bind]
          cases hl : s.interval.lastTime with
          | none => exact ⟨_, rfl⟩
          | some last =>
            obtain ⟨l', e'⟩ := Log.add_plain clk ⟨t, 0, []⟩ _
              (plain_jumpBack hf ((t1 : ℝ) / 1000000000) last)
            simp only [e']
            exact ⟨_, rfl⟩
        | _ => rfl
      | ok dt =>
        simp only [bind, Except.bind, updateAll]
        have u1 := updateLoop_lifts (processPose hN tf sp p.poseGate p.poseSmoothing t2 dt)
          (processPoseLogged fmt clk hN tf sp p t2 dt) (fun m => Plain m.frame)
          (processPose_lifts fmt hN tf p hf hpf clk sp t2 dt)
          s.poseQ.size 0 s.poseQ (predictStep hN p dt f) ⟨t, 0, []⟩ hs.1
        cases v1 : updateLoop (processPose hN tf sp p.poseGate p.poseSmoothing t2 dt) s.poseQ.size 0
            s.poseQ (predictStep hN p dt f) with
        | error x =>
          rw [v1] at u1
          simp only at u1
          simp only [u1]
        | ok r1 =>
          obtain ⟨f1, q1⟩ := r1
          rw [v1] at u1
          obtain ⟨l1, u1⟩ := u1
          simp only [u1]
          have u2 := updateLoop_lifts (processTwist hN st p.twistGate p.twistSmoothing t3 dt)
            (processTwistLogged fmt clk hN st p t3 dt) (fun m => Plain m.frame)
            (processTwist_lifts fmt hN p hf clk st t3 dt)
            s.twistQ.size 0 s.twistQ f1 l1 hs.2
          cases v2 : updateLoop (processTwist hN st p.twistGate p.twistSmoothing t3 dt) s.twistQ.size 0
              s.twistQ f1 with
          | error x =>
            rw [v2] at u2
            simp only at u2
            simp only [u2]
          | ok r2 =>
            obtain ⟨f2, q2⟩ := r2
            rw [v2] at u2
            obtain ⟨l2, u2⟩ := u2
            simp only [u2]
            exact ⟨_, rfl⟩

/-- C118, for frames without `%` in their names: with logging the node does exactly what it does without,
whatever the clock readings for the log. Missing: names with `%` (`C118_format_violated`). -/
theorem C118_harmless_partial (hf : fmt.Plain) (hpf : Plain p.poseFrame) (es : List (Event × (ℕ → ℤ)))
    (hes : ∀ e ∈ es, e.1.PlainFrame) (t : Throttle) :
    match run hN tf p (NodeState.make N p) (es.map Prod.fst) with
    | .ok (s', out) => ∃ logs, runLogged fmt hN tf p (NodeState.make N p) t es = .ok (s', out, logs)
    | .error x => runLogged fmt hN tf p (NodeState.make N p) t es = .error x := by
  have gen : ∀ (es : List (Event × (ℕ → ℤ))) (s : NodeState N) (t : Throttle), s.PlainQueues →
      (∀ e ∈ es, e.1.PlainFrame) →
      match run hN tf p s (es.map Prod.fst) with
      | .ok (s', out) => ∃ logs, runLogged fmt hN tf p s t es = .ok (s', out, logs)
      | .error x => runLogged fmt hN tf p s t es = .error x := by
    intro es
    induction es with
    | nil => intro s t _ _; exact ⟨[], rfl⟩
    | cons e es ih =>
      intro s t hs hes
      obtain ⟨e, clk⟩ := e
      simp only [List.map_cons, run, runLogged, bind, Except.bind]
      have h1 := stepLogged_lifts fmt hN tf p hf hpf clk s hs t e
      cases v1 : step hN tf p s e with
      | error x =>
        rw [v1] at h1
        simp only at h1
        simp only [h1]
      | ok r =>
        obtain ⟨s1, o1⟩ := r
        rw [v1] at h1
        obtain ⟨l1, h1⟩ := h1
        simp only [h1]
        have hs1 := step_plain hN tf p hs (hes (e, clk) (by simp)) v1
        have h2 := ih s1 l1.throttle hs1 (fun e he => hes e (by simp [he]))
        cases v2 : run hN tf p s1 (es.map Prod.fst) with
        | error x =>
          rw [v2] at h2
          simp only at h2
          simp only [h2]
        | ok r2 =>
          obtain ⟨s2, o2⟩ := r2
          rw [v2] at h2
          obtain ⟨l2, h2⟩ := h2
          simp only [h2]
          exact ⟨_, rfl⟩
  exact gen es _ t ⟨by simp [NodeState.make, AgedQueue.make], by simp [NodeState.make, AgedQueue.make]⟩ hes

/-- C118, with C70: on well-formed input the node with logging never fails. -/
theorem C118_no_failure_partial (L : ℝ) (hL : 0 < L) (hL10 : L ≤ 10)
    (hLf : L ≤ 1 / max p.defaultFrequency (1 / 10)) (hframe : p.poseFrame ≠ [])
    (hf : fmt.Plain) (hpf : Plain p.poseFrame) (es : List (Event × (ℕ → ℤ)))
    (hes : ∀ e ∈ es, e.1.PlainFrame) (hw : WellFormed tf L (es.map Prod.fst)) (t : Throttle) :
    ∃ s out logs, runLogged fmt hN tf p (NodeState.make N p) t es = .ok (s, out, logs) ∧
      out.map Output.header = expected p.poseFrame (es.map Prod.fst) := by
  obtain ⟨s, out, h, ho⟩ := C70_no_failure hN tf p L hL hL10 hLf hframe (es.map Prod.fst) hw
  have h' := C118_harmless_partial fmt hN tf p hf hpf es hes t
  rw [h] at h'
  obtain ⟨logs, h'⟩ := h'
  exact ⟨s, out, logs, h', ho⟩

end Node

/-- Numbers are written as `0`. -/
def zeroFmt : Fmt := ⟨fun _ => ['0'], fun _ => ['0'], fun _ => ['0']⟩

/-! Non-vacuity of the hypotheses on texts (a run that meets all hypotheses is in `C120_starved_violated`). -/
example : zeroFmt.Plain ∧ Plain defaultParams.poseFrame ∧ Event.PlainFrame (.pose (poseAt 0 0)) :=
  ⟨⟨fun _ => by simp [zeroFmt, Plain], fun _ => by simp [zeroFmt, Plain],
    fun _ => by simp [zeroFmt, Plain]⟩, by simp [defaultParams, Plain], by simp [Event.PlainFrame, poseAt, Plain]⟩

/-- An initial pose, a pose whose frame is called `%s`, and a tick. -/
def percentEvents : List Event :=
  [.initialPose (poseAt 10 0) identityTries, .pose { poseAt 0 0 with frame := "%s".toList },
    .timer 0 0 0 0 0 (fun _ => true) (fun _ => true)]

/-- C118, violation: the name of a frame is used as a format. A single message from a frame called `%s`
makes the behaviour undefined two seconds or more after time zero, although the message would otherwise
be harmless: without the log all is well. -/
theorem C118_format_violated (fmt : Fmt) (clk : ℕ → ℤ) (hclk : 2000000000 ≤ clk 0) :
    (∃ r, run Nat.one_pos flatTf defaultParams (NodeState.make 1 defaultParams) percentEvents = .ok r) ∧
    runLogged fmt Nat.one_pos flatTf defaultParams (NodeState.make 1 defaultParams) Throttle.init
      (percentEvents.map fun e => (e, clk)) = .error .undefinedBehaviour := by
  constructor
  · have hw : WellFormed flatTf (1 / 50) percentEvents := by
      refine ⟨?_, ?_, ?_, ?_⟩
      · intro e he
        simp only [percentEvents, List.mem_cons, List.not_mem_nil, or_false] at he
        rcases he with rfl | rfl | rfl
        · exact ⟨by simp [poseAt], rfl, rfl, rfl, fun a b => ⟨⟨0, by norm_num, rfl⟩, fun k t _ => rfl⟩⟩
        all_goals trivial
      · change List.Pairwise _ [0]
        simp
      · intro e he t1 t2 t3 t4 t5 sp st hee stamp hst
        simp only [percentEvents, List.mem_cons, List.not_mem_nil, or_false] at he
        have : 0 = stamp := by simpa [percentEvents, Event.poseStamp, poseAt] using hst
        subst this
        rcases he with rfl | rfl | rfl <;> cases hee
        norm_num
      · intro e he t1 t2 t3 t4 t5 sp st hee stamp hst
        simp [percentEvents, Event.twistStamp] at hst
    obtain ⟨s, out, h, -⟩ := C70_no_failure Nat.one_pos flatTf defaultParams (1 / 50) (by norm_num)
      (by norm_num) (by norm_num [defaultParams]) (by simp [defaultParams]) percentEvents hw
    exact ⟨_, h⟩
  · have h1 : (⟨Throttle.init, 0, []⟩ : Log).add clk (frameIdWarning "%s".toList "map".toList) =
        .error .undefinedBehaviour := by
      have hc : clk 0 ≥ 0 + (2000 * 1000000 : ℤ) := by omega
      have hp : printf ("frame_id is ".toList ++ "%s".toList ++ " while ".toList ++ "map".toList ++
          " is expected".toList) = .error .undefinedBehaviour := by
        rw [List.append_assoc, List.append_assoc, List.append_assoc]
        refine printf_append_error (by simp [Plain]) ?_
        rw [show "%s".toList = ['%', 's'] from rfl]
        rfl
      simp only [Log.add, frameIdWarning]
      rw [Throttle.warn_shown _ (by change 0 + 2000 * 1000000 ≤ clk 0; exact hc), hp]
      rfl
    obtain ⟨s1, f, hs1, hf, hiv, hq⟩ : ∃ (s1 : NodeState 1) (f : TimeDelayKalmanFilter ℝ 1 6),
        step Nat.one_pos flatTf defaultParams (NodeState.make 1 defaultParams)
          (.initialPose (poseAt 10 0) identityTries) = .ok (s1, []) ∧ s1.ekf = some f ∧
        s1.interval.lastTime = none ∧ s1.poseQ = ⟨5, [], []⟩ := ⟨_, _, rfl, rfl, rfl, rfl⟩
    simp only [percentEvents, List.map_cons, List.map_nil, runLogged, stepLogged, bind, Except.bind, hs1,
      pure, Except.pure]
    have hs2 : ∃ s2 : NodeState 1, step Nat.one_pos flatTf defaultParams s1
        (.pose { poseAt 0 0 with frame := "%s".toList }) = .ok (s2, []) ∧ s2.ekf = some f ∧
        s2.interval.lastTime = none ∧
        s2.poseQ = ⟨5, [{ poseAt 0 0 with frame := "%s".toList }], [0]⟩ := by
      refine ⟨_, rfl, hf, hiv, ?_⟩
      change s1.poseQ.push _ = _
      rw [hq]
      rfl
    obtain ⟨s2, hs2, hf2, hiv2, hq2⟩ := hs2
    have ht : timerLogged fmt clk Nat.one_pos flatTf defaultParams s2 ⟨Throttle.init, 0, []⟩ 0 0 0 0 0
        (fun _ => true) (fun _ => true) = .error .undefinedBehaviour := by
      have hc : ∃ dt iv, s2.interval.compute (((0 : ℤ) : ℝ) / 1000000000) = (.ok dt, iv) := by
        simp only [UpdateInterval.compute, hiv2]
        exact ⟨_, _, rfl⟩
      obtain ⟨dt, iv, hc⟩ := hc
      have hp : ∀ f, processPoseLogged fmt clk Nat.one_pos flatTf (fun _ => true) defaultParams 0 dt
          { poseAt 0 0 with frame := "%s".toList } (f, ⟨Throttle.init, 0, []⟩) =
          .error .undefinedBehaviour := by
        intro f
        have hd : decide ("%s".toList ≠ defaultParams.poseFrame) = true := by simp [defaultParams]
        simp only [processPoseLogged, processLogged, Log.addIf, hd, if_true]
        rw [show defaultParams.poseFrame = "map".toList from rfl, h1]
        rfl
      have hu : updateAll (processPoseLogged fmt clk Nat.one_pos flatTf (fun _ => true) defaultParams 0 dt)
          s2.poseQ (predictStep Nat.one_pos defaultParams dt f, ⟨Throttle.init, 0, []⟩) =
          .error .undefinedBehaviour := by
        rw [hq2]
        simp only [updateAll, AgedQueue.size, List.length_cons, List.length_nil, updateLoop, AgedQueue.pop,
          bind, Except.bind]
        norm_num
        rw [hp]
      simp only [timerLogged, hf2, hc, hu, bind, Except.bind]
    simp only [hs2, ht]

end Verif.Ekf
