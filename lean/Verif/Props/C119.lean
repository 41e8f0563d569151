/-
C119: a measurement that is left out is reported, with the reason.
C120: warnings that are asked for again and again are shown from time to time.
-/
import Verif.Props.C118

set_option autoImplicit false

namespace Verif.Ekf

open Matrix Verif.Kalman

/-! ### C119 -/

/-- The requests made so far. -/
def Log.asked (l : Log) : List Request := l.entries.map Entry.request

/-- A list of requests, one after the other. -/
def Log.addAll (clk : ℕ → ℤ) : Log → List Request → Res Log
  | l, [] => .ok l
  | l, r :: rs => do
    let l ← l.add clk r
    l.addAll clk rs

theorem Log.addAll_append {clk : ℕ → ℤ} {l l1 l2 : Log} {a b : List Request}
    (h1 : l.addAll clk a = .ok l1) (h2 : l1.addAll clk b = .ok l2) : l.addAll clk (a ++ b) = .ok l2 := by
  induction a generalizing l with
  | nil =>
    injection h1 with h1
    rw [h1]
    exact h2
  | cons r rs ih =>
    simp only [Log.addAll, List.cons_append, bind, Except.bind] at h1 ⊢
    cases h : l.add clk r with
    | error e => rw [h] at h1; cases h1
    | ok l' =>
      rw [h] at h1
      exact ih h1

theorem Log.addAll_one {clk : ℕ → ℤ} {l l1 : Log} {r : Request} (h : l.add clk r = .ok l1) :
    l.addAll clk [r] = .ok l1 := by
  simp only [Log.addAll, h, bind, Except.bind]

theorem Log.addAll_if {clk : ℕ → ℤ} {l l1 : Log} {c : Prop} [Decidable c] {r : Request}
    (h : l.addIf clk (decide c) r = .ok l1) : l.addAll clk (if c then [r] else []) = .ok l1 := by
  unfold Log.addIf at h
  by_cases hc : c
  · rw [if_pos hc]
    simp only [hc, decide_true, if_true] at h
    exact Log.addAll_one h
  · rw [if_neg hc]
    simp only [hc, decide_false, Bool.false_eq_true, if_false] at h
    exact h

theorem Log.add_asked {clk : ℕ → ℤ} {l l1 : Log} {r : Request} (h : l.add clk r = .ok l1) :
    l1.asked = l.asked ++ [r] := by
  cases r with
  | always t =>
    simp only [Log.add, bind, Except.bind] at h
    split at h
    · cases h
    · injection h with h
      rw [← h]
      simp [Log.asked]
  | throttled ms t =>
    simp only [Log.add, bind, Except.bind] at h
    split at h
    · cases h
    · injection h with h
      rw [← h]
      simp [Log.asked]

theorem Log.addAll_asked {clk : ℕ → ℤ} {l l1 : Log} {rs : List Request} (h : l.addAll clk rs = .ok l1) :
    l1.asked = l.asked ++ rs := by
  induction rs generalizing l with
  | nil =>
    injection h with h
    rw [h, List.append_nil]
  | cons r rs ih =>
    simp only [Log.addAll, bind, Except.bind] at h
    cases h1 : l.add clk r with
    | error e => rw [h1] at h; cases h
    | ok l' =>
      rw [h1] at h
      rw [ih h, Log.add_asked h1, List.append_assoc]
      rfl

theorem allFinite_some {n : ℕ} {y : Fin n → Option ℝ} {y' : Fin n → ℝ} (h : allFinite y = some y') :
    ∀ i, y i = some (y' i) := by
  intro i
  unfold allFinite at h
  split_ifs at h with hall
  injection h with h
  rw [← h]
  exact (Option.some_get (hall i)).symm

theorem allFinite_none {n : ℕ} {y : Fin n → Option ℝ} (h : allFinite y = none) : ∃ i, y i = none := by
  unfold allFinite at h
  split_ifs at h with hall
  push Not at hall
  obtain ⟨i, hi⟩ := hall
  exact ⟨i, by simpa using hi⟩

section Report
variable {N h : ℕ} (fmt : Fmt) (clk : ℕ → ℤ) (hN : 0 < N) (sing : Bool)
  (stateOf : (Fin 6 → ℝ) → (Fin h → ℝ))
  (covOf : Matrix (Fin 6) (Fin 6) ℝ → Matrix (Fin h) (Fin h) ℝ) (C : Matrix (Fin h) (Fin 6) ℝ)
  (gateDist : ℝ) (now : ℤ) (dt : ℝ) (frame expected : List Char) (stamp : ℤ)
  (y : Fin h → Option ℝ) (R : Matrix (Fin h) (Fin h) ℝ)

/-- Specification: the measurement is used by the filter, at the state of `δ` steps ago. -/
def UsedAt (δ : ℤ) (f f' : TimeDelayKalmanFilter ℝ N 6) : Prop :=
  δ < N ∧ ∃ y', (∀ i, y i = some (y' i)) ∧ f.update y' C R δ = .ok f'

/-- Specification: what is said of a measurement that is left out, with the facts that make it true. -/
inductive LeftOut (δ : ℤ) (f : TimeDelayKalmanFilter ℝ N 6) : Request → Prop
  | tooOld : N ≤ δ → LeftOut δ f (delayStepWarning fmt δ N)
  | notFinite (i : Fin h) : y i = none → LeftOut δ f nanInfWarning
  | tooFar (y' : Fin h → ℝ) (x : Fin 6 → ℝ) : (∀ i, y i = some (y' i)) → f.getX δ = .ok x →
      ((covOf (f.getLatestP hN)).det = 0 ∨
        gateDist * gateDist < (stateOf x - y') ⬝ᵥ ((covOf (f.getLatestP hN))⁻¹ *ᵥ (stateOf x - y'))) →
      LeftOut δ f mahalanobisGateWarning
  | noGain : (R + makeMeasurementMatrix C N δ.toNat * (f.P * (makeMeasurementMatrix C N δ.toNat)ᵀ)).det = 0 →
      LeftOut δ f (.always "The kalman gain contains nan or inf".toList)

theorem mahalanobisGate_false {n : ℕ} {x y : Fin n → ℝ} {M : Matrix (Fin n) (Fin n) ℝ}
    (hg : mahalanobisGate sing gateDist x y M = false) :
    M.det = 0 ∨ gateDist * gateDist < (x - y) ⬝ᵥ (M⁻¹ *ᵥ (x - y)) := by
  unfold mahalanobisGate squaredMahalanobis at hg
  by_cases hd : M.det = 0
  · exact Or.inl hd
  · rw [if_neg hd] at hg
    exact Or.inr (not_le.1 (of_decide_eq_false hg))

theorem processLogged_addAll {f f' : TimeDelayKalmanFilter ℝ N 6} {l l' : Log}
    (hp : processLogged fmt clk hN sing stateOf covOf C gateDist now dt frame expected stamp y R (f, l) =
      .ok (f', l')) :
    ∃ δ rest, computeDelayStep (((now - stamp : ℤ) : ℝ) / 1000000000) dt = .ok δ ∧
      l.addAll clk ((if frame ≠ expected then [frameIdWarning frame expected] else []) ++
        (if now < stamp then [delayTimeWarning fmt (((now - stamp : ℤ) : ℝ) / 1000000000)] else []) ++
        rest) = .ok l' ∧
      ((rest = [] ∧ UsedAt C y R δ f f') ∨
        ∃ r, rest = [r] ∧ f' = f ∧ LeftOut fmt hN stateOf covOf C gateDist y R δ f r) := by
  obtain ⟨l1, l2, δ, e1, e2, hd, hcase⟩ := processLogged_ok fmt clk hN sing stateOf covOf C gateDist now dt
    frame expected stamp y R hp
  have a1 := Log.addAll_append (Log.addAll_if e1) (Log.addAll_if e2)
  rcases hcase with ⟨hc, rfl, h3⟩ | ⟨hc, hy, rfl, h3⟩ | ⟨y', x, hc, hy, hx, hcase⟩
  · refine ⟨δ, [delayStepWarning fmt δ N], hd, Log.addAll_append a1 (Log.addAll_one h3), Or.inr ⟨_, rfl, rfl, ?_⟩⟩
    exact .tooOld (by simpa [checkDelayStep] using hc)
  · obtain ⟨i, hi⟩ := allFinite_none hy
    exact ⟨δ, [nanInfWarning], hd, Log.addAll_append a1 (Log.addAll_one h3), Or.inr ⟨_, rfl, rfl, .notFinite i hi⟩⟩
  · have hlt : δ < N := by simpa [checkDelayStep] using hc
    rcases hcase with ⟨hg, rfl, h3⟩ | ⟨-, ⟨hu, rfl⟩ | ⟨hu, rfl, h3⟩⟩
    · exact ⟨δ, [mahalanobisGateWarning], hd, Log.addAll_append a1 (Log.addAll_one h3),
        Or.inr ⟨_, rfl, rfl, .tooFar y' x (allFinite_some hy) hx (mahalanobisGate_false sing gateDist hg)⟩⟩
    · exact ⟨δ, [], hd, by rw [List.append_nil]; exact a1, Or.inl ⟨rfl, hlt, y', allFinite_some hy, hu⟩⟩
    · have hw : updateWarning (N := N) δ = .always "The kalman gain contains nan or inf".toList :=
        if_neg (not_le.2 hlt)
      refine ⟨δ, [updateWarning (N := N) δ], hd, Log.addAll_append a1 (Log.addAll_one h3),
        Or.inr ⟨_, rfl, rfl, ?_⟩⟩
      rw [hw]
      refine .noGain ?_
      unfold TimeDelayKalmanFilter.update at hu
      rw [if_neg (not_le.2 hlt)] at hu
      have hneg : ¬ δ < 0 := by
        intro hneg
        rw [if_pos hneg] at hu
        cases hu
      rw [if_neg hneg] at hu
      unfold calcKalmanGain at hu
      dsimp only at hu
      by_cases hdet : (R + makeMeasurementMatrix C N δ.toNat *
          (f'.P * (makeMeasurementMatrix C N δ.toNat)ᵀ)).det = 0
      · exact hdet
      · rw [if_neg hdet] at hu
        cases hu

/-- C119: whatever measurement is processed, the requests made for it are: one on the frame, if it is
not the expected one, one on the time, if the stamp is in the future, and, if and only if the filter
does not use the measurement, one more, which gives the reason why it does not. A measurement left out
leaves the filter as it was. -/
theorem C119_reported {f f' : TimeDelayKalmanFilter ℝ N 6} {l l' : Log}
    (hp : processLogged fmt clk hN sing stateOf covOf C gateDist now dt frame expected stamp y R (f, l) =
      .ok (f', l')) :
    ∃ δ rest, computeDelayStep (((now - stamp : ℤ) : ℝ) / 1000000000) dt = .ok δ ∧
      l'.asked = l.asked ++ ((if frame ≠ expected then [frameIdWarning frame expected] else []) ++
        (if now < stamp then [delayTimeWarning fmt (((now - stamp : ℤ) : ℝ) / 1000000000)] else []) ++
        rest) ∧
      ((rest = [] ∧ UsedAt C y R δ f f') ∨
        ∃ r, rest = [r] ∧ f' = f ∧ LeftOut fmt hN stateOf covOf C gateDist y R δ f r) := by
  obtain ⟨δ, rest, h1, h2, h3⟩ := processLogged_addAll fmt clk hN sing stateOf covOf C gateDist now dt
    frame expected stamp y R hp
  exact ⟨δ, rest, h1, Log.addAll_asked h2, h3⟩

end Report

/-! The tick. -/

/-- Specification: a pose message used at face value: in the expected frame, not from the future, and
used by the filter. -/
def UsedPose {N : ℕ} (tf : Tf2) (p : EkfParams) (now : ℤ) (dt : ℝ) (m : PoseMsg)
    (f f' : TimeDelayKalmanFilter ℝ N 6) : Prop :=
  m.frame = p.poseFrame ∧ m.stamp ≤ now ∧ ∃ δ,
    computeDelayStep (((now - m.stamp : ℤ) : ℝ) / 1000000000) dt = .ok δ ∧
    UsedAt poseMeasurementMatrix (poseMeasurementVector tf m)
      (poseMeasurementCovariance m.cov (toSizeT p.poseSmoothing)) δ f f'

/-- Specification: a twist message used at face value. -/
def UsedTwist {N : ℕ} (p : EkfParams) (now : ℤ) (dt : ℝ) (m : TwistMsg)
    (f f' : TimeDelayKalmanFilter ℝ N 6) : Prop :=
  m.frame = "base_link".toList ∧ m.stamp ≤ now ∧ ∃ δ,
    computeDelayStep (((now - m.stamp : ℤ) : ℝ) / 1000000000) dt = .ok δ ∧
    UsedAt twistMeasurementMatrix (twistMeasurementVector m)
      (twistMeasurementCovariance m.cov (toSizeT p.twistSmoothing)) δ f f'

/-- What the loops keep: requests with a property that holds of none and of joined lists, and, if there
are none, the use of every message. -/
theorem updateLoop_addAll {α F : Type} (clk : ℕ → ℤ) (processL : α → F × Log → Res (F × Log))
    (U : α → F → F → Prop) (Q : List Request → Prop) (J : α → Prop) (hQ0 : Q [])
    (hQ : ∀ a b, Q a → Q b → Q (a ++ b))
    (hp : ∀ m f l f' l', J m → processL m (f, l) = .ok (f', l') →
      ∃ rs, l.addAll clk rs = .ok l' ∧ Q rs ∧ (rs = [] → U m f f')) :
    ∀ (fuel i : ℕ) (q q' : AgedQueue α) (f f' : F) (l l' : Log), (∀ m ∈ q.msgs, J m) →
      updateLoop processL fuel i q (f, l) = .ok ((f', l'), q') →
      ∃ rs, l.addAll clk rs = .ok l' ∧ Q rs ∧ (rs = [] →
        ∀ g : α → F → Res F, (∀ m f f', J m → U m f f' → g m f = .ok f') →
          updateLoop g fuel i q f = .ok (f', q')) := by
  intro fuel
  induction fuel with
  | zero =>
    intro i q q' f f' l l' _ h
    simp only [updateLoop] at h
    injection h with h
    injection h with h1 h2
    injection h1 with h1 h3
    subst h1; subst h2; subst h3
    exact ⟨[], rfl, hQ0, fun _ g _ => rfl⟩
  | succ fuel ih =>
    intro i q q' f f' l l' hq h
    simp only [updateLoop] at h
    by_cases hi : i < q.size
    · rw [if_pos hi] at h
      simp only [bind, Except.bind] at h
      cases hpop : q.pop with
      | error e => rw [hpop] at h; cases h
      | ok r =>
        rw [hpop] at h
        simp only at h
        obtain ⟨hm1, hm2⟩ := pop_mem hpop
        cases hf : processL r.1 (f, l) with
        | error e => rw [hf] at h; cases h
        | ok w =>
          obtain ⟨f1, l1⟩ := w
          rw [hf] at h
          simp only at h
          obtain ⟨rs1, a1, q1, u1⟩ := hp _ _ _ _ _ (hq _ hm1) hf
          obtain ⟨rs2, a2, q2, u2⟩ := ih _ _ _ _ _ _ _ (fun m hm => hq m (hm2 m hm)) h
          refine ⟨rs1 ++ rs2, Log.addAll_append a1 a2, hQ _ _ q1 q2, ?_⟩
          intro h0 g hg
          obtain ⟨h01, h02⟩ := List.append_eq_nil_iff.1 h0
          simp only [updateLoop, if_pos hi, hpop, bind, Except.bind, hg _ _ _ (hq _ hm1) (u1 h01)]
          exact u2 h02 g hg
    · rw [if_neg hi] at h
      injection h with h
      injection h with h1 h2
      injection h1 with h1 h3
      subst h1; subst h2; subst h3
      exact ⟨[], rfl, hQ0, fun _ g _ => by simp only [updateLoop, if_neg hi]⟩

section Tick
variable {N : ℕ} (fmt : Fmt) (hN : 0 < N) (tf : Tf2) (p : EkfParams)

/-- The requests made for a message, in the order of the code. -/
def AskedFor (fmt : Fmt) (frame expected : List Char) (now stamp : ℤ) (rs : List Request) : Prop :=
  ∃ rest, rs = (if frame ≠ expected then [frameIdWarning frame expected] else []) ++
    (if now < stamp then [delayTimeWarning fmt (((now - stamp : ℤ) : ℝ) / 1000000000)] else []) ++ rest ∧
    (rest = [] ∨ (∃ δ, rest = [delayStepWarning fmt δ N]) ∨ rest = [nanInfWarning] ∨
      rest = [mahalanobisGateWarning] ∨ rest = [.always "The kalman gain contains nan or inf".toList])

theorem processPose_addAll {clk : ℕ → ℤ} {sing : PoseMsg → Bool} {now : ℤ} {dt : ℝ} {m : PoseMsg}
    {f f' : TimeDelayKalmanFilter ℝ N 6} {l l' : Log}
    (h : processPoseLogged fmt clk hN tf sing p now dt m (f, l) = .ok (f', l')) :
    ∃ rs, l.addAll clk rs = .ok l' ∧ AskedFor (N := N) fmt m.frame p.poseFrame now m.stamp rs ∧
      (rs = [] → UsedPose tf p now dt m f f') := by
  unfold processPoseLogged at h
  obtain ⟨δ, rest, hd, ha, hc⟩ := processLogged_addAll _ _ _ _ _ _ _ _ _ _ _ _ _ _ _ h
  refine ⟨_, ha, ⟨rest, rfl, ?_⟩, ?_⟩
  · rcases hc with ⟨h, -⟩ | ⟨r, rfl, -, hr⟩
    · exact Or.inl h
    · cases hr
      · exact Or.inr (Or.inl ⟨δ, rfl⟩)
      · exact Or.inr (Or.inr (Or.inl rfl))
      · exact Or.inr (Or.inr (Or.inr (Or.inl rfl)))
      · exact Or.inr (Or.inr (Or.inr (Or.inr rfl)))
  · intro h0
    obtain ⟨h01, h02⟩ := List.append_eq_nil_iff.1 h0
    obtain ⟨h03, h04⟩ := List.append_eq_nil_iff.1 h01
    rcases hc with ⟨-, hu⟩ | ⟨r, rfl, -⟩
    · refine ⟨?_, ?_, δ, hd, hu⟩
      · by_contra hne
        rw [if_pos hne] at h03
        cases h03
      · by_contra hlt
        rw [if_pos (not_le.1 hlt)] at h04
        cases h04
    · cases h02

theorem processTwist_addAll {clk : ℕ → ℤ} {sing : TwistMsg → Bool} {now : ℤ} {dt : ℝ} {m : TwistMsg}
    {f f' : TimeDelayKalmanFilter ℝ N 6} {l l' : Log}
    (h : processTwistLogged fmt clk hN sing p now dt m (f, l) = .ok (f', l')) :
    ∃ rs, l.addAll clk rs = .ok l' ∧ AskedFor (N := N) fmt m.frame "base_link".toList now m.stamp rs ∧
      (rs = [] → UsedTwist p now dt m f f') := by
  unfold processTwistLogged at h
  obtain ⟨δ, rest, hd, ha, hc⟩ := processLogged_addAll _ _ _ _ _ _ _ _ _ _ _ _ _ _ _ h
  refine ⟨_, ha, ⟨rest, rfl, ?_⟩, ?_⟩
  · rcases hc with ⟨h, -⟩ | ⟨r, rfl, -, hr⟩
    · exact Or.inl h
    · cases hr
      · exact Or.inr (Or.inl ⟨δ, rfl⟩)
      · exact Or.inr (Or.inr (Or.inl rfl))
      · exact Or.inr (Or.inr (Or.inr (Or.inl rfl)))
      · exact Or.inr (Or.inr (Or.inr (Or.inr rfl)))
  · intro h0
    obtain ⟨h01, h02⟩ := List.append_eq_nil_iff.1 h0
    obtain ⟨h03, h04⟩ := List.append_eq_nil_iff.1 h01
    rcases hc with ⟨-, hu⟩ | ⟨r, rfl, -⟩
    · refine ⟨?_, ?_, δ, hd, hu⟩
      · by_contra hne
        rw [if_pos hne] at h03
        cases h03
      · by_contra hlt
        rw [if_pos (not_le.1 hlt)] at h04
        cases h04
    · cases h02

/-- The requests of a tick, and what it means if there are none. -/
theorem timerLogged_addAll {clk : ℕ → ℤ} {s s' : NodeState N} {l l' : Log} {o : List Output}
    {t1 t2 t3 t4 t5 : ℤ} {sp : PoseMsg → Bool} {st : TwistMsg → Bool}
    (Q : List Request → Prop) (hQ0 : Q []) (hQ : ∀ a b, Q a → Q b → Q (a ++ b))
    (hQj : ∀ a b, s.interval.lastTime = some b → Q [jumpBackWarning fmt a b])
    (hQp : ∀ m ∈ s.poseQ.msgs, ∀ rs, AskedFor (N := N) fmt m.frame p.poseFrame t2 m.stamp rs → Q rs)
    (hQt : ∀ m ∈ s.twistQ.msgs, ∀ rs, AskedFor (N := N) fmt m.frame "base_link".toList t3 m.stamp rs → Q rs)
    (h : timerLogged fmt clk hN tf p s l t1 t2 t3 t4 t5 sp st = .ok (s', o, l')) :
    ∃ rs, l.addAll clk rs = .ok l' ∧ Q rs ∧ (rs = [] → ∀ f, s.ekf = some f →
      ∃ dt f1 f2, (s.interval.compute ((t1 : ℝ) / 1000000000)).1 = .ok dt ∧ s'.ekf = some f2 ∧
        (∀ g : PoseMsg → TimeDelayKalmanFilter ℝ N 6 → Res (TimeDelayKalmanFilter ℝ N 6),
          (∀ m f f', m ∈ s.poseQ.msgs → UsedPose tf p t2 dt m f f' → g m f = .ok f') →
          updateAll g s.poseQ (predictStep hN p dt f) = .ok (f1, s'.poseQ)) ∧
        (∀ g : TwistMsg → TimeDelayKalmanFilter ℝ N 6 → Res (TimeDelayKalmanFilter ℝ N 6),
          (∀ m f f', m ∈ s.twistQ.msgs → UsedTwist p t3 dt m f f' → g m f = .ok f') →
          updateAll g s.twistQ f1 = .ok (f2, s'.twistQ))) := by
  simp only [timerLogged] at h
  cases hekf : s.ekf with
  | none =>
    rw [hekf] at h
    simp only [Except.ok.injEq, Prod.mk.injEq] at h
    refine ⟨[], by rw [← h.2.2]; rfl, hQ0, fun _ f hf => by cases hf⟩
  | some f =>
    rw [hekf] at h
    simp only at h
    rcases hc : s.interval.compute ((t1 : ℝ) / 1000000000) with ⟨r, iv⟩
    rw [hc] at h
    cases r with
    | error x =>
      cases x with
      | invalidArgument =>
        simp only [bind, Except.bind] at h
        split at h
        · rename_i last hl
          split at h
          · simp only [reduceCtorEq] at h
          · rename_i l1 ha
            simp only [Except.ok.injEq, Prod.mk.injEq] at h
            have hne : ([jumpBackWarning fmt ((t1 : ℝ) / 1000000000) last] : List Request) ≠ [] :=
              List.cons_ne_nil _ _
            refine ⟨_, ?_, hQj ((t1 : ℝ) / 1000000000) last hl, fun h0 => absurd h0 hne⟩
            rw [← h.2.2]
            exact Log.addAll_one ha
        · rename_i hl
          simp only [UpdateInterval.compute, hl, Prod.mk.injEq, reduceCtorEq, false_and] at hc
      | _ => simp only [reduceCtorEq] at h
    | ok dt =>
      simp only [bind, Except.bind, updateAll] at h
      cases u1 : updateLoop (processPoseLogged fmt clk hN tf sp p t2 dt) s.poseQ.size 0 s.poseQ
          (predictStep hN p dt f, l) with
      | error x => rw [u1] at h; simp only [reduceCtorEq] at h
      | ok r1 =>
        obtain ⟨⟨f1, l1⟩, q1⟩ := r1
        rw [u1] at h
        simp only at h
        cases u2 : updateLoop (processTwistLogged fmt clk hN st p t3 dt) s.twistQ.size 0 s.twistQ
            (f1, l1) with
        | error x => rw [u2] at h; simp only [reduceCtorEq] at h
        | ok r2 =>
          obtain ⟨⟨f2, l2⟩, q2⟩ := r2
          rw [u2] at h
          simp only [pure, Except.pure, Except.ok.injEq, Prod.mk.injEq] at h
          obtain ⟨hs', -, hl'⟩ := h
          obtain ⟨rs1, a1, qq1, g1⟩ := updateLoop_addAll clk (processPoseLogged fmt clk hN tf sp p t2 dt)
            (UsedPose tf p t2 dt) Q (fun m => m ∈ s.poseQ.msgs) hQ0 hQ
            (fun m f l f' l' hm hh => by
              obtain ⟨rs, ha, hA, hu⟩ := processPose_addAll fmt hN tf p hh
              exact ⟨rs, ha, hQp m hm rs hA, hu⟩) _ _ _ _ _ _ _ _ (fun m hm => hm) u1
          obtain ⟨rs2, a2, qq2, g2⟩ := updateLoop_addAll clk (processTwistLogged fmt clk hN st p t3 dt)
            (UsedTwist p t3 dt) Q (fun m => m ∈ s.twistQ.msgs) hQ0 hQ
            (fun m f l f' l' hm hh => by
              obtain ⟨rs, ha, hA, hu⟩ := processTwist_addAll fmt hN p hh
              exact ⟨rs, ha, hQt m hm rs hA, hu⟩) _ _ _ _ _ _ _ _ (fun m hm => hm) u2
          refine ⟨rs1 ++ rs2, ?_, hQ _ _ qq1 qq2, ?_⟩
          · rw [← hl']
            exact Log.addAll_append a1 a2
          · intro h0 f' hf'
            obtain ⟨h01, h02⟩ := List.append_eq_nil_iff.1 h0
            injection hf' with hf'
            subst hf'
            refine ⟨dt, f1, f2, rfl, ?_, ?_, ?_⟩
            · rw [← hs']
            · rw [← hs']
              exact g1 h01
            · rw [← hs']
              exact g2 h02

/-- C119, for the node: a tick that asks for no warning has measured its interval and has used every
message that it took from the queues, at face value. -/
theorem C119_silent {clk : ℕ → ℤ} {s s' : NodeState N} {t : Throttle} {l : Log} {o : List Output}
    {t1 t2 t3 t4 t5 : ℤ} {sp : PoseMsg → Bool} {st : TwistMsg → Bool}
    {f : TimeDelayKalmanFilter ℝ N 6} (hf : s.ekf = some f)
    (h : stepLogged fmt clk hN tf p s t (.timer t1 t2 t3 t4 t5 sp st) = .ok (s', o, l))
    (hl : l.entries = []) :
    ∃ dt f1 f2, (s.interval.compute ((t1 : ℝ) / 1000000000)).1 = .ok dt ∧ s'.ekf = some f2 ∧
      (∀ g : PoseMsg → TimeDelayKalmanFilter ℝ N 6 → Res (TimeDelayKalmanFilter ℝ N 6),
        (∀ m f f', m ∈ s.poseQ.msgs → UsedPose tf p t2 dt m f f' → g m f = .ok f') →
        updateAll g s.poseQ (predictStep hN p dt f) = .ok (f1, s'.poseQ)) ∧
      (∀ g : TwistMsg → TimeDelayKalmanFilter ℝ N 6 → Res (TimeDelayKalmanFilter ℝ N 6),
        (∀ m f f', m ∈ s.twistQ.msgs → UsedTwist p t3 dt m f f' → g m f = .ok f') →
        updateAll g s.twistQ f1 = .ok (f2, s'.twistQ)) := by
  simp only [stepLogged] at h
  obtain ⟨rs, ha, -, hu⟩ := timerLogged_addAll fmt hN tf p (fun _ => True) trivial (fun _ _ _ _ => trivial)
    (fun _ _ _ => trivial) (fun _ _ _ _ => trivial) (fun _ _ _ _ => trivial) h
  have h0 := Log.addAll_asked ha
  simp only [Log.asked, hl, List.map_nil, List.nil_append] at h0
  exact hu h0.symm f hf

end Tick

/-! Non-vacuity. -/

/-- A measurement that a filter without uncertainty uses. -/
example : ∃ f' : TimeDelayKalmanFilter ℝ 1 6, UsedAt (N := 1) poseMeasurementMatrix (fun _ => some 1) 1 0 ⟨0, 0⟩ f' := by
  have h : ∃ f', (⟨0, 0⟩ : TimeDelayKalmanFilter ℝ 1 6).update (fun _ => 1) poseMeasurementMatrix 1 0 = .ok f' := by
    simp [TimeDelayKalmanFilter.update, calcKalmanGain]
  obtain ⟨f', h⟩ := h
  exact ⟨f', by norm_num, fun _ => 1, fun _ => rfl, h⟩

/-- A pose with a position that is not finite is reported as such. -/
example (f : TimeDelayKalmanFilter ℝ 1 6) : ∃ l', processPoseLogged zeroFmt (fun _ => 0) Nat.one_pos flatTf
      (fun _ => true) defaultParams 0 (1 / 50) { poseAt 0 0 with px := none } (f, ⟨Throttle.init, 0, []⟩) =
      .ok (f, l') ∧ l'.asked = [nanInfWarning] := by
  have hd : computeDelayStep ((((0 : ℤ) - 0 : ℤ) : ℝ) / 1000000000) (1 / 50) = .ok 0 := by
    norm_num [computeDelayStep, roundHalfAway]
  have hd' : computeDelayStep (computeDelayTime 0 0 : ℝ) (1 / 50) = .ok 0 := hd
  have hy : allFinite (poseMeasurementVector flatTf { poseAt 0 0 with px := none }) = none := by
    unfold allFinite
    rw [dif_neg]
    intro h
    have := h 0
    simp [poseMeasurementVector] at this
  have h1 : (⟨Throttle.init, 0, []⟩ : Log).add (fun _ => 0) nanInfWarning = .ok ⟨Throttle.init, 0,
      [⟨nanInfWarning, none, some "[EKF] The measurement matrix includes NaN or Inf.".toList⟩]⟩ := by
    simp only [Log.add, nanInfWarning]
    rw [printf_plain (by simp [Plain])]
    rfl
  refine ⟨⟨Throttle.init, 0, [⟨nanInfWarning, none,
    some "[EKF] The measurement matrix includes NaN or Inf.".toList⟩]⟩, ?_, rfl⟩
  unfold processPoseLogged processLogged
  simp only [Log.addIf, bind, Except.bind, poseAt, defaultParams] at hy ⊢
  simp only [ne_eq, not_true_eq_false, decide_false, Bool.false_eq_true, if_false, lt_self_iff_false, hd',
    hy, h1, checkDelayStep]
  rfl

/-- A tick with empty queues asks for nothing. -/
example : ∃ r : NodeState 1 × List Output × List Log, runLogged zeroFmt Nat.one_pos flatTf defaultParams
      (NodeState.make 1 defaultParams) Throttle.init
      [(.initialPose (poseAt 10 0) identityTries, fun _ => 0),
        (.timer 0 0 0 0 0 (fun _ => true) (fun _ => true), fun _ => 0)] = .ok r ∧
    r.2.1.length = 2 ∧ r.2.2.map Log.entries = [[], []] := ⟨_, rfl, rfl, rfl⟩

end Verif.Ekf
