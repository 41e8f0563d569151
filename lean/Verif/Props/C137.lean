/-
C137: arguments of sizes that do not fit are refused by the Kalman filters, and never calculated with; but for
the prediction of the filter with delay, which takes a state of another dimension.
-/
import Verif.Lemmas.Dynamic
import Mathlib.Tactic.NormNum
import Mathlib.Tactic.FinCases

set_option autoImplicit false

namespace Verif.Dyn

open Matrix Verif.Kalman

variable {K : Type} [Field K] [DecidableEq K]

/-! ## The plain filter -/

omit [Field K] [DecidableEq K] in
/-- C137: the constructor refuses empty arguments, and nothing else. -/
theorem C137_plain_constructor (x : Vec K) (A B C Q R P : Mat K) :
    ((0 < x.rows ∧ (0 < P.rows ∧ 0 < P.cols) ∧ (0 < A.rows ∧ 0 < A.cols) ∧ (0 < B.rows ∧ 0 < B.cols) ∧
        (0 < C.rows ∧ 0 < C.cols) ∧ (0 < Q.rows ∧ 0 < Q.cols) ∧ (0 < R.rows ∧ 0 < R.cols)) →
      KalmanFilter.make x A B C Q R P = .ok ⟨x, P, A, B, C, Q, R⟩) ∧
    (¬ (0 < x.rows ∧ (0 < P.rows ∧ 0 < P.cols) ∧ (0 < A.rows ∧ 0 < A.cols) ∧ (0 < B.rows ∧ 0 < B.cols) ∧
        (0 < C.rows ∧ 0 < C.cols) ∧ (0 < Q.rows ∧ 0 < Q.cols) ∧ (0 < R.rows ∧ 0 < R.cols)) →
      KalmanFilter.make x A B C Q R P = .error .assertFail) := by
  have hz (M : Mat K) : (!hasZeroElements M) = decide (0 < M.rows ∧ 0 < M.cols) := by
    rw [Bool.eq_iff_iff]
    simp only [hasZeroElements, Bool.not_eq_true', beq_eq_false_iff_ne, ne_eq, Nat.mul_eq_zero, not_or,
      decide_eq_true_eq]
    omega
  have hx : (!hasZeroElementsVec x) = decide (0 < x.rows) := by
    rw [Bool.eq_iff_iff]
    simp only [hasZeroElementsVec, Bool.not_eq_true', beq_eq_false_iff_ne, ne_eq, decide_eq_true_eq]
    omega
  constructor
  · rintro ⟨h0, h1, h2, h3, h4, h5, h6⟩
    simp only [KalmanFilter.make, hx, hz, h0, h1, h2, h3, h4, h5, h6, and_self, decide_true, check_true, bind, Except.bind, pure, Except.pure]
  · intro hn
    have ho : OnlyAssert (KalmanFilter.make x A B C Q R P) := by
      unfold KalmanFilter.make
      repeat' first
        | exact onlyAssert_check _
        | exact onlyAssert_ok _
        | refine onlyAssert_bind ?_ fun _ => ?_
    cases hr : KalmanFilter.make x A B C Q R P with
    | error e => rw [ho e hr]
    | ok f =>
      refine absurd ?_ hn
      unfold KalmanFilter.make at hr
      simp only [hx, hz] at hr
      obtain ⟨_, h0, hr⟩ := bind_ok hr
      obtain ⟨_, h1, hr⟩ := bind_ok hr
      obtain ⟨_, h2, hr⟩ := bind_ok hr
      obtain ⟨_, h3, hr⟩ := bind_ok hr
      obtain ⟨_, h4, hr⟩ := bind_ok hr
      obtain ⟨_, h5, hr⟩ := bind_ok hr
      obtain ⟨_, h6, hr⟩ := bind_ok hr
      exact ⟨of_decide_eq_true (check_ok h0), of_decide_eq_true (check_ok h1),
        of_decide_eq_true (check_ok h2), of_decide_eq_true (check_ok h3),
        of_decide_eq_true (check_ok h4), of_decide_eq_true (check_ok h5),
        of_decide_eq_true (check_ok h6)⟩

omit [Field K] [DecidableEq K] in
/-- C137: `init` refuses an empty state and an empty covariance, and nothing else; it sets these two. -/
theorem C137_plain_init (f : KalmanFilter K) (x : Vec K) (P0 : Mat K) :
    ((0 < x.rows ∧ 0 < P0.rows ∧ 0 < P0.cols) → f.init x P0 = .ok ⟨x, P0, f.A, f.B, f.C, f.Q, f.R⟩) ∧
    (¬ (0 < x.rows ∧ 0 < P0.rows ∧ 0 < P0.cols) → f.init x P0 = .error .assertFail) := by
  have hz : (!hasZeroElements P0) = decide (0 < P0.rows ∧ 0 < P0.cols) := by
    rw [Bool.eq_iff_iff]
    simp only [hasZeroElements, Bool.not_eq_true', beq_eq_false_iff_ne, ne_eq, Nat.mul_eq_zero, not_or,
      decide_eq_true_eq]
    omega
  have hx : (!hasZeroElementsVec x) = decide (0 < x.rows) := by
    rw [Bool.eq_iff_iff]
    simp only [hasZeroElementsVec, Bool.not_eq_true', beq_eq_false_iff_ne, ne_eq, decide_eq_true_eq]
    omega
  simp only [KalmanFilter.init, hx, hz, check, bind, Except.bind, pure, Except.pure]
  by_cases h0 : 0 < x.rows <;> by_cases h1 : 0 < P0.rows <;> by_cases h2 : 0 < P0.cols <;> simp [h0, h1, h2]

/-- The sizes a prediction of the plain filter needs: the transition `A` is `k × n` for a state of dimension
`n`, the input matrix `B` is `k × p` for an input of dimension `p`, the noise `Q` is `k × k`. -/
def PredictFits (x u : Vec K) (P A B Q : Mat K) : Prop :=
  (P.rows = x.rows ∧ P.cols = x.rows) ∧ A.cols = x.rows ∧
  (B.rows = A.rows ∧ B.cols = u.rows) ∧ (Q.rows = A.rows ∧ Q.cols = A.rows)

omit [DecidableEq K] in
/-- C137: a prediction with sizes that do not fit is refused. -/
theorem C137_plain_predict_refused (f : KalmanFilter K) (u : Vec K) (A B Q : Mat K)
    (h : ¬ PredictFits f.x u f.P A B Q) : f.predictWith u A B Q = .error .assertFail := by
  have ho : OnlyAssert (f.predictWith u A B Q) := by
    unfold KalmanFilter.predictWith predictNextState predictNextCovariance
    repeat' first
      | exact onlyAssert_check _
      | exact onlyAssert_mul _ _
      | exact onlyAssert_mulVec _ _
      | exact onlyAssert_add _ _
      | exact onlyAssert_add_vec _ _
      | exact onlyAssert_ok _
      | refine onlyAssert_bind ?_ fun _ => ?_
  cases hr : f.predictWith u A B Q with
  | error e => rw [ho e hr]
  | ok f' =>
    refine absurd ?_ h
    unfold KalmanFilter.predictWith predictNextState predictNextCovariance at hr
    obtain ⟨_, h1, hr⟩ := bind_ok hr
    obtain ⟨_, h2, hr⟩ := bind_ok hr
    obtain ⟨_, h3, hr⟩ := bind_ok hr
    obtain ⟨_, h4, hr⟩ := bind_ok hr
    obtain ⟨_, h5, hr⟩ := bind_ok hr
    obtain ⟨_, h6, hr⟩ := bind_ok hr
    obtain ⟨_, h7, hr⟩ := bind_ok hr
    obtain ⟨_, h8, h6⟩ := bind_ok h6
    obtain ⟨_, h9, h6⟩ := bind_ok h6
    obtain ⟨_, h10, h7⟩ := bind_ok h7
    obtain ⟨_, h11, h7⟩ := bind_ok h7
    have e1 := check_ok h1
    have e2 := check_ok h2
    have e3 := check_ok h3
    have e4 := check_ok h4
    have e5 := check_ok h5
    simp only [beq_iff_eq] at e1 e2 e3 e4 e5
    have e8 := mulVec_ok h8
    have e9 := mulVec_ok h9
    have e10 := mul_ok h10
    have e11 := mul_ok h11
    have e6 := add_vec_ok h6
    simp only [Mat.transpose] at e11
    unfold PredictFits
    omega

omit [DecidableEq K] in
/-- C137: with sizes that fit the prediction is `A x + B u` with covariance `A P Aᵀ + Q`. -/
theorem C137_plain_predict {k n p : ℕ} (f : KalmanFilter K) (x : Fin n → K) (P : Matrix (Fin n) (Fin n) K)
    (hx : f.x = ⟨n, x⟩) (hP : f.P = ⟨n, n, P⟩) (u : Fin p → K) (A : Matrix (Fin k) (Fin n) K)
    (B : Matrix (Fin k) (Fin p) K) (Q : Matrix (Fin k) (Fin k) K) :
    f.predictWith ⟨p, u⟩ ⟨k, n, A⟩ ⟨k, p, B⟩ ⟨k, k, Q⟩ =
      .ok { f with
        x := ⟨k, A *ᵥ x + B *ᵥ u⟩
        P := ⟨k, k, A * P * Aᵀ + Q⟩ } := by
  unfold KalmanFilter.predictWith predictNextState predictNextCovariance
  simp only [hx, hP, BEq.rfl, check_true, bind, Except.bind, mulVec_fit, mul_fit, Mat.transpose, add_fit,
    add_vec_fit, pure, Except.pure]

omit [DecidableEq K] in
/-- C137: arguments fit exactly if they are of the sizes of the theorem before. -/
theorem C137_plain_predict_accepted (f : KalmanFilter K) (u : Vec K) (A B Q : Mat K) :
    (∃ f', f.predictWith u A B Q = .ok f') ↔ PredictFits f.x u f.P A B Q := by
  constructor
  · rintro ⟨f', h⟩
    by_contra hn
    rw [C137_plain_predict_refused f u A B Q hn] at h
    simp only [reduceCtorEq] at h
  · rintro ⟨⟨h1, h2⟩, h3, ⟨h4, h5⟩, h6, h7⟩
    obtain ⟨⟨n, x⟩, ⟨r, c, P⟩, A0, B0, C0, Q0, R0⟩ := f
    obtain ⟨p, u⟩ := u
    obtain ⟨k, ca, A⟩ := A
    obtain ⟨rb, cb, B⟩ := B
    obtain ⟨rq, cq, Q⟩ := Q
    simp only at h1 h2 h3 h4 h5 h6 h7
    subst h1 h2 h3 h4 h5 h6 h7
    exact ⟨_, C137_plain_predict _ x P rfl rfl u A B Q⟩

omit [DecidableEq K] in
/-- C137: a transition matrix of the filter that is not square can be used only once: predictions with the
filter's own matrices that follow each other are accepted only if every size fits. -/
theorem C137_plain_twice (f f1 f2 : KalmanFilter K) (u1 u2 : Vec K) (h1 : f.predict u1 = .ok f1)
    (h2 : f1.predict u2 = .ok f2) :
    f.A.rows = f.x.rows ∧ f.A.cols = f.x.rows ∧ f.P.rows = f.x.rows ∧ f.P.cols = f.x.rows ∧
    f.B.rows = f.x.rows ∧ f.B.cols = u1.rows ∧ u2.rows = u1.rows ∧ f.Q.rows = f.x.rows ∧
    f.Q.cols = f.x.rows ∧ f2.x.rows = f.x.rows := by
  have key (g g' : KalmanFilter K) (v : Vec K) (h : g.predict v = .ok g') :
      PredictFits g.x v g.P g.A g.B g.Q ∧ g'.A = g.A ∧ g'.B = g.B ∧ g'.Q = g.Q ∧ g'.x.rows = g.A.rows := by
    have hfit := (C137_plain_predict_accepted g v g.A g.B g.Q).1 ⟨g', h⟩
    refine ⟨hfit, ?_⟩
    unfold KalmanFilter.predict KalmanFilter.predictWith at h
    obtain ⟨_, _, h⟩ := bind_ok h
    obtain ⟨_, _, h⟩ := bind_ok h
    obtain ⟨_, _, h⟩ := bind_ok h
    obtain ⟨_, _, h⟩ := bind_ok h
    obtain ⟨_, _, h⟩ := bind_ok h
    obtain ⟨x', hx, h⟩ := bind_ok h
    obtain ⟨_, _, h⟩ := bind_ok h
    injection h with h
    subst h
    refine ⟨rfl, rfl, rfl, ?_⟩
    unfold predictNextState at hx
    obtain ⟨_, ha, hx⟩ := bind_ok hx
    obtain ⟨_, _, hx⟩ := bind_ok hx
    have := add_vec_ok hx
    have := mulVec_ok ha
    simp only
    omega
  obtain ⟨p1, a1, b1, q1, r1⟩ := key f f1 u1 h1
  obtain ⟨p2, a2, b2, q2, r2⟩ := key f1 f2 u2 h2
  unfold PredictFits at p1 p2
  rw [a1, b1, q1] at p2
  rw [a1] at r2
  omega

/-- The sizes an update of the plain filter needs: `C` is `m × n` for a state of dimension `n`, the noise `R`
is `m × m` and the measurement is of dimension `m`. -/
def UpdateFits (x y : Vec K) (P C R : Mat K) : Prop :=
  (P.rows = x.rows ∧ P.cols = x.rows) ∧ C.cols = x.rows ∧ (R.rows = C.rows ∧ R.cols = C.rows) ∧
  y.rows = C.rows

theorem calcKalmanGain_ok {P C R : Mat K} {G : Mat K} (h : calcKalmanGain P C R = .ok (some G)) :
    P.cols = C.cols ∧ C.cols = P.rows ∧ R.rows = C.rows ∧ R.cols = C.rows ∧ G.rows = P.rows ∧
      G.cols = C.rows := by
  unfold calcKalmanGain at h
  obtain ⟨PCT, h1, h⟩ := bind_ok h
  obtain ⟨D, h2, h⟩ := bind_ok h
  obtain ⟨S, h3, h⟩ := bind_ok h
  split_ifs at h with hs
  simp only at h
  split_ifs at h
  · obtain ⟨_, _, h⟩ := bind_ok h
    simp only [Except.ok.injEq, reduceCtorEq] at h
  · obtain ⟨G', h4, h⟩ := bind_ok h
    simp only [Except.ok.injEq, Option.some.injEq] at h
    subst h
    have e1 := mul_ok h1
    have e2 := mul_ok h2
    have e3 := add_ok h3
    have e4 := mul_ok h4
    simp only [Mat.transpose] at e1 e4
    omega

theorem gain_fit {n m : ℕ} (P : Matrix (Fin n) (Fin n) K) (C : Matrix (Fin m) (Fin n) K)
    (R : Matrix (Fin m) (Fin m) K) : calcKalmanGain ⟨n, n, P⟩ ⟨m, n, C⟩ ⟨m, m, R⟩ =
      .ok ((Kalman.calcKalmanGain P C R).map fun G => ⟨n, m, G⟩) := by
  unfold calcKalmanGain Kalman.calcKalmanGain
  simp only [Mat.transpose, mul_fit, add_fit, bind, Except.bind, dif_pos]
  by_cases hd : (R + C * (P * Cᵀ)).det = 0
  · rw [if_pos hd]
    have : ((R + C * (P * Cᵀ)).submatrix id (Fin.cast rfl)).det = 0 := hd
    rw [if_pos this]
    rfl
  · rw [if_neg hd]
    have : ¬ ((R + C * (P * Cᵀ)).submatrix id (Fin.cast rfl)).det = 0 := hd
    rw [if_neg this]
    rfl

/-- C137: an update with sizes that do not fit is refused. -/
theorem C137_plain_update_refused (f : KalmanFilter K) (y : Vec K)
    (h : ¬ UpdateFits f.x y f.P f.C f.R) : ∀ f', f.update y ≠ .ok f' := by
  intro f' hr
  refine h ?_
  unfold KalmanFilter.update at hr
  obtain ⟨G, hg, hr⟩ := bind_ok hr
  cases G with
  | none => simp only [reduceCtorEq] at hr
  | some G =>
    simp only at hr
    have eg := calcKalmanGain_ok hg
    obtain ⟨_, h1, hr⟩ := bind_ok hr
    unfold updateState at h1
    obtain ⟨_, h2, h1⟩ := bind_ok h1
    obtain ⟨_, h3, h1⟩ := bind_ok h1
    obtain ⟨_, h4, h1⟩ := bind_ok h1
    have e2 := mulVec_ok h2
    have e3 := sub_vec_ok h3
    have e4 := mulVec_ok h4
    have e1 := add_vec_ok h1
    unfold UpdateFits
    omega

/-- The plain filter of `Model/Kalman`, in which the sizes agree by typing, as a filter of this model. -/
def ofPlain {n m p : ℕ} (f : Kalman.KalmanFilter K n m p) : KalmanFilter K where
  x := ⟨n, f.x⟩
  P := ⟨n, n, f.P⟩
  A := ⟨n, n, f.A⟩
  B := ⟨n, p, f.B⟩
  C := ⟨m, n, f.C⟩
  Q := ⟨n, n, f.Q⟩
  R := ⟨m, m, f.R⟩

/-- C137: with sizes that fit the filter is the one of the other properties: predictions, updates and their
exceptions are the same. -/
theorem C137_plain_same {n m p : ℕ} (f : Kalman.KalmanFilter K n m p) (u : Fin p → K)
    (A : Matrix (Fin n) (Fin n) K) (B : Matrix (Fin n) (Fin p) K) (Q : Matrix (Fin n) (Fin n) K)
    (y : Fin m → K) :
    (ofPlain f).predictWith ⟨p, u⟩ ⟨n, n, A⟩ ⟨n, p, B⟩ ⟨n, n, Q⟩ = .ok (ofPlain (f.predictWith u A B Q)) ∧
    (ofPlain f).predict ⟨p, u⟩ = .ok (ofPlain (f.predict u)) ∧
    (ofPlain f).update ⟨m, y⟩ = (f.update y).map ofPlain := by
  refine ⟨C137_plain_predict (ofPlain f) f.x f.P rfl rfl u A B Q,
    C137_plain_predict (ofPlain f) f.x f.P rfl rfl u f.A f.B f.Q, ?_⟩
  unfold KalmanFilter.update Kalman.KalmanFilter.update
  have hg : calcKalmanGain (ofPlain f).P (ofPlain f).C (ofPlain f).R = _ := gain_fit f.P f.C f.R
  rw [hg]
  cases Kalman.calcKalmanGain f.P f.C f.R with
  | none => rfl
  | some G =>
    simp only [Option.map_some, ofPlain, updateState, updateCovariance, mulVec_fit, sub_vec_fit, add_vec_fit,
      mul_fit, sub_fit, bind, Except.bind, pure, Except.pure, Except.map, Kalman.updateState,
      Kalman.updateCovariance]

/-! ## The filter with delay -/

/-- The filter of `Model/Kalman` with a history of `N` states of dimension `d`, as a filter of this model. -/
def ofDelay {N d : ℕ} (f : Kalman.TimeDelayKalmanFilter K N d) : TimeDelayKalmanFilter K where
  x := ⟨N * d, f.x⟩
  P := ⟨N * d, N * d, f.P⟩
  maxDelayStep := N
  dimX := d

omit [DecidableEq K] in
/-- C137: the constructor accepts a state, a square matrix of the state's size and a number of steps that is
not negative (for a state with entries), and makes the filter of the other properties. -/
theorem C137_delay_constructor {d : ℕ} (x : Fin d → K) (P : Matrix (Fin d) (Fin d) K) (N : ℕ) :
    TimeDelayKalmanFilter.make ⟨d, x⟩ ⟨d, d, P⟩ N =
      .ok (ofDelay (Kalman.TimeDelayKalmanFilter.make x P N)) := by
  have h : ¬ ((N : ℤ) * (d : ℤ) < 0) := not_lt.2 (mul_nonneg (Int.natCast_nonneg _) (Int.natCast_nonneg _))
  unfold TimeDelayKalmanFilter.make initX initP
  simp only [if_neg h, dif_pos, bind, Except.bind, BEq.rfl, check_true, pure, Except.pure]
  rfl

omit [DecidableEq K] in
/-- C137: and it refuses everything else. -/
theorem C137_delay_constructor_refused (x : Vec K) (P : Mat K) (N : ℤ)
    (h : ¬ (P.rows = x.rows ∧ P.cols = x.rows ∧ (0 < x.rows → 0 ≤ N))) :
    TimeDelayKalmanFilter.make x P N = .error .assertFail := by
  have ho : OnlyAssert (TimeDelayKalmanFilter.make x P N) := by
    unfold TimeDelayKalmanFilter.make
    refine onlyAssert_bind ?_ fun _ => onlyAssert_bind ?_ fun _ => onlyAssert_bind (onlyAssert_check _) fun _ =>
      onlyAssert_ok _
    · unfold initX
      split_ifs
      · exact onlyAssert_fail
      · exact onlyAssert_ok _
    · unfold initP
      split_ifs
      · exact onlyAssert_fail
      · exact onlyAssert_ok _
      · exact onlyAssert_fail
  cases hr : TimeDelayKalmanFilter.make x P N with
  | error e => rw [ho e hr]
  | ok f =>
    refine absurd ?_ h
    unfold TimeDelayKalmanFilter.make at hr
    obtain ⟨_, h1, hr⟩ := bind_ok hr
    obtain ⟨_, h2, hr⟩ := bind_ok hr
    obtain ⟨_, h3, hr⟩ := bind_ok hr
    have e3 := check_ok h3
    simp only [beq_iff_eq] at e3
    unfold initX at h1
    split_ifs at h1 with hn
    unfold initP at h2
    split_ifs at h2 with hs hn2
    refine ⟨e3.symm, by omega, fun hd => ?_⟩
    by_contra hneg
    exact hn (mul_neg_of_neg_of_pos (not_le.1 hneg) (by exact_mod_cast hd))

omit [Field K] [DecidableEq K] in
theorem updateX_fit {a b : ℕ} (hb : b ≤ a) (old : ℕ → K) (x : Fin a → K) (xNext : Fin b → K) :
    updateX old ⟨a, x⟩ ⟨b, xNext⟩ = .ok ⟨a, Kalman.updateX x xNext⟩ := by
  have hc : (a : ℤ) - (b : ℤ) = ((a - b : ℕ) : ℤ) := by omega
  unfold updateX
  simp only [hc]
  have h1 := assign_vec_fit (fun i : Fin a => old i) xNext 0 (by omega)
  have h2 := segment_fit x 0 (a - b) (by omega)
  rw [Nat.cast_zero] at h1 h2
  rw [h1, h2]
  simp only [bind, Except.bind]
  rw [assign_vec_fit _ _ b (by omega)]
  congr 2
  funext i
  unfold Kalman.updateX
  by_cases hi : i.val < b
  · rw [dif_pos hi, dif_neg (by omega), dif_pos ⟨Nat.zero_le _, by omega⟩]
    rfl
  · rw [dif_neg hi, dif_pos ⟨by omega, by omega⟩]
    congr 1
    exact Fin.ext (by simp)

omit [DecidableEq K] in
theorem updateP_fit {a b : ℕ} (hb : b ≤ a) (old : ℕ → ℕ → K) (P : Matrix (Fin a) (Fin a) K)
    (A Q : Matrix (Fin b) (Fin b) K) :
    updateP old ⟨a, a, P⟩ ⟨b, b, A⟩ ⟨b, b, Q⟩ = .ok ⟨a, a, Kalman.updateP hb P A Q⟩ := by
  have hc : (a : ℤ) - (b : ℤ) = ((a - b : ℕ) : ℤ) := by omega
  unfold updateP
  simp only [hc, BEq.rfl, check_true]
  have b1 := block_fit P 0 0 b b (by omega) (by omega)
  have b2 := block_fit P 0 0 b (a - b) (by omega) (by omega)
  have b3 := block_fit P 0 0 (a - b) b (by omega) (by omega)
  have b4 := block_fit P 0 0 (a - b) (a - b) (by omega) (by omega)
  rw [Nat.cast_zero] at b1 b2 b3 b4
  rw [b1, b2, b3, b4]
  simp only [bind, Except.bind, Mat.transpose, mul_fit, add_fit]
  have z (M : Matrix (Fin a) (Fin a) K) (B : Matrix (Fin b) (Fin b) K) :=
    assign_fit M 0 0 b b B (by omega) (by omega)
  have z1 (M : Matrix (Fin a) (Fin a) K) (B : Matrix (Fin b) (Fin (a - b)) K) :=
    assign_fit M 0 b b (a - b) B (by omega) (by omega)
  have z2 (M : Matrix (Fin a) (Fin a) K) (B : Matrix (Fin (a - b)) (Fin b) K) :=
    assign_fit M b 0 (a - b) b B (by omega) (by omega)
  have z3 (M : Matrix (Fin a) (Fin a) K) (B : Matrix (Fin (a - b)) (Fin (a - b)) K) :=
    assign_fit M b b (a - b) (a - b) B (by omega) (by omega)
  simp only [Nat.cast_zero] at z z1 z2
  rw [z]
  simp only
  rw [z1]
  simp only
  rw [z2]
  simp only
  rw [z3]
  congr 2
  funext i j
  unfold Kalman.updateP
  simp only [Matrix.of_apply, Nat.zero_add, Nat.sub_zero]
  split_ifs <;> first
    | rfl
    | (exfalso; omega)

omit [DecidableEq K] in
/-- C137: the prediction with a new state of any dimension `b` that the history has room for; nothing of the
memory in which the results are put together is left. -/
theorem C137_delay_predict {a b : ℕ} (hb : b ≤ a) (oldX : ℕ → K) (oldP : ℕ → ℕ → K)
    (f : TimeDelayKalmanFilter K) (x : Fin a → K) (P : Matrix (Fin a) (Fin a) K) (hx : f.x = ⟨a, x⟩)
    (hP : f.P = ⟨a, a, P⟩) (xNext : Fin b → K) (A Q : Matrix (Fin b) (Fin b) K) :
    f.predict oldX oldP ⟨b, xNext⟩ ⟨b, b, A⟩ ⟨b, b, Q⟩ =
      .ok { f with
        x := ⟨a, Kalman.updateX x xNext⟩
        P := ⟨a, a, Kalman.updateP hb P A Q⟩ } := by
  unfold TimeDelayKalmanFilter.predict
  simp only [hx, hP, BEq.rfl, check_true, updateX_fit hb, updateP_fit hb, bind, Except.bind, pure, Except.pure]

omit [DecidableEq K] in
/-- C137: what the prediction is asked to refuse: a matrix `A` that is not square, a `Q` or a new state not of
its size, a size the history has no room for. Missing: a size other than that of the state, see
`C137_delay_predict_violated`. -/
theorem C137_delay_predict_partial (oldX : ℕ → K) (oldP : ℕ → ℕ → K) (f : TimeDelayKalmanFilter K)
    (xNext : Vec K) (A Q : Mat K) (hsq : f.P.rows = f.x.rows ∧ f.P.cols = f.x.rows) :
    ((A.rows = xNext.rows ∧ A.cols = xNext.rows ∧ Q.rows = xNext.rows ∧ Q.cols = xNext.rows ∧
        xNext.rows ≤ f.x.rows) →
      ∃ f', f.predict oldX oldP xNext A Q = .ok f' ∧ f'.x.rows = f.x.rows ∧ f'.P.rows = f.x.rows ∧
        f'.P.cols = f.x.rows ∧ f'.maxDelayStep = f.maxDelayStep ∧ f'.dimX = f.dimX) ∧
    (¬ (A.rows = xNext.rows ∧ A.cols = xNext.rows ∧ Q.rows = xNext.rows ∧ Q.cols = xNext.rows ∧
        xNext.rows ≤ f.x.rows) →
      f.predict oldX oldP xNext A Q = .error .assertFail) := by
  constructor
  · rintro ⟨h1, h2, h3, h4, h5⟩
    obtain ⟨⟨a, x⟩, ⟨rp, cp, P⟩, N, d⟩ := f
    obtain ⟨b, xNext⟩ := xNext
    obtain ⟨ra, ca, A⟩ := A
    obtain ⟨rq, cq, Q⟩ := Q
    simp only at h1 h2 h3 h4 h5 hsq
    obtain ⟨hp1, hp2⟩ := hsq
    subst h1 h2 h3 h4 hp1 hp2
    exact ⟨_, C137_delay_predict h5 oldX oldP _ x P rfl rfl xNext A Q, rfl, rfl, rfl, rfl, rfl⟩
  · intro hn
    have ho : OnlyAssert (f.predict oldX oldP xNext A Q) := by
      unfold TimeDelayKalmanFilter.predict updateX updateP
      repeat' first
        | exact onlyAssert_check _
        | exact onlyAssert_mul _ _
        | exact onlyAssert_add _ _
        | exact onlyAssert_block _ _ _ _ _
        | exact onlyAssert_segment _ _ _
        | exact onlyAssert_assign_vec _ _ _ _
        | exact onlyAssert_assign _ _ _ _ _ _
        | exact onlyAssert_ok _
        | refine onlyAssert_bind ?_ fun _ => ?_
    cases hr : f.predict oldX oldP xNext A Q with
    | error e => rw [ho e hr]
    | ok f' =>
      refine absurd ?_ hn
      unfold TimeDelayKalmanFilter.predict at hr
      obtain ⟨_, h1, hr⟩ := bind_ok hr
      obtain ⟨_, h2, hr⟩ := bind_ok hr
      obtain ⟨_, h3, hr⟩ := bind_ok hr
      obtain ⟨_, h4, hr⟩ := bind_ok hr
      have e1 := check_ok h1
      have e2 := check_ok h2
      unfold updateX at h3
      obtain ⟨_, h5, _⟩ := bind_ok h3
      have e5 := assign_vec_ok h5
      simp only at e5
      unfold updateP at h4
      obtain ⟨_, h6, h4⟩ := bind_ok h4
      obtain ⟨_, h7, _⟩ := bind_ok h4
      have e6 := check_ok h6
      have e7 := check_ok h7
      simp only [beq_iff_eq] at e1 e2 e6 e7
      omega

omit [DecidableEq K] in
/-- C137 does not hold for the dimension of the prediction: for every filter size with at least two steps and
every dimension `b` that the history has room for other than that of the state, there are a filter and
arguments of dimension `b` that are accepted although the state has another dimension, and then the state
of one step before is not what had been the latest state. -/
theorem C137_delay_predict_violated (N d b : ℕ) (hN : 2 ≤ N) (hd : 0 < d) (hb : b ≤ N * d) (hbd : b ≠ d) :
    ∃ (f f' : TimeDelayKalmanFilter K) (xNext : Fin b → K) (A Q : Matrix (Fin b) (Fin b) K) (v w : Vec K),
      f.maxDelayStep = N ∧ f.dimX = d ∧ f.x.rows = N * d ∧ f.P.rows = N * d ∧ f.P.cols = N * d ∧
      (∀ oldX oldP, f.predict oldX oldP ⟨b, xNext⟩ ⟨b, b, A⟩ ⟨b, b, Q⟩ = .ok f') ∧
      f.getLatestX = .ok v ∧ f'.getX 1 = .ok w ∧ v ≠ w := by
  have h2 : d + d ≤ N * d := by nlinarith
  have hseg (g : TimeDelayKalmanFilter K) (x : Fin (N * d) → K) (hg : g.x = ⟨N * d, x⟩) (hgd : g.dimX = d) :
      g.getLatestX = .ok ⟨d, fun k => x ⟨0 + k.val, by omega⟩⟩ ∧
      g.getX 1 = .ok ⟨d, fun k => x ⟨d + k.val, by omega⟩⟩ := by
    have s1 := segment_fit x 0 d (by omega)
    rw [Nat.cast_zero] at s1
    unfold TimeDelayKalmanFilter.getLatestX TimeDelayKalmanFilter.getX
    rw [hg, hgd, one_mul]
    exact ⟨s1, segment_fit x d d h2⟩
  let x : Fin (N * d) → K := fun i => if i.val = 0 ∧ b < d then 1 else 0
  let f : TimeDelayKalmanFilter K := ⟨⟨N * d, x⟩, ⟨N * d, N * d, 0⟩, N, d⟩
  let xNext : Fin b → K := fun _ => 1
  refine ⟨f, _, xNext, 0, 0, _, _, rfl, rfl, rfl, rfl, rfl,
    fun oldX oldP => C137_delay_predict hb oldX oldP f x 0 rfl rfl xNext 0 0, (hseg f x rfl rfl).1,
    (hseg _ _ rfl rfl).2, ?_⟩
  intro h
  have hdat : (fun k : Fin d => x ⟨0 + k.val, by omega⟩) =
      fun k : Fin d => Kalman.updateX x xNext ⟨d + k.val, by omega⟩ := by
    injection h with _ h
  have h0 := congrFun hdat ⟨0, hd⟩
  simp only [x, xNext, Kalman.updateX, Nat.add_zero] at h0
  by_cases hlt : b < d
  · rw [if_pos ⟨trivial, hlt⟩, dif_neg (by omega), if_neg (by omega)] at h0
    exact one_ne_zero h0
  · rw [if_neg (fun h => hlt h.2), dif_pos (by omega)] at h0
    exact zero_ne_one h0

omit [DecidableEq K] in
theorem makeMeasurementMatrix_fit {h N d δ : ℕ} (hδ : δ < N) (C : Matrix (Fin h) (Fin d) K) :
    makeMeasurementMatrix ⟨h, d, C⟩ N δ = .ok ⟨h, N * d, Kalman.makeMeasurementMatrix C N δ⟩ := by
  have h0 : ¬ ((d : ℤ) * (N : ℤ) < 0) := not_lt.2 (mul_nonneg (Int.natCast_nonneg _) (Int.natCast_nonneg _))
  have hc : N * d = ((d : ℤ) * (N : ℤ)).toNat := by
    rw [← Int.natCast_mul, Int.toNat_natCast, Nat.mul_comm]
  have hle : d * δ + d ≤ N * d := by nlinarith
  unfold makeMeasurementMatrix
  simp only
  rw [if_neg h0, ← hc]
  have z := assign_fit (0 : Matrix (Fin h) (Fin (N * d)) K) 0 (d * δ) h d C (by omega) hle
  rw [Nat.cast_zero, Int.natCast_mul] at z
  rw [z]
  congr 2
  funext r c
  unfold Kalman.makeMeasurementMatrix
  simp only [Matrix.of_apply, Nat.sub_zero, Nat.zero_add, Nat.zero_le, r.isLt, true_and, Matrix.zero_apply]

/-- C137: an update whose delay is not within the history, or whose matrices do not fit the state and the
measurement, is refused. -/
theorem C137_delay_update_refused (f : TimeDelayKalmanFilter K) (y : Vec K) (C R : Mat K) (δ : ℤ)
    (hd : 0 < f.dimX) (hN : 0 < f.maxDelayStep) (hx : (f.x.rows : ℤ) = f.maxDelayStep * f.dimX)
    (h : ¬ ((0 ≤ δ ∧ δ < f.maxDelayStep) ∧ C.cols = f.dimX ∧ (R.rows = C.rows ∧ R.cols = C.rows) ∧
      y.rows = C.rows ∧ (f.P.rows = f.x.rows ∧ f.P.cols = f.x.rows))) :
    ∀ f', f.update y C R δ ≠ .ok f' := by
  intro f' hr
  refine h ?_
  unfold TimeDelayKalmanFilter.update at hr
  split_ifs at hr with hδ
  obtain ⟨_, h1, hr⟩ := bind_ok hr
  obtain ⟨D, h2, hr⟩ := bind_ok hr
  obtain ⟨G, hg, hr⟩ := bind_ok hr
  have e1 := check_ok h1
  simp only [beq_iff_eq] at e1
  unfold makeMeasurementMatrix at h2
  split_ifs at h2 with hw
  have e2 := assign_ok h2
  simp only at e2
  obtain ⟨_, d2, _, _, _, _, d3, d4⟩ := e2
  cases G with
  | none => simp only [reduceCtorEq] at hr
  | some G =>
    simp only at hr
    have eg := calcKalmanGain_ok hg
    obtain ⟨_, h1, hr⟩ := bind_ok hr
    unfold updateState at h1
    obtain ⟨_, h2, h1⟩ := bind_ok h1
    obtain ⟨_, h3, h1⟩ := bind_ok h1
    obtain ⟨_, h4, h1⟩ := bind_ok h1
    have e2 := mulVec_ok h2
    have e3 := sub_vec_ok h3
    have e4 := mulVec_ok h4
    have e1 := add_vec_ok h1
    have hcols : (D.cols : ℤ) = C.cols * f.maxDelayStep := by
      rw [d4]
      exact Int.toNat_of_nonneg (not_lt.1 hw)
    have hxr : (D.cols : ℤ) = f.x.rows := by exact_mod_cast e2.1
    have hCd : (C.cols : ℤ) = f.dimX := by
      have : (C.cols : ℤ) * f.maxDelayStep = f.dimX * f.maxDelayStep := by linarith
      exact mul_right_cancel₀ hN.ne' this
    have hδ0 : 0 ≤ δ := by
      by_contra hn
      have hpos : 0 < (C.cols : ℤ) := by omega
      exact absurd d2 (not_le.2 (mul_neg_of_pos_of_neg hpos (not_le.1 hn)))
    omega

theorem mul_lt_of_lt {N d δ : ℕ} (hδ : δ < N) : δ * d + d ≤ N * d := by nlinarith

/-- C137: with sizes that fit the filter is the one of the other properties: predictions, updates, the values
read from it, and the exceptions are the same. -/
theorem C137_delay_same {N d h : ℕ} (hN : 0 < N) (hd : 0 < d) (f : Kalman.TimeDelayKalmanFilter K N d)
    (oldX : ℕ → K) (oldP : ℕ → ℕ → K) (xNext : Fin d → K) (A Q : Matrix (Fin d) (Fin d) K) (y : Fin h → K)
    (C : Matrix (Fin h) (Fin d) K) (R : Matrix (Fin h) (Fin h) K) (δ : ℤ) :
    (ofDelay f).predict oldX oldP ⟨d, xNext⟩ ⟨d, d, A⟩ ⟨d, d, Q⟩ = .ok (ofDelay (f.predict hN xNext A Q)) ∧
    (ofDelay f).update ⟨h, y⟩ ⟨h, d, C⟩ ⟨h, h, R⟩ δ = (f.update y C R δ).map ofDelay ∧
    (ofDelay f).getLatestX = .ok ⟨d, f.getLatestX hN⟩ ∧
    (ofDelay f).getLatestP = .ok ⟨d, d, f.getLatestP hN⟩ ∧
    (ofDelay f).getX δ = (f.getX δ).map fun x => ⟨d, x⟩ := by
  have hle : d ≤ N * d := Nat.le_mul_of_pos_left d hN
  refine ⟨C137_delay_predict hle oldX oldP (ofDelay f) f.x f.P rfl rfl xNext A Q, ?_, ?_, ?_, ?_⟩
  · unfold TimeDelayKalmanFilter.update Kalman.TimeDelayKalmanFilter.update
    have hmax : (ofDelay f).maxDelayStep = N := rfl
    rw [hmax]
    by_cases h1 : δ ≥ N
    · rw [if_pos h1, if_pos h1]
      rfl
    rw [if_neg h1, if_neg h1]
    by_cases h2 : δ < 0
    · rw [if_pos h2]
      have h0 : ¬ ((d : ℤ) * (N : ℤ) < 0) :=
        not_lt.2 (mul_nonneg (Int.natCast_nonneg _) (Int.natCast_nonneg _))
      have hneg : ¬ (0 ≤ (d : ℤ) * δ) := not_le.2 (mul_neg_of_pos_of_neg (by exact_mod_cast hd) h2)
      have : makeMeasurementMatrix (⟨h, d, C⟩ : Mat K) N δ = .error .assertFail := by
        unfold makeMeasurementMatrix
        simp only
        rw [if_neg h0]
        unfold Mat.assign
        rw [if_pos ⟨rfl, rfl⟩]
        unfold Mat.setBlock
        rw [if_neg (fun h => hneg h.2.1)]
      simp only [BEq.rfl, check_true, bind, Except.bind, this, Except.map]
    · rw [if_neg h2]
      obtain ⟨k, rfl⟩ : ∃ k : ℕ, δ = k := ⟨δ.toNat, by omega⟩
      have hk : k < N := by omega
      have hg : calcKalmanGain (ofDelay f).P ⟨h, N * d, Kalman.makeMeasurementMatrix C N k⟩ ⟨h, h, R⟩ = _ :=
        gain_fit f.P (Kalman.makeMeasurementMatrix C N k) R
      simp only [BEq.rfl, check_true, bind, Except.bind, makeMeasurementMatrix_fit hk, Int.toNat_natCast]
      rw [hg]
      cases Kalman.calcKalmanGain f.P (Kalman.makeMeasurementMatrix C N k) R with
      | none => rfl
      | some G =>
        simp only [Option.map_some, ofDelay, updateState, updateCovariance, mulVec_fit, sub_vec_fit, add_vec_fit,
          mul_fit, sub_fit, bind, Except.bind, pure, Except.pure, Except.map, Kalman.updateState,
          Kalman.updateCovariance]
  · have s1 := segment_fit f.x 0 d (by omega)
    rw [Nat.cast_zero] at s1
    refine s1.trans ?_
    congr 2
    funext k
    unfold Kalman.TimeDelayKalmanFilter.getLatestX
    congr 1
    exact Fin.ext (Nat.zero_add _)
  · have s1 := block_fit f.P 0 0 d d (by omega) (by omega)
    rw [Nat.cast_zero] at s1
    refine s1.trans ?_
    congr 2
    funext k l
    unfold Kalman.TimeDelayKalmanFilter.getLatestP
    simp only [Matrix.of_apply, Nat.zero_add]
  · unfold Kalman.TimeDelayKalmanFilter.getX TimeDelayKalmanFilter.getX
    by_cases h1 : 0 ≤ δ ∧ δ < N
    · rw [dif_pos h1]
      obtain ⟨k, rfl⟩ : ∃ k : ℕ, δ = k := ⟨δ.toNat, by omega⟩
      have hk : k < N := by omega
      have s1 := segment_fit f.x (k * d) d (mul_lt_of_lt hk)
      rw [Int.natCast_mul] at s1
      exact s1
    · rw [dif_neg h1]
      unfold Vec.segment
      rw [dif_neg]
      · rfl
      · rintro ⟨h2, _, h3⟩
        refine h1 ?_
        have hd' : 0 < (d : ℤ) := by exact_mod_cast hd
        simp only [ofDelay] at h2 h3
        constructor
        · exact nonneg_of_mul_nonneg_left h2 hd'
        · have : (δ + 1) * d ≤ N * d := by push_cast at h3; linarith
          have := le_of_mul_le_mul_right this hd'
          omega

/-- A call of the filter with delay. -/
inductive Call (K : Type) where
  | predict (oldX : ℕ → K) (oldP : ℕ → ℕ → K) (xNext : Vec K) (A Q : Mat K)
  | update (y : Vec K) (C R : Mat K) (delayStep : ℤ)

/-- The filter after a call. -/
noncomputable def Call.apply (f : TimeDelayKalmanFilter K) : Call K → Res (TimeDelayKalmanFilter K)
  | .predict oldX oldP xNext A Q => f.predict oldX oldP xNext A Q
  | .update y C R δ => f.update y C R δ

/-- The filter after a sequence of calls, with arguments of any size, none of which failed an assertion: the
filter is as it was after a call that threw an exception. -/
inductive After : TimeDelayKalmanFilter K → List (Call K) → TimeDelayKalmanFilter K → Prop
  | nil (f : TimeDelayKalmanFilter K) : After f [] f
  | returned (f g f' : TimeDelayKalmanFilter K) (c : Call K) (cs : List (Call K)) :
      c.apply f = .ok g → After g cs f' → After f (c :: cs) f'
  | thrown (f f' : TimeDelayKalmanFilter K) (c : Call K) (cs : List (Call K)) :
      c.apply f = .error .invalidArgument → After f cs f' → After f (c :: cs) f'

theorem apply_sizes {f g : TimeDelayKalmanFilter K} {c : Call K} (h : c.apply f = .ok g)
    (hsq : f.P.rows = f.x.rows ∧ f.P.cols = f.x.rows) :
    g.x.rows = f.x.rows ∧ g.P.rows = f.x.rows ∧ g.P.cols = f.x.rows ∧ g.maxDelayStep = f.maxDelayStep ∧
      g.dimX = f.dimX := by
  cases c with
  | predict oldX oldP xNext A Q =>
    have hp := C137_delay_predict_partial oldX oldP f xNext A Q hsq
    simp only [Call.apply] at h
    by_cases hfit : A.rows = xNext.rows ∧ A.cols = xNext.rows ∧ Q.rows = xNext.rows ∧ Q.cols = xNext.rows ∧
        xNext.rows ≤ f.x.rows
    · obtain ⟨f', h1, h2⟩ := hp.1 hfit
      rw [h1] at h
      injection h with h
      exact h ▸ h2
    · rw [hp.2 hfit] at h
      simp only [reduceCtorEq] at h
  | update y C R δ =>
    simp only [Call.apply] at h
    unfold TimeDelayKalmanFilter.update at h
    split_ifs at h
    obtain ⟨_, h1, h⟩ := bind_ok h
    obtain ⟨D, h2, h⟩ := bind_ok h
    obtain ⟨G, hg, h⟩ := bind_ok h
    cases G with
    | none => simp only [reduceCtorEq] at h
    | some G =>
      simp only at h
      obtain ⟨x', h3, h⟩ := bind_ok h
      obtain ⟨P', h4, h⟩ := bind_ok h
      injection h with h
      subst h
      unfold updateState at h3
      obtain ⟨_, _, h3⟩ := bind_ok h3
      obtain ⟨_, _, h3⟩ := bind_ok h3
      obtain ⟨_, _, h3⟩ := bind_ok h3
      unfold updateCovariance at h4
      obtain ⟨_, _, h4⟩ := bind_ok h4
      obtain ⟨_, _, h4⟩ := bind_ok h4
      have e3 := add_vec_ok h3
      have e4 := sub_ok h4
      exact ⟨e3.2, e4.2.2.1.trans hsq.1, e4.2.2.2.trans hsq.2, rfl, rfl⟩

/-- C137: whatever the sizes of the arguments of the calls, the history keeps its size; every state in it, the
latest state and its covariance can always be read and have the dimension of the first state. -/
theorem C137_delay_sizes (x : Vec K) (P : Mat K) (N : ℤ) (f g : TimeDelayKalmanFilter K)
    (h : TimeDelayKalmanFilter.make x P N = .ok f) (cs : List (Call K)) (hcs : After f cs g) :
    g.dimX = x.rows ∧ g.maxDelayStep = N ∧ (g.x.rows : ℤ) = N * x.rows ∧ g.P.rows = g.x.rows ∧
    g.P.cols = g.x.rows ∧
    (0 < N → (∃ v, g.getLatestX = .ok v ∧ v.rows = x.rows) ∧
      (∃ M, g.getLatestP = .ok M ∧ M.rows = x.rows ∧ M.cols = x.rows) ∧
      ∀ δ, 0 ≤ δ → δ < N → ∃ v, g.getX δ = .ok v ∧ v.rows = x.rows) := by
  have hinv : ∀ (a b : TimeDelayKalmanFilter K) (l : List (Call K)), After a l b →
      a.P.rows = a.x.rows ∧ a.P.cols = a.x.rows →
      b.x.rows = a.x.rows ∧ b.P.rows = a.x.rows ∧ b.P.cols = a.x.rows ∧ b.maxDelayStep = a.maxDelayStep ∧
        b.dimX = a.dimX := by
    intro a b l hl
    induction hl with
    | nil f => exact fun hs => ⟨rfl, hs.1, hs.2, rfl, rfl⟩
    | returned f g f' c cs hc _ ih =>
      intro hs
      obtain ⟨h1, h2, h3, h4, h5⟩ := apply_sizes hc hs
      obtain ⟨i1, i2, i3, i4, i5⟩ := ih ⟨by omega, by omega⟩
      exact ⟨by omega, by omega, by omega, i4.trans h4, i5.trans h5⟩
    | thrown f f' c cs _ _ ih => exact ih
  have hf : f.dimX = x.rows ∧ f.maxDelayStep = N ∧ (f.x.rows : ℤ) = N * x.rows ∧ f.P.rows = f.x.rows ∧
      f.P.cols = f.x.rows := by
    have hok : P.rows = x.rows ∧ P.cols = x.rows ∧ (0 < x.rows → 0 ≤ N) := by
      by_contra hn
      rw [C137_delay_constructor_refused x P N hn] at h
      simp only [reduceCtorEq] at h
    unfold TimeDelayKalmanFilter.make at h
    obtain ⟨_, h1, h⟩ := bind_ok h
    obtain ⟨_, h2, h⟩ := bind_ok h
    obtain ⟨_, h3, h⟩ := bind_ok h
    injection h with h
    subst h
    unfold initX at h1
    split_ifs at h1 with hn
    injection h1 with h1
    subst h1
    unfold initP at h2
    split_ifs at h2 with hs hn2
    injection h2 with h2
    subst h2
    refine ⟨rfl, rfl, ?_, by simp only [hok.1], by simp only [hok.1]⟩
    simp only [Nat.cast_mul]
    rcases Nat.eq_zero_or_pos x.rows with h0 | h0
    · rw [h0]
      simp
    · rw [Int.toNat_of_nonneg (hok.2.2 h0)]
  obtain ⟨f1, f2, f3, f4, f5⟩ := hf
  obtain ⟨g1, g2, g3, g4, g5⟩ := hinv f g cs hcs ⟨f4, f5⟩
  have hx : (g.x.rows : ℤ) = N * x.rows := by rw [g1, f3]
  have hseg : ∀ δ, 0 ≤ δ → δ < N → ∃ v, g.getX δ = .ok v ∧ v.rows = x.rows := by
    intro δ h0 hlt
    unfold TimeDelayKalmanFilter.getX Vec.segment
    rw [dif_pos]
    · refine ⟨_, rfl, ?_⟩
      simp only [Int.toNat_natCast]
      omega
    · rw [g5, f1, hx]
      refine ⟨mul_nonneg h0 (Int.natCast_nonneg _), Int.natCast_nonneg _, ?_⟩
      nlinarith [Int.natCast_nonneg x.rows]
  refine ⟨by omega, by omega, hx, by omega, by omega, fun hN => ⟨?_, ?_, hseg⟩⟩
  · have := hseg 0 le_rfl hN
    unfold TimeDelayKalmanFilter.getX at this
    rw [zero_mul] at this
    exact this
  · have hle : (x.rows : ℤ) ≤ N * x.rows := by nlinarith [Int.natCast_nonneg x.rows]
    unfold TimeDelayKalmanFilter.getLatestP Mat.block
    rw [dif_pos (by omega)]
    refine ⟨_, rfl, ?_, ?_⟩ <;> simp only [Int.toNat_natCast] <;> omega

/-! ## Cases -/

/-- Sizes that fit: a state of dimension two with an input of dimension one. -/
example : PredictFits (K := ℚ) ⟨2, ![1, 2]⟩ ⟨1, ![3]⟩ ⟨2, 2, 1⟩ ⟨2, 2, !![1, 1; 0, 1]⟩ ⟨2, 1, !![0; 1]⟩ ⟨2, 2, 1⟩ := by
  simp [PredictFits]

/-- An input matrix with a row too few: the prediction is refused. -/
example (f : KalmanFilter ℚ) (hx : f.x = ⟨2, ![1, 2]⟩) :
    f.predictWith ⟨1, ![3]⟩ ⟨2, 2, !![1, 1; 0, 1]⟩ ⟨1, 1, !![1]⟩ ⟨2, 2, 1⟩ = .error .assertFail :=
  C137_plain_predict_refused _ _ _ _ _ (by simp [PredictFits, hx])

/-- A measurement of the wrong dimension: the update is refused. -/
example (f : KalmanFilter ℚ) (hC : f.C = ⟨1, 2, !![1, 0]⟩) : ∀ f', f.update ⟨2, ![0, 0]⟩ ≠ .ok f' :=
  C137_plain_update_refused f _ (by simp [UpdateFits, hC])

/-- A negative number of steps: the filter with delay is not made. -/
example : TimeDelayKalmanFilter.make (K := ℚ) ⟨1, ![1]⟩ ⟨1, 1, 1⟩ (-1) = .error .assertFail :=
  C137_delay_constructor_refused _ _ _ (by simp)

/-- A measurement matrix with too many columns: the update is refused. -/
example (f : TimeDelayKalmanFilter ℚ) (hd : f.dimX = 1) (hN : f.maxDelayStep = 2) (hx : f.x.rows = 2) :
    ∀ f', f.update ⟨1, ![0]⟩ ⟨1, 2, !![1, 0]⟩ ⟨1, 1, 1⟩ 0 ≠ .ok f' :=
  C137_delay_update_refused f _ _ _ _ (by omega) (by omega) (by rw [hx, hN, hd]; rfl) (by simp [hd])

/-- The state one step before is not the state before, for a prediction of dimension two in a filter for
states of dimension one. -/
example : ∃ (f f' : TimeDelayKalmanFilter ℚ) (xNext : Fin 2 → ℚ) (A Q : Matrix (Fin 2) (Fin 2) ℚ)
    (v w : Vec ℚ), f.maxDelayStep = 2 ∧ f.dimX = 1 ∧ f.x.rows = 2 * 1 ∧ f.P.rows = 2 * 1 ∧ f.P.cols = 2 * 1 ∧
      (∀ oldX oldP, f.predict oldX oldP ⟨2, xNext⟩ ⟨2, 2, A⟩ ⟨2, 2, Q⟩ = .ok f') ∧
      f.getLatestX = .ok v ∧ f'.getX 1 = .ok w ∧ v ≠ w :=
  C137_delay_predict_violated 2 1 2 le_rfl one_pos le_rfl (by norm_num)

/-- A filter that was made, and a prediction. -/
example : ∃ f g : TimeDelayKalmanFilter ℚ, TimeDelayKalmanFilter.make ⟨1, ![5]⟩ ⟨1, 1, 1⟩ 2 = .ok f ∧
    After f [.predict (fun _ => 0) (fun _ _ => 0) ⟨1, ![7]⟩ ⟨1, 1, 1⟩ ⟨1, 1, 1⟩] g :=
  ⟨_, _, C137_delay_constructor ![5] 1 2,
    .returned _ _ _ _ _ (C137_delay_same (h := 0) two_pos one_pos _ _ _ _ _ _ ![] 0 0 0).1 (.nil _)⟩

end Verif.Dyn
