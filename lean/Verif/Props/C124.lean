/-
C124: more measurements and more exact ones never make the estimate less certain.
-/
import Verif.Props.C87

set_option autoImplicit false

namespace Verif.Kalman

open Matrix

variable {d : ℕ}

/-- The first sequence of calls is at least as informative as the second: it has the same predictions with
at most as much noise, and the measurements of the second at most as noisy, possibly among others. What
was measured and predicted may differ. Measurement noises are positive definite. -/
inductive AtLeastAsInformative : List (FilterOp d) → List (FilterOp d) → Prop
  | nil : AtLeastAsInformative [] []
  | predict {ops ops' : List (FilterOp d)} (x x' : Fin d → ℝ) (A Q Q' : Matrix (Fin d) (Fin d) ℝ)
      (hQ : Q.PosSemidef) (hle : (Q' - Q).PosSemidef) (h : AtLeastAsInformative ops ops') :
      AtLeastAsInformative (.predict x A Q :: ops) (.predict x' A Q' :: ops')
  | measure {ops ops' : List (FilterOp d)} (h : ℕ) (y y' : Fin h → ℝ) (C : Matrix (Fin h) (Fin d) ℝ)
      (R R' : Matrix (Fin h) (Fin h) ℝ) (δ : ℤ) (hR : R.PosDef) (hle : (R' - R).PosSemidef)
      (hs : AtLeastAsInformative ops ops') :
      AtLeastAsInformative (.update h y C R δ :: ops) (.update h y' C R' δ :: ops')
  | extra {ops ops' : List (FilterOp d)} (h : ℕ) (y : Fin h → ℝ) (C : Matrix (Fin h) (Fin d) ℝ)
      (R : Matrix (Fin h) (Fin h) ℝ) (δ : ℤ) (hR : R.PosDef) (hs : AtLeastAsInformative ops ops') :
      AtLeastAsInformative (.update h y C R δ :: ops) ops'

/-- The order of covariances does not depend on how the components are numbered. -/
theorem aug_sub_psd {N : ℕ} (P P' : Matrix (Fin (N * d)) (Fin (N * d)) ℝ) :
    (aug P' - aug P).PosSemidef ↔ (P' - P).PosSemidef := by
  rw [← psd_aug]
  rfl

theorem corrected_mono {α β : Type} [Fintype α] [Fintype β] [DecidableEq α] {P P' : Matrix α α ℝ}
    {R R' : Matrix β β ℝ} (C : Matrix β α ℝ) (G : Matrix α β ℝ) (hP : (P' - P).PosSemidef)
    (hR : (R' - R).PosSemidef) :
    (correctedCovariance P' C R' G - correctedCovariance P C R G).PosSemidef := by
  have e : correctedCovariance P' C R' G - correctedCovariance P C R G =
      (1 - G * C) * (P' - P) * (1 - G * C)ᴴ + G * (R' - R) * Gᴴ := by
    simp only [correctedCovariance, Matrix.mul_sub, Matrix.sub_mul,
      Matrix.conjTranspose_eq_transpose_of_trivial]
    abel
  rw [e]
  exact (hP.mul_mul_conjTranspose_same _).add (hR.mul_mul_conjTranspose_same _)

/-- An update outside the history is refused. -/
theorem update_outside {N h : ℕ} (f : TimeDelayKalmanFilter ℝ N d) (y : Fin h → ℝ)
    (C : Matrix (Fin h) (Fin d) ℝ) (R : Matrix (Fin h) (Fin h) ℝ) (δ : ℤ) (hδ : ¬ (0 ≤ δ ∧ δ < N)) :
    ∃ e, f.update y C R δ = .error e := by
  cases hu : f.update y C R δ with
  | error e => exact ⟨e, rfl⟩
  | ok f' =>
    simp only [TimeDelayKalmanFilter.update] at hu
    split_ifs at hu with h1 h2
    omega

/-- One call with less noise on a more certain filter. -/
theorem applyOp_mono {n : ℕ} {f f' : TimeDelayKalmanFilter ℝ (n + 1) d} (hf : f.P.PosSemidef)
    (hle : (f'.P - f.P).PosSemidef) {h : ℕ} (y y' : Fin h → ℝ) (C : Matrix (Fin h) (Fin d) ℝ)
    {R R' : Matrix (Fin h) (Fin h) ℝ} (δ : ℤ) (hR : R.PosDef) (hRle : (R' - R).PosSemidef) :
    ((applyOp f' (.update h y' C R' δ)).P - (applyOp f (.update h y C R δ)).P).PosSemidef := by
  have hf' : f'.P.PosSemidef := by
    have := hf.add hle
    rwa [add_sub_cancel] at this
  have hR' : R'.PosDef := by
    have := hR.add_posSemidef hRle
    rwa [add_sub_cancel] at this
  by_cases hδ : 0 ≤ δ ∧ δ < ((n + 1 : ℕ) : ℤ)
  · obtain ⟨k, hk⟩ : ∃ k : Fin (n + 1), ((k : ℕ) : ℤ) = δ :=
      ⟨⟨δ.toNat, by omega⟩, by simp only; omega⟩
    subst hk
    obtain ⟨g, hg⟩ := C34_accepted f y C R k hf hR
    obtain ⟨g', hg'⟩ := C34_accepted f' y' C R' k hf' hR'
    have e1 : applyOp f (.update h y C R (k.val : ℤ)) = g := by simp only [applyOp, hg]
    have e2 : applyOp f' (.update h y' C R' (k.val : ℤ)) = g' := by simp only [applyOp, hg']
    rw [e1, e2, ← aug_sub_psd]
    obtain ⟨-, hopt⟩ := C87_delayed_optimal_gain f g y C R k hf hR.posSemidef hg
    obtain ⟨⟨G, hG, -⟩, -⟩ := C87_delayed_optimal_gain f' g' y' C R' k hf' hR'.posSemidef hg'
    have := (corrected_mono (delayedMeasurement C k) G ((aug_sub_psd f.P f'.P).2 hle) hRle).add (hopt G)
    rw [sub_add_sub_cancel, ← hG] at this
    exact this
  · obtain ⟨e1, h1⟩ := update_outside f y C R δ hδ
    obtain ⟨e2, h2⟩ := update_outside f' y' C R' δ hδ
    simp only [applyOp, h1, h2]
    exact hle

theorem newestNoise_psd {n : ℕ} {Q : Matrix (Fin d) (Fin d) ℝ} (hQ : Q.PosSemidef) :
    (newestNoise (n := n) Q).PosSemidef := by
  have : newestNoise (n := n) Q =
      (Matrix.of fun (a : Fin (n + 1) × Fin d) (k : Fin d) =>
        if a.1.val = 0 ∧ a.2 = k then (1 : ℝ) else 0) * Q *
      (Matrix.of fun (a : Fin (n + 1) × Fin d) (k : Fin d) =>
        if a.1.val = 0 ∧ a.2 = k then (1 : ℝ) else 0)ᴴ := by
    ext ⟨i, k⟩ ⟨j, l⟩
    rw [Matrix.mul_apply, Finset.sum_eq_single l]
    · rw [Matrix.mul_apply, Finset.sum_eq_single k]
      · by_cases h1 : i = 0 <;> by_cases h2 : j = 0 <;> simp [newestNoise, h1, h2]
      · intro b _ hb; simp [Ne.symm hb]
      · simp
    · intro b _ hb
      simp [Ne.symm hb]
    · simp
  rw [this]
  exact hQ.mul_mul_conjTranspose_same _

theorem predict_mono {n : ℕ} {f f' : TimeDelayKalmanFilter ℝ (n + 1) d}
    (hle : (f'.P - f.P).PosSemidef) (x x' : Fin d → ℝ) (A : Matrix (Fin d) (Fin d) ℝ)
    {Q Q' : Matrix (Fin d) (Fin d) ℝ} (hQ : (Q' - Q).PosSemidef) :
    ((applyOp f' (.predict x' A Q')).P - (applyOp f (.predict x A Q)).P).PosSemidef := by
  rw [← aug_sub_psd]
  simp only [applyOp]
  rw [C32_covariance, C32_covariance]
  have e : ∀ (S X X' N N' : Matrix (Fin (n + 1) × Fin d) (Fin (n + 1) × Fin d) ℝ),
      S * X' * Sᵀ + N' - (S * X * Sᵀ + N) = S * (X' - X) * Sᴴ + (N' - N) := by
    intro S X X' N N'
    rw [Matrix.mul_sub, Matrix.sub_mul, Matrix.conjTranspose_eq_transpose_of_trivial]
    abel
  rw [e]
  refine (((aug_sub_psd f.P f'.P).2 hle).mul_mul_conjTranspose_same _).add ?_
  have : newestNoise (n := n) Q' - newestNoise Q = newestNoise (Q' - Q) := by
    ext ⟨i, k⟩ ⟨j, l⟩
    by_cases h1 : i = 0 <;> by_cases h2 : j = 0 <;> simp [newestNoise, h1, h2]
  rw [this]
  exact newestNoise_psd hQ

/-- C124: a filter that starts at least as certain and is given at least as much information ends at least
as certain: its covariance is at most the other one's, for the newest and for all stored states. -/
theorem C124_more_information (n : ℕ) (x0 x0' : Fin d → ℝ) (P0 P0' : Matrix (Fin d) (Fin d) ℝ)
    (h0 : P0.PosSemidef) (hle : (P0' - P0).PosSemidef) (ops ops' : List (FilterOp d))
    (hops : AtLeastAsInformative ops ops') :
    ((ops'.foldl applyOp (TimeDelayKalmanFilter.make x0' P0' (n + 1))).P -
      (ops.foldl applyOp (TimeDelayKalmanFilter.make x0 P0 (n + 1))).P).PosSemidef := by
  have key : ∀ (f f' : TimeDelayKalmanFilter ℝ (n + 1) d), f.P.PosSemidef → (f'.P - f.P).PosSemidef →
      ((ops'.foldl applyOp f').P - (ops.foldl applyOp f).P).PosSemidef := by
    induction hops with
    | nil => exact fun f f' _ h => h
    | predict x x' A Q Q' hQ hQle _ ih =>
      intro f f' hf hff
      rw [List.foldl_cons, List.foldl_cons]
      exact ih _ _ (applyOp_psd f (.predict x A Q) hf hQ) (predict_mono hff x x' A hQle)
    | measure h y y' C R R' δ hR hRle _ ih =>
      intro f f' hf hff
      rw [List.foldl_cons, List.foldl_cons]
      exact ih _ _ (applyOp_psd f (.update h y C R δ) hf hR.posSemidef) (applyOp_mono hf hff y y' C δ hR hRle)
    | extra h y C R δ hR _ ih =>
      intro f f' hf hff
      rw [List.foldl_cons]
      refine ih _ _ (applyOp_psd f (.update h y C R δ) hf hR.posSemidef) ?_
      simp only [applyOp]
      cases hu : f.update y C R δ with
      | error e => exact hff
      | ok g =>
        have := hff.add (C34_update_decreases f g y C R δ hf hR.posSemidef hu)
        rwa [sub_add_sub_cancel] at this
  refine key _ _ (initP_psd P0 h0) ?_
  have : (TimeDelayKalmanFilter.make x0' P0' (n + 1)).P - (TimeDelayKalmanFilter.make x0 P0 (n + 1)).P =
      initP (P0' - P0) (n + 1) := by
    rw [← Matrix.ext_iff]
    intro i j
    simp only [TimeDelayKalmanFilter.make, initP, Matrix.sub_apply]
    split_ifs <;> simp
  rw [this]
  exact initP_psd _ hle

/-- C124: in particular every variance of the newest state is at most the other one's. -/
theorem C124_variances (n : ℕ) (x0 x0' : Fin d → ℝ) (P0 P0' : Matrix (Fin d) (Fin d) ℝ)
    (h0 : P0.PosSemidef) (hle : (P0' - P0).PosSemidef) (ops ops' : List (FilterOp d))
    (hops : AtLeastAsInformative ops ops') (k : Fin d) :
    (ops.foldl applyOp (TimeDelayKalmanFilter.make x0 P0 (n + 1))).getLatestP n.succ_pos k k ≤
      (ops'.foldl applyOp (TimeDelayKalmanFilter.make x0' P0' (n + 1))).getLatestP n.succ_pos k k := by
  have h := C124_more_information n x0 x0' P0 P0' h0 hle ops ops' hops
  have := h.diag_nonneg (i := ⟨k.val, lt_of_seqN n.succ_pos k.isLt⟩)
  rw [Matrix.sub_apply] at this
  exact sub_nonneg.1 this

example (x0 x0' : Fin 1 → ℝ) (y y' : Fin 1 → ℝ) :
    AtLeastAsInformative (d := 1) [.predict x0 1 1, .update 1 y 1 1 0, .update 1 y 1 1 0]
      [.predict x0' 1 2, .update 1 y' 1 (2 • 1) 0] := by
  refine .predict _ _ _ _ _ Matrix.PosSemidef.one ?_ (.extra _ _ _ _ _ Matrix.PosDef.one
    (.measure _ _ _ _ _ _ _ Matrix.PosDef.one ?_ .nil))
  · have : (2 : Matrix (Fin 1) (Fin 1) ℝ) - 1 = 1 := by norm_num
    rw [this]; exact Matrix.PosSemidef.one
  · have : 2 • (1 : Matrix (Fin 1) (Fin 1) ℝ) - 1 = 1 := by rw [two_smul]; abel
    rw [this]; exact Matrix.PosSemidef.one

/-- Why the noise has to be positive definite: a measurement whose first component is exact is refused by a
filter that knows the first component exactly, together with what it says about the second component. The
filter that knew less then knows the second component better. -/
theorem singular_noise_refused :
    let f : TimeDelayKalmanFilter ℝ 1 2 := ⟨0, Matrix.diagonal ![0, 1]⟩
    let f' : TimeDelayKalmanFilter ℝ 1 2 := ⟨0, Matrix.diagonal ![1, 1]⟩
    let op : FilterOp 2 := .update 2 0 1 (Matrix.diagonal ![0, 1]) 0
    (f'.P - f.P).PosSemidef ∧ (applyOp f op).P 1 1 = 1 ∧ (applyOp f' op).P 1 1 = 1 / 2 := by
  intro f f' op
  have hb : ∀ v : Fin 2 → ℝ, blk (N := 1) (d := 2) (Matrix.diagonal v) 0 0 = Matrix.diagonal v := by
    intro v
    ext i j
    fin_cases i <;> fin_cases j <;> rfl
  refine ⟨?_, ?_, ?_⟩
  · have : f'.P - f.P = Matrix.diagonal ![1, 0] := by
      simp only [f, f', Matrix.diagonal_sub]
      congr 1
      funext i
      fin_cases i <;> simp
    rw [this]
    refine Matrix.PosSemidef.diagonal fun i => ?_
    fin_cases i <;> simp
  · have hu := (C33_blocks f 0 1 (Matrix.diagonal ![0, 1]) 0).1 (by
      change (Matrix.diagonal ![(0 : ℝ), 1] + 1 * blk (N := 1) (d := 2) (Matrix.diagonal ![0, 1]) 0 0 * 1ᵀ).det = 0
      rw [hb]
      simp [Matrix.det_fin_two, Matrix.diagonal])
    have : applyOp f op = f := by
      simp only [op, applyOp]
      have hu' : f.update 0 1 (Matrix.diagonal ![0, 1]) 0 = .error _ := hu
      rw [hu']
    rw [this]
    simp [f]
  · obtain ⟨g, hu, -, hg⟩ := (C33_blocks f' 0 1 (Matrix.diagonal ![0, 1]) 0).2 (by
      change (Matrix.diagonal ![(0 : ℝ), 1] + 1 * blk (N := 1) (d := 2) (Matrix.diagonal ![1, 1]) 0 0 * 1ᵀ).det ≠ 0
      rw [hb]
      simp [Matrix.det_fin_two, Matrix.diagonal])
    have e : applyOp f' op = g := by
      simp only [op, applyOp]
      have hu' : f'.update 0 1 (Matrix.diagonal ![0, 1]) 0 = .ok g := hu
      rw [hu']
    rw [e]
    have h11 : g.P 1 1 = blk g.P 0 0 1 1 := rfl
    rw [h11, hg 0 0]
    have hP : blk f'.P 0 0 = Matrix.diagonal ![1, 1] := hb _
    rw [hP]
    have hS : (Matrix.diagonal ![0, 1] + 1 * Matrix.diagonal ![(1 : ℝ), 1] * 1ᵀ)⁻¹ =
        Matrix.diagonal ![1, 1 / 2] := by
      apply Matrix.inv_eq_right_inv
      ext i j
      fin_cases i <;> fin_cases j <;> norm_num [Matrix.mul_apply, Matrix.diagonal]
    rw [hS]
    norm_num [Matrix.mul_apply, Matrix.diagonal]

end Verif.Kalman
