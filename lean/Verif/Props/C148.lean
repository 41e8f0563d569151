/-
C148: a start that is wrong sideways.
-/
import Verif.Props.C117
import Verif.Props.C125

set_option autoImplicit false

namespace Verif.Ekf

open Matrix Verif.Kalman

/-! ### Updates keep the newest state's covariance positive definite -/

section Definite

/-- Joseph's form of the covariance after an update. -/
theorem updateCovariance_joseph {n m : ℕ} {P : Matrix (Fin n) (Fin n) ℝ} {C : Matrix (Fin m) (Fin n) ℝ}
    {R : Matrix (Fin m) (Fin m) ℝ} {G : Matrix (Fin n) (Fin m) ℝ} (hP : P.PosSemidef)
    (hR : R.PosSemidef) (hG : calcKalmanGain P C R = some G) :
    updateCovariance P C G = (1 - G * C) * P * (1 - G * C)ᵀ + G * R * Gᵀ := by
  simp only [calcKalmanGain] at hG
  split_ifs at hG with hdet
  injection hG with hG
  set S := R + C * (P * Cᵀ) with hSdef
  have hPT : Pᵀ = P := by rw [tr_eq]; exact hP.isHermitian
  have hSu : IsUnit S.det := isUnit_iff_ne_zero.2 hdet
  have hGS : G * S = P * Cᵀ := by
    rw [← hG, Matrix.mul_assoc, Matrix.nonsing_inv_mul _ hSu, Matrix.mul_one]
  have hCPC : (C * (P * Cᵀ)).PosSemidef := by
    rw [← Matrix.mul_assoc, tr_eq]
    exact hP.mul_mul_conjTranspose_same C
  have hS : S.PosSemidef := hR.add hCPC
  have hST : Sᵀ = S := by rw [tr_eq]; exact hS.isHermitian
  have hGSG : G * S * Gᵀ = G * C * P := by
    have : S * Gᵀ = C * P := by
      have := congrArg Matrix.transpose hGS
      rw [Matrix.transpose_mul, Matrix.transpose_mul, Matrix.transpose_transpose, hST, hPT] at this
      exact this
    rw [Matrix.mul_assoc, this, Matrix.mul_assoc]
  have e1 : G * R * Gᵀ = G * S * Gᵀ - G * (C * (P * Cᵀ)) * Gᵀ := by
    rw [hSdef, Matrix.mul_add, Matrix.add_mul, add_sub_cancel_right]
  have e2 : P * (G * C)ᵀ = G * C * P := by
    rw [Matrix.transpose_mul, ← Matrix.mul_assoc, ← hGS, hGSG]
  have e3 : G * (C * (P * Cᵀ)) * Gᵀ = G * C * (P * (G * C)ᵀ) := by
    rw [Matrix.transpose_mul]
    simp only [Matrix.mul_assoc]
  rw [e1, e3, hGSG, Matrix.transpose_sub, Matrix.transpose_one]
  unfold updateCovariance
  rw [Matrix.mul_sub, Matrix.mul_one, Matrix.sub_mul, Matrix.sub_mul, Matrix.one_mul,
    Matrix.mul_assoc (G * C) P, e2]
  abel

theorem quad_conj {a b : ℕ} (A : Matrix (Fin a) (Fin b) ℝ) (M : Matrix (Fin b) (Fin b) ℝ)
    (z : Fin a → ℝ) : z ⬝ᵥ ((A * M * Aᵀ) *ᵥ z) = (Aᵀ *ᵥ z) ⬝ᵥ (M *ᵥ (Aᵀ *ᵥ z)) := by
  rw [← Matrix.mulVec_mulVec, ← Matrix.mulVec_mulVec, Matrix.dotProduct_mulVec,
    ← Matrix.mulVec_transpose]

variable {n h : ℕ}

theorem update_definite {f f' : TimeDelayKalmanFilter ℝ (n + 1) 6} {y : Fin h → ℝ}
    {C : Matrix (Fin h) (Fin 6) ℝ} {R : Matrix (Fin h) (Fin h) ℝ} {δ : ℤ} (hf : f.P.PosSemidef)
    (hpd : (blk f.P 0 0).PosDef) (hR : R.PosDef) (hu : f.update y C R δ = .ok f') :
    f'.P.PosSemidef ∧ (blk f'.P 0 0).PosDef := by
  have hpsd : f'.P.PosSemidef := by
    have := applyOp_psd f (.update h y C R δ) hf hR.posSemidef
    simpa only [applyOp, hu] using this
  refine ⟨hpsd, ?_⟩
  simp only [TimeDelayKalmanFilter.update] at hu
  split_ifs at hu with h1 h2
  cases hg : calcKalmanGain f.P (makeMeasurementMatrix C (n + 1) δ.toNat) R with
  | none => rw [hg] at hu; cases hu
  | some G =>
    rw [hg] at hu
    injection hu with hu
    have hP' : f'.P = updateCovariance f.P (makeMeasurementMatrix C (n + 1) δ.toNat) G := by rw [← hu]
    set D := makeMeasurementMatrix C (n + 1) δ.toNat with hD
    have hj := updateCovariance_joseph hf hR.posSemidef hg
    let E : Matrix (Fin 6) (Fin ((n + 1) * 6)) ℝ := Matrix.of fun k a => if a = slot 0 k then 1 else 0
    have hE : ∀ M : Matrix (Fin ((n + 1) * 6)) (Fin ((n + 1) * 6)) ℝ, blk M 0 0 = E * M * Eᵀ := by
      intro M
      ext k l
      simp [E, blk, Matrix.mul_apply]
    refine Matrix.PosDef.of_dotProduct_mulVec_pos (hpsd.submatrix fun k => slot 0 k).isHermitian
      fun z hz => ?_
    have hz0 := hpd.dotProduct_mulVec_pos hz
    simp only [star_trivial] at hz0 ⊢
    rw [hE, quad_conj] at hz0 ⊢
    set w := Eᵀ *ᵥ z with hw
    rw [hP', hj, Matrix.add_mulVec, dotProduct_add, quad_conj, quad_conj]
    by_cases hGw : Gᵀ *ᵥ w = 0
    · have : (1 - G * D)ᵀ *ᵥ w = w := by
        rw [Matrix.transpose_sub, Matrix.transpose_one, Matrix.transpose_mul, Matrix.sub_mulVec,
          Matrix.one_mulVec, ← Matrix.mulVec_mulVec, hGw, Matrix.mulVec_zero, sub_zero]
      rw [this, hGw]
      simpa using hz0
    · have p1 := hR.dotProduct_mulVec_pos hGw
      have p2 := hf.dotProduct_mulVec_nonneg ((1 - G * D)ᵀ *ᵥ w)
      simp only [star_trivial] at p1 p2
      linarith

end Definite

/-! ### The filter beside the truth -/

section Aside
variable {n : ℕ}

/-- The direction to the left of a vehicle of heading `ψ`, in the state of the filter. -/
noncomputable def sideways (ψ : ℝ) : Fin 6 → ℝ := ![-Real.sin ψ, Real.cos ψ, 0, 0, 0, 0]

/-- The same in a pose measurement. -/
noncomputable def sideways3 (ψ : ℝ) : Fin 3 → ℝ := ![-Real.sin ψ, Real.cos ψ, 0]

/-- Every stored state is the truth moved sideways, and the direction sideways is uncorrelated with all
others. -/
structure Aside (a : Place) (e : Fin (n + 1) → ℝ) (γ : Fin (n + 1) → Fin (n + 1) → ℝ)
    (f : TimeDelayKalmanFilter ℝ (n + 1) 6) : Prop where
  psd : f.P.PosSemidef
  pd : (blk f.P 0 0).PosDef
  state : ∀ i, blkX f.x i = a.state + e i • sideways a.yaw
  cov : ∀ i j, blk f.P i j *ᵥ sideways a.yaw = γ i j • sideways a.yaw

/-- The last `w` states and the newest have one error and one covariance, and are uncorrelated with the
older ones. -/
structure Warm (w : ℕ) (d g : ℝ) (e : Fin (n + 1) → ℝ) (γ : Fin (n + 1) → Fin (n + 1) → ℝ) : Prop where
  state : ∀ i, i.val ≤ w → e i = d
  cov : ∀ i j, i.val ≤ w → j.val ≤ w → γ i j = g
  apart : ∀ i j, i.val ≤ w → w < j.val → γ i j = 0

theorem inv_eigen {m : ℕ} {S : Matrix (Fin m) (Fin m) ℝ} {v : Fin m → ℝ} {s : ℝ} (hdet : S.det ≠ 0)
    (hs : s ≠ 0) (h : S *ᵥ v = s • v) : S⁻¹ *ᵥ v = s⁻¹ • v := by
  have h1 : S⁻¹ *ᵥ (S *ᵥ v) = v := by
    rw [Matrix.mulVec_mulVec, Matrix.nonsing_inv_mul _ (isUnit_iff_ne_zero.2 hdet), Matrix.one_mulVec]
  rw [h, Matrix.mulVec_smul] at h1
  exact (eq_inv_smul_iff₀ hs).2 h1

theorem sideways_sq (ψ : ℝ) : sideways ψ ⬝ᵥ sideways ψ = 1 := by
  simp [sideways, dotProduct, Fin.sum_univ_succ]
  nlinarith [Real.sin_sq_add_cos_sq ψ]

theorem sideways3_sq (ψ : ℝ) : sideways3 ψ ⬝ᵥ sideways3 ψ = 1 := by
  simp [sideways3, dotProduct, Fin.sum_univ_succ]
  nlinarith [Real.sin_sq_add_cos_sq ψ]

theorem pose_sideways (ψ : ℝ) : poseMeasurementMatrix *ᵥ sideways ψ = sideways3 ψ := by
  funext i
  fin_cases i <;> simp [poseMeasurementMatrix, sideways, sideways3, Matrix.mulVec, dotProduct,
    Fin.sum_univ_succ]

theorem poseT_sideways (ψ : ℝ) : poseMeasurementMatrixᵀ *ᵥ sideways3 ψ = sideways ψ := by
  funext i
  fin_cases i <;> simp [poseMeasurementMatrix, sideways, sideways3, Matrix.mulVec, dotProduct,
    Fin.sum_univ_succ]

theorem twist_sideways (ψ : ℝ) : twistMeasurementMatrix *ᵥ sideways ψ = 0 := by
  funext i
  fin_cases i <;> simp [twistMeasurementMatrix, sideways, Matrix.mulVec, dotProduct, Fin.sum_univ_succ]

theorem transition_sideways (a : Place) (e dt : ℝ) :
    createStateTransitionMatrix (a.state + e • sideways a.yaw) dt *ᵥ sideways a.yaw = sideways a.yaw ∧
    (createStateTransitionMatrix (a.state + e • sideways a.yaw) dt)ᵀ *ᵥ sideways a.yaw =
      sideways a.yaw := by
  constructor
  · funext i
    fin_cases i <;> simp [createStateTransitionMatrix, Place.state, sideways, Matrix.mulVec, dotProduct,
      Fin.sum_univ_succ]
  · funext i
    fin_cases i <;> simp [createStateTransitionMatrix, Place.state, sideways, Matrix.mulVec, dotProduct,
      Fin.sum_univ_succ]
    ring

theorem noise_sideways (v : Fin 4 → ℝ) (ψ : ℝ) : processNoiseCovariance v *ᵥ sideways ψ = 0 := by
  funext i
  fin_cases i <;> simp [processNoiseCovariance, sideways, Matrix.mulVec_diagonal]

theorem predict_aside {a : Place} (ha : -Real.pi < a.yaw ∧ a.yaw ≤ Real.pi) (e dt : ℝ) :
    predictNextState (a.state + e • sideways a.yaw) dt = a.state + e • sideways a.yaw := by
  funext i
  fin_cases i <;> simp [predictNextState, Place.state, sideways, C38_fixes a.yaw ha.1 ha.2]

/-- The block that a block was before a prediction. -/
def back (i : Fin (n + 1)) : Fin (n + 1) := ⟨i.val - 1, by omega⟩

theorem latest_blkX (f : TimeDelayKalmanFilter ℝ (n + 1) 6) : f.getLatestX n.succ_pos = blkX f.x 0 := by
  funext k
  simp only [TimeDelayKalmanFilter.getLatestX, blkX]
  rw [emb_slot_zero]

theorem transition_det (x : Fin 6 → ℝ) (dt : ℝ) : (createStateTransitionMatrix x dt).det = 1 := by
  rw [Matrix.det_of_isUpperTriangular]
  · simp [createStateTransitionMatrix, Fin.prod_univ_succ]
  · intro i j hij
    fin_cases i <;> fin_cases j <;> simp_all [createStateTransitionMatrix]

theorem aside_predict {a : Place} (ha : -Real.pi < a.yaw ∧ a.yaw ≤ Real.pi) (p : EkfParams) (dt : ℝ)
    {e : Fin (n + 1) → ℝ} {γ : Fin (n + 1) → Fin (n + 1) → ℝ} {f : TimeDelayKalmanFilter ℝ (n + 1) 6}
    (h : Aside a e γ f) :
    Aside a (fun i => e (back i)) (fun i j => γ (back i) (back j)) (predictStep n.succ_pos p dt f) := by
  have hx0 : f.getLatestX n.succ_pos = a.state + e 0 • sideways a.yaw := by rw [latest_blkX, h.state]
  obtain ⟨hA, hAT⟩ := transition_sideways a (e 0) dt
  set A := createStateTransitionMatrix (a.state + e 0 • sideways a.yaw) dt with hAdef
  set Q := processNoiseCovariance (p.variance.timeScaledVariances dt) with hQ
  have hstep : predictStep n.succ_pos p dt f =
      f.predict n.succ_pos (a.state + e 0 • sideways a.yaw) A Q := by
    simp only [predictStep, hx0, predict_aside ha, hAdef, hQ]
  have hb : 6 ≤ (n + 1) * 6 := by omega
  have h00 : blk (predictStep n.succ_pos p dt f).P 0 0 = A * blk f.P 0 0 * Aᵀ + Q := by
    rw [hstep]; exact updateP_blk_00 hb _ _ _
  refine ⟨predictStep_psd p dt f h.psd, ?_, fun i => ?_, fun i j => ?_⟩
  · rw [h00]
    refine Matrix.PosDef.add_posSemidef ?_ (C37_process_noise_psd p.variance dt)
    have hu : IsUnit A := (Matrix.isUnit_iff_isUnit_det _).2 (by rw [hAdef, transition_det]; exact isUnit_one)
    refine Matrix.PosDef.of_dotProduct_mulVec_pos ?_ fun z hz => ?_
    · have := (h.pd.posSemidef.mul_mul_conjTranspose_same A).isHermitian
      rwa [← tr_eq] at this
    · simp only [star_trivial]
      rw [quad_conj]
      have hne : Aᵀ *ᵥ z ≠ 0 := by
        intro h0
        have hu' : IsUnit Aᵀ.det := by
          rw [Matrix.det_transpose, hAdef, transition_det]
          exact isUnit_one
        refine hz ?_
        have := congrArg (fun v => Aᵀ⁻¹ *ᵥ v) h0
        simpa [Matrix.mulVec_mulVec, Matrix.nonsing_inv_mul _ hu'] using this
      have := h.pd.dotProduct_mulVec_pos hne
      simpa only [star_trivial] using this
  · rw [hstep, predict_blk]
    split_ifs with hi
    · have : back i = 0 := Fin.ext (by simp [back, hi])
      rw [this]
    · exact h.state _
  · rw [hstep]
    simp only [TimeDelayKalmanFilter.predict]
    rcases Fin.eq_zero_or_eq_succ i with rfl | ⟨i, rfl⟩ <;>
      rcases Fin.eq_zero_or_eq_succ j with rfl | ⟨j, rfl⟩
    · rw [updateP_blk_00 hb, Matrix.add_mulVec, ← Matrix.mulVec_mulVec, ← Matrix.mulVec_mulVec, hAT,
        h.cov, Matrix.mulVec_smul, hA, noise_sideways, add_zero]
      rfl
    · rw [updateP_blk_0s hb, ← Matrix.mulVec_mulVec, h.cov, Matrix.mulVec_smul, hA]
      rfl
    · rw [updateP_blk_s0 hb, ← Matrix.mulVec_mulVec, hAT, h.cov]
      rfl
    · rw [updateP_blk_ss hb, h.cov]
      rfl

theorem warm_predict {w : ℕ} {d g : ℝ} {e : Fin (n + 1) → ℝ} {γ : Fin (n + 1) → Fin (n + 1) → ℝ}
    (h : Warm w d g e γ) : Warm (w + 1) d g (fun i => e (back i)) (fun i j => γ (back i) (back j)) := by
  refine ⟨fun i hi => h.state _ ?_, fun i j hi hj => h.cov _ _ ?_ ?_, fun i j hi hj => h.apart _ _ ?_ ?_⟩ <;>
    simp only [back] <;> omega

theorem aside_pos {a : Place} {e : Fin (n + 1) → ℝ} {γ : Fin (n + 1) → Fin (n + 1) → ℝ}
    {f : TimeDelayKalmanFilter ℝ (n + 1) 6} (h : Aside a e γ f) :
    0 < γ 0 0 ∧ ∀ i, 0 ≤ γ i i := by
  have hne : sideways a.yaw ≠ 0 := by
    intro h0
    have := sideways_sq a.yaw
    rw [h0] at this
    simp at this
  constructor
  · have := h.pd.dotProduct_mulVec_pos hne
    rw [star_trivial, h.cov, dotProduct_smul, sideways_sq] at this
    simpa using this
  · intro i
    have hb : (blk f.P i i).PosSemidef := h.psd.submatrix fun k => slot i k
    have := hb.dotProduct_mulVec_nonneg (sideways a.yaw)
    rw [star_trivial, h.cov, dotProduct_smul, sideways_sq] at this
    simpa using this

/-- The measurement of a twist leaves all stored states and what is known sideways. -/
theorem aside_twist {a : Place} {e : Fin (n + 1) → ℝ} {γ : Fin (n + 1) → Fin (n + 1) → ℝ}
    {f f' : TimeDelayKalmanFilter ℝ (n + 1) 6} (h : Aside a e γ f) {R : Matrix (Fin 2) (Fin 2) ℝ}
    (hR : R.PosDef) (δ : Fin (n + 1))
    (hu : f.update (twistMeasurementMatrix *ᵥ a.state) twistMeasurementMatrix R (δ.val : ℤ) = .ok f') :
    Aside a e γ f' := by
  obtain ⟨h1, h2⟩ := update_definite h.psd h.pd hR hu
  have hx : f'.x = f.x := update_exact (fun i _ => by
    rw [h.state, Matrix.mulVec_add, Matrix.mulVec_smul, twist_sideways, smul_zero, add_zero]) hu
  refine ⟨h1, h2, fun i => by rw [hx]; exact h.state i, fun i j => ?_⟩
  obtain ⟨hc1, hc2⟩ := C33_blocks f (twistMeasurementMatrix *ᵥ a.state) twistMeasurementMatrix R δ
  by_cases hdet : (R + twistMeasurementMatrix * blk f.P δ δ * twistMeasurementMatrixᵀ).det = 0
  · rw [hc1 hdet] at hu; cases hu
  · obtain ⟨g, hg, -, hP⟩ := hc2 hdet
    rw [hg] at hu
    injection hu with hu
    subst hu
    rw [hP, Matrix.sub_mulVec, h.cov, ← Matrix.mulVec_mulVec, h.cov, Matrix.mulVec_smul,
      ← Matrix.mulVec_mulVec, twist_sideways, Matrix.mulVec_zero, smul_zero, sub_zero]

/-- The measurement of a pose. -/
theorem aside_pose {a : Place} {e : Fin (n + 1) → ℝ} {γ : Fin (n + 1) → Fin (n + 1) → ℝ}
    {f f' : TimeDelayKalmanFilter ℝ (n + 1) 6} (h : Aside a e γ f) {R : Matrix (Fin 3) (Fin 3) ℝ}
    {ρ : ℝ} (hR : R.PosDef) (hρ : 0 < ρ) (hRρ : R *ᵥ sideways3 a.yaw = ρ • sideways3 a.yaw)
    (δ : Fin (n + 1))
    (hu : f.update (poseMeasurementMatrix *ᵥ a.state) poseMeasurementMatrix R (δ.val : ℤ) = .ok f') :
    Aside a (fun i => e i - γ i δ * e δ / (γ δ δ + ρ))
      (fun i j => γ i j - γ i δ * γ δ j / (γ δ δ + ρ)) f' := by
  obtain ⟨h1, h2⟩ := update_definite h.psd h.pd hR hu
  have hs : γ δ δ + ρ ≠ 0 := by have := (aside_pos h).2 δ; linarith
  obtain ⟨hc1, hc2⟩ := C33_blocks f (poseMeasurementMatrix *ᵥ a.state) poseMeasurementMatrix R δ
  by_cases hdet : (R + poseMeasurementMatrix * blk f.P δ δ * poseMeasurementMatrixᵀ).det = 0
  · rw [hc1 hdet] at hu; cases hu
  · obtain ⟨g, hg, hX, hP⟩ := hc2 hdet
    rw [hg] at hu
    injection hu with hu
    subst hu
    have hS := inv_eigen (v := sideways3 a.yaw) hdet hs (by
      rw [Matrix.add_mulVec, hRρ, ← Matrix.mulVec_mulVec, ← Matrix.mulVec_mulVec, poseT_sideways, h.cov,
        Matrix.mulVec_smul, pose_sideways, ← add_smul, add_comm])
    have key : ∀ i, (blk f.P i δ * poseMeasurementMatrixᵀ *
        (R + poseMeasurementMatrix * blk f.P δ δ * poseMeasurementMatrixᵀ)⁻¹) *ᵥ sideways3 a.yaw =
        (γ i δ / (γ δ δ + ρ)) • sideways a.yaw := by
      intro i
      rw [← Matrix.mulVec_mulVec, hS, Matrix.mulVec_smul, ← Matrix.mulVec_mulVec, poseT_sideways, h.cov,
        smul_smul, div_eq_inv_mul]
    refine ⟨h1, h2, fun i => ?_, fun i j => ?_⟩
    · have hy : poseMeasurementMatrix *ᵥ a.state - poseMeasurementMatrix *ᵥ blkX f.x δ =
          (-e δ) • sideways3 a.yaw := by
        rw [h.state, Matrix.mulVec_add, Matrix.mulVec_smul, pose_sideways, neg_smul]
        abel
      rw [hX, hy, Matrix.mulVec_smul, key, h.state, smul_smul, add_assoc, ← add_smul]
      congr 2
      ring
    · rw [hP, Matrix.sub_mulVec, h.cov, ← Matrix.mulVec_mulVec, h.cov, Matrix.mulVec_smul,
        ← Matrix.mulVec_mulVec, pose_sideways, key, smul_smul, ← sub_smul]
      congr 1
      ring

/-- How such a measurement changes the newest states. -/
theorem warm_pose {w : ℕ} {d g ρ : ℝ} {e : Fin (n + 1) → ℝ} {γ : Fin (n + 1) → Fin (n + 1) → ℝ}
    (h : Warm w d g e γ) (hs : g + ρ ≠ 0) (δ : Fin (n + 1)) :
    (δ.val ≤ w → Warm w (d * (ρ / (g + ρ))) (g * (ρ / (g + ρ)))
      (fun i => e i - γ i δ * e δ / (γ δ δ + ρ)) (fun i j => γ i j - γ i δ * γ δ j / (γ δ δ + ρ))) ∧
    (w < δ.val → Warm w d g
      (fun i => e i - γ i δ * e δ / (γ δ δ + ρ)) (fun i j => γ i j - γ i δ * γ δ j / (γ δ δ + ρ))) := by
  constructor
  · intro hδ
    have hg := h.cov δ δ hδ hδ
    refine ⟨fun i hi => ?_, fun i j hi hj => ?_, fun i j hi hj => ?_⟩
    · simp only [hg, h.state i hi, h.state δ hδ, h.cov i δ hi hδ]
      field_simp
      ring
    · simp only [hg, h.cov i j hi hj, h.cov i δ hi hδ, h.cov δ j hδ hj]
      field_simp
      ring
    · simp only [hg, h.apart i j hi hj, h.apart δ j hδ hj]
      simp
  · intro hδ
    refine ⟨fun i hi => ?_, fun i j hi hj => ?_, fun i j hi hj => ?_⟩
    · simp only [h.state i hi, h.apart i δ hi hδ]
      simp
    · simp only [h.cov i j hi hj, h.apart i δ hi hδ]
      simp
    · simp only [h.apart i j hi hj, h.apart i δ hi hδ]
      simp

/-- What the gate says of a measurement of the truth. -/
theorem gate_aside {a : Place} {e : Fin (n + 1) → ℝ} {γ : Fin (n + 1) → Fin (n + 1) → ℝ}
    {f : TimeDelayKalmanFilter ℝ (n + 1) 6} (h : Aside a e γ f) (sing : Bool) (gate : ℝ)
    (δ : Fin (n + 1)) :
    mahalanobisGate sing gate (getPoseState (blkX f.x δ)) (poseMeasurementMatrix *ᵥ a.state)
      (poseCovariance (f.getLatestP n.succ_pos)) = decide (e δ ^ 2 / γ 0 0 ≤ gate * gate) := by
  have hg := (aside_pos h).1
  have hC : ∀ P : Matrix (Fin 6) (Fin 6) ℝ,
      poseCovariance P = poseMeasurementMatrix * P * poseMeasurementMatrixᵀ := by
    intro P
    ext i j
    fin_cases i <;> fin_cases j <;>
      simp [poseMeasurementMatrix, poseCovariance, Matrix.mul_apply, Matrix.vecMul, dotProduct,
        Fin.sum_univ_succ]
  have hX : ∀ x : Fin 6 → ℝ, getPoseState x = poseMeasurementMatrix *ᵥ x := by
    intro x
    funext i
    fin_cases i <;> simp [getPoseState, poseMeasurementMatrix, Matrix.mulVec, dotProduct, Fin.sum_univ_succ]
  have hpd : (poseCovariance (blk f.P 0 0)).PosDef :=
    h.pd.submatrix (e := fun i : Fin 3 => (⟨i.val, by omega⟩ : Fin 6)) (fun i j hij => by
      simp only [Fin.mk.injEq] at hij
      exact Fin.ext hij)
  have hdet : (poseCovariance (blk f.P 0 0)).det ≠ 0 := ((isUnit_iff_isUnit_det _).1 hpd.isUnit).ne_zero
  have hu := inv_eigen (v := sideways3 a.yaw) hdet hg.ne' (by
    rw [hC, ← Matrix.mulVec_mulVec, ← Matrix.mulVec_mulVec, poseT_sideways, h.cov, Matrix.mulVec_smul,
      pose_sideways])
  have hd : getPoseState (blkX f.x δ) - poseMeasurementMatrix *ᵥ a.state = e δ • sideways3 a.yaw := by
    rw [hX, h.state, Matrix.mulVec_add, Matrix.mulVec_smul, pose_sideways]
    abel
  simp only [mahalanobisGate, squaredMahalanobis, getLatestP_blk, if_neg hdet, hd, Matrix.mulVec_smul, hu,
    dotProduct_smul, smul_dotProduct, sideways3_sq, smul_eq_mul, mul_one]
  congr 2
  field_simp

/-- One message. -/
theorem process_cases {h : ℕ} {sing : Bool} {stateOf : (Fin 6 → ℝ) → (Fin h → ℝ)}
    {covOf : Matrix (Fin 6) (Fin 6) ℝ → Matrix (Fin h) (Fin h) ℝ} {C : Matrix (Fin h) (Fin 6) ℝ}
    {gate dt : ℝ} {now stamp : ℤ} {y : Fin h → Option ℝ} {R : Matrix (Fin h) (Fin h) ℝ}
    {f f' : TimeDelayKalmanFilter ℝ (n + 1) 6} {v : Fin h → ℝ} (hy : y = fun i => some (v i))
    (hp : processMeasurement n.succ_pos sing stateOf covOf C gate now dt stamp y R f = .ok f') :
    f' = f ∨ ∃ δ : Fin (n + 1),
      computeDelayStep (computeDelayTime now stamp : ℝ) dt = .ok (δ.val : ℤ) ∧
      mahalanobisGate sing gate (stateOf (blkX f.x δ)) v (covOf (f.getLatestP n.succ_pos)) = true ∧
      f.update v C R (δ.val : ℤ) = .ok f' := by
  have hall : allFinite y = some v := by
    subst hy
    simp [allFinite]
  simp only [processMeasurement, bind, Except.bind] at hp
  cases hd : computeDelayStep (computeDelayTime now stamp : ℝ) dt with
  | error e => rw [hd] at hp; cases hp
  | ok s =>
    rw [hd] at hp
    simp only [hall] at hp
    split_ifs at hp with h1
    · injection hp with hp; exact .inl hp.symm
    · cases hx : f.getX s with
      | error e => rw [hx] at hp; cases hp
      | ok x =>
        have hs : 0 ≤ s ∧ s < (n + 1 : ℕ) := by
          simp only [TimeDelayKalmanFilter.getX] at hx
          split_ifs at hx with hs
          exact hs
        obtain ⟨δ, rfl⟩ : ∃ δ : Fin (n + 1), s = (δ.val : ℤ) :=
          ⟨⟨s.toNat, by omega⟩, by simp only; omega⟩
        rw [getX_blk] at hx
        injection hx with hx
        subst hx
        rw [getX_blk] at hp
        simp only at hp
        split_ifs at hp with h2
        · injection hp with hp; exact .inl hp.symm
        · cases hu : f.update v C R (δ.val : ℤ) with
          | ok g =>
            rw [hu] at hp
            injection hp with hp
            subst hp
            exact .inr ⟨δ, rfl, by simpa using h2, hu⟩
          | error e =>
            rw [hu] at hp
            cases e <;> first | (injection hp with hp; exact .inl hp.symm) | cases hp

end Aside

/-! ### The node -/

section Node
variable {n : ℕ} {tf : Tf2} {p : EkfParams}

/-- A property of the filter that predictions and messages keep holds of all that is published. -/
theorem run_keeps (I : TimeDelayKalmanFilter ℝ (n + 1) 6 → Prop) (Jp : PoseMsg → Prop)
    (Jt : TwistMsg → Prop) (O : Output → Prop)
    (hpred : ∀ dt f, I f → I (predictStep n.succ_pos p dt f))
    (hpose : ∀ sp t2 dt m f f', Jp m → I f →
      processPose n.succ_pos tf sp p.poseGate p.poseSmoothing t2 dt m f = .ok f' → I f')
    (htwist : ∀ st t3 dt m f f', Jt m → I f →
      processTwist n.succ_pos st p.twistGate p.twistSmoothing t3 dt m f = .ok f' → I f')
    (hpub : ∀ s f t4 t5, I f → ∀ o ∈ publish n.succ_pos p s f t4 t5, O o) :
    ∀ (es : List Event) (s s' : NodeState (n + 1)) (out : List Output),
      (∀ f, s.ekf = some f → I f) → (∀ m ∈ s.poseQ.msgs, Jp m) → (∀ m ∈ s.twistQ.msgs, Jt m) →
      (∀ e ∈ es, match e with
        | .initialPose .. => False
        | .pose m => Jp m
        | .twist m => Jt m
        | .timer .. => True) →
      run n.succ_pos tf p s es = .ok (s', out) → ∀ o ∈ out, O o := by
  intro es
  induction es with
  | nil =>
    intro s s' out _ _ _ _ h
    simp only [run] at h
    injection h with h
    injection h with _ h
    subst h; simp
  | cons e es ih =>
    intro s s' out hs hp ht hes h
    simp only [run, bind, Except.bind] at h
    cases h1 : step n.succ_pos tf p s e with
    | error x => rw [h1] at h; cases h
    | ok r =>
      obtain ⟨s1, o1⟩ := r
      rw [h1] at h
      simp only at h
      cases h2 : run n.succ_pos tf p s1 es with
      | error x => rw [h2] at h; cases h
      | ok r2 =>
        obtain ⟨s2, o2⟩ := r2
        rw [h2] at h
        simp only [pure, Except.pure] at h
        injection h with h
        injection h with _ h
        subst h
        have key : (∀ f, s1.ekf = some f → I f) ∧ (∀ m ∈ s1.poseQ.msgs, Jp m) ∧
            (∀ m ∈ s1.twistQ.msgs, Jt m) ∧ ∀ o ∈ o1, O o := by
          have he := hes e List.mem_cons_self
          cases e with
          | initialPose m tries => exact he.elim
          | pose m =>
            simp only [step] at h1
            injection h1 with h1
            injection h1 with h1 h1'
            subst h1; subst h1'
            refine ⟨hs, fun m' hm' => ?_, ht, by simp⟩
            simp only [updateSimple1DFilters, AgedQueue.push, List.mem_append, List.mem_singleton] at hm'
            rcases hm' with hm' | rfl
            · exact hp m' hm'
            · exact he
          | twist m =>
            simp only [step] at h1
            injection h1 with h1
            injection h1 with h1 h1'
            subst h1; subst h1'
            refine ⟨hs, hp, fun m' hm' => ?_, by simp⟩
            simp only [AgedQueue.push, List.mem_append, List.mem_singleton] at hm'
            rcases hm' with hm' | rfl
            · exact ht m' hm'
            · exact he
          | timer t1 t2 t3 t4 t5 sp st =>
            simp only [step, timerCallback] at h1
            split at h1
            · injection h1 with h1
              injection h1 with h1 h1'
              subst h1; subst h1'
              exact ⟨hs, hp, ht, by simp⟩
            · rename_i f hf
              split at h1
              · injection h1 with h1
                injection h1 with h1 h1'
                subst h1; subst h1'
                exact ⟨hs, hp, ht, by simp⟩
              · cases h1
              · rename_i dt iv hiv
                simp only [bind, Except.bind] at h1
                cases g1 : updateAll (processPose n.succ_pos tf sp p.poseGate p.poseSmoothing t2 dt)
                    s.poseQ (predictStep n.succ_pos p dt f) with
                | error x => rw [g1] at h1; cases h1
                | ok r1 =>
                  obtain ⟨f1, q1⟩ := r1
                  rw [g1] at h1
                  simp only at h1
                  obtain ⟨i1, j1⟩ := updateLoop_inv _ I Jp (fun m f f' => hpose sp t2 dt m f f')
                    _ _ _ _ _ _ (hpred dt f (hs f hf)) hp g1
                  cases g2 : updateAll (processTwist n.succ_pos st p.twistGate p.twistSmoothing t3 dt)
                      s.twistQ f1 with
                  | error x => rw [g2] at h1; cases h1
                  | ok r2 =>
                    obtain ⟨f2, q2⟩ := r2
                    rw [g2] at h1
                    simp only [pure, Except.pure] at h1
                    obtain ⟨i2, j2⟩ := updateLoop_inv _ I Jt (fun m f f' => htwist st t3 dt m f f')
                      _ _ _ _ _ _ i1 ht g2
                    injection h1 with h1
                    injection h1 with h1 h1'
                    subst h1; subst h1'
                    refine ⟨fun g hg => ?_, j1, j2, hpub s f2 t4 t5 i2⟩
                    injection hg with hg
                    subst hg
                    exact i2
        obtain ⟨k1, k2, k3, k4⟩ := key
        intro o ho
        rcases List.mem_append.1 ho with ho | ho
        · exact k4 o ho
        · exact ih s1 s2 o2 k1 k2 k3 (fun e he => hes e (List.mem_cons_of_mem _ he)) h2 o ho

/-- Specification: the initial pose puts the vehicle `d` to the left of the place at which it stands, with
the right heading, and with the variance `c` of x and y. -/
structure Place.StartsBeside (tf : Tf2) (a : Place) (d c : ℝ) (m : PoseMsg)
    (tries : List Char → List Char → ℕ → Option Transform) : Prop where
  pose : ∀ parent child t, lookupTransform (tries parent child) = some t →
    m.px.map (· + t.tx) = some (a.x - d * Real.sin a.yaw) ∧
    m.py.map (· + t.ty) = some (a.y + d * Real.cos a.yaw) ∧
    ((tf.getYaw m.ori).bind fun u => (tf.getYaw t.rot).map fun v => u + v) = some a.yaw
  cx : m.cov 0 = c
  cy : m.cov 7 = c
  pos : 0 < c
  yaw : 0 < m.cov 35

/-- Specification: a pose message says that the vehicle is at the place. -/
structure Place.Told (tf : Tf2) (a : Place) (m : PoseMsg) : Prop where
  px : m.px = some a.x
  py : m.py = some a.y
  yaw : ∃ (ψ : ℝ) (k : ℤ), tf.getYaw m.ori = some ψ ∧ ψ = a.yaw + k * (2 * Real.pi)

/-- Specification: a twist message says that the vehicle does not move, with a covariance of vx and wz that
is symmetric and positive definite. -/
structure Resting (m : TwistMsg) : Prop where
  vx : m.vx = some 0
  wz : m.wz = some 0
  sym : m.cov 5 = m.cov 30
  pos : 0 < m.cov 0
  det : m.cov 5 ^ 2 < m.cov 0 * m.cov 35

/-- Specification: a message says that the vehicle stands `e` to the left of the place. -/
def Place.ShownBeside (a : Place) (e : ℝ) : Output → Prop
  | .transform _ _ _ pose =>
    pose.x = a.x - e * Real.sin a.yaw ∧ pose.y = a.y + e * Real.cos a.yaw ∧ pose.yaw = a.yaw
  | .odometry _ _ _ pose _ vx wz _ =>
    (pose.x = a.x - e * Real.sin a.yaw ∧ pose.y = a.y + e * Real.cos a.yaw ∧ pose.yaw = a.yaw) ∧
      vx = 0 ∧ wz = 0

theorem told_vector {a : Place} (ha : -Real.pi < a.yaw ∧ a.yaw ≤ Real.pi) {m : PoseMsg}
    (hm : a.Told tf m) :
    poseMeasurementVector tf m = fun i => some ((poseMeasurementMatrix *ᵥ a.state) i) := by
  obtain ⟨ψ, k, h1, h2⟩ := hm.yaw
  have hψ : normalizeYaw ψ = a.yaw := by
    rw [← C38_fixes a.yaw ha.1 ha.2, h2]
    simp only [normalizeYaw, Real.sin_add_int_mul_two_pi, Real.cos_add_int_mul_two_pi]
  funext i
  fin_cases i
  · simp [poseMeasurementVector, poseMeasurementMatrix, Place.state, hm.px, Matrix.mulVec,
      dotProduct, Fin.sum_univ_succ]
  · simp [poseMeasurementVector, poseMeasurementMatrix, Place.state, hm.py, Matrix.mulVec,
      dotProduct, Fin.sum_univ_succ]
  · simp [poseMeasurementVector, poseMeasurementMatrix, Place.state, h1, hψ, Matrix.mulVec,
      dotProduct, Fin.sum_univ_succ]

theorem toSizeT_pos {i : ℤ} (h : 1 ≤ i) (h' : i ≤ 2147483647) : toSizeT i = i.toNat ∧ 0 < toSizeT i := by
  unfold toSizeT
  omega

theorem twist_definite {m : TwistMsg} (hm : Resting m) {k : ℕ} (hk : 0 < k) :
    (twistMeasurementCovariance m.cov k).PosDef := by
  have hk' : (0 : ℝ) < k := by exact_mod_cast hk
  refine Matrix.PosDef.of_dotProduct_mulVec_pos ?_ fun z hz => ?_
  · ext i j
    fin_cases i <;> fin_cases j <;> simp [twistMeasurementCovariance, hm.sym]
  · have e : star z ⬝ᵥ (twistMeasurementCovariance m.cov k *ᵥ z) =
        k * (m.cov 0 * z 0 ^ 2 + 2 * m.cov 5 * z 0 * z 1 + m.cov 35 * z 1 ^ 2) := by
      simp [twistMeasurementCovariance, dotProduct, Matrix.mulVec, Fin.sum_univ_succ, hm.sym]
      ring
    rw [e]
    refine mul_pos hk' ?_
    have h0 := hm.pos
    have hd := hm.det
    have key : m.cov 0 * (m.cov 0 * z 0 ^ 2 + 2 * m.cov 5 * z 0 * z 1 + m.cov 35 * z 1 ^ 2) =
        (m.cov 0 * z 0 + m.cov 5 * z 1) ^ 2 + (m.cov 0 * m.cov 35 - m.cov 5 ^ 2) * z 1 ^ 2 := by ring
    refine pos_of_mul_pos_right (a := m.cov 0) ?_ h0.le
    rw [key]
    by_cases hz1 : z 1 = 0
    · have hz0 : z 0 ≠ 0 := by
        intro hz0
        refine hz (funext fun i => ?_)
        fin_cases i
        · exact hz0
        · exact hz1
      have : 0 < (m.cov 0 * z 0) ^ 2 := by positivity
      rw [hz1]
      simpa using this
    · have : 0 < (m.cov 0 * m.cov 35 - m.cov 5 ^ 2) * z 1 ^ 2 :=
        mul_pos (by linarith) (by positivity)
      have := sq_nonneg (m.cov 0 * z 0 + m.cov 5 * z 1)
      linarith

/-- The start. -/
theorem aside_start {a : Place} {d c : ℝ} {m : PoseMsg} (hx : m.cov 0 = c) (hy : m.cov 7 = c) (hc : 0 < c)
    (h35 : 0 < m.cov 35) :
    Aside (n := n) a (fun _ => d) (fun i j => if i = j then c else 0)
      (TimeDelayKalmanFilter.make (initState (a.x - d * Real.sin a.yaw) (a.y + d * Real.cos a.yaw) a.yaw)
        (initCovariance m.cov) (n + 1)) := by
  have hpos : ∀ i : Fin 6, 0 < (![m.cov 0, m.cov 7, m.cov 35, 1 / 10000, 1 / 100, 1 / 100] : Fin 6 → ℝ) i := by
    intro i
    fin_cases i <;> simp [hx, hy, hc, h35]
  have hblk : ∀ i j : Fin (n + 1), blk (initP (initCovariance m.cov) (n + 1)) i j =
      if i = j then initCovariance m.cov else 0 := by
    intro i j
    funext k l
    simp only [blk, initP_slot]
    split_ifs <;> rfl
  have hpd : (initCovariance m.cov).PosDef := Matrix.PosDef.diagonal hpos
  refine ⟨initP_psd _ hpd.posSemidef, ?_, fun i => ?_, fun i j => ?_⟩
  · simp only [TimeDelayKalmanFilter.make, hblk]
    exact hpd
  · funext k
    simp only [blkX, TimeDelayKalmanFilter.make, initX, slot_val, Nat.add_mul_mod_self_left,
      Nat.mod_eq_of_lt k.isLt, Fin.eta]
    fin_cases k <;> simp [initState, Place.state, sideways]
    ring
  · simp only [TimeDelayKalmanFilter.make, hblk]
    split_ifs
    · funext k
      simp only [initCovariance, Matrix.mulVec_diagonal]
      fin_cases k <;> simp [sideways, hx, hy]
    · simp

theorem warm_start (d c : ℝ) : Warm (n := n) 0 d c (fun _ => d) (fun i j => if i = j then c else 0) := by
  refine ⟨fun _ _ => rfl, fun i j hi hj => ?_, fun i j hi hj => ?_⟩
  · exact if_pos (Fin.ext (by omega))
  · exact if_neg (by rintro rfl; omega)

/-- The node after the initial pose. -/
theorem start_step {a : Place} {d c : ℝ} {m : PoseMsg}
    {tries : List Char → List Char → ℕ → Option Transform} (hm : a.StartsBeside tf d c m tries)
    {s s1 : NodeState (n + 1)} {o : List Output}
    (h : step n.succ_pos tf p s (.initialPose m tries) = .ok (s1, o)) :
    o = [] ∧ s1.poseQ = s.poseQ.clear ∧ s1.twistQ = s.twistQ.clear ∧ s1.interval = s.interval ∧
    s1.ekf = some (TimeDelayKalmanFilter.make
      (initState (a.x - d * Real.sin a.yaw) (a.y + d * Real.cos a.yaw) a.yaw)
        (initCovariance m.cov) (n + 1)) := by
  simp only [step, initialPoseCallback, bind, Except.bind] at h
  cases h1 : eraseBeginSlash p.poseFrame with
  | error x => rw [h1] at h; cases h
  | ok parent =>
    rw [h1] at h
    simp only at h
    cases h2 : eraseBeginSlash m.frame with
    | error x => rw [h2] at h; cases h
    | ok child =>
      rw [h2] at h
      simp only at h
      cases h3 : lookupTransform (tries parent child) with
      | none => rw [h3] at h; cases h
      | some t =>
        rw [h3] at h
        obtain ⟨hx, hy, hyaw⟩ := hm.pose _ _ _ h3
        obtain ⟨px, hpx, hx⟩ := Option.map_eq_some_iff.1 hx
        obtain ⟨py, hpy, hy⟩ := Option.map_eq_some_iff.1 hy
        obtain ⟨u, hu, hyaw⟩ := Option.bind_eq_some_iff.1 hyaw
        obtain ⟨v, hv, hyaw⟩ := Option.map_eq_some_iff.1 hyaw
        simp only [hpx, hpy, hu, hv, pure, Except.pure] at h
        injection h with h
        injection h with h h'
        subst h; subst h'
        simp only [updateSimple1DFilters, hx, hy, hyaw, and_self]

theorem shown_aside {a : Place} {e : Fin (n + 1) → ℝ} {γ : Fin (n + 1) → Fin (n + 1) → ℝ}
    {f : TimeDelayKalmanFilter ℝ (n + 1) 6} (h : Aside a e γ f) (s : NodeState (n + 1)) (t4 t5 : ℤ) :
    ∀ o ∈ publish n.succ_pos p s f t4 t5, a.ShownBeside (e 0) o := by
  intro o ho
  have hx : f.getLatestX n.succ_pos = a.state + e 0 • sideways a.yaw := by rw [latest_blkX, h.state]
  simp only [publish, hx, List.mem_cons, List.not_mem_nil, or_false] at ho
  rcases ho with rfl | rfl
  · refine ⟨?_, ?_, ?_⟩ <;> simp [Place.state, sideways, sub_eq_add_neg]
  · refine ⟨⟨?_, ?_, ?_⟩, ?_, ?_⟩ <;> simp [Place.state, sideways, sub_eq_add_neg]

/-- What may come after the initial pose: poses of a kind, messages of a vehicle at rest and the timer. -/
def Afterwards (Jp : PoseMsg → Prop) : Event → Prop
  | .initialPose .. => False
  | .pose m => Jp m
  | .twist m => Resting m
  | .timer .. => True

/-- C148, violated: if the initial pose is wrong sideways by more than the gate times its standard
deviation and the vehicle stands still, every later pose message that says where it really is, with
whatever covariance, is thrown away, and the node says for ever that the vehicle is where it is not. -/
theorem C148_stuck_violated {a : Place} (ha : -Real.pi < a.yaw ∧ a.yaw ≤ Real.pi) {d c : ℝ} {m : PoseMsg}
    {tries : List Char → List Char → ℕ → Option Transform} (hm : a.StartsBeside tf d c m tries)
    (hgate : p.poseGate ^ 2 * c < d ^ 2) (hts : 1 ≤ p.twistSmoothing ∧ p.twistSmoothing ≤ 2147483647)
    (es : List Event) (hes : ∀ e ∈ es, Afterwards (a.Told tf) e) {s s' : NodeState (n + 1)} {out : List Output}
    (h : run n.succ_pos tf p s (.initialPose m tries :: es) = .ok (s', out)) :
    ∀ o ∈ out, a.ShownBeside d o := by
  simp only [run, bind, Except.bind] at h
  cases h1 : step n.succ_pos tf p s (.initialPose m tries) with
  | error x => rw [h1] at h; cases h
  | ok r =>
    obtain ⟨s1, o1⟩ := r
    rw [h1] at h
    simp only at h
    obtain ⟨rfl, hq1, hq2, -, hf⟩ := start_step hm h1
    cases h2 : run n.succ_pos tf p s1 es with
    | error x => rw [h2] at h; cases h
    | ok r2 =>
      obtain ⟨s2, o2⟩ := r2
      rw [h2] at h
      simp only [pure, Except.pure, List.nil_append] at h
      injection h with h
      injection h with _ h
      subst h
      refine run_keeps (tf := tf) (p := p)
        (fun f => ∃ γ, Aside a (fun _ => d) γ f ∧ γ 0 0 = c) (a.Told tf) Resting
        (a.ShownBeside d) ?_ ?_ ?_ ?_ es s1 s2 o2 ?_ ?_ ?_ ?_ h2
      · rintro dt f ⟨γ, hA, hγ⟩
        exact ⟨_, aside_predict ha p dt hA, hγ⟩
      · rintro sp t2 dt m' f f' hm' ⟨γ, hA, hγ⟩ hp
        rcases process_cases (told_vector ha hm') hp with rfl | ⟨δ, -, hg, -⟩
        · exact ⟨γ, hA, hγ⟩
        · rw [gate_aside hA, decide_eq_true_eq, hγ, div_le_iff₀ hm.pos] at hg
          nlinarith
      · rintro st t3 dt m' f f' hm' ⟨γ, hA, hγ⟩ hp
        rcases process_cases (twist_vector a ⟨hm'.vx, hm'.wz⟩) hp with rfl | ⟨δ, -, -, hu⟩
        · exact ⟨γ, hA, hγ⟩
        · exact ⟨γ, aside_twist hA (twist_definite hm' (toSizeT_pos hts.1 hts.2).2) δ hu, hγ⟩
      · rintro s f t4 t5 ⟨γ, hA, hγ⟩
        exact shown_aside hA s t4 t5
      · intro f hf'
        rw [hf] at hf'
        injection hf' with hf'
        subst hf'
        exact ⟨_, aside_start hm.cx hm.cy hm.pos hm.yaw, if_pos rfl⟩
      · rw [hq1]; simp [AgedQueue.clear]
      · rw [hq2]; simp [AgedQueue.clear]
      · intro e he
        have := hes e he
        cases e <;> exact this

/-- Specification: a covariance of x and y that is the same in all directions and has nothing to do with the
heading. -/
structure Round (m : PoseMsg) : Prop where
  same : m.cov 7 = m.cov 0
  pos : 0 < m.cov 0
  yaw : 0 < m.cov 35
  plane : m.cov 1 = 0 ∧ m.cov 6 = 0
  cross : m.cov 5 = 0 ∧ m.cov 11 = 0 ∧ m.cov 30 = 0 ∧ m.cov 31 = 0

/-- Specification: the variance that a published pose covariance gives to the direction sideways. -/
noncomputable def sideVariance (ψ : ℝ) (c : Fin 36 → ℝ) : ℝ :=
  Real.sin ψ ^ 2 * c 0 - Real.sin ψ * Real.cos ψ * (c 1 + c 6) + Real.cos ψ ^ 2 * c 7

/-- Specification: an odometry message gives the direction sideways the variance `V`. -/
def Output.Sideways (ψ V : ℝ) : Output → Prop
  | .transform .. => True
  | .odometry _ _ _ _ pc _ _ _ => sideVariance ψ pc = V

theorem round_definite {m : PoseMsg} (hm : Round m) {k : ℕ} (hk : 0 < k) (ψ : ℝ) :
    (poseMeasurementCovariance m.cov k).PosDef ∧
    poseMeasurementCovariance m.cov k *ᵥ sideways3 ψ = (k * m.cov 0) • sideways3 ψ := by
  have hk' : (0 : ℝ) < k := by exact_mod_cast hk
  have e : poseMeasurementCovariance m.cov k =
      Matrix.diagonal ![k * m.cov 0, k * m.cov 0, k * m.cov 35] := by
    ext i j
    fin_cases i <;> fin_cases j <;>
      simp [poseMeasurementCovariance, hm.same, hm.plane.1, hm.plane.2, hm.cross.1, hm.cross.2.1,
        hm.cross.2.2.1, hm.cross.2.2.2]
  have h0 := mul_pos hk' hm.pos
  have h1 := mul_pos hk' hm.yaw
  refine ⟨?_, ?_⟩
  · rw [e]
    refine Matrix.PosDef.diagonal fun i => ?_
    fin_cases i
    · exact h0
    · exact h0
    · exact h1
  · rw [e]
    funext i
    rw [Matrix.mulVec_diagonal]
    fin_cases i <;> simp [sideways3]

theorem sideVariance_aside {a : Place} {e : Fin (n + 1) → ℝ} {γ : Fin (n + 1) → Fin (n + 1) → ℝ}
    {f : TimeDelayKalmanFilter ℝ (n + 1) 6} (h : Aside a e γ f) (s : NodeState (n + 1)) (t4 t5 : ℤ) :
    ∀ o ∈ publish n.succ_pos p s f t4 t5, o.Sideways a.yaw (γ 0 0) := by
  intro o ho
  simp only [publish, List.mem_cons, List.not_mem_nil, or_false] at ho
  rcases ho with rfl | rfl
  · trivial
  · have h1 : sideways a.yaw ⬝ᵥ (blk f.P 0 0 *ᵥ sideways a.yaw) = γ 0 0 := by
      rw [h.cov, dotProduct_smul, sideways_sq]
      simp
    rw [← h1]
    simp only [Output.Sideways, sideVariance, getLatestP_blk]
    simp [ekfCovarianceToPoseMessageCovariance, sideways, dotProduct, Matrix.mulVec, Fin.sum_univ_succ]
    ring

/-- C148: whatever the times and the number of the messages, whichever of them the gate throws away and
however long they are delayed: the sideways error that remains is the initial one times the fraction of
the initial variance that the node still claims to have. It never changes its sign and never grows beyond
the initial one. -/
theorem C148_error_law {a : Place} (ha : -Real.pi < a.yaw ∧ a.yaw ≤ Real.pi) {d c : ℝ} {m : PoseMsg}
    {tries : List Char → List Char → ℕ → Option Transform} (hm : a.StartsBeside tf d c m tries)
    (hts : 1 ≤ p.twistSmoothing ∧ p.twistSmoothing ≤ 2147483647)
    (hps : 1 ≤ p.poseSmoothing ∧ p.poseSmoothing ≤ 2147483647)
    (es : List Event) (hes : ∀ e ∈ es, Afterwards (fun m => a.Told tf m ∧ Round m) e)
    {s s' : NodeState (n + 1)} {out : List Output}
    (h : run n.succ_pos tf p s (.initialPose m tries :: es) = .ok (s', out)) :
    ∀ o ∈ out, ∃ V, 0 < V ∧ V ≤ c ∧ a.ShownBeside (d * (V / c)) o ∧ o.Sideways a.yaw V := by
  have hc := hm.pos
  simp only [run, bind, Except.bind] at h
  cases h1 : step n.succ_pos tf p s (.initialPose m tries) with
  | error x => rw [h1] at h; cases h
  | ok r =>
    obtain ⟨s1, o1⟩ := r
    rw [h1] at h
    simp only at h
    obtain ⟨rfl, hq1, hq2, -, hf⟩ := start_step hm h1
    cases h2 : run n.succ_pos tf p s1 es with
    | error x => rw [h2] at h; cases h
    | ok r2 =>
      obtain ⟨s2, o2⟩ := r2
      rw [h2] at h
      simp only [pure, Except.pure, List.nil_append] at h
      injection h with h
      injection h with _ h
      subst h
      refine run_keeps (tf := tf) (p := p)
        (fun f => ∃ w e γ g, Aside a e γ f ∧ Warm w (d * (g / c)) g e γ ∧ 0 < g ∧ g ≤ c)
        (fun m => a.Told tf m ∧ Round m) Resting _ ?_ ?_ ?_ ?_ es s1 s2 o2 ?_ ?_ ?_ ?_ h2
      · rintro dt f ⟨w, e, γ, g, hA, hW, hg⟩
        exact ⟨_, _, _, g, aside_predict ha p dt hA, warm_predict hW, hg⟩
      · rintro sp t2 dt m' f f' ⟨hm', hr⟩ ⟨w, e, γ, g, hA, hW, hg, hgc⟩ hp
        rcases process_cases (told_vector ha hm') hp with rfl | ⟨δ, -, -, hu⟩
        · exact ⟨w, e, γ, g, hA, hW, hg, hgc⟩
        · obtain ⟨-, hk⟩ := toSizeT_pos hps.1 hps.2
          obtain ⟨hR, hRρ⟩ := round_definite hr hk a.yaw
          have hk' : (0 : ℝ) < toSizeT p.poseSmoothing := by exact_mod_cast hk
          have hρ : 0 < (toSizeT p.poseSmoothing : ℝ) * m'.cov 0 := mul_pos hk' hr.pos
          generalize (toSizeT p.poseSmoothing : ℝ) * m'.cov 0 = ρ at hρ hRρ
          have hA' := aside_pose hA hR hρ hRρ δ hu
          obtain ⟨w1, w2⟩ := warm_pose hW (by linarith : g + ρ ≠ 0) δ
          rcases le_or_gt δ.val w with hδ | hδ
          · refine ⟨w, _, _, g * (ρ / (g + ρ)), hA', ?_, by positivity, ?_⟩
            · have := w1 hδ
              rwa [show d * (g / c) * (ρ / (g + ρ)) = d * (g * (ρ / (g + ρ)) / c) by ring] at this
            · have : ρ / (g + ρ) ≤ 1 := by
                rw [div_le_one (by linarith)]; linarith
              nlinarith
          · exact ⟨w, _, _, g, hA', w2 hδ, hg, hgc⟩
      · rintro st t3 dt m' f f' hm' ⟨w, e, γ, g, hA, hW, hg⟩ hp
        rcases process_cases (twist_vector a ⟨hm'.vx, hm'.wz⟩) hp with rfl | ⟨δ, -, -, hu⟩
        · exact ⟨w, e, γ, g, hA, hW, hg⟩
        · exact ⟨w, e, γ, g, aside_twist hA (twist_definite hm' (toSizeT_pos hts.1 hts.2).2) δ hu, hW, hg⟩
      · rintro s f t4 t5 ⟨w, e, γ, g, hA, hW, hg, hgc⟩ o ho
        refine ⟨g, hg, hgc, ?_, ?_⟩
        · have := shown_aside hA s t4 t5 o ho
          rwa [hW.state 0 (Nat.zero_le _)] at this
        · have := sideVariance_aside hA s t4 t5 o ho
          rwa [hW.cov 0 0 (Nat.zero_le _) (Nat.zero_le _)] at this
      · intro f hf'
        rw [hf] at hf'
        injection hf' with hf'
        subst hf'
        refine ⟨0, _, _, c, aside_start hm.cx hm.cy hm.pos hm.yaw, ?_, hc, le_rfl⟩
        rw [div_self hc.ne', mul_one]
        exact warm_start d c
      · rw [hq1]; simp [AgedQueue.clear]
      · rw [hq2]; simp [AgedQueue.clear]
      · intro e he
        have := hes e he
        cases e <;> exact this

/-! ### How fast it is corrected -/

/-- Specification: between two ticks there is at most one pose message, and at the tick it is less than half
of `L` seconds old. The first argument is the message that waits. -/
def FreshPoses (L : ℝ) : Option PoseMsg → List Event → Prop
  | _, [] => True
  | none, .pose m :: es => FreshPoses L (some m) es
  | some _, .pose _ :: _ => False
  | w, .timer _ t2 _ _ _ _ _ :: es =>
    (∀ m ∈ w, ((t2 - m.stamp : ℤ) : ℝ) / 1000000000 < L / 2) ∧ FreshPoses L none es
  | w, .twist _ :: es => FreshPoses L w es
  | _, .initialPose .. :: _ => False

/-- Specification: the information about x and y in the pose messages, each the reciprocal of a variance. -/
noncomputable def information : List Event → ℝ
  | [] => 0
  | .pose m :: es => 1 / m.cov 0 + information es
  | _ :: es => information es

theorem process_taken {h : ℕ} {sing : Bool} {stateOf : (Fin 6 → ℝ) → (Fin h → ℝ)}
    {covOf : Matrix (Fin 6) (Fin 6) ℝ → Matrix (Fin h) (Fin h) ℝ} {C : Matrix (Fin h) (Fin 6) ℝ}
    {gate dt : ℝ} {now stamp : ℤ} {y : Fin h → Option ℝ} {R : Matrix (Fin h) (Fin h) ℝ}
    {f f' : TimeDelayKalmanFilter ℝ (n + 1) 6} {v : Fin h → ℝ} (hy : y = fun i => some (v i))
    {δ : Fin (n + 1)} (hd : computeDelayStep (computeDelayTime now stamp : ℝ) dt = .ok (δ.val : ℤ))
    (hg : mahalanobisGate sing gate (stateOf (blkX f.x δ)) v (covOf (f.getLatestP n.succ_pos)) = true)
    (hu : f.update v C R (δ.val : ℤ) = .ok f') :
    processMeasurement n.succ_pos sing stateOf covOf C gate now dt stamp y R f = .ok f' := by
  have hall : allFinite y = some v := by
    subst hy
    simp [allFinite]
  have hc : checkDelayStep (δ.val : ℤ) ((n + 1 : ℕ) : ℤ) = true := by
    simp only [checkDelayStep, decide_eq_true_eq]
    exact_mod_cast δ.isLt
  simp only [processMeasurement, bind, Except.bind, hd, hc, hall, getX_blk, hg, hu]
  rfl

/-- What is known after the messages so far have come, of which one may still wait. -/
structure Informed (tf : Tf2) (p : EkfParams) (a : Place) (d c τ : ℝ) (w : Option PoseMsg)
    (s : NodeState (n + 1)) : Prop where
  ekf : ∃ f k e γ σ, s.ekf = some f ∧ 0 ≤ σ ∧ τ = σ + (w.map fun m => 1 / m.cov 0).getD 0 ∧
    Aside a e γ f ∧ Warm k (d / (1 + c * σ)) (c / (1 + c * σ)) e γ
  queue : s.poseQ = ⟨1, w.toList, w.toList.map fun _ => 0⟩
  waits : ∀ m ∈ w, a.Told tf m ∧ Round m
  twists : ∀ m ∈ s.twistQ.msgs, Resting m
  freq : s.interval.defaultFrequency = p.defaultFrequency

/-- One tick. -/
theorem informed_tick {a : Place} (ha : -Real.pi < a.yaw ∧ a.yaw ≤ Real.pi) {d c τ : ℝ} (hc : 0 < c)
    (hgate : d ^ 2 ≤ p.poseGate ^ 2 * c) (hts : 1 ≤ p.twistSmoothing ∧ p.twistSmoothing ≤ 2147483647)
    (hps : p.poseSmoothing = 1) {L : ℝ} (hL : 0 < L) (hL10 : L ≤ 10)
    (hLf : L ≤ 1 / max p.defaultFrequency (1 / 10)) {w : Option PoseMsg} {s s' : NodeState (n + 1)}
    {o : List Output} (hs : Informed tf p a d c τ w s) {t1 t2 t3 t4 t5 : ℤ} {sp : PoseMsg → Bool}
    {st : TwistMsg → Bool} (hw : ∀ m ∈ w, ((t2 - m.stamp : ℤ) : ℝ) / 1000000000 < L / 2)
    (hlast : ∀ last, s.interval.lastTime = some last → last + L ≤ (t1 : ℝ) / 1000000000)
    (h : step n.succ_pos tf p s (.timer t1 t2 t3 t4 t5 sp st) = .ok (s', o)) :
    Informed tf p a d c τ none s' ∧ s'.interval.lastTime = some ((t1 : ℝ) / 1000000000) ∧
    o.length = 2 ∧ ∀ x ∈ o, a.ShownBeside (d / (1 + c * τ)) x ∧ x.Sideways a.yaw (c / (1 + c * τ)) := by
  obtain ⟨f, k, e, γ, σ, hf, hσ, hτ, hA, hW⟩ := hs.ekf
  have hdt : ∃ dt, s.interval.compute ((t1 : ℝ) / 1000000000) =
      (.ok dt, ⟨p.defaultFrequency, some ((t1 : ℝ) / 1000000000)⟩) ∧ L ≤ dt := by
    cases hlt : s.interval.lastTime with
    | none =>
      refine ⟨computeInterval (p.defaultFrequency : WithTop ℝ), ?_, hLf⟩
      simp only [UpdateInterval.compute, hlt, hs.freq]
    | some last =>
      have h0 := hlast last hlt
      refine ⟨min ((t1 : ℝ) / 1000000000 - last) 10, ?_, le_min (by linarith) hL10⟩
      rw [compute_interval _ last _ hlt, if_neg (by linarith), hs.freq]
  obtain ⟨dt, hdt, hLdt⟩ := hdt
  have hdt0 : 0 < dt := by linarith
  have hA0 := aside_predict ha p dt hA
  have hW0 := warm_predict hW
  set f0 := predictStep n.succ_pos p dt f with hf0
  -- the pose message
  have hpose : ∃ f1 k e γ, updateAll (processPose n.succ_pos tf sp p.poseGate p.poseSmoothing t2 dt)
      s.poseQ f0 = .ok (f1, ⟨1, [], []⟩) ∧ Aside a e γ f1 ∧ 0 ≤ τ ∧
      Warm k (d / (1 + c * τ)) (c / (1 + c * τ)) e γ := by
    rw [hs.queue]
    cases w with
    | none =>
      have : τ = σ := by simpa using hτ
      subst this
      exact ⟨f0, _, _, _, updateAll_empty _ _ _ rfl, hA0, hσ, hW0⟩
    | some m =>
      obtain ⟨hm, hr⟩ := hs.waits m rfl
      have hτ' : τ = σ + 1 / m.cov 0 := by simpa using hτ
      have hr0 := hr.pos
      obtain ⟨hR, hRρ⟩ := round_definite hr Nat.one_pos a.yaw
      rw [Nat.cast_one, one_mul] at hRρ
      obtain ⟨f1, hu⟩ := C34_accepted f0 (poseMeasurementMatrix *ᵥ a.state) poseMeasurementMatrix
        (poseMeasurementCovariance m.cov 1) 0 hA0.psd hR
      have h1σ : 0 < 1 + c * σ := by positivity
      have hd : computeDelayStep (computeDelayTime t2 m.stamp : ℝ) dt = .ok ((0 : Fin (n + 1)).val : ℤ) := by
        have hage := hw m rfl
        have hage' : (computeDelayTime t2 m.stamp : ℝ) < L / 2 := hage
        obtain ⟨k, k1, k2, k3, k4⟩ := C31_delay_step (computeDelayTime t2 m.stamp : ℝ) dt hdt0 (by
          rw [div_lt_iff₀ hdt0]; linarith)
        rw [k1]
        have : max (computeDelayTime t2 m.stamp : ℝ) 0 / dt < 1 / 2 := by
          rw [div_lt_iff₀ hdt0]
          exact max_lt (by linarith) (by linarith)
        have hk : (k : ℝ) < 1 := by linarith
        have hk' : k < 1 := by exact_mod_cast hk
        have : k = 0 := by omega
        rw [this]; rfl
      have hg : mahalanobisGate (sp m) p.poseGate (getPoseState (blkX f0.x 0))
          (poseMeasurementMatrix *ᵥ a.state) (poseCovariance (f0.getLatestP n.succ_pos)) = true := by
        rw [gate_aside hA0, decide_eq_true_eq, hW0.state 0 (Nat.zero_le _),
          hW0.cov 0 0 (Nat.zero_le _) (Nat.zero_le _)]
        have : (d / (1 + c * σ)) ^ 2 / (c / (1 + c * σ)) = d ^ 2 / c / (1 + c * σ) := by
          field_simp
        rw [this, div_le_iff₀ h1σ, div_le_iff₀ hc]
        have h2 : 0 ≤ p.poseGate ^ 2 * c := by positivity
        have h3 : 0 ≤ c * σ := by positivity
        nlinarith [mul_nonneg h2 h3]
      have hpr : processPose n.succ_pos tf sp p.poseGate p.poseSmoothing t2 dt m f0 = .ok f1 := by
        have ht : toSizeT p.poseSmoothing = 1 := by rw [hps]; decide
        unfold processPose
        rw [ht]
        exact process_taken (told_vector ha hm) hd hg hu
      have hA1 := aside_pose hA0 hR hr0 hRρ 0 hu
      have hcs : 0 < c / (1 + c * σ) := by positivity
      have hW1 := (warm_pose hW0 (by linarith : c / (1 + c * σ) + m.cov 0 ≠ 0) 0).1 (Nat.zero_le _)
      refine ⟨f1, k + 1, _, _, ?_, hA1, by rw [hτ']; positivity, ?_⟩
      · have hpop : (⟨1, [m], [0]⟩ : AgedQueue PoseMsg).pop = .ok (m, ⟨1, [], []⟩) := by
          simp [AgedQueue.pop]
        change updateLoop _ 1 0 ⟨1, [m], [0]⟩ f0 = _
        rw [updateLoop, if_pos (by simp [AgedQueue.size])]
        simp only [bind, Except.bind, hpop, hpr]
        rfl
      · have e1 : d / (1 + c * σ) * (m.cov 0 / (c / (1 + c * σ) + m.cov 0)) = d / (1 + c * τ) := by
          rw [hτ']
          field_simp
          try ring
        have e2 : c / (1 + c * σ) * (m.cov 0 / (c / (1 + c * σ) + m.cov 0)) = c / (1 + c * τ) := by
          rw [hτ']
          field_simp
          try ring
        rwa [e1, e2] at hW1
  obtain ⟨f1, k1, e1, γ1, hu1, hA1, hτ0, hW1⟩ := hpose
  simp only [step, timerCallback, hf, hdt, bind, Except.bind] at h
  rw [← hf0, hu1] at h
  simp only at h
  cases hv : updateAll (processTwist n.succ_pos st p.twistGate p.twistSmoothing t3 dt) s.twistQ f1 with
  | error x => rw [hv] at h; cases h
  | ok r =>
    obtain ⟨f2, q2⟩ := r
    rw [hv] at h
    simp only [pure, Except.pure] at h
    obtain ⟨hA2, hq2⟩ := updateLoop_inv _ (Aside a e1 γ1) Resting (fun m f f' hm hI hp => by
      rcases process_cases (twist_vector a ⟨hm.vx, hm.wz⟩) hp with rfl | ⟨δ, -, -, hu⟩
      · exact hI
      · exact aside_twist hI (twist_definite hm (toSizeT_pos hts.1 hts.2).2) δ hu) _ _ _ _ _ _
      hA1 hs.twists hv
    injection h with h
    injection h with h h'
    subst h; subst h'
    refine ⟨⟨⟨f2, k1, e1, γ1, τ, rfl, hτ0, by simp, hA2, hW1⟩, rfl, by simp, hq2, rfl⟩, rfl, rfl, ?_⟩
    intro x hx
    have g1 := shown_aside hA2 s t4 t5 x hx
    have g2 := sideVariance_aside hA2 s t4 t5 x hx
    rw [hW1.state 0 (Nat.zero_le _)] at g1
    rw [hW1.cov 0 0 (Nat.zero_le _) (Nat.zero_le _)] at g2
    exact ⟨g1, g2⟩

theorem run_informed {a : Place} (ha : -Real.pi < a.yaw ∧ a.yaw ≤ Real.pi) {d c : ℝ} (hc : 0 < c)
    (hgate : d ^ 2 ≤ p.poseGate ^ 2 * c) (hts : 1 ≤ p.twistSmoothing ∧ p.twistSmoothing ≤ 2147483647)
    (hps : p.poseSmoothing = 1) {L : ℝ} (hL : 0 < L) (hL10 : L ≤ 10)
    (hLf : L ≤ 1 / max p.defaultFrequency (1 / 10)) {t1 t2 t3 t4 t5 : ℤ} {sp : PoseMsg → Bool}
    {st : TwistMsg → Bool} : ∀ (es : List Event) (τ : ℝ) (w : Option PoseMsg) (s s' : NodeState (n + 1))
    (out : List Output), Informed tf p a d c τ w s →
    FreshPoses L w (es ++ [Event.timer t1 t2 t3 t4 t5 sp st]) →
    (∀ e ∈ es, Afterwards (fun m => a.Told tf m ∧ Round m) e) →
    (∀ last, s.interval.lastTime = some last →
      ∀ t ∈ (es ++ [Event.timer t1 t2 t3 t4 t5 sp st]).filterMap Event.clock, last + L ≤ (t : ℝ) / 1000000000) →
    (((es ++ [Event.timer t1 t2 t3 t4 t5 sp st]).filterMap Event.clock).Pairwise fun a b : ℤ =>
      (a : ℝ) / 1000000000 + L ≤ (b : ℝ) / 1000000000) →
    run n.succ_pos tf p s (es ++ [Event.timer t1 t2 t3 t4 t5 sp st]) = .ok (s', out) →
    ∃ out0 o, out = out0 ++ o ∧ o.length = 2 ∧ ∀ x ∈ o,
      a.ShownBeside (d / (1 + c * (τ + information es))) x ∧
      x.Sideways a.yaw (c / (1 + c * (τ + information es))) := by
  intro es
  induction es with
  | nil =>
    intro τ w s s' out hs hw _ hlast _ h
    rw [List.nil_append] at h hw hlast
    simp only [run, bind, Except.bind] at h
    cases h1 : step n.succ_pos tf p s (.timer t1 t2 t3 t4 t5 sp st) with
    | error x => rw [h1] at h; cases h
    | ok r =>
      obtain ⟨s1, o1⟩ := r
      rw [h1] at h
      simp only [pure, Except.pure, List.append_nil] at h
      injection h with h
      injection h with _ h
      subst h
      have hw' : ∀ m ∈ w, ((t2 - m.stamp : ℤ) : ℝ) / 1000000000 < L / 2 := by
        cases w <;> exact hw.1
      obtain ⟨-, -, k1, k2⟩ := informed_tick ha hc hgate hts hps hL hL10 hLf hs hw'
        (fun last hl => hlast last hl t1 (by simp [Event.clock])) h1
      refine ⟨[], o1, rfl, k1, ?_⟩
      simpa only [information, add_zero] using k2
  | cons e es ih =>
    intro τ w s s' out hs hw hes hlast hgaps h
    rw [List.cons_append] at h hw hlast hgaps
    simp only [run, bind, Except.bind] at h
    cases h1 : step n.succ_pos tf p s e with
    | error x => rw [h1] at h; cases h
    | ok r =>
      obtain ⟨s1, o1⟩ := r
      rw [h1] at h
      simp only at h
      cases h2 : run n.succ_pos tf p s1 (es ++ [Event.timer t1 t2 t3 t4 t5 sp st]) with
      | error x => rw [h2] at h; cases h
      | ok r2 =>
        obtain ⟨s2, o2⟩ := r2
        rw [h2] at h
        simp only [pure, Except.pure] at h
        injection h with h
        injection h with _ h
        subst h
        have hes' : ∀ e ∈ es, Afterwards (fun m => a.Told tf m ∧ Round m) e :=
          fun e he => hes e (List.mem_cons_of_mem _ he)
        have he := hes e List.mem_cons_self
        have fin : ∀ (τ' : ℝ) (w' : Option PoseMsg), Informed tf p a d c τ' w' s1 →
            FreshPoses L w' (es ++ [Event.timer t1 t2 t3 t4 t5 sp st]) →
            τ' + information es = τ + information (e :: es) →
            (∀ last, s1.interval.lastTime = some last →
              ∀ t ∈ (es ++ [Event.timer t1 t2 t3 t4 t5 sp st]).filterMap Event.clock,
                last + L ≤ (t : ℝ) / 1000000000) →
            (((es ++ [Event.timer t1 t2 t3 t4 t5 sp st]).filterMap Event.clock).Pairwise fun a b : ℤ =>
              (a : ℝ) / 1000000000 + L ≤ (b : ℝ) / 1000000000) →
            ∃ out0 o, o1 ++ o2 = out0 ++ o ∧ o.length = 2 ∧ ∀ x ∈ o,
              a.ShownBeside (d / (1 + c * (τ + information (e :: es)))) x ∧
              x.Sideways a.yaw (c / (1 + c * (τ + information (e :: es)))) := by
          intro τ' w' i1 i2 i3 i4 i5
          obtain ⟨out0, o, j1, j2, j3⟩ := ih τ' w' s1 s2 o2 i1 i2 hes' i4 i5 h2
          rw [i3] at j3
          exact ⟨o1 ++ out0, o, by rw [j1, List.append_assoc], j2, j3⟩
        cases e with
        | initialPose m tries => exact he.elim
        | pose m =>
          cases w with
          | some m' => exact hw.elim
          | none =>
            simp only [step] at h1
            injection h1 with h1
            injection h1 with h1 h1'
            subst h1; subst h1'
            obtain ⟨f, k, e, γ, σ, hf, hσ, hτ, hA, hW⟩ := hs.ekf
            have hτ' : τ = σ := by simpa using hτ
            refine fin (τ + 1 / m.cov 0) (some m) ⟨⟨f, k, e, γ, σ, hf, hσ, ?_, hA, hW⟩, ?_, ?_, hs.twists,
              hs.freq⟩ hw ?_ hlast hgaps
            · rw [hτ']; rfl
            · simp only [updateSimple1DFilters, hs.queue, AgedQueue.push]
              rfl
            · intro m' hm'
              have : m = m' := by simpa using hm'
              subst this
              exact he
            · simp only [information]; ring
        | twist m =>
          simp only [step] at h1
          injection h1 with h1
          injection h1 with h1 h1'
          subst h1; subst h1'
          refine fin τ w ⟨hs.ekf, hs.queue, hs.waits, fun m' hm' => ?_, hs.freq⟩ ?_ rfl hlast hgaps
          · simp only [AgedQueue.push, List.mem_append, List.mem_singleton] at hm'
            rcases hm' with hm' | rfl
            · exact hs.twists m' hm'
            · exact he
          · cases w <;> exact hw
        | timer u1 u2 u3 u4 u5 up ut =>
          have hw' : (∀ m ∈ w, ((u2 - m.stamp : ℤ) : ℝ) / 1000000000 < L / 2) ∧
              FreshPoses L none (es ++ [Event.timer t1 t2 t3 t4 t5 sp st]) := by
            cases w <;> exact hw
          rw [List.filterMap_cons] at hgaps
          simp only [Event.clock] at hgaps
          obtain ⟨g1, g2⟩ := List.pairwise_cons.1 hgaps
          obtain ⟨k1, k2, -, -⟩ := informed_tick ha hc hgate hts hps hL hL10 hLf hs hw'.1
            (fun last hl => hlast last hl u1 (by simp [Event.clock])) h1
          refine fin τ none k1 hw'.2 rfl ?_ g2
          intro last hl t ht
          rw [k2] at hl
          injection hl with hl
          rw [← hl]
          exact g1 t ht

/-- C148: if the initial pose is wrong sideways by at most the gate times its standard deviation, the vehicle
stands still and between two ticks there is at most one fresh pose message, each used once, then no
message is thrown away: after every tick the sideways error is the initial one divided by one plus the
initial variance times the information of all messages so far, and the published variance agrees. -/
theorem C148_corrected_partial {a : Place} (ha : -Real.pi < a.yaw ∧ a.yaw ≤ Real.pi) {d c : ℝ} {m : PoseMsg}
    {tries : List Char → List Char → ℕ → Option Transform} (hm : a.StartsBeside tf d c m tries)
    (hgate : d ^ 2 ≤ p.poseGate ^ 2 * c) (hts : 1 ≤ p.twistSmoothing ∧ p.twistSmoothing ≤ 2147483647)
    (hps : p.poseSmoothing = 1) {L : ℝ} (hL : 0 < L) (hL10 : L ≤ 10)
    (hLf : L ≤ 1 / max p.defaultFrequency (1 / 10)) (hframe : p.poseFrame ≠ []) (es : List Event)
    (hes : ∀ e ∈ es, Afterwards (fun m => a.Told tf m ∧ Round m) e) {t1 t2 t3 t4 t5 : ℤ} {sp : PoseMsg → Bool}
    {st : TwistMsg → Bool} (htimely : FreshPoses L none (es ++ [Event.timer t1 t2 t3 t4 t5 sp st]))
    (hwf : WellFormed tf L (.initialPose m tries :: (es ++ [Event.timer t1 t2 t3 t4 t5 sp st]))) :
    ∃ s out o, run n.succ_pos tf p (NodeState.make (n + 1) p)
        (.initialPose m tries :: (es ++ [Event.timer t1 t2 t3 t4 t5 sp st])) = .ok (s, out ++ o) ∧
      o.length = 2 ∧ ∀ x ∈ o, a.ShownBeside (d / (1 + c * information es)) x ∧
        x.Sideways a.yaw (c / (1 + c * information es)) := by
  obtain ⟨s', out, h, -⟩ := C70_no_failure n.succ_pos tf p L hL hL10 hLf hframe _ hwf
  have h' := h
  simp only [run, bind, Except.bind] at h'
  cases h1 : step n.succ_pos tf p (NodeState.make (n + 1) p) (.initialPose m tries) with
  | error x => rw [h1] at h'; cases h'
  | ok r =>
    obtain ⟨s1, o1⟩ := r
    rw [h1] at h'
    simp only at h'
    obtain ⟨rfl, hq1, hq2, hiv, hf⟩ := start_step hm h1
    cases h2 : run n.succ_pos tf p s1 (es ++ [Event.timer t1 t2 t3 t4 t5 sp st]) with
    | error x => rw [h2] at h'; cases h'
    | ok r2 =>
      obtain ⟨s2, o2⟩ := r2
      rw [h2] at h'
      simp only [pure, Except.pure, List.nil_append] at h'
      injection h' with h'
      injection h' with _ h'
      subst h'
      obtain ⟨out0, o, k1, k2, k3⟩ := run_informed ha hm.pos hgate hts hps hL hL10 hLf es 0 none s1 s2 o2
        ⟨⟨_, 0, _, _, 0, hf, le_rfl, by simp, aside_start hm.cx hm.cy hm.pos hm.yaw, by
            simpa using warm_start d c⟩,
          by rw [hq1, NodeState.make, hps]; rfl, by simp, by rw [hq2]; simp [AgedQueue.clear],
          by rw [hiv]; rfl⟩ htimely hes
        (by intro last hl; rw [hiv] at hl; simp [NodeState.make, UpdateInterval.make] at hl)
        (by simpa [List.filterMap_cons, Event.clock] using hwf.gaps) h2
      subst k1
      rw [zero_add] at k3
      exact ⟨s', out0, o, h, k2, k3⟩

/-- Specification: the number of pose messages. -/
def posesTold : List Event → ℕ
  | [] => 0
  | .pose _ :: es => 1 + posesTold es
  | _ :: es => posesTold es

/-- C148: after `k` messages of variance at most `r` no more than the fraction `r / (r + k c)` of the initial
error is left. -/
theorem C148_rate (es : List Event) (d : ℝ) {c r : ℝ} (hc : 0 < c) (hr : 0 < r)
    (hes : ∀ m, Event.pose m ∈ es → 0 < m.cov 0 ∧ m.cov 0 ≤ r) :
    |d / (1 + c * information es)| ≤ |d| * (r / (r + posesTold es * c)) := by
  have key : ∀ es : List Event, (∀ m, Event.pose m ∈ es → 0 < m.cov 0 ∧ m.cov 0 ≤ r) →
      (posesTold es : ℝ) / r ≤ information es := by
    intro es
    induction es with
    | nil => intro _; simp [posesTold, information]
    | cons e es ih =>
      intro h
      have := ih fun m hm => h m (List.mem_cons_of_mem _ hm)
      cases e with
      | pose m =>
        obtain ⟨h0, h1⟩ := h m List.mem_cons_self
        simp only [posesTold, information, Nat.cast_add, Nat.cast_one, add_div]
        have := one_div_le_one_div_of_le h0 h1
        linarith
      | initialPose _ _ => simpa only [posesTold, information] using this
      | twist _ => simpa only [posesTold, information] using this
      | timer _ _ _ _ _ _ _ => simpa only [posesTold, information] using this
  have h1 := key es hes
  have hk : (0 : ℝ) ≤ posesTold es := Nat.cast_nonneg _
  have h2 : 0 ≤ (posesTold es : ℝ) / r := by positivity
  have h3 : 0 < 1 + c * information es := by
    have := mul_nonneg hc.le (h2.trans h1)
    linarith
  rw [abs_div, abs_of_pos h3, div_eq_mul_one_div]
  refine mul_le_mul_of_nonneg_left ?_ (abs_nonneg d)
  rw [div_le_div_iff₀ h3 (by positivity)]
  have h4 := mul_le_mul_of_nonneg_left h1 (mul_nonneg hc.le hr.le)
  have h5 : c * r * ((posesTold es : ℝ) / r) = posesTold es * c := by field_simp
  rw [h5] at h4
  nlinarith

end Node

/-! Non-vacuity. -/

/-- A message at `y = py` with variances of 1 and no correlations. -/
def besideMsg (py : ℝ) (stamp : ℤ) : PoseMsg :=
  ⟨"map".toList, stamp, some 0, some py, some 0, ⟨1, 0, 0, 0⟩,
    fun i => if i.val % 7 = 0 then 1 else 0⟩

theorem beside_starts (d : ℝ) :
    (⟨0, 0, 0, 0, 0, 0⟩ : Place).StartsBeside flatTf d 1 (besideMsg d 0) identityTries := by
  refine ⟨fun parent child t ht => ?_, by simp [besideMsg], by simp [besideMsg], one_pos,
    by simp [besideMsg]⟩
  have : t = ⟨0, 0, 0, ⟨1, 0, 0, 0⟩⟩ := by
    simpa [lookupTransform, lookupLoop, identityTries] using ht.symm
  subst this
  simp [besideMsg, flatTf]

theorem beside_told (stamp : ℤ) :
    (⟨0, 0, 0, 0, 0, 0⟩ : Place).Told flatTf (besideMsg 0 stamp) ∧ Round (besideMsg 0 stamp) :=
  ⟨⟨rfl, rfl, 0, 0, rfl, by simp⟩, ⟨by simp [besideMsg], by simp [besideMsg], by simp [besideMsg],
    by simp [besideMsg], by simp [besideMsg]⟩⟩

theorem beside_wellFormed (d : ℝ) : WellFormed flatTf (1 / 50) [.initialPose (besideMsg d 0) identityTries,
    .pose (besideMsg 0 0), .timer 0 0 0 0 0 (fun _ => true) (fun _ => true)] := by
  refine ⟨?_, ?_, ?_, ?_⟩
  · intro e he
    simp only [List.mem_cons, List.not_mem_nil, or_false] at he
    rcases he with rfl | rfl | rfl
    · exact ⟨by simp [besideMsg], rfl, rfl, rfl, fun a b => ⟨⟨0, by norm_num, rfl⟩, fun k t _ => rfl⟩⟩
    all_goals trivial
  · change List.Pairwise _ [0]; simp
  · intro e he t1 t2 t3 t4 t5 sp st hee stamp hst
    simp only [List.mem_cons, List.not_mem_nil, or_false] at he
    have : 0 = stamp := by simpa [Event.poseStamp, besideMsg] using hst
    subst this
    rcases he with rfl | rfl | rfl <;> cases hee
    norm_num
  · intro e he t1 t2 t3 t4 t5 sp st hee stamp hst
    simp [Event.twistStamp] at hst

/-- With a gate of 2 standard deviations an error of 3 of them is kept although a message says better. -/
example : ∃ (s : NodeState 3) (o1 o2 : Output),
    run (by norm_num) flatTf { defaultParams with poseGate := 2 }
      (NodeState.make 3 { defaultParams with poseGate := 2 })
      [.initialPose (besideMsg 3 0) identityTries, .pose (besideMsg 0 0),
        .timer 0 0 0 0 0 (fun _ => true) (fun _ => true)] = .ok (s, [o1, o2]) ∧
    (⟨0, 0, 0, 0, 0, 0⟩ : Place).ShownBeside 3 o1 ∧ (⟨0, 0, 0, 0, 0, 0⟩ : Place).ShownBeside 3 o2 := by
  have hp := Real.pi_pos
  obtain ⟨s, out, h1, h2⟩ := C70_no_failure (N := 3) (by norm_num) flatTf
    { defaultParams with poseGate := 2 } (1 / 50) (by norm_num) (by norm_num)
    (by norm_num [defaultParams]) (by simp [defaultParams]) _ (beside_wellFormed 3)
  have h3 := C148_stuck_violated (n := 2) (tf := flatTf) (p := { defaultParams with poseGate := 2 })
    (a := ⟨0, 0, 0, 0, 0, 0⟩) ⟨by simpa using hp, hp.le⟩ (beside_starts 3) (by norm_num)
    ⟨by simp [defaultParams], by simp [defaultParams]⟩
    [.pose (besideMsg 0 0), .timer 0 0 0 0 0 (fun _ => true) (fun _ => true)]
    (by
      intro e he
      simp only [List.mem_cons, List.not_mem_nil, or_false] at he
      rcases he with rfl | rfl
      · exact (beside_told 0).1
      · trivial) h1
  have hl : out.length = 2 := by
    have := congrArg List.length h2
    rw [List.length_map] at this
    rw [this]
    rfl
  match out, hl with
  | [o1, o2], _ => exact ⟨s, o1, o2, h1, h3 o1 (by simp), h3 o2 (by simp)⟩

/-- With the default gate and messages used once, half of the error is left after one of them. -/
example : ∃ (s : NodeState 3) (out o : List Output),
    run (by norm_num) flatTf { defaultParams with poseSmoothing := 1 }
      (NodeState.make 3 { defaultParams with poseSmoothing := 1 })
      [.initialPose (besideMsg 3 0) identityTries, .pose (besideMsg 0 0),
        .timer 0 0 0 0 0 (fun _ => true) (fun _ => true)] = .ok (s, out ++ o) ∧ o.length = 2 ∧
    ∀ x ∈ o, (⟨0, 0, 0, 0, 0, 0⟩ : Place).ShownBeside (3 / 2) x ∧ x.Sideways 0 (1 / 2) := by
  have hp := Real.pi_pos
  obtain ⟨s, out, o, h1, h2, h3⟩ := C148_corrected_partial (n := 2) (tf := flatTf)
    (p := { defaultParams with poseSmoothing := 1 })
    (a := ⟨0, 0, 0, 0, 0, 0⟩) ⟨by simpa using hp, hp.le⟩ (beside_starts 3) (by norm_num [defaultParams])
    ⟨by simp [defaultParams], by simp [defaultParams]⟩ rfl (L := 1 / 50) (by norm_num) (by norm_num)
    (by norm_num [defaultParams]) (by simp [defaultParams]) [.pose (besideMsg 0 0)]
    (by
      intro e he
      simp only [List.mem_cons, List.not_mem_nil, or_false] at he
      subst he
      exact beside_told 0)
    (t1 := 0) (t2 := 0) (t3 := 0) (t4 := 0) (t5 := 0) (sp := fun _ => true) (st := fun _ => true)
    (by
      refine ⟨fun m hm => ?_, trivial⟩
      have : besideMsg 0 0 = m := by simpa using hm
      subst this
      norm_num [besideMsg])
    (beside_wellFormed 3)
  refine ⟨s, out, o, h1, h2, fun x hx => ?_⟩
  have := h3 x hx
  have e : information [.pose (besideMsg 0 0)] = 1 := by simp [information, besideMsg]
  rw [e] at this
  norm_num at this
  exact this

end Verif.Ekf
