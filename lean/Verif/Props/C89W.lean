/-
C89, a run with steps in the wrong direction: the corners of a square, turned about the vertical axis.
-/
import Verif.Props.C89
import Mathlib.Analysis.Real.Pi.Bounds
import Mathlib.Analysis.SpecialFunctions.Trigonometric.Bounds

set_option autoImplicit false

namespace Verif.Align

open Matrix Verif.Rot Verif.Opt Verif.Loc

/-- The quaternion of a turn about the vertical axis. -/
noncomputable def qz (a : ℝ) : Quat := ⟨Real.cos (a / 2), 0, 0, Real.sin (a / 2)⟩

theorem qz_unit (a : ℝ) : (qz a).IsUnit := by
  unfold Quat.IsUnit qz
  linear_combination Real.sin_sq_add_cos_sq (a / 2)

theorem qz_rot (a : ℝ) : (qz a).toRotationMatrix = rotZ a := by
  rw [← (ofAngleAxis_rot a).2.2]
  congr 1
  simp [qz, Quat.ofAngleAxis]

theorem qz_mul (a b : ℝ) : (qz a).mul (qz b) = qz (a + b) := by
  have e : (a + b) / 2 = a / 2 + b / 2 := by ring
  apply Quat.ext <;> simp [qz, Quat.mul, e, Real.cos_add, Real.sin_add] <;> ring

theorem rotZ_isRotation (a : ℝ) : IsRotation (rotZ a) := by
  rw [← qz_rot]
  exact toRotationMatrix_rotation _ (qz_unit a)

theorem rotZ_add (a b : ℝ) : rotZ (a + b) = rotZ a * rotZ b := by
  rw [← qz_rot, ← qz_rot, ← qz_rot, ← qz_mul, toRotationMatrix_mul _ _ (qz_unit a) (qz_unit b)]

theorem ofMatrix_w_pos (R : Matrix (Fin 3) (Fin 3) ℝ) (h : 0 < R 0 0 + R 1 1 + R 2 2) :
    0 < (Quat.ofMatrix R).w := by
  unfold Quat.ofMatrix
  simp only [if_pos h]
  have : 0 < Real.sqrt (R 0 0 + R 1 1 + R 2 2 + 1) := Real.sqrt_pos.2 (by linarith)
  linarith

theorem ofMatrix_z_nonneg (R : Matrix (Fin 3) (Fin 3) ℝ) (h : ¬ 0 < R 0 0 + R 1 1 + R 2 2)
    (h0 : R 0 0 < R 2 2) (h1 : R 1 1 < R 2 2) : 0 ≤ (Quat.ofMatrix R).z := by
  unfold Quat.ofMatrix
  simp only [if_neg h]
  have hi : (if R (if R 0 0 < R 1 1 then 1 else 0) (if R 0 0 < R 1 1 then 1 else 0) < R 2 2 then (2 : Fin 3)
      else (if R 0 0 < R 1 1 then 1 else 0)) = 2 := by
    split_ifs <;> first | rfl | exact absurd h0 ‹_› | exact absurd h1 ‹_› | simp_all
  simp only [hi]
  simp

/-- The sign that the conversion gives to a turn. -/
theorem ofMatrix_rotZ_same_w (a : ℝ) (h : 0 < 1 + 2 * Real.cos a) (hc : 0 < Real.cos (a / 2)) :
    Quat.ofMatrix (rotZ a) = qz a := by
  rcases ofMatrix_eq_or_opp (qz_unit a) with h1 | h1
  · rwa [qz_rot] at h1
  · rw [qz_rot] at h1
    have := ofMatrix_w_pos (rotZ a) (by simp [rotZ]; linarith)
    rw [h1] at this
    simp only [opp, qz] at this
    linarith

theorem ofMatrix_rotZ_opp_w (a : ℝ) (h : 0 < 1 + 2 * Real.cos a) (hc : Real.cos (a / 2) < 0) :
    Quat.ofMatrix (rotZ a) = opp (qz a) := by
  rcases ofMatrix_eq_or_opp (qz_unit a) with h1 | h1
  · rw [qz_rot] at h1
    have := ofMatrix_w_pos (rotZ a) (by simp [rotZ]; linarith)
    rw [h1] at this
    simp only [qz] at this
    linarith
  · rwa [qz_rot] at h1

theorem ofMatrix_rotZ_same_z (a : ℝ) (h : 1 + 2 * Real.cos a ≤ 0) (hc : 0 < Real.sin (a / 2)) :
    Quat.ofMatrix (rotZ a) = qz a := by
  rcases ofMatrix_eq_or_opp (qz_unit a) with h1 | h1
  · rwa [qz_rot] at h1
  · rw [qz_rot] at h1
    have := ofMatrix_z_nonneg (rotZ a) (by simp [rotZ]; linarith) (by simp [rotZ]; linarith)
      (by simp [rotZ]; linarith)
    rw [h1] at this
    simp only [opp, qz] at this
    linarith

theorem axis_qz (k : ℝ) (h : 1 / 100000000 ≤ |k|) : angleAxisToQuaternion ![0, 0, k] = qz k := by
  have hn : Rot.norm ![0, 0, k] = |k| := by
    unfold Rot.norm
    simp [Real.sqrt_mul_self_eq_abs]
  unfold angleAxisToQuaternion
  simp only [hn, if_neg (not_lt.2 h)]
  have hk : |k| ≠ 0 := by
    have : (0 : ℝ) < 1 / 100000000 := by norm_num
    linarith
  rcases abs_choice k with e | e
  · rw [e] at hk ⊢
    apply Quat.ext <;> simp [qz, hk]
  · have hk' : k ≠ 0 := by
      rintro rfl
      simp at hk
    rw [e]
    apply Quat.ext <;> simp [qz, hk', neg_div, Real.sin_neg, Real.cos_neg]

/-! ### The corners of a square -/

/-- The corners of a square around the origin. -/
def corners : List V3 := [![1, 0, 0], ![-1, 0, 0], ![0, 1, 0], ![0, -1, 0]]

/-- The corners, each with its image under a turn by `b`. -/
noncomputable def turned (b : ℝ) : List (V3 × V3) := corners.map fun x => (x, rotZ b *ᵥ x)

theorem rot_sqLen {R : Matrix (Fin 3) (Fin 3) ℝ} (hR : IsRotation R) (v : V3) : sqLen (R *ᵥ v) = sqLen v := by
  rw [sqLen_eq, sqLen_eq, dotProduct_mulVec, vecMul_mulVec, hR.1, vecMul_one]

theorem turned_residual (a b : ℝ) (x : V3) :
    alignmentResidual (makePose (qz a) 0) x (rotZ b *ᵥ x) = rotZ a *ᵥ (x - rotZ (b - a) *ᵥ x) := by
  have e : rotZ b = rotZ a * rotZ (b - a) := by rw [← rotZ_add]; congr 1; ring
  simp only [alignmentResidual, makePose, Pose.apply, qz_rot, add_zero]
  rw [mulVec_sub, mulVec_mulVec, ← e]

theorem turned_errors (a b : ℝ) :
    errorsOf (alignmentBlocks (turned b) (makePose (qz a) 0)) =
      List.replicate 4 (2 - 2 * Real.cos (b - a)) := by
  have h := Real.sin_sq_add_cos_sq (b - a)
  simp only [errorsOf, alignmentBlocks, turned, corners, List.map_cons, List.map_nil, turned_residual,
    rot_sqLen (rotZ_isRotation a), List.replicate]
  simp [sqLen, rotZ, mulVec, dotProduct, Fin.sum_univ_succ]
  refine ⟨?_, ?_, ?_, ?_⟩ <;> linear_combination h

theorem isScale_const {l : List ℝ} {c s : ℝ} (h : ∀ e ∈ l, e = c) (hs : IsScale l s) : s = 0 := by
  obtain ⟨m, d, hm, hd, rfl⟩ := hs
  have hmc : m = c := by
    obtain ⟨a, b, ha, hb, rfl⟩ := hm
    rw [h a ha.1, h b hb.1]
    ring
  have : d = 0 := by
    obtain ⟨a, b, ha, hb, rfl⟩ := hd
    have key : ∀ y ∈ l.map (fun x => |x - m|), y = 0 := by
      intro y hy
      obtain ⟨x, hx, rfl⟩ := List.mem_map.1 hy
      rw [h x hx, hmc, sub_self, abs_zero]
    rw [key a ha.1, key b hb.1]
    ring
  rw [this, mul_zero]

theorem not_degenerate {bs : List Block} {k : ℝ} (hk : 1 / 10 ≤ k)
    (h : ∀ v : Fin 7 → ℝ, k * sqLen v ≤ (bs.map fun b => sqLen (b.J *ᵥ v)).sum) : ¬ Degenerate bs := by
  rintro ⟨l, ⟨v, hv, hl⟩, hl'⟩
  have h1 := quad_normalMatrix (bs.map fun b => (1, b)) v v
  rw [← gram_eq, hl, dotProduct_smul, ← sqLen_eq, smul_eq_mul, List.map_map] at h1
  have h2 := h v
  have h3 : (bs.map ((fun p : ℝ × Block => p.1 * ((p.2.J *ᵥ v) ⬝ᵥ (p.2.J *ᵥ v))) ∘ fun b => (1, b))).sum =
      (bs.map fun b => sqLen (b.J *ᵥ v)).sum := by
    congr 1
    refine List.map_congr_left fun b _ => ?_
    simp [sqLen_eq]
  rw [h3] at h1
  rw [← h1] at h2
  have h4 : 0 < sqLen v := by
    rcases (sqLen_nonneg v).lt_or_eq with h5 | h5
    · exact h5
    · exact absurd (sqLen_eq_zero h5.symm) hv
  have h5 : k ≤ l := le_of_mul_le_mul_right h2 h4
  linarith [le_abs_self l]

/-- `Q` is `q` with the sign `σ`. -/
def Signed (σ : ℝ) (q Q : Quat) : Prop := (σ = 1 ∧ Q = q) ∨ (σ = -1 ∧ Q = opp q)

theorem Signed.sq {σ : ℝ} {q Q : Quat} (h : Signed σ q Q) : σ ^ 2 = 1 := by
  rcases h with ⟨rfl, -⟩ | ⟨rfl, -⟩ <;> norm_num

theorem signed_exists {q : Quat} (hq : q.IsUnit) : ∃ σ, Signed σ q (Quat.ofMatrix q.toRotationMatrix) := by
  rcases ofMatrix_eq_or_opp hq with h | h
  · exact ⟨1, Or.inl ⟨rfl, h⟩⟩
  · exact ⟨-1, Or.inr ⟨rfl, h⟩⟩

theorem signed_jacobian {σ : ℝ} {q Q : Quat} (hQ : Signed σ q Q) (x : V3) (v : Fin (4 + 3) → ℝ) :
    alignmentJacobian Q x *ᵥ v =
      σ • (dRpDq q x *ᵥ fun i => v (Fin.castAdd 3 i)) + fun i => v (Fin.natAdd 4 i) := by
  rcases hQ with ⟨rfl, rfl⟩ | ⟨rfl, rfl⟩
  · unfold alignmentJacobian
    rw [hcat_mulVec, one_mulVec, one_smul]
  · unfold alignmentJacobian
    rw [hcat_mulVec, one_mulVec]
    congr 1
    rw [dRpDq_apply, dRpDq_apply]
    funext i
    fin_cases i <;> simp [opp] <;> ring

theorem signed_step {σ : ℝ} {q Q : Quat} (hq : q.IsUnit) (hQ : Signed σ q Q) (x : V3) (dx : Fin 6 → ℝ) :
    alignmentJacobian Q x *ᵥ (makeM q *ᵥ dx) = σ • (q.toRotationMatrix *ᵥ (turn dx ⨯₃ x)) + shift dx := by
  rcases hQ with ⟨rfl, rfl⟩ | ⟨rfl, rfl⟩
  · rw [jacobian_step _ hq, one_smul]
  · rw [opp_jacobian_step _ hq, neg_one_smul]

theorem sqLen_pm (σ : ℝ) (hσ : σ ^ 2 = 1) (A B : V3) :
    sqLen (σ • A + B) + sqLen (σ • (-A) + B) = 2 * sqLen A + 2 * sqLen B := by
  simp [sqLen, Fin.sum_univ_succ]
  linear_combination 2 * (A 0 ^ 2 + A 1 ^ 2 + A 2 ^ 2) * hσ

theorem turned_not_degenerate (a b : ℝ) : ¬ Degenerate (alignmentBlocks (turned b) (makePose (qz a) 0)) := by
  refine not_degenerate (k := 4) (by norm_num) fun v => ?_
  obtain ⟨σ, hσ⟩ := signed_exists (qz_unit a)
  have h := Real.sin_sq_add_cos_sq (a / 2)
  set c : Fin 4 → ℝ := fun i => v (Fin.castAdd 3 i) with hc
  set d : V3 := fun i => v (Fin.natAdd 4 i) with hd
  have hneg : ∀ x : V3, dRpDq (qz a) (-x) *ᵥ c = -(dRpDq (qz a) x *ᵥ c) := by
    intro x
    rw [dRpDq_apply, dRpDq_apply]
    funext i
    fin_cases i <;> simp <;> ring
  have e1 : (![-1, 0, 0] : V3) = -![1, 0, 0] := by funext i; fin_cases i <;> simp
  have e2 : (![0, -1, 0] : V3) = -![0, 1, 0] := by funext i; fin_cases i <;> simp
  have hsum : ((alignmentBlocks (turned b) (makePose (qz a) 0)).map fun b => sqLen (b.J *ᵥ v)).sum =
      2 * sqLen (dRpDq (qz a) ![1, 0, 0] *ᵥ c) + 2 * sqLen (dRpDq (qz a) ![0, 1, 0] *ᵥ c) + 4 * sqLen d := by
    have p1 := sqLen_pm σ hσ.sq (dRpDq (qz a) ![1, 0, 0] *ᵥ c) d
    have p2 := sqLen_pm σ hσ.sq (dRpDq (qz a) ![0, 1, 0] *ᵥ c) d
    rw [← hneg, ← e1, ← signed_jacobian hσ, ← signed_jacobian hσ] at p1
    rw [← hneg, ← e2, ← signed_jacobian hσ, ← signed_jacobian hσ] at p2
    simp only [alignmentBlocks, turned, corners, List.map_cons, List.map_nil, List.sum_cons, List.sum_nil,
      makePose]
    linear_combination p1 + p2
  have hv : sqLen v = (c 0 ^ 2 + c 1 ^ 2 + c 2 ^ 2 + c 3 ^ 2) + sqLen d := by
    simp only [hc, hd, sqLen, Fin.sum_univ_seven, Fin.sum_univ_three]
    show v 0 ^ 2 + v 1 ^ 2 + v 2 ^ 2 + v 3 ^ 2 + v 4 ^ 2 + v 5 ^ 2 + v 6 ^ 2 =
      v 0 ^ 2 + v 1 ^ 2 + v 2 ^ 2 + v 3 ^ 2 + (v 4 ^ 2 + v 5 ^ 2 + v 6 ^ 2)
    ring
  have h1 : sqLen (dRpDq (qz a) ![1, 0, 0] *ᵥ c) + sqLen (dRpDq (qz a) ![0, 1, 0] *ᵥ c) =
      8 * (c 0 ^ 2 + c 3 ^ 2) + 4 * (c 1 ^ 2 + c 2 ^ 2) := by
    rw [dRpDq_apply, dRpDq_apply]
    simp [qz, sqLen, Fin.sum_univ_succ]
    linear_combination (8 * (c 0 ^ 2 + c 3 ^ 2) + 4 * (c 1 ^ 2 + c 2 ^ 2)) * h
  rw [hsum, hv]
  have n0 := sq_nonneg (c 0)
  have n1 := sq_nonneg (c 1)
  have n2 := sq_nonneg (c 2)
  have n3 := sq_nonneg (c 3)
  have n4 := sqLen_nonneg d
  linarith

theorem rotZ_mulVec (a : ℝ) (v : V3) :
    rotZ a *ᵥ v = ![Real.cos a * v 0 - Real.sin a * v 1, Real.sin a * v 0 + Real.cos a * v 1, v 2] := by
  funext i
  fin_cases i <;> simp [rotZ, mulVec, dotProduct, Fin.sum_univ_succ] <;> ring

theorem turned_cost (a b σ w : ℝ) (hσ : Signed σ (qz a) (Quat.ofMatrix (rotZ a))) (dx : Fin 6 → ℝ) :
    cost (makeM (qz a)) ((List.replicate 4 w).zip (alignmentBlocks (turned b) (makePose (qz a) 0))) dx =
      w * (4 * (1 - Real.cos (b - a)) ^ 2 + 4 * (σ * dx 2 - Real.sin (b - a)) ^ 2 +
        2 * (dx 0 ^ 2 + dx 1 ^ 2) + 4 * sqLen (shift dx)) := by
  obtain ⟨δ, hδ⟩ : ∃ δ : V3, shift dx = rotZ a *ᵥ δ := by
    refine ⟨(rotZ a)ᵀ *ᵥ shift dx, ?_⟩
    rw [mulVec_mulVec, mul_eq_one_comm.1 (rotZ_isRotation a).1, one_mulVec]
  have key : ∀ x : V3, sqLen (alignmentJacobian (Quat.ofMatrix (rotZ a)) x *ᵥ (makeM (qz a) *ᵥ dx) +
      alignmentResidual (makePose (qz a) 0) x (rotZ b *ᵥ x)) =
      sqLen (σ • (turn dx ⨯₃ x) + δ + (x - rotZ (b - a) *ᵥ x)) := by
    intro x
    rw [signed_step (qz_unit a) hσ, turned_residual, hδ, qz_rot, ← mulVec_smul, ← mulVec_add, ← mulVec_add,
      rot_sqLen (rotZ_isRotation a)]
  have hδ' : sqLen (shift dx) = sqLen δ := by rw [hδ, rot_sqLen (rotZ_isRotation a)]
  have hs := hσ.sq
  rw [hδ']
  simp only [cost, alignmentBlocks, turned, corners, List.map_cons, List.map_nil, List.sum_cons, List.sum_nil,
    List.replicate, List.zip_cons_cons, List.zip_nil_right, List.zip_nil_left]
  have hl : (makePose (qz a) 0).linear = rotZ a := qz_rot a
  rw [hl]
  simp only [key]
  simp only [rotZ_mulVec, cross_apply, turn, sqLen, Fin.sum_univ_three]
  have g0 : vecHead δ = δ 0 := rfl
  have g1 : vecHead (vecTail δ) = δ 1 := rfl
  have g2 : vecHead (vecTail (vecTail δ)) = δ 2 := rfl
  simp [g0, g1, g2]
  linear_combination w * (2 * (dx 0 ^ 2 + dx 1 ^ 2)) * hs

theorem turned_weights (a b : ℝ) :
    ∃ w, 0 < w ∧ weightsOf (alignmentBlocks (turned b) (makePose (qz a) 0)) 0 = List.replicate 4 w := by
  refine ⟨_, ?_, by rw [weightsOf, turned_errors, List.map_replicate]⟩
  exact ((C45_weight _ (by norm_num)).1 _).1

theorem turned_step (a b σ : ℝ) (hσ : Signed σ (qz a) (Quat.ofMatrix (rotZ a))) (dx : Fin 6 → ℝ)
    (h : IsStep (qz a) (alignmentBlocks (turned b) (makePose (qz a) 0))
      (weightsOf (alignmentBlocks (turned b) (makePose (qz a) 0)) 0) dx) :
    dx = ![0, 0, σ * Real.sin (b - a), 0, 0, 0] := by
  obtain ⟨w, hw, hw'⟩ := turned_weights a b
  refine isStep_unique h (turned_not_degenerate a b) fun dz => ?_
  rw [hw', turned_cost a b σ w hσ, turned_cost a b σ w hσ]
  refine mul_le_mul_of_nonneg_left ?_ hw.le
  have h1 := hσ.sq
  have e : σ * (![0, 0, σ * Real.sin (b - a), 0, 0, 0] : Fin 6 → ℝ) 2 - Real.sin (b - a) = 0 := by
    simp
    linear_combination Real.sin (b - a) * h1
  rw [e]
  have e2 : sqLen (shift ![0, 0, σ * Real.sin (b - a), 0, 0, 0]) = 0 := by
    simp [sqLen, shift, Fin.sum_univ_succ]
  rw [e2]
  have n1 := sqLen_nonneg (shift dz)
  have n2 := sq_nonneg (dz 0)
  have n3 := sq_nonneg (dz 1)
  have n4 := sq_nonneg (σ * dz 2 - Real.sin (b - a))
  simp
  linarith

theorem qz_not_small {k : ℝ} (h : 1 / 100 ≤ |k|) (h1 : |k| ≤ 1) (dt : V3) :
    ¬ checkConvergence (qz k) dt := by
  rintro ⟨h2, -⟩
  have hn : Rot.norm (qz k).vec = |Real.sin (k / 2)| := by
    unfold Rot.norm
    simp [qz, Quat.vec, Real.sqrt_mul_self_eq_abs]
  have hpi := Real.pi_gt_three
  have hpi4 := Real.pi_le_four
  have hs := Real.mul_le_sin (x := |k| / 2) (by positivity) (by linarith)
  have h4 : |Real.sin (k / 2)| = Real.sin (|k| / 2) := by
    have h0 : 0 ≤ Real.sin (|k| / 2) := Real.sin_nonneg_of_nonneg_of_le_pi (by positivity) (by linarith)
    rcases abs_choice k with e | e
    · rw [e] at h0 ⊢
      exact abs_of_nonneg h0
    · rw [e] at h0 ⊢
      rw [neg_div, Real.sin_neg] at h0 ⊢
      rw [abs_of_nonpos (by linarith)]
  rw [hn, h4] at h2
  have h5 : 1 / 2 ≤ 2 / Real.pi := by
    rw [le_div_iff₀ (by linarith)]
    linarith
  have h6 : 1 / 2 * (|k| / 2) ≤ 2 / Real.pi * (|k| / 2) := mul_le_mul_of_nonneg_right h5 (by positivity)
  linarith

open Classical in
theorem turned_pass {nth : Nth} (hn : Lib.IsNthElement nth) {llt : Llt} (hllt : LltSpec llt)
    (a b σ : ℝ) (hσ : Signed σ (qz a) (Quat.ofMatrix (rotZ a))) (hs : 1 / 100 ≤ |Real.sin (b - a)|)
    (n : ℕ) (iter : ℤ) (ps pe : ℝ) (hps : 0 ≤ ps) :
    runLoop nth llt (problem (alignmentBlocks (turned b))) (n + 1) iter (qz a) 0 ps pe =
      if pe < 8 - 8 * Real.cos (b - a) then
        .ok ⟨⟨rotZ a, 0⟩, .largerError, iter, 8 - 8 * Real.cos (b - a), 0, true⟩
      else runLoop nth llt (problem (alignmentBlocks (turned b))) n (iter + 1)
        (qz (a + σ * Real.sin (b - a))) 0 0 (8 - 8 * Real.cos (b - a)) := by
  obtain ⟨s, dx, h1, h2, h3⟩ := runLoop_pass hn hllt (alignmentBlocks (turned b)) n iter (qz a) (qz_unit a)
    0 ps pe (by simp [alignmentBlocks, turned, corners])
  have he := turned_errors a b
  have hs0 : s = 0 := isScale_const (c := 2 - 2 * Real.cos (b - a)) (fun e h => by
    rw [he] at h
    exact List.eq_of_mem_replicate h) h1
  subst hs0
  have hdx := turned_step a b σ hσ dx h2
  subst hdx
  have hsum : (errorsOf (alignmentBlocks (turned b) (makePose (qz a) 0))).sum = 8 - 8 * Real.cos (b - a) := by
    rw [he]
    simp
    ring
  have hσ1 : |σ| = 1 := by
    rcases hσ with ⟨rfl, -⟩ | ⟨rfl, -⟩ <;> simp
  have habs : |σ * Real.sin (b - a)| = |Real.sin (b - a)| := by rw [abs_mul, hσ1, one_mul]
  have hq : angleAxisToQuaternion ![0, 0, σ * Real.sin (b - a)] = qz (σ * Real.sin (b - a)) :=
    axis_qz _ (by rw [habs]; linarith)
  have hpose : makePose (qz a) 0 = ⟨rotZ a, 0⟩ := by
    unfold makePose
    rw [qz_rot]
  have hsmall := qz_not_small (k := σ * Real.sin (b - a)) (by rw [habs]; exact hs)
    (by rw [habs]; exact Real.abs_sin_le_one _) ![0, 0, 0]
  rw [h3, hsum]
  have e1 : (![(![0, 0, σ * Real.sin (b - a), 0, 0, 0] : Fin 6 → ℝ) 0,
      (![0, 0, σ * Real.sin (b - a), 0, 0, 0] : Fin 6 → ℝ) 1,
      (![0, 0, σ * Real.sin (b - a), 0, 0, 0] : Fin 6 → ℝ) 2] : V3) = ![0, 0, σ * Real.sin (b - a)] := rfl
  have e2 : (![(![0, 0, σ * Real.sin (b - a), 0, 0, 0] : Fin 6 → ℝ) 3,
      (![0, 0, σ * Real.sin (b - a), 0, 0, 0] : Fin 6 → ℝ) 4,
      (![0, 0, σ * Real.sin (b - a), 0, 0, 0] : Fin 6 → ℝ) 5] : V3) = ![0, 0, 0] := rfl
  rw [e1, e2, hq, if_neg (not_lt.2 hps), if_neg hsmall, qz_mul, hpose]
  have e3 : (0 : V3) + ![0, 0, 0] = 0 := by
    funext i
    fin_cases i <;> simp
  rw [e3]

/-! ### The run -/

/-- Sum of the squared distances of the moved points from their partners. -/
def misfit (source target : List V3) (T : Pose) : ℝ :=
  ((source.zip target).map fun p => sqLen (T.linear *ᵥ p.1 + T.translation - p.2)).sum

theorem errors_sum (pairs : List (V3 × V3)) (T : Pose) :
    (errorsOf (alignmentBlocks pairs T)).sum =
      (pairs.map fun p => sqLen (T.linear *ᵥ p.1 + T.translation - p.2)).sum := by
  simp only [errorsOf, alignmentBlocks, List.map_map]
  rfl

theorem turned_zip (b : ℝ) : corners.zip (corners.map fun x => rotZ b *ᵥ x) = turned b := by
  simp [turned, corners]

theorem turned_misfit (a b : ℝ) :
    misfit corners (corners.map fun x => rotZ b *ᵥ x) ⟨rotZ a, 0⟩ = 8 - 8 * Real.cos (b - a) := by
  have h := errors_sum (turned b) (makePose (qz a) 0)
  rw [turned_errors] at h
  unfold misfit
  rw [turned_zip]
  have hpose : makePose (qz a) 0 = ⟨rotZ a, 0⟩ := by
    unfold makePose
    rw [qz_rot]
  rw [hpose] at h
  rw [← h]
  simp
  ring

theorem half_le_cos_one : 1 / 2 ≤ Real.cos 1 := by
  have := Real.one_sub_sq_div_two_le_cos (x := 1)
  linarith

/-- The initial heading: a little less than 240 degrees. -/
noncomputable def heading : ℝ := 4 * Real.pi / 3 - 1 / 2

theorem heading_signed : Signed 1 (qz heading) (Quat.ofMatrix (rotZ heading)) := by
  left
  refine ⟨rfl, ofMatrix_rotZ_same_z _ ?_ ?_⟩
  · have e : heading = (Real.pi / 3 - 1 / 2) + Real.pi := by unfold heading; ring
    have hpi := Real.pi_gt_three
    have h : Real.cos (Real.pi / 3) ≤ Real.cos (Real.pi / 3 - 1 / 2) :=
      Real.cos_le_cos_of_nonneg_of_le_pi (by linarith) (by linarith) (by linarith)
    rw [Real.cos_pi_div_three] at h
    rw [e, Real.cos_add_pi]
    linarith
  · have hpi := Real.pi_gt_three
    apply Real.sin_pos_of_pos_of_lt_pi <;> unfold heading <;> linarith

theorem next_signed : Signed (-1) (qz (heading + 1)) (Quat.ofMatrix (rotZ (heading + 1))) := by
  right
  refine ⟨rfl, ofMatrix_rotZ_opp_w _ ?_ ?_⟩
  · have e : heading + 1 = (Real.pi / 3 + 1 / 2) + Real.pi := by unfold heading; ring
    have hpi := Real.pi_gt_three
    have h : Real.cos (Real.pi / 3 + 1 / 2) < Real.cos (Real.pi / 3) :=
      Real.cos_lt_cos_of_nonneg_of_le_pi (by linarith) (by linarith) (by linarith)
    rw [Real.cos_pi_div_three] at h
    rw [e, Real.cos_add_pi]
    linarith
  · have hpi := Real.pi_gt_three
    apply Real.cos_neg_of_pi_div_two_lt_of_lt <;> unfold heading <;> linarith

/-- C89 is false: the four corners of a square are to be aligned with the corners turned by a quarter
more than the initial heading of 240 degrees minus 1/2 radian. The first step turns by 1 radian, towards
the solution. The second step turns back, away from the solution, and increases the misfit. The run then
stops and reports success, although the solution has misfit 0. -/
theorem C89_uphill_violated {nth : Nth} (hn : Lib.IsNthElement nth) {llt : Llt} (hllt : LltSpec llt) :
    let target := corners.map fun x => rotZ (heading + Real.pi / 2) *ᵥ x
    let initial : Pose := ⟨rotZ heading, 0⟩
    ∃ r1 r2 r, run nth llt (alignmentMake corners target) 1 initial = .ok r1 ∧
      run nth llt (alignmentMake corners target) 2 initial = .ok r2 ∧
      run nth llt (alignmentMake corners target) 40 initial = .ok r ∧
      r1.pose = ⟨rotZ (heading + 1), 0⟩ ∧
      r2.pose = ⟨rotZ (heading + 1 - Real.cos 1), 0⟩ ∧
      misfit corners target r1.pose < misfit corners target r2.pose ∧
      r.pose = r2.pose ∧ r.success = true ∧ r.message = .largerError ∧ 3 < misfit corners target r.pose ∧
      misfit corners target ⟨rotZ (heading + Real.pi / 2), 0⟩ = 0 := by
  intro target initial
  have hmake : alignmentMake corners target = problem (alignmentBlocks (turned (heading + Real.pi / 2))) := by
    rw [alignmentMake_eq _ _ (by simp [target]), turned_zip]
  have hpi := Real.pi_gt_three
  have hc1 := half_le_cos_one
  have hc1' := Real.cos_one_le
  have hstart : Quat.ofMatrix initial.linear = qz heading := by
    rcases heading_signed with ⟨-, h⟩ | ⟨h, -⟩
    · exact h
    · norm_num at h
  have hinit : initial.translation = 0 := rfl
  set b := heading + Real.pi / 2 with hb
  have hdbl := dblMax_large
  -- first pass
  have b0 : b - heading = Real.pi / 2 := by rw [hb]; ring
  have p0 := fun n iter => turned_pass hn hllt heading b 1 heading_signed
    (by rw [b0, Real.sin_pi_div_two]; norm_num) n iter dblMax dblMax (by linarith)
  rw [b0, Real.sin_pi_div_two, Real.cos_pi_div_two] at p0
  -- second pass
  have b1 : b - (heading + 1) = Real.pi / 2 - 1 := by rw [hb]; ring
  have p1 := fun n iter => turned_pass hn hllt (heading + 1) b (-1) next_signed
    (by rw [b1, Real.sin_pi_div_two_sub, abs_of_nonneg (by linarith)]; linarith) n iter 0 8 le_rfl
  rw [b1, Real.sin_pi_div_two_sub, Real.cos_pi_div_two_sub] at p1
  -- third pass
  have b2 : b - (heading + 1 + -1 * Real.cos 1) = Real.pi / 2 - (1 - Real.cos 1) := by rw [hb]; ring
  obtain ⟨σ, hσ⟩ := signed_exists (qz_unit (heading + 1 + -1 * Real.cos 1))
  rw [qz_rot] at hσ
  have hcc : Real.cos 1 ≤ Real.cos (1 - Real.cos 1) :=
    Real.cos_le_cos_of_nonneg_of_le_pi (by linarith) (by linarith) (by linarith)
  have p2 := fun n iter => turned_pass hn hllt (heading + 1 + -1 * Real.cos 1) b σ hσ
    (by rw [b2, Real.sin_pi_div_two_sub, abs_of_nonneg (by linarith)]; linarith) n iter 0
    (8 - 8 * Real.sin 1) le_rfl
  rw [b2, Real.sin_pi_div_two_sub, Real.cos_pi_div_two_sub] at p2
  have hs1 : 0 < Real.sin 1 := Real.sin_pos_of_pos_of_lt_pi (by norm_num) (by linarith)
  have hs2 : Real.sin (1 - Real.cos 1) < Real.sin 1 :=
    Real.sin_lt_sin_of_lt_of_le_pi_div_two (by linarith) (by linarith) (by linarith)
  have hs3 : Real.sin (1 - Real.cos 1) ≤ 1 - Real.cos 1 := Real.sin_le (by linarith)
  have hp : ∀ n iter, runLoop nth llt (problem (alignmentBlocks (turned b))) (n + 1) iter (qz heading) 0
      dblMax dblMax = runLoop nth llt (problem (alignmentBlocks (turned b))) n (iter + 1)
        (qz (heading + 1)) 0 0 8 := by
    intro n iter
    rw [p0, if_neg (by linarith)]
    norm_num
  have hp1 : ∀ n iter, runLoop nth llt (problem (alignmentBlocks (turned b))) (n + 1) iter
      (qz (heading + 1)) 0 0 8 = runLoop nth llt (problem (alignmentBlocks (turned b))) n (iter + 1)
        (qz (heading + 1 + -1 * Real.cos 1)) 0 0 (8 - 8 * Real.sin 1) := by
    intro n iter
    rw [p1, if_neg (by linarith)]
  have e2 : heading + 1 + -1 * Real.cos 1 = heading + 1 - Real.cos 1 := by ring
  have m1 := turned_misfit (heading + 1) b
  have m2 := turned_misfit (heading + 1 + -1 * Real.cos 1) b
  rw [b1, Real.cos_pi_div_two_sub] at m1
  rw [b2, Real.cos_pi_div_two_sub] at m2
  have hpose : ∀ a, makePose (qz a) 0 = ⟨rotZ a, 0⟩ := fun a => by
    unfold makePose
    rw [qz_rot]
  refine ⟨⟨⟨rotZ (heading + 1), 0⟩, .maximumIteration, 1, 8, 0, false⟩,
    ⟨⟨rotZ (heading + 1 + -1 * Real.cos 1), 0⟩, .maximumIteration, 2, 8 - 8 * Real.sin 1, 0, false⟩,
    ⟨⟨rotZ (heading + 1 + -1 * Real.cos 1), 0⟩, .largerError, 2, 8 - 8 * Real.sin (1 - Real.cos 1), 0, true⟩,
    ?_, ?_, ?_, rfl, by rw [e2], ?_, rfl, rfl, rfl, ?_, ?_⟩
  · unfold run
    rw [hmake, if_neg (by norm_num), hstart, hinit]
    show runLoop _ _ _ (0 + 1) 0 _ _ _ _ = _
    rw [hp]
    simp only [runLoop, hpose]
    norm_num
  · unfold run
    rw [hmake, if_neg (by norm_num), hstart, hinit]
    show runLoop _ _ _ (0 + 1 + 1) 0 _ _ _ _ = _
    rw [hp, hp1]
    simp only [runLoop, hpose]
    norm_num
  · unfold run
    rw [hmake, if_neg (by norm_num), hstart, hinit]
    show runLoop _ _ _ (37 + 1 + 1 + 1) 0 _ _ _ _ = _
    rw [hp, hp1, p2, if_pos (by linarith)]
    norm_num
  · rw [m1, m2]
    linarith
  · rw [m2]
    linarith
  · rw [turned_misfit, sub_self, Real.cos_zero]
    norm_num

/-- Where the run of `C89_uphill_violated` begins, the first step goes downhill. -/
example (s : ℝ) (dx : Fin 6 → ℝ) (T : Pose) (hT : T = makePose (qz heading) 0)
    (bs : List Block) (hb : bs = alignmentBlocks (turned (heading + Real.pi / 2)) T)
    (h : IsStep (qz heading) bs (weightsOf bs s) dx) (h0 : dx ≠ 0) :
    ∃ f d, Linearises f (qz heading) 0 bs ∧ HasDerivAt (fun τ => (((weightsOf bs s).zip bs).map fun p =>
        p.1 * sqLen (f p.2 (path (qz heading) 0 dx τ))).sum) d 0 ∧ d < 0 := by
  have hq : Quat.ofMatrix (makePose (qz heading) 0).linear = qz heading := by
    rcases heading_signed with ⟨-, h⟩ | ⟨h, -⟩
    · rw [← qz_rot] at h
      exact h
    · norm_num at h
  subst hT hb
  obtain ⟨f, hf⟩ := C89_alignment (turned (heading + Real.pi / 2)) (makePose (qz heading) 0)
    (toRotationMatrix_rotation _ (qz_unit _))
  obtain ⟨d, h1, -, h2⟩ := C89_downhill_partial f (qz heading) 0 _ s dx hf hq h
  rw [hq] at hf
  exact ⟨f, d, hf, h1, h2 h0⟩

/-- At its second iterate the reversed step would go downhill. -/
example (s : ℝ) (dx : Fin 6 → ℝ) (T : Pose) (hT : T = makePose (qz (heading + 1)) 0)
    (bs : List Block) (hb : bs = alignmentBlocks (turned (heading + Real.pi / 2)) T)
    (h : IsStep (qz (heading + 1)) bs (weightsOf bs s) dx) :
    IsStep (opp (qz (heading + 1))) bs (weightsOf bs s) (reversed dx) := by
  have hq : Quat.ofMatrix (makePose (qz (heading + 1)) 0).linear = opp (qz (heading + 1)) := by
    rcases next_signed with ⟨h, -⟩ | ⟨-, h⟩
    · norm_num at h
    · rw [← qz_rot] at h
      exact h
  subst hT hb
  obtain ⟨f, hf⟩ := C89_alignment (turned (heading + Real.pi / 2)) (makePose (qz (heading + 1)) 0)
    (toRotationMatrix_rotation _ (qz_unit _))
  exact (C89_reversed f (qz (heading + 1)) 0 _ s dx hf hq h).1

end Verif.Align
