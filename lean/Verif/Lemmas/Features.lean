/-
One step of the optimiser for features whose residual is an affine function of the moved point
(for C134).
-/
import Verif.Props.C133
import Verif.Props.C83

set_option autoImplicit false

namespace Verif.Align

open Matrix Verif.Rot Verif.Opt Verif.Loc

/-- A feature: the point `x` of the scan, moved by a pose to `y`, has the residual `A y + b`. -/
structure Feature where
  m : ℕ
  A : Matrix (Fin m) (Fin 3) ℝ
  x : V3
  b : Fin m → ℝ

/-- The residual of a feature at a pose. -/
def Feature.residual (f : Feature) (T : Pose) : Fin f.m → ℝ := f.A *ᵥ T.apply f.x + f.b

/-- The block of a feature. -/
noncomputable def Feature.block (T : Pose) (f : Feature) : Block :=
  ⟨f.m, f.A * alignmentJacobian (Quat.ofMatrix T.linear) f.x, f.residual T⟩

/-- How much the features show of a change of the pose: `s` is a change of the length of the quaternion,
`ω` of its direction, `c` of the translation. -/
def seen (fs : List Feature) (R : Matrix (Fin 3) (Fin 3) ℝ) (s : ℝ) (ω c : V3) : ℝ :=
  (fs.map fun f => sqLen (f.A *ᵥ (R *ᵥ ((2 * s) • f.x + (2 : ℝ) • (ω ⨯₃ f.x)) + c))).sum

/-- The squared lengths of the residuals. -/
noncomputable def featureErrors (fs : List Feature) (T : Pose) : List ℝ :=
  fs.map fun f => vlen (f.residual T) ^ 2

/-- `S` is the true pose, under which every residual is at most `η`; `T` is the pose to start from, its
rotation wrong by `d` and its translation by `τ`; the points reach as far as `ρ`, residuals grow at most
`α` times as fast as the points move; every change of the pose is seen (`μ`); under `T` no residual is more
than `κ` times another, or 1.345 times the robust scale if that is more. -/
structure Near (fs : List Feature) (S T : Pose) (d τ η ρ α κ μ : ℝ) : Prop where
  ne_nil : fs ≠ []
  true_rotation : IsRotation S.linear
  rotation : IsRotation T.linear
  d_nonneg : 0 ≤ d
  rotation_error : ∀ x, vlen (T.linear *ᵥ x - S.linear *ᵥ x) ≤ d * vlen x
  translation_error : vlen (T.translation - S.translation) ≤ τ
  noise : ∀ f ∈ fs, vlen (f.residual S) ≤ η
  extent : ∀ f ∈ fs, vlen f.x ≤ ρ
  α_nonneg : 0 ≤ α
  gain : ∀ f ∈ fs, ∀ v, vlen (f.A *ᵥ v) ≤ α * vlen v
  μ_min : 1 / 10 ≤ μ
  observed : ∀ (s : ℝ) (ω c : V3), μ * (s ^ 2 + sqLen ω + sqLen c) ≤ seen fs T.linear s ω c
  κ_one : 1 ≤ κ
  scale : ∀ s, IsScale (featureErrors fs T) s → ∀ e ∈ featureErrors fs T, ∀ e' ∈ featureErrors fs T,
    e ≤ κ ^ 2 * max e' (1.345 ^ 2 * (s + 1 / 10 ^ 16))
  finite : 2 * fs.length * (α * (ρ * d + τ) + η) ^ 2 ≤ dblMax

/-- The bound of the error of the translation after the step for `n` features. -/
noncomputable def after (n : ℕ) (d η ρ α κ μ : ℝ) : ℝ :=
  (2 * α * ρ * d ^ 2 + 4 * η) * Real.sqrt (n * κ / μ)

/-- The bound of the error of the rotation after the step. -/
noncomputable def afterR (n : ℕ) (d η ρ α κ μ : ℝ) : ℝ :=
  after n d η ρ α κ μ + (d + after n d η ρ α κ μ) ^ 2 + d ^ 2 / 2 + 1 / 100000000

section
variable {fs : List Feature} {S T : Pose} {d τ η ρ α κ μ : ℝ}

theorem featureErrors_eq (fs : List Feature) (T : Pose) :
    errorsOf (fs.map (Feature.block T)) = featureErrors fs T := by
  unfold errorsOf featureErrors
  rw [List.map_map]
  refine List.map_congr_left fun f _ => ?_
  rw [vlen_sq_eq]
  rfl

theorem features_not_degenerate (hT : IsRotation T.linear)
    (h : ∀ (s : ℝ) (ω c : V3), 1 / 10 * (s ^ 2 + sqLen ω + sqLen c) ≤ seen fs T.linear s ω c) :
    ¬ Degenerate (fs.map (Feature.block T)) := by
  rw [not_degenerate_iff]
  set q := Quat.ofMatrix T.linear with hqdef
  obtain ⟨hq, hR⟩ := C71_matrix_to_quaternion _ hT
  have key : ∀ (s : ℝ) (ω c : V3),
      ((fs.map (Feature.block T)).map fun B => sqLen (B.J *ᵥ
        (Fin.append (toWXYZ (q.mul ⟨s, ω 0, ω 1, ω 2⟩)) c : Fin (4 + 3) → ℝ))).sum =
      seen fs T.linear s ω c := by
    intro s ω c
    rw [seen, List.map_map]
    congr 1
    refine List.map_congr_left fun f _ => ?_
    show sqLen ((f.A * alignmentJacobian q f.x) *ᵥ _) = sqLen _
    rw [← mulVec_mulVec, alignmentJacobian, hcat_mulVec, one_mulVec]
    simp only [Fin.append_left, Fin.append_right]
    have h := dRpDq_full q hq f.x ω s
    rw [hR] at h
    rw [show (fun i => toWXYZ (q.mul ⟨s, ω 0, ω 1, ω 2⟩) i) = toWXYZ (q.mul ⟨s, ω 0, ω 1, ω 2⟩) from rfl, h]
  show ∀ v : Fin (4 + 3) → ℝ, _
  intro v
  obtain ⟨s, ω, h1, h2⟩ := quat_coords q hq fun i => v (Fin.castAdd 3 i)
  have h3 := h s ω fun i => v (Fin.natAdd 4 i)
  rw [← key, ← h1] at h3
  have h4 : (Fin.append (fun i => v (Fin.castAdd 3 i)) (fun i => v (Fin.natAdd 4 i)) : Fin (4 + 3) → ℝ) = v :=
    Fin.append_castAdd_natAdd
  rw [h4, ← h2, ← sqLen_split] at h3
  exact h3

theorem Near.residual_le (h : Near fs S T d τ η ρ α κ μ) (f : Feature) (hf : f ∈ fs) :
    vlen (f.residual T) ≤ α * (ρ * d + τ) + η := by
  have e : f.residual T = f.A *ᵥ ((T.linear *ᵥ f.x - S.linear *ᵥ f.x) + (T.translation - S.translation)) +
      f.residual S := by
    have : (T.linear *ᵥ f.x - S.linear *ᵥ f.x) + (T.translation - S.translation) =
        T.apply f.x - S.apply f.x := by
      simp only [Pose.apply]
      abel
    rw [this, mulVec_sub]
    simp only [Feature.residual]
    abel
  rw [e]
  have h1 := h.rotation_error f.x
  have h2 := h.noise f hf
  have h3 := h.extent f hf
  have h4 := mul_le_mul_of_nonneg_left h3 h.d_nonneg
  have h5 := vlen_add_le (f.A *ᵥ ((T.linear *ᵥ f.x - S.linear *ᵥ f.x) + (T.translation - S.translation)))
    (f.residual S)
  have h6 := vlen_add_le (T.linear *ᵥ f.x - S.linear *ᵥ f.x) (T.translation - S.translation)
  have h7 := h.gain f hf ((T.linear *ᵥ f.x - S.linear *ᵥ f.x) + (T.translation - S.translation))
  have h8 : α * vlen ((T.linear *ᵥ f.x - S.linear *ᵥ f.x) + (T.translation - S.translation)) ≤
      α * (ρ * d + τ) := mul_le_mul_of_nonneg_left (by linarith [h.translation_error]) h.α_nonneg
  linarith

theorem turned_of {S T : Pose} {d : ℝ} (hS : IsRotation S.linear) (hT : IsRotation T.linear)
    (hd : ∀ x, vlen (T.linear *ᵥ x - S.linear *ᵥ x) ≤ d * vlen x) :
    IsRotation (T.linearᵀ * S.linear) ∧
    (∀ x, vlen ((T.linearᵀ * S.linear) *ᵥ x - x) ≤ d * vlen x) ∧
    T.linear * (T.linearᵀ * S.linear) = S.linear := by
  have hTT := mul_eq_one_comm.1 hT.1
  refine ⟨⟨?_, ?_⟩, fun x => ?_, ?_⟩
  · rw [transpose_mul, transpose_transpose, Matrix.mul_assoc, ← Matrix.mul_assoc T.linear, hTT,
      Matrix.one_mul, hS.1]
  · rw [det_mul, det_transpose, hT.2, hS.2, one_mul]
  · have e : (T.linearᵀ * S.linear) *ᵥ x - x = T.linearᵀ *ᵥ (S.linear *ᵥ x - T.linear *ᵥ x) := by
      rw [mulVec_sub, mulVec_mulVec, mulVec_mulVec, hT.1, one_mulVec]
    rw [e, vlen_rotT hT, ← vlen_neg, neg_sub]
    exact hd x
  · rw [← Matrix.mul_assoc, hTT, Matrix.one_mul]

/-- The step of the optimiser, compared with the error it should undo. -/
theorem Near.step (h : Near fs S T d τ η ρ α κ μ) {s : ℝ} {dx : Fin 6 → ℝ}
    (hs : IsScale (featureErrors fs T) s)
    (hstep : IsStep (Quat.ofMatrix T.linear) (fs.map (Feature.block T))
      (weightsOf (fs.map (Feature.block T)) s) dx) :
    0 ≤ after fs.length d η ρ α κ μ ∧
    vlen (turn dx - axial (T.linearᵀ * S.linear)) ≤ after fs.length d η ρ α κ μ ∧
    vlen (shift dx - (S.translation - T.translation)) ≤ after fs.length d η ρ α κ μ := by
  obtain ⟨hQ, hQd, hQS⟩ := turned_of h.true_rotation h.rotation h.rotation_error
  set Q := T.linearᵀ * S.linear with hQdef
  set v := axial Q with hv
  set a := S.translation - T.translation with ha
  obtain ⟨hq, hR⟩ := C71_matrix_to_quaternion _ h.rotation
  set q := Quat.ofMatrix T.linear with hqd
  set bs := fs.map (Feature.block T) with hbs
  have hκ0 : 0 < κ := lt_of_lt_of_le one_pos h.κ_one
  have hμ0 : 0 < μ := lt_of_lt_of_le (by norm_num) h.μ_min
  have hlenb : bs.length = fs.length := by simp [hbs]
  obtain ⟨f0, hf0⟩ := List.exists_mem_of_ne_nil _ h.ne_nil
  have hη : 0 ≤ η := (vlen_nonneg _).trans (h.noise f0 hf0)
  have hρ : 0 ≤ ρ := (vlen_nonneg _).trans (h.extent f0 hf0)
  have hα := h.α_nonneg
  have he0 : 0 ≤ α * ρ * d ^ 2 / 2 + η := by positivity
  have hsnn : 0 ≤ s := (isScale_bounds (hi := (α * (ρ * d + τ) + η) ^ 2) (by
    intro e he
    obtain ⟨f, hf, rfl⟩ := List.mem_map.1 he
    exact ⟨sq_nonneg _, pow_le_pow_left₀ (vlen_nonneg _) (h.residual_le f hf) 2⟩) hs).1
  set x : Fin 6 → ℝ := ![v 0, v 1, v 2, a 0, a 1, a 2] with hx
  have hxt : turn x = v := by
    funext i
    fin_cases i <;> simp [turn, hx]
  have hxs : shift x = a := by
    funext i
    fin_cases i <;> simp [shift, hx]
  have hnd : ¬ Degenerate bs := features_not_degenerate h.rotation fun s ω c =>
    (mul_le_mul_of_nonneg_right h.μ_min
      (by have := sqLen_nonneg ω; have := sqLen_nonneg c; positivity)).trans (h.observed s ω c)
  have hmin : cost (makeM q) ((weightsOf bs s).zip bs) dx ≤ cost (makeM q) ((weightsOf bs s).zip bs) x := by
    by_cases hxe : x = dx
    · rw [hxe]
    · exact (hstep.2 hnd x hxe).le
  have hws : ∀ w ∈ weightsOf bs s, ∀ w' ∈ weightsOf bs s, w' ≤ κ * w := by
    intro w hw w' hw'
    unfold weightsOf at hw hw'
    rw [featureErrors_eq] at hw hw'
    obtain ⟨e, he, rfl⟩ := List.mem_map.1 hw
    obtain ⟨e', he', rfl⟩ := List.mem_map.1 hw'
    exact huber_ratio (by norm_num) (by positivity) h.κ_one (h.scale s hs e he e' he')
  have hclose := minimiser_close (makeM q) (weightsOf bs s) bs (by simp [weightsOf, errorsOf]) hκ0
    (weightsOf_pos bs s) hws dx x hmin
    (ε := (α * ρ * d ^ 2 / 2 + η) ^ 2) (by
      intro b hb
      obtain ⟨f, hf, rfl⟩ := List.mem_map.1 hb
      show sqLen ((f.A * alignmentJacobian q f.x) *ᵥ (makeM q *ᵥ x) + f.residual T) ≤ _
      rw [← mulVec_mulVec, jacobian_step q hq, hR, hxt, hxs]
      have e : f.A *ᵥ (T.linear *ᵥ (v ⨯₃ f.x) + a) + f.residual T =
          f.residual S - f.A *ᵥ (T.linear *ᵥ (Q *ᵥ f.x - f.x - v ⨯₃ f.x)) := by
        have : T.linear *ᵥ (v ⨯₃ f.x) + a =
            S.apply f.x - T.apply f.x - T.linear *ᵥ (Q *ᵥ f.x - f.x - v ⨯₃ f.x) := by
          rw [mulVec_sub, mulVec_sub, mulVec_mulVec, hQS, ha]
          simp only [Pose.apply]
          abel
        rw [this, mulVec_sub, mulVec_sub]
        simp only [Feature.residual]
        abel
      rw [e, ← vlen_sq_eq]
      refine pow_le_pow_left₀ (vlen_nonneg _) ?_ 2
      have h1 := vlen_sub_le (f.residual S) (f.A *ᵥ (T.linear *ᵥ (Q *ᵥ f.x - f.x - v ⨯₃ f.x)))
      have h5 := h.gain f hf (T.linear *ᵥ (Q *ᵥ f.x - f.x - v ⨯₃ f.x))
      rw [vlen_rot h.rotation] at h5
      have h2 := rot_second_order hQ h.d_nonneg hQd f.x
      have h3 := h.noise f hf
      have h4 := mul_le_mul_of_nonneg_left (h.extent f hf) (by positivity : 0 ≤ d ^ 2 / 2)
      have h6 := mul_le_mul_of_nonneg_left (h2.trans h4) hα
      linarith)
  have hB0 : 0 ≤ after fs.length d η ρ α κ μ := by unfold after; positivity
  have hB2 : after fs.length d η ρ α κ μ ^ 2 =
      16 * κ * fs.length * (α * ρ * d ^ 2 / 2 + η) ^ 2 / μ := by
    unfold after
    rw [mul_pow, Real.sq_sqrt (by positivity)]
    ring
  have hdet := h.observed 0 ((1 / 2 : ℝ) • turn (dx - x)) (shift (dx - x))
  have hsumeq : seen fs T.linear 0 ((1 / 2 : ℝ) • turn (dx - x)) (shift (dx - x)) =
      (bs.map fun b => sqLen (b.J *ᵥ (makeM q *ᵥ (dx - x)))).sum := by
    rw [hbs, List.map_map, seen]
    congr 1
    refine List.map_congr_left fun f _ => ?_
    show _ = sqLen ((f.A * alignmentJacobian q f.x) *ᵥ (makeM q *ᵥ (dx - x)))
    rw [← mulVec_mulVec, jacobian_step q hq, hR]
    congr 4
    rw [map_smul, LinearMap.smul_apply, smul_smul]
    norm_num
  have e2 : sqLen ((1 / 2 : ℝ) • turn (dx - x)) = 1 / 4 * sqLen (turn (dx - x)) := by
    rw [← vlen_sq_eq, vlen_smul, mul_pow, vlen_sq_eq, abs_of_pos (by norm_num)]
    norm_num
  rw [hsumeq, e2] at hdet
  have htot := hdet.trans hclose
  rw [hlenb] at htot
  have hsum : vlen (turn (dx - x)) ^ 2 + vlen (shift (dx - x)) ^ 2 ≤ after fs.length d η ρ α κ μ ^ 2 := by
    rw [hB2, le_div_iff₀ hμ0, vlen_sq_eq, vlen_sq_eq]
    nlinarith [mul_nonneg hμ0.le (sqLen_nonneg (shift (dx - x)))]
  have et : turn (dx - x) = turn dx - v := by
    rw [← hxt]
    funext i
    fin_cases i <;> simp [turn]
  have es : shift (dx - x) = shift dx - a := by
    rw [← hxs]
    funext i
    fin_cases i <;> simp [shift]
  rw [et, es] at hsum
  refine ⟨hB0, ?_, ?_⟩
  · refine abs_le_of_sq_le_sq' ?_ hB0 |>.2
    nlinarith [sq_nonneg (vlen (shift dx - a))]
  · refine abs_le_of_sq_le_sq' ?_ hB0 |>.2
    nlinarith [sq_nonneg (vlen (turn dx - v))]

/-- The pose after a step that nearly undoes the error, compared with the true pose. -/
theorem after_step {S T : Pose} {d τ B : ℝ} (hS : IsRotation S.linear) (hT : IsRotation T.linear) (hd0 : 0 ≤ d)
    (hd : ∀ x, vlen (T.linear *ᵥ x - S.linear *ᵥ x) ≤ d * vlen x)
    (hτ : vlen (T.translation - S.translation) ≤ τ) {dx : Fin 6 → ℝ}
    (h1 : vlen (turn dx - axial (T.linearᵀ * S.linear)) ≤ B)
    (h2 : vlen (shift dx - (S.translation - T.translation)) ≤ B) :
    let T' := makePose ((Quat.ofMatrix T.linear).mul (angleAxisToQuaternion (turn dx)))
      (T.translation + shift dx)
    vlen (T'.translation - S.translation) ≤ B ∧
    (∀ x, vlen (T'.linear *ᵥ x - S.linear *ᵥ x) ≤
      (B + (d + B) ^ 2 + d ^ 2 / 2 + 1 / 100000000) * vlen x) ∧
    vlen (turn dx) ≤ d + B ∧ vlen (shift dx) ≤ τ + B := by
  intro T'
  obtain ⟨hQ, hQd, hQS⟩ := turned_of hS hT hd
  obtain ⟨hq, hR⟩ := C71_matrix_to_quaternion _ hT
  set Q := T.linearᵀ * S.linear with hQdef
  have hax := axial_le hQ hQd
  have ht : vlen (turn dx) ≤ d + B := by
    have := vlen_add_le (turn dx - axial Q) (axial Q)
    rw [sub_add_cancel] at this
    linarith
  refine ⟨?_, fun x => ?_, ht, ?_⟩
  · have e : T'.translation - S.translation = shift dx - (S.translation - T.translation) := by
      show T.translation + shift dx - S.translation = _
      abel
    rw [e]
    exact h2
  · have e1 : T'.linear = T.linear * (angleAxisToQuaternion (turn dx)).toRotationMatrix := by
      show ((Quat.ofMatrix T.linear).mul (angleAxisToQuaternion (turn dx))).toRotationMatrix = _
      rw [toRotationMatrix_mul _ _ hq (C51_unit _), hR]
    set E := (angleAxisToQuaternion (turn dx)).toRotationMatrix with hE
    have e2 : T'.linear *ᵥ x - S.linear *ᵥ x = T.linear *ᵥ (E *ᵥ x - Q *ᵥ x) := by
      rw [e1, mulVec_sub, mulVec_mulVec, mulVec_mulVec, hQS]
    have e3 : E *ᵥ x - Q *ᵥ x = (E *ᵥ x - x - turn dx ⨯₃ x) + (turn dx - axial Q) ⨯₃ x -
        (Q *ᵥ x - x - axial Q ⨯₃ x) := by
      rw [map_sub, LinearMap.sub_apply]
      abel
    rw [e2, vlen_rot hT, e3]
    have b1 := exp_second_order (turn dx) x
    have b2 := vlen_cross_le (turn dx - axial Q) x
    have b3 := rot_second_order hQ hd0 hQd x
    have b4 := vlen_sub_le ((E *ᵥ x - x - turn dx ⨯₃ x) + (turn dx - axial Q) ⨯₃ x)
      (Q *ᵥ x - x - axial Q ⨯₃ x)
    have b5 := vlen_add_le (E *ᵥ x - x - turn dx ⨯₃ x) ((turn dx - axial Q) ⨯₃ x)
    have hx := vlen_nonneg x
    have b6 : vlen (turn dx) ^ 2 * vlen x ≤ (d + B) ^ 2 * vlen x :=
      mul_le_mul_of_nonneg_right (pow_le_pow_left₀ (vlen_nonneg _) ht 2) hx
    have b7 := mul_le_mul_of_nonneg_right h1 hx
    nlinarith
  · have := vlen_add_le (shift dx - (S.translation - T.translation)) (S.translation - T.translation)
    rw [sub_add_cancel] at this
    rw [← vlen_neg, neg_sub] at hτ
    linarith

open Classical in
/-- One iteration of the optimiser on a problem whose blocks, at the initial pose, are those of the
features. -/
theorem Near.run (h : Near fs S T d τ η ρ α κ μ) {nth : Nth} (hn : Lib.IsNthElement nth)
    {llt : Llt} (hllt : LltSpec llt) (make : Problem)
    (hmake : make T = .ok ((fs.map (Feature.block T)).map Block.jac, (fs.map (Feature.block T)).map Block.res)) :
    (∃ r, Opt.run nth llt make 1 T = .ok r ∧
      vlen (r.pose.translation - S.translation) ≤ after fs.length d η ρ α κ μ ∧
      ∀ x, vlen (r.pose.linear *ᵥ x - S.linear *ᵥ x) ≤ afterR fs.length d η ρ α κ μ * vlen x) ∧
    (d + after fs.length d η ρ α κ μ < 1 / 1000 → τ + after fs.length d η ρ α κ μ < 1 / 1000 →
      ∀ maxIter : ℤ, 1 ≤ maxIter → ∃ r, Opt.run nth llt make maxIter T = .ok r ∧ r.message = .converged ∧
        r.success = true ∧ r.iteration = 0 ∧
        vlen (r.pose.translation - S.translation) ≤ after fs.length d η ρ α κ μ ∧
        ∀ x, vlen (r.pose.linear *ᵥ x - S.linear *ᵥ x) ≤ afterR fs.length d η ρ α κ μ * vlen x) := by
  obtain ⟨hq, hR⟩ := C71_matrix_to_quaternion _ h.rotation
  have hpose : makePose (Quat.ofMatrix T.linear) T.translation = T := by
    unfold makePose
    rw [hR]
  have hE : ∀ e ∈ featureErrors fs T, 0 ≤ e ∧ e ≤ (α * (ρ * d + τ) + η) ^ 2 := by
    intro e he
    obtain ⟨f, hf, rfl⟩ := List.mem_map.1 he
    exact ⟨sq_nonneg _, pow_le_pow_left₀ (vlen_nonneg _) (h.residual_le f hf) 2⟩
  have hpos : (1 : ℝ) ≤ fs.length := by
    have := List.length_pos_iff.2 h.ne_nil
    exact_mod_cast this
  have hsq := sq_nonneg (α * (ρ * d + τ) + η)
  have hfin := h.finite
  have hb1 : ¬ dblMax < (featureErrors fs T).sum := by
    have h2 := sum_le_length (featureErrors fs T) id _ fun e he => (hE e he).2
    rw [List.map_id] at h2
    have h3 : (featureErrors fs T).length = fs.length := by simp [featureErrors]
    rw [h3] at h2
    nlinarith
  have pass : ∀ n : ℕ, ∃ s dx, IsScale (featureErrors fs T) s ∧
      IsStep (Quat.ofMatrix T.linear) (fs.map (Feature.block T))
        (weightsOf (fs.map (Feature.block T)) s) dx ∧
      runLoop nth llt (problem fun _ => fs.map (Feature.block T)) (n + 1) 0 (Quat.ofMatrix T.linear)
        T.translation dblMax dblMax =
        (if checkConvergence (angleAxisToQuaternion (turn dx)) (shift dx) then
          .ok ⟨makePose ((Quat.ofMatrix T.linear).mul (angleAxisToQuaternion (turn dx)))
            (T.translation + shift dx), .converged, 0, (featureErrors fs T).sum, s, true⟩
        else runLoop nth llt (problem fun _ => fs.map (Feature.block T)) n 1
          ((Quat.ofMatrix T.linear).mul (angleAxisToQuaternion (turn dx))) (T.translation + shift dx) s
          (featureErrors fs T).sum) := by
    intro n
    obtain ⟨s, dx, p1, p2, p3⟩ := runLoop_pass hn hllt (fun _ => fs.map (Feature.block T)) n 0
      (Quat.ofMatrix T.linear) hq T.translation dblMax dblMax (by simpa using h.ne_nil)
    rw [featureErrors_eq] at p1 p3
    have hb2 : ¬ dblMax < s := by
      have h2 := (isScale_bounds hE p1).2
      nlinarith
    rw [if_neg hb1, if_neg hb2] at p3
    exact ⟨s, dx, p1, p2, p3⟩
  have hfg : make (makePose (Quat.ofMatrix T.linear) T.translation) =
      problem (fun _ => fs.map (Feature.block T)) (makePose (Quat.ofMatrix T.linear) T.translation) := by
    rw [hpose, hmake]
    rfl
  constructor
  · obtain ⟨s, dx, p1, p2, p3⟩ := pass 0
    obtain ⟨s0, s1, s2⟩ := h.step p1 p2
    obtain ⟨a1, a2, -, -⟩ := after_step h.true_rotation h.rotation h.d_nonneg h.rotation_error
      h.translation_error s1 s2
    have hrun : Opt.run nth llt make 1 T = runLoop nth llt (problem fun _ => fs.map (Feature.block T)) (0 + 1) 0
        (Quat.ofMatrix T.linear) T.translation dblMax dblMax := by
      unfold Opt.run
      rw [if_neg (by norm_num)]
      show runLoop nth llt make (0 + 1) 0 _ _ _ _ = _
      rw [runLoop, runLoop, hfg]
      rfl
    rw [hrun, p3]
    split_ifs
    · exact ⟨_, rfl, a1, a2⟩
    · exact ⟨_, rfl, a1, a2⟩
  · intro hs1 hs2 maxIter hmax
    obtain ⟨m, hm⟩ : ∃ m : ℕ, maxIter.toNat = m + 1 := ⟨maxIter.toNat - 1, by omega⟩
    obtain ⟨s, dx, p1, p2, p3⟩ := pass m
    obtain ⟨s0, s1, s2⟩ := h.step p1 p2
    obtain ⟨a1, a2, a3, a4⟩ := after_step h.true_rotation h.rotation h.d_nonneg h.rotation_error
      h.translation_error s1 s2
    have hc : checkConvergence (angleAxisToQuaternion (turn dx)) (shift dx) := by
      refine ⟨?_, ?_⟩
      · have := vec_le (turn dx)
        linarith
      · rw [norm_eq_vlen]
        linarith
    rw [if_pos hc] at p3
    have p4 := Loam.runLoop_first nth llt (f := make) m 0 _ _ _ _ hfg _ p3 rfl
    have hrun : Opt.run nth llt make maxIter T = runLoop nth llt make (m + 1) 0
        (Quat.ofMatrix T.linear) T.translation dblMax dblMax := by
      unfold Opt.run
      rw [if_neg (by omega), hm]
    exact ⟨_, hrun.trans p4, rfl, rfl, rfl, a1, a2⟩

end

end Verif.Align
