/-
C90 a wrong translation is corrected in one step.
-/
import Verif.Props.C89W
import Mathlib.Analysis.Matrix.PosDef

set_option autoImplicit false

namespace Verif.Align

open Matrix Verif.Rot Verif.Opt Verif.Loc

/-! ### The test for degenerate problems, in terms of residuals -/

theorem gram_symm (bs : List Block) : (gram bs)ᵀ = gram bs := by
  induction bs with
  | nil => simp [gram]
  | cons b bs ih =>
    have : gram (b :: bs) = b.Jᵀ * b.J + gram bs := by simp [gram]
    rw [this, transpose_add, ih, transpose_mul, transpose_transpose]

theorem gram_quad (bs : List Block) (v : Fin 7 → ℝ) :
    v ⬝ᵥ (gram bs *ᵥ v) = (bs.map fun b => sqLen (b.J *ᵥ v)).sum := by
  rw [gram_eq, quad_normalMatrix, List.map_map]
  congr 1
  refine List.map_congr_left fun b _ => ?_
  simp [sqLen_eq]

theorem not_degenerate_iff (bs : List Block) :
    ¬ Degenerate bs ↔ ∀ v : Fin 7 → ℝ, 1 / 10 * sqLen v ≤ (bs.map fun b => sqLen (b.J *ᵥ v)).sum := by
  constructor
  · intro hd
    have hA : (gram bs - (1 / 10 : ℝ) • (1 : Matrix (Fin 7) (Fin 7) ℝ)).IsHermitian := by
      unfold IsHermitian
      rw [conjTranspose_eq_transpose_of_trivial, transpose_sub, gram_symm, transpose_smul, transpose_one]
    have hpsd : (gram bs - (1 / 10 : ℝ) • (1 : Matrix (Fin 7) (Fin 7) ℝ)).PosSemidef := by
      rw [hA.posSemidef_iff_eigenvalues_nonneg]
      intro i
      rw [Pi.zero_apply]
      have hv := hA.mulVec_eigenvectorBasis i
      set v : Fin 7 → ℝ := ⇑(hA.eigenvectorBasis i) with hvdef
      have hv0 : v ≠ 0 := by
        intro h
        have h1 := hA.eigenvectorBasis.orthonormal.1 i
        have h2 : hA.eigenvectorBasis i = 0 := by
          ext j
          exact congrFun h j
        rw [h2, norm_zero] at h1
        norm_num at h1
      rw [sub_mulVec, smul_mulVec, one_mulVec, sub_eq_iff_eq_add] at hv
      have hl : gram bs *ᵥ v = (hA.eigenvalues i + 1 / 10) • v := by
        rw [hv, add_smul]
      have hnn : 0 ≤ hA.eigenvalues i + 1 / 10 := by
        have h1 := gram_quad bs v
        rw [hl, dotProduct_smul, ← sqLen_eq, smul_eq_mul] at h1
        have h2 : 0 ≤ (bs.map fun b => sqLen (b.J *ᵥ v)).sum := List.sum_nonneg fun y hy => by
          obtain ⟨b, -, rfl⟩ := List.mem_map.1 hy
          exact sqLen_nonneg _
        have h3 : 0 < sqLen v := by
          rcases (sqLen_nonneg v).lt_or_eq with h5 | h5
          · exact h5
          · exact absurd (sqLen_eq_zero h5.symm) hv0
        rw [← h1] at h2
        exact nonneg_of_mul_nonneg_left h2 h3
      by_contra hneg
      refine hd ⟨_, ⟨v, hv0, hl⟩, ?_⟩
      rw [abs_of_nonneg hnn]
      linarith
    intro v
    have h := hpsd.dotProduct_mulVec_nonneg v
    rw [star_trivial, sub_mulVec, smul_mulVec, one_mulVec, dotProduct_sub, gram_quad, dotProduct_smul,
      ← sqLen_eq, smul_eq_mul] at h
    linarith
  · exact fun h => not_degenerate le_rfl h

/-! ### The test for the alignment problem, in terms of the points -/

/-- The source points determine the pose well enough: a small change `s` of the length of the quaternion,
`ω` of the rotation and `b` of the translation moves the points by at least the threshold. -/
def Spread (source : List V3) : Prop :=
  ∀ (s : ℝ) (ω b : V3), 1 / 10 * (s ^ 2 + sqLen ω + sqLen b) ≤
    (source.map fun x => sqLen ((2 * s) • x + (2 : ℝ) • (ω ⨯₃ x) + b)).sum

theorem dRpDq_full (q : Quat) (hq : q.IsUnit) (p ω : V3) (s : ℝ) :
    dRpDq q p *ᵥ toWXYZ (q.mul ⟨s, ω 0, ω 1, ω 2⟩) =
      q.toRotationMatrix *ᵥ ((2 * s) • p + (2 : ℝ) • (ω ⨯₃ p)) := by
  unfold Quat.IsUnit at hq
  rw [dRpDq_apply, cross_apply]
  funext i
  fin_cases i
  all_goals
    simp [Quat.toRotationMatrix, toWXYZ, Quat.mul, mulVec, dotProduct, Fin.sum_univ_succ]
  · linear_combination (2 * s * p 0 + 2 * (ω 1 * p 2 - ω 2 * p 1)) * hq
  · linear_combination (2 * s * p 1 + 2 * (ω 2 * p 0 - ω 0 * p 2)) * hq
  · linear_combination (2 * s * p 2 + 2 * (ω 0 * p 1 - ω 1 * p 0)) * hq

theorem quat_coords (q : Quat) (hq : q.IsUnit) (c : Fin 4 → ℝ) :
    ∃ (s : ℝ) (ω : V3), c = toWXYZ (q.mul ⟨s, ω 0, ω 1, ω 2⟩) ∧ sqLen c = s ^ 2 + sqLen ω := by
  unfold Quat.IsUnit at hq
  refine ⟨q.w * c 0 + q.x * c 1 + q.y * c 2 + q.z * c 3,
    ![q.w * c 1 - q.x * c 0 - q.y * c 3 + q.z * c 2, q.w * c 2 - q.y * c 0 - q.z * c 1 + q.x * c 3,
      q.w * c 3 - q.z * c 0 - q.x * c 2 + q.y * c 1], ?_, ?_⟩
  · funext i
    fin_cases i
    all_goals simp [toWXYZ, Quat.mul]
    · linear_combination (-c 0) * hq
    · linear_combination (-c 1) * hq
    · linear_combination (-c 2) * hq
    · linear_combination (-c 3) * hq
  · simp [sqLen, Fin.sum_univ_succ]
    linear_combination (-(c 0 ^ 2 + c 1 ^ 2 + c 2 ^ 2 + c 3 ^ 2)) * hq

theorem sqLen_quat (q : Quat) (hq : q.IsUnit) (s : ℝ) (ω : V3) :
    sqLen (toWXYZ (q.mul ⟨s, ω 0, ω 1, ω 2⟩)) = s ^ 2 + sqLen ω := by
  unfold Quat.IsUnit at hq
  simp [sqLen, Fin.sum_univ_succ, toWXYZ, Quat.mul]
  linear_combination (s ^ 2 + ω 0 ^ 2 + ω 1 ^ 2 + ω 2 ^ 2) * hq

theorem sqLen_split (v : Fin (4 + 3) → ℝ) :
    sqLen v = sqLen (fun i => v (Fin.castAdd 3 i)) + sqLen fun i => v (Fin.natAdd 4 i) := by
  unfold sqLen
  exact Fin.sum_univ_add _

theorem rot_inv {R : Matrix (Fin 3) (Fin 3) ℝ} (hR : IsRotation R) (v : V3) : R *ᵥ (Rᵀ *ᵥ v) = v := by
  rw [mulVec_mulVec, mul_eq_one_comm.1 hR.1, one_mulVec]

theorem alignment_degenerate (pairs : List (V3 × V3)) (T : Pose) (hT : IsRotation T.linear) :
    Degenerate (alignmentBlocks pairs T) ↔ ¬ Spread (pairs.map Prod.fst) := by
  rw [← not_iff_not, not_not, not_degenerate_iff]
  set q := Quat.ofMatrix T.linear with hqdef
  obtain ⟨hq, hR⟩ := C71_matrix_to_quaternion _ hT
  have key : ∀ (s : ℝ) (ω b : V3),
      ((alignmentBlocks pairs T).map fun B => sqLen (B.J *ᵥ
        (Fin.append (toWXYZ (q.mul ⟨s, ω 0, ω 1, ω 2⟩)) (T.linear *ᵥ b) : Fin (4 + 3) → ℝ))).sum =
      ((pairs.map Prod.fst).map fun x => sqLen ((2 * s) • x + (2 : ℝ) • (ω ⨯₃ x) + b)).sum := by
    intro s ω b
    rw [alignmentBlocks, List.map_map, List.map_map]
    congr 1
    refine List.map_congr_left fun p _ => ?_
    show sqLen (alignmentJacobian q p.1 *ᵥ _) = sqLen _
    rw [alignmentJacobian, hcat_mulVec, one_mulVec]
    simp only [Fin.append_left, Fin.append_right]
    have h := dRpDq_full q hq p.1 ω s
    rw [hR] at h
    rw [show (fun i => toWXYZ (q.mul ⟨s, ω 0, ω 1, ω 2⟩) i) = toWXYZ (q.mul ⟨s, ω 0, ω 1, ω 2⟩) from rfl, h,
      show (fun i => (T.linear *ᵥ b) i) = T.linear *ᵥ b from rfl, ← mulVec_add, rot_sqLen hT]
  constructor
  · intro h s ω b
    have h1 := h (Fin.append (toWXYZ (q.mul ⟨s, ω 0, ω 1, ω 2⟩)) (T.linear *ᵥ b) : Fin (4 + 3) → ℝ)
    rw [key, sqLen_split] at h1
    simp only [Fin.append_left, Fin.append_right] at h1
    rw [show (fun i => toWXYZ (q.mul ⟨s, ω 0, ω 1, ω 2⟩) i) = toWXYZ (q.mul ⟨s, ω 0, ω 1, ω 2⟩) from rfl,
      show (fun i => (T.linear *ᵥ b) i) = T.linear *ᵥ b from rfl, sqLen_quat q hq, rot_sqLen hT] at h1
    exact h1
  · intro h
    show ∀ v : Fin (4 + 3) → ℝ, _
    intro v
    obtain ⟨s, ω, h1, h2⟩ := quat_coords q hq fun i => v (Fin.castAdd 3 i)
    have h3 := h s ω (T.linearᵀ *ᵥ fun i => v (Fin.natAdd 4 i))
    rw [← key, rot_inv hT, ← h1] at h3
    have h4 : (Fin.append (fun i => v (Fin.castAdd 3 i)) (fun i => v (Fin.natAdd 4 i)) : Fin (4 + 3) → ℝ) = v :=
      Fin.append_castAdd_natAdd
    have h5 : sqLen (T.linearᵀ *ᵥ fun i => v (Fin.natAdd 4 i)) = sqLen fun i => v (Fin.natAdd 4 i) := by
      rw [← rot_sqLen hT, rot_inv hT]
    rw [h4, h5, ← h2, ← sqLen_split] at h3
    exact h3

/-! ### C90 -/

theorem weightsOf_pos (bs : List Block) (s : ℝ) : ∀ w ∈ weightsOf bs s, 0 < w := by
  intro w hw
  unfold weightsOf at hw
  obtain ⟨e, -, rfl⟩ := List.mem_map.1 hw
  exact ((C45_weight _ (by norm_num)).1 _).1

theorem cost_nonneg (M : Matrix (Fin 7) (Fin 6) ℝ) (ws : List ℝ) (bs : List Block) (hw : ∀ w ∈ ws, 0 < w)
    (dx : Fin 6 → ℝ) : 0 ≤ cost M (ws.zip bs) dx := by
  refine List.sum_nonneg fun y hy => ?_
  obtain ⟨⟨w, b⟩, hp, rfl⟩ := List.mem_map.1 hy
  exact mul_nonneg (hw w (List.of_mem_zip hp).1).le (sqLen_nonneg _)

theorem cost_zero (M : Matrix (Fin 7) (Fin 6) ℝ) (ws : List ℝ) (bs : List Block) (dx : Fin 6 → ℝ)
    (h : ∀ b ∈ bs, b.J *ᵥ (M *ᵥ dx) + b.r = 0) : cost M (ws.zip bs) dx = 0 := by
  refine List.sum_eq_zero fun y hy => ?_
  obtain ⟨⟨w, b⟩, hp, rfl⟩ := List.mem_map.1 hy
  rw [h b (List.of_mem_zip hp).2]
  simp [sqLen]

theorem zero_quat : angleAxisToQuaternion ![0, 0, 0] = ⟨1, 0, 0, 0⟩ :=
  C51_near_zero _ (by simp [Rot.norm])

theorem mul_one_quat (q : Quat) : q.mul ⟨1, 0, 0, 0⟩ = q := by
  apply Quat.ext <;> simp [Quat.mul]

theorem spread_ne_nil {source : List V3} (h : Spread source) : source ≠ [] := by
  rintro rfl
  have := h 1 0 0
  simp [sqLen] at this
  norm_num at this

theorem zip_map_self (source : List V3) (f : V3 → V3) : source.zip (source.map f) = source.map fun x => (x, f x) := by
  induction source with
  | nil => rfl
  | cons x xs ih => simp [ih]

theorem converged_pass {nth : Nth} (hn : Lib.IsNthElement nth) {llt : Llt} (hllt : LltSpec llt)
    (blocks : Pose → List Block) (n : ℕ) (iter : ℤ) (q : Quat) (hq : q.IsUnit) (t : V3) (ps pe : ℝ)
    (hb : blocks (makePose q t) ≠ []) (hz : ∀ b ∈ blocks (makePose q t), b.r = 0) (hps : 0 ≤ ps)
    (hpe : 0 ≤ pe) :
    runLoop nth llt (problem blocks) (n + 1) iter q t ps pe =
      .ok ⟨makePose q t, .converged, iter, 0, 0, true⟩ := by
  obtain ⟨s, dx, h1, h2, h3⟩ := runLoop_pass hn hllt blocks n iter q hq t ps pe hb
  have hs := Loam.isScale_zero (Loam.errorsOf_zero hz) h1
  subst hs
  have hdx := Loam.step_zero q _ hz _ dx h2 (weightsOf_pos _ _)
  subst hdx
  have hsum : (errorsOf (blocks (makePose q t))).sum = 0 := List.sum_eq_zero (Loam.errorsOf_zero hz)
  have e : (![(0 : Fin 6 → ℝ) 0, (0 : Fin 6 → ℝ) 1, (0 : Fin 6 → ℝ) 2] : V3) = ![0, 0, 0] := rfl
  have e' : (![(0 : Fin 6 → ℝ) 3, (0 : Fin 6 → ℝ) 4, (0 : Fin 6 → ℝ) 5] : V3) = ![0, 0, 0] := rfl
  have e0 : t + (![0, 0, 0] : V3) = t := by
    funext i
    fin_cases i <;> simp
  have hc : checkConvergence ⟨1, 0, 0, 0⟩ ![0, 0, 0] := by
    constructor <;> simp [Quat.vec, Rot.norm]
  rw [h3, hsum, e, e', zero_quat, if_neg (not_lt.2 hpe), if_neg (not_lt.2 hps), if_pos hc, mul_one_quat, e0]

/-- C90: if only the translation of the initial pose is wrong, alignment finds the true pose in one
step, however large the error, and converges. -/
theorem C90_translation {nth : Nth} (hn : Lib.IsNthElement nth) {llt : Llt} (hllt : LltSpec llt)
    (source : List V3) (hsp : Spread source) (S : Pose) (hS : IsRotation S.linear) (t : V3)
    (hE : source.length * sqLen (t - S.translation) ≤ dblMax) (maxIter : ℤ) (h1 : 1 ≤ maxIter) :
    ∃ r, run nth llt (alignmentMake source (source.map fun x => S.linear *ᵥ x + S.translation)) maxIter
        ⟨S.linear, t⟩ = .ok r ∧ r.pose = S ∧ (2 ≤ maxIter → r.message = .converged ∧ r.success = true) := by
  set pairs := source.map fun x => (x, S.linear *ᵥ x + S.translation) with hpairs
  have hmake : alignmentMake source (source.map fun x => S.linear *ᵥ x + S.translation) =
      problem (alignmentBlocks pairs) := by
    rw [alignmentMake_eq _ _ (by simp), zip_map_self]
  obtain ⟨hq, hR⟩ := C71_matrix_to_quaternion _ hS
  set q := Quat.ofMatrix S.linear with hqdef
  have hne := spread_ne_nil hsp
  have hpose : ∀ u, makePose q u = ⟨S.linear, u⟩ := fun u => by
    unfold makePose
    rw [hR]
  have hbne : ∀ T, alignmentBlocks pairs T ≠ [] := by
    intro T
    simp [alignmentBlocks, hpairs, hne]
  have hres : ∀ u, ∀ b ∈ alignmentBlocks pairs ⟨S.linear, u⟩, ∃ x : V3,
      b = ⟨3, alignmentJacobian q x, u - S.translation⟩ := by
    intro u b hb
    unfold alignmentBlocks at hb
    obtain ⟨p, hp, rfl⟩ := List.mem_map.1 hb
    obtain ⟨x, -, rfl⟩ := List.mem_map.1 hp
    refine ⟨x, ?_⟩
    have : alignmentResidual ⟨S.linear, u⟩ x (S.linear *ᵥ x + S.translation) = u - S.translation := by
      simp only [alignmentResidual, Pose.apply]
      abel
    simp only [this]
    rfl
  have herr : ∀ u, ∀ e ∈ errorsOf (alignmentBlocks pairs ⟨S.linear, u⟩), e = sqLen (u - S.translation) := by
    intro u e he
    unfold errorsOf at he
    obtain ⟨b, hb, rfl⟩ := List.mem_map.1 he
    obtain ⟨x, rfl⟩ := hres u b hb
    rfl
  obtain ⟨n, hn'⟩ : ∃ n : ℕ, maxIter.toNat = n + 1 := ⟨maxIter.toNat - 1, by omega⟩
  obtain ⟨s, dx, p1, p2, p3⟩ := runLoop_pass hn hllt (alignmentBlocks pairs) n 0 q hq t dblMax dblMax (hbne _)
  rw [hpose] at p1 p2 p3
  have hs := isScale_const (herr t) p1
  subst hs
  set δ : V3 := S.translation - t with hδ
  have hdx : dx = ![0, 0, 0, δ 0, δ 1, δ 2] := by
    refine isStep_unique p2 ?_ fun dz => ?_
    · rw [alignment_degenerate _ ⟨S.linear, t⟩ hS, not_not]
      simpa [hpairs, Function.comp_def] using hsp
    · rw [cost_zero]
      · exact cost_nonneg _ _ _ (weightsOf_pos _ _) _
      · intro b hb
        obtain ⟨x, rfl⟩ := hres t b hb
        show alignmentJacobian q x *ᵥ (makeM q *ᵥ ![0, 0, 0, δ 0, δ 1, δ 2]) + (t - S.translation) = 0
        rw [jacobian_step q hq]
        have e1 : turn ![0, 0, 0, δ 0, δ 1, δ 2] = 0 := by
          funext i
          fin_cases i <;> simp [turn]
        have e2 : shift ![0, 0, 0, δ 0, δ 1, δ 2] = δ := by
          funext i
          fin_cases i <;> simp [shift]
        rw [e1, e2, map_zero, LinearMap.zero_apply, mulVec_zero, hδ]
        abel
  subst hdx
  have hsum : (errorsOf (alignmentBlocks pairs ⟨S.linear, t⟩)).sum =
      source.length * sqLen (t - S.translation) := by
    rw [List.eq_replicate_of_mem (herr t), List.sum_replicate]
    simp [errorsOf, alignmentBlocks, hpairs]
  have e1 : (![(![0, 0, 0, δ 0, δ 1, δ 2] : Fin 6 → ℝ) 0, (![0, 0, 0, δ 0, δ 1, δ 2] : Fin 6 → ℝ) 1,
      (![0, 0, 0, δ 0, δ 1, δ 2] : Fin 6 → ℝ) 2] : V3) = ![0, 0, 0] := rfl
  have e2 : (![(![0, 0, 0, δ 0, δ 1, δ 2] : Fin 6 → ℝ) 3, (![0, 0, 0, δ 0, δ 1, δ 2] : Fin 6 → ℝ) 4,
      (![0, 0, 0, δ 0, δ 1, δ 2] : Fin 6 → ℝ) 5] : V3) = δ := by
    funext i
    fin_cases i <;> rfl
  have ht : t + δ = S.translation := by rw [hδ]; abel
  have hrun : run nth llt (alignmentMake source (source.map fun x => S.linear *ᵥ x + S.translation)) maxIter
      ⟨S.linear, t⟩ = runLoop nth llt (problem (alignmentBlocks pairs)) (n + 1) 0 q t dblMax dblMax := by
    unfold run
    rw [hmake, if_neg (by omega), hn']
  rw [hrun, p3, hsum, if_neg (not_lt.2 hE), if_neg (not_lt.2 (by linarith [dblMax_large])), e1, e2, zero_quat,
    mul_one_quat, ht, hpose]
  by_cases hc : checkConvergence ⟨1, 0, 0, 0⟩ δ
  · rw [if_pos hc]
    exact ⟨_, rfl, rfl, fun _ => ⟨rfl, rfl⟩⟩
  · rw [if_neg hc]
    cases n with
    | zero =>
      simp only [runLoop]
      refine ⟨_, rfl, ?_, fun h => by omega⟩
      rw [hpose]
    | succ n =>
      rw [converged_pass hn hllt _ n _ q hq _ _ _ (hbne _) (by
        rw [hpose]
        intro b hb
        obtain ⟨x, rfl⟩ := hres _ b hb
        exact sub_self _) le_rfl (mul_nonneg (Nat.cast_nonneg _) (sqLen_nonneg _)), hpose]
      exact ⟨_, rfl, rfl, fun _ => ⟨rfl, rfl⟩⟩

/-- The corners of the square are spread enough. -/
theorem corners_spread : Spread corners := by
  intro s ω b
  simp only [corners, List.map_cons, List.map_nil, List.sum_cons, List.sum_nil, sqLen, cross_apply,
    Fin.sum_univ_three]
  simp
  nlinarith [sq_nonneg s, sq_nonneg (ω 0), sq_nonneg (ω 1), sq_nonneg (ω 2), sq_nonneg (b 0), sq_nonneg (b 1),
    sq_nonneg (b 2)]

/-- The square, turned by 1 radian and 3 m away. -/
example {nth : Nth} (hn : Lib.IsNthElement nth) {llt : Llt} (hllt : LltSpec llt) :
    ∃ r, run nth llt (alignmentMake corners (corners.map fun x => rotZ 1 *ᵥ x + ![3, 0, 0])) 40
      ⟨rotZ 1, 0⟩ = .ok r ∧ r.pose = ⟨rotZ 1, ![3, 0, 0]⟩ := by
  obtain ⟨r, h1, h2, -⟩ := C90_translation hn hllt corners corners_spread ⟨rotZ 1, ![3, 0, 0]⟩
    (rotZ_isRotation 1) 0 (by
      have := dblMax_large
      simp [corners, sqLen, Fin.sum_univ_succ]
      linarith) 40 (by norm_num)
  exact ⟨r, h1, h2⟩

end Verif.Align
