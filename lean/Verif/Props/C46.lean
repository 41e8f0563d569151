/-
C46 the weighted step, C64 degeneracy and line reliability, C74 the parametrisation of the step.
-/
import Verif.Model.Optimizer
import Verif.Model.Residual
import Verif.Props.C25
import Verif.Props.C45
import Verif.Props.C52
import Mathlib.LinearAlgebra.Matrix.PosDef
import Mathlib.Analysis.Matrix.PosDef
import Mathlib.Algebra.Order.Star.Real
import Mathlib.Analysis.SpecialFunctions.Trigonometric.Deriv
import Mathlib.Analysis.Calculus.Deriv.Pi
import Mathlib.Analysis.Calculus.Deriv.Prod
import Mathlib.Analysis.Calculus.Deriv.Comp
import Mathlib.Analysis.Calculus.Deriv.Mul

set_option autoImplicit false

namespace Verif.Opt

open Matrix Verif.Rot

/-! ### Specifications -/

/-- A well-formed block: a Jacobian with seven columns and a residual with as many rows. -/
structure Block where
  n : ℕ
  J : Matrix (Fin n) (Fin 7) ℝ
  r : Fin n → ℝ

/-- The Jacobian of a block as an Eigen matrix. -/
def Block.jac (b : Block) : DMat := ⟨b.n, 7, b.J⟩
/-- The residual of a block as an Eigen vector. -/
def Block.res (b : Block) : DVec := ⟨b.n, b.r⟩

/-- Squared length. -/
def sqLen {n : ℕ} (v : Fin n → ℝ) : ℝ := ∑ i, v i ^ 2

/-- Weighted cost of the linearised problem for the step `dx`. -/
def cost (M : Matrix (Fin 7) (Fin 6) ℝ) (wb : List (ℝ × Block)) (dx : Fin 6 → ℝ) : ℝ :=
  (wb.map fun p => p.1 * sqLen (p.2.J *ᵥ (M *ᵥ dx) + p.2.r)).sum

/-- What is assumed about Eigen's Cholesky solver: it solves positive definite systems. -/
def LltSpec (llt : Llt) : Prop := ∀ S b, S.PosDef → S *ᵥ llt S b = b

/-- `l` is an eigenvalue of `C`. -/
def IsEigenvalue {n : ℕ} (C : Matrix (Fin n) (Fin n) ℝ) (l : ℝ) : Prop :=
  ∃ v : Fin n → ℝ, v ≠ 0 ∧ C *ᵥ v = l • v

/-- `∑ JᵀJ`. -/
def gram (bs : List Block) : Matrix (Fin 7) (Fin 7) ℝ := (bs.map fun b => b.Jᵀ * b.J).sum

/-! ### C64 -/

theorem lowerSymmetric_of_symm {n : ℕ} (C : Matrix (Fin n) (Fin n) ℝ) (h : Cᵀ = C) :
    lowerSymmetric C = C := by
  ext i j
  simp only [lowerSymmetric, of_apply]
  split
  · rfl
  · exact congrFun (congrFun h i) j

/-- C64: a symmetric matrix counts as degenerate exactly when some eigenvalue is smaller in magnitude
than the threshold. -/
theorem C64_degenerate {n : ℕ} (C : Matrix (Fin n) (Fin n) ℝ) (h : Cᵀ = C) (threshold : ℝ) :
    isDegenerate C threshold ↔ ∃ l, IsEigenvalue C l ∧ |l| < threshold := by
  have hs := lowerSymmetric_of_symm C h
  have hH := lowerSymmetric_isHermitian C
  constructor
  · rintro ⟨i, hi⟩
    refine ⟨_, ⟨⇑(hH.eigenvectorBasis i), ?_, ?_⟩, hi⟩
    · intro h0
      have h1 : hH.eigenvectorBasis i = 0 := by
        ext j; exact congrFun h0 j
      exact hH.eigenvectorBasis.toBasis.ne_zero i (by simpa using h1)
    · have h2 : lowerSymmetric C *ᵥ ⇑(hH.eigenvectorBasis i) = _ := hH.mulVec_eigenvectorBasis i
      rw [show C *ᵥ ⇑(hH.eigenvectorBasis i) = lowerSymmetric C *ᵥ ⇑(hH.eigenvectorBasis i) from
        congrArg (· *ᵥ _) hs.symm]
      exact h2
  · rintro ⟨l, ⟨v, hv, hl⟩, hlt⟩
    have hmem : l ∈ spectrum ℝ (lowerSymmetric C) := by
      rw [hs, ← Matrix.spectrum_toLin']
      refine Module.End.HasEigenvalue.mem_spectrum ?_
      exact Module.End.hasEigenvalue_of_hasEigenvector
        (Module.End.hasEigenvector_iff.2 ⟨Module.End.mem_eigenspace_iff.2 (by simpa using hl), hv⟩)
    rw [hH.spectrum_real_eq_range_eigenvalues] at hmem
    obtain ⟨i, hi⟩ := hmem
    exact ⟨i, by rw [hi]; exact hlt⟩

/-- C64: the line test depends only on the three eigenvalues, not on their order: with `lo ≤ mid ≤ hi`
some arrangement of them, the answer is `3 mid < hi`. -/
theorem C64_reliable (ev : Fin 3 → ℝ) (lo mid hi : ℝ) (h1 : lo ≤ mid) (h2 : mid ≤ hi)
    (hp : [lo, mid, hi].Perm [ev 0, ev 1, ev 2]) :
    Loc.principalIsReliable ev = true ↔ 3 * mid < hi := by
  obtain ⟨x, y, z, he, hxy, hyz, hq⟩ := Lib.C25_sort_three (ev 0) (ev 1) (ev 2)
  have hperm : [x, y, z].Perm [lo, mid, hi] := hq.trans hp.symm
  have hs1 : [x, y, z].Pairwise (· ≤ ·) := by
    simp [hxy, hyz, hxy.trans hyz]
  have hs2 : [lo, mid, hi].Pairwise (· ≤ ·) := by
    simp [h1, h2, h1.trans h2]
  have := hperm.eq_of_pairwise (fun a b _ _ hab hba => le_antisymm hab hba) hs1 hs2
  simp only [List.cons.injEq, and_true] at this
  obtain ⟨rfl, rfl, rfl⟩ := this
  unfold Loc.principalIsReliable
  simp only [he, decide_eq_true_eq]
  rw [mul_comm]

/-! ### C46 -/

section
variable {llt : Llt}

theorem accumulate_blocks (ws : List ℝ) (bs : List Block) (h : ws.length = bs.length)
    (D A : Matrix (Fin 7) (Fin 7) ℝ) (b : Fin 7 → ℝ) :
    accumulate ws (bs.map Block.jac) (bs.map Block.res) (D, A, b) =
      .ok (D + gram bs,
        A + ((ws.zip bs).map fun p => p.1 • (p.2.Jᵀ * p.2.J)).sum,
        b + ((ws.zip bs).map fun p => p.1 • (p.2.Jᵀ *ᵥ p.2.r)).sum) := by
  induction bs generalizing ws D A b with
  | nil =>
    cases ws with
    | nil => simp [accumulate, gram]
    | cons => simp at h
  | cons c cs ih =>
    cases ws with
    | nil => simp at h
    | cons w ws =>
      have := ih ws (by simpa using h) (D + c.Jᵀ * c.J) (A + w • (c.Jᵀ * c.J)) (b + w • (c.Jᵀ *ᵥ c.r))
      simp only [List.map_cons, Block.jac, Block.res, accumulate, dite_true] at this ⊢
      rw [this]
      simp [gram, add_assoc]

end

/-- The weighted normal matrix. -/
def normalMatrix (wb : List (ℝ × Block)) : Matrix (Fin 7) (Fin 7) ℝ :=
  (wb.map fun p => p.1 • (p.2.Jᵀ * p.2.J)).sum

/-- The weighted gradient. -/
def gradient (wb : List (ℝ × Block)) : Fin 7 → ℝ :=
  (wb.map fun p => p.1 • (p.2.Jᵀ *ᵥ p.2.r)).sum

theorem sqLen_eq {n : ℕ} (v : Fin n → ℝ) : sqLen v = v ⬝ᵥ v := by
  simp [sqLen, dotProduct, sq]

theorem sqLen_nonneg {n : ℕ} (v : Fin n → ℝ) : 0 ≤ sqLen v := Finset.sum_nonneg fun _ _ => sq_nonneg _

theorem sqLen_eq_zero {n : ℕ} {v : Fin n → ℝ} (h : sqLen v = 0) : v = 0 := by
  rw [sqLen_eq] at h
  exact dotProduct_self_eq_zero.1 h

theorem quad_normalMatrix (wb : List (ℝ × Block)) (x y : Fin 7 → ℝ) :
    x ⬝ᵥ (normalMatrix wb *ᵥ y) = (wb.map fun p => p.1 * ((p.2.J *ᵥ x) ⬝ᵥ (p.2.J *ᵥ y))).sum := by
  induction wb with
  | nil => simp [normalMatrix]
  | cons p ps ih =>
    have : normalMatrix (p :: ps) = p.1 • (p.2.Jᵀ * p.2.J) + normalMatrix ps := by
      simp [normalMatrix]
    rw [this, add_mulVec, dotProduct_add, ih]
    simp only [List.map_cons, List.sum_cons, smul_mulVec, dotProduct_smul, smul_eq_mul]
    rw [← mulVec_mulVec, dotProduct_mulVec, vecMul_transpose]

theorem dot_gradient (wb : List (ℝ × Block)) (x : Fin 7 → ℝ) :
    x ⬝ᵥ gradient wb = (wb.map fun p => p.1 * ((p.2.J *ᵥ x) ⬝ᵥ p.2.r)).sum := by
  induction wb with
  | nil => simp [gradient]
  | cons p ps ih =>
    have : gradient (p :: ps) = p.1 • (p.2.Jᵀ *ᵥ p.2.r) + gradient ps := by simp [gradient]
    rw [this, dotProduct_add, ih]
    simp only [List.map_cons, List.sum_cons, dotProduct_smul, smul_eq_mul]
    rw [dotProduct_mulVec, vecMul_transpose]

theorem normalMatrix_symm (wb : List (ℝ × Block)) : (normalMatrix wb)ᵀ = normalMatrix wb := by
  induction wb with
  | nil => simp [normalMatrix]
  | cons p ps ih =>
    have : normalMatrix (p :: ps) = p.1 • (p.2.Jᵀ * p.2.J) + normalMatrix ps := by
      simp [normalMatrix]
    rw [this, transpose_add, ih, transpose_smul, transpose_mul, transpose_transpose]

theorem gram_eq (bs : List Block) : gram bs = normalMatrix (bs.map fun b => (1, b)) := by
  simp [gram, normalMatrix, Function.comp_def]

theorem cost_eq (M : Matrix (Fin 7) (Fin 6) ℝ) (wb : List (ℝ × Block)) (dx : Fin 6 → ℝ) :
    cost M wb dx = (M *ᵥ dx) ⬝ᵥ (normalMatrix wb *ᵥ (M *ᵥ dx)) + 2 * ((M *ᵥ dx) ⬝ᵥ gradient wb) +
      (wb.map fun p => p.1 * sqLen p.2.r).sum := by
  rw [quad_normalMatrix, dot_gradient, cost]
  induction wb with
  | nil => simp
  | cons p ps ih =>
    simp only [List.map_cons, List.sum_cons]
    rw [ih]
    generalize (List.map (fun p => p.1 * ((p.2.J *ᵥ M *ᵥ dx) ⬝ᵥ (p.2.J *ᵥ M *ᵥ dx))) ps).sum = s1
    generalize (List.map (fun p => p.1 * ((p.2.J *ᵥ M *ᵥ dx) ⬝ᵥ p.2.r)) ps).sum = s2
    generalize (List.map (fun p => p.1 * sqLen p.2.r) ps).sum = s3
    simp only [sqLen_eq, add_dotProduct, dotProduct_add]
    rw [dotProduct_comm p.2.r (p.2.J *ᵥ M *ᵥ dx)]
    ring

theorem makeM_mulVec (q : Quat) (dx : Fin (3 + 3) → ℝ) :
    makeM q *ᵥ dx = Loc.coords
      (q.mul ⟨0, dx 0 / 2, dx 1 / 2, dx 2 / 2⟩) (fun i => dx (Fin.natAdd 3 i)) := by
  funext j
  refine Fin.addCases (m := 4) (n := 3) (fun j => ?_) (fun j => ?_) j
  · have h : (finSumFinEquiv (m := 4) (n := 3)).symm (Fin.castAdd 3 j) = Sum.inl j :=
      finSumFinEquiv_symm_apply_castAdd j
    simp only [makeM, mulVec, dotProduct, Loc.coords, Fin.append_left]
    rw [Fin.sum_univ_add (a := 3) (b := 3)]
    simp only [submatrix_apply]
    rw [h]
    simp only [finSumFinEquiv_symm_apply_castAdd, finSumFinEquiv_symm_apply_natAdd,
      fromBlocks_apply₁₁, fromBlocks_apply₁₂, Matrix.zero_apply, zero_mul, Finset.sum_const_zero, add_zero,
      Fin.sum_univ_three]
    have e0 : dx (Fin.castAdd 3 0) = dx 0 := rfl
    have e1 : dx (Fin.castAdd 3 1) = dx 1 := rfl
    have e2 : dx (Fin.castAdd 3 2) = dx 2 := rfl
    rw [e0, e1, e2]
    fin_cases j <;> simp [leftMultiplicationMatrix, toWXYZ, Quat.mul] <;> ring
  · have h : (finSumFinEquiv (m := 4) (n := 3)).symm (Fin.natAdd 4 j) = Sum.inr j :=
      finSumFinEquiv_symm_apply_natAdd j
    simp only [makeM, mulVec, dotProduct, Loc.coords, Fin.append_right]
    rw [Fin.sum_univ_add (a := 3) (b := 3)]
    simp only [submatrix_apply]
    rw [h]
    simp only [finSumFinEquiv_symm_apply_castAdd, finSumFinEquiv_symm_apply_natAdd,
      fromBlocks_apply₂₁, fromBlocks_apply₂₂, Matrix.zero_apply, zero_mul, Finset.sum_const_zero,
      zero_add, Matrix.one_apply, ite_mul, one_mul, Finset.sum_ite_eq, Finset.mem_univ, if_true]

/-- The step matrix is injective at unit quaternions. -/
theorem makeM_injective (q : Quat) (hq : q.IsUnit) (dx : Fin 6 → ℝ) (h : makeM q *ᵥ dx = 0) :
    dx = 0 := by
  have h' := (makeM_mulVec q dx).symm.trans h
  have hl : ∀ i : Fin 4, toWXYZ (q.mul ⟨0, dx 0 / 2, dx 1 / 2, dx 2 / 2⟩) i = 0 := by
    intro i
    have := congrFun h' (Fin.castAdd 3 i)
    simpa [Loc.coords] using this
  have hr : ∀ i : Fin 3, dx (Fin.natAdd 3 i) = 0 := by
    intro i
    have := congrFun h' (Fin.natAdd 4 i)
    simpa [Loc.coords] using this
  have h0 := hl 0
  have h1 := hl 1
  have h2 := hl 2
  have h3 := hl 3
  simp [toWXYZ, Quat.mul] at h0 h1 h2 h3
  unfold Quat.IsUnit at hq
  have a0 : dx 0 = 0 := by
    linear_combination (-dx 0) * hq + 2 * (-q.x * h0 + q.w * h1 + q.z * h2 - q.y * h3)
  have a1 : dx 1 = 0 := by
    linear_combination (-dx 1) * hq + 2 * (-q.y * h0 - q.z * h1 + q.w * h2 + q.x * h3)
  have a2 : dx 2 = 0 := by
    linear_combination (-dx 2) * hq + 2 * (-q.z * h0 + q.y * h1 - q.x * h2 + q.w * h3)
  funext i
  fin_cases i
  · exact a0
  · exact a1
  · exact a2
  · exact hr 0
  · exact hr 1
  · exact hr 2

/-- If the Gram matrix is not degenerate, only the zero vector is annihilated by all Jacobians. -/
theorem gram_kernel (bs : List Block) (hd : ¬ isDegenerate (gram bs)) (x : Fin 7 → ℝ)
    (h : ∀ b ∈ bs, b.J *ᵥ x = 0) : x = 0 := by
  by_contra hx
  refine hd ((C64_degenerate (gram bs) (by rw [gram_eq, normalMatrix_symm]) _).2
    ⟨0, ⟨x, hx, ?_⟩, by norm_num⟩)
  rw [zero_smul]
  clear hd
  induction bs with
  | nil => simp [gram]
  | cons b bs ih =>
    have : gram (b :: bs) = b.Jᵀ * b.J + gram bs := by simp [gram]
    rw [this, add_mulVec, ih fun c hc => h c (List.mem_cons_of_mem _ hc), ← mulVec_mulVec,
      h b List.mem_cons_self, mulVec_zero, add_zero]

theorem sum_nonneg_eq_zero (l : List ℝ) (h : ∀ x ∈ l, 0 ≤ x) (hs : l.sum = 0) : ∀ x ∈ l, x = 0 := by
  induction l with
  | nil => simp
  | cons a l ih =>
    have h1 := h a List.mem_cons_self
    have h2 : 0 ≤ l.sum := List.sum_nonneg fun x hx => h x (List.mem_cons_of_mem _ hx)
    rw [List.sum_cons] at hs
    intro x hx
    rcases List.mem_cons.1 hx with rfl | hx
    · linarith
    · exact ih (fun x hx => h x (List.mem_cons_of_mem _ hx)) (by linarith) x hx

theorem step_posDef (M : Matrix (Fin 7) (Fin 6) ℝ) (hM : ∀ dx, M *ᵥ dx = 0 → dx = 0)
    (ws : List ℝ) (bs : List Block) (hl : ws.length = bs.length) (hw : ∀ w ∈ ws, 0 < w)
    (hd : ¬ isDegenerate (gram bs)) : (Mᵀ * normalMatrix (ws.zip bs) * M).PosDef := by
  have hq : ∀ x : Fin 6 → ℝ, star x ⬝ᵥ ((Mᵀ * normalMatrix (ws.zip bs) * M) *ᵥ x) =
      ((ws.zip bs).map fun p => p.1 * ((p.2.J *ᵥ (M *ᵥ x)) ⬝ᵥ (p.2.J *ᵥ (M *ᵥ x)))).sum := by
    intro x
    rw [star_trivial, ← quad_normalMatrix, Matrix.mul_assoc, ← mulVec_mulVec, dotProduct_mulVec,
      vecMul_transpose, mulVec_mulVec]
  have hnn : ∀ x : Fin 6 → ℝ, ∀ y ∈ (ws.zip bs).map
      (fun p => p.1 * ((p.2.J *ᵥ (M *ᵥ x)) ⬝ᵥ (p.2.J *ᵥ (M *ᵥ x)))), 0 ≤ y := by
    intro x y hy
    obtain ⟨⟨w, b⟩, hp, rfl⟩ := List.mem_map.1 hy
    exact mul_nonneg (hw w (List.of_mem_zip hp).1).le (Loc.dot_self_nonneg _)
  refine Matrix.PosDef.of_dotProduct_mulVec_pos ?_ fun x hx => ?_
  · unfold Matrix.IsHermitian
    rw [conjTranspose_eq_transpose_of_trivial, transpose_mul, transpose_mul, transpose_transpose,
      normalMatrix_symm, Matrix.mul_assoc]
  · rw [hq]
    refine lt_of_le_of_ne (List.sum_nonneg (hnn x)) fun h0 => hx (hM x ?_)
    have h1 := sum_nonneg_eq_zero _ (hnn x) h0.symm
    refine gram_kernel bs hd _ fun b hb => ?_
    obtain ⟨i, hi, rfl⟩ := List.getElem_of_mem hb
    have hmem : (ws[i]'(by omega), bs[i]) ∈ ws.zip bs := by
      rw [List.mem_iff_getElem]
      exact ⟨i, by simp; omega, by simp⟩
    have h2 := h1 _ (List.mem_map.2 ⟨_, hmem, rfl⟩)
    rcases mul_eq_zero.1 h2 with h3 | h3
    · exact absurd h3 (hw _ (List.of_mem_zip hmem).1).ne'
    · exact dotProduct_self_eq_zero.1 h3

/-- C46: for well-formed blocks, positive weights, a unit quaternion and a problem that is not
degenerate, the step satisfies the normal equations and is the unique minimiser of the weighted
linearised cost. -/
theorem C46_step {llt : Llt} (hllt : LltSpec llt) (q : Quat) (hq : q.IsUnit) (ws : List ℝ)
    (bs : List Block) (hl : ws.length = bs.length) (hw : ∀ w ∈ ws, 0 < w)
    (hd : ¬ ∃ l, IsEigenvalue (gram bs) l ∧ |l| < 1 / 10) :
    ∃ dx, weightedUpdate llt (makeM q) ws (bs.map Block.jac) (bs.map Block.res) = .ok dx ∧
      (∀ j, ((ws.zip bs).map fun p => p.1 * ∑ i, (p.2.J * makeM q) i j *
        (p.2.J *ᵥ (makeM q *ᵥ dx) + p.2.r) i).sum = 0) ∧
      ∀ dy, dy ≠ dx → cost (makeM q) (ws.zip bs) dx < cost (makeM q) (ws.zip bs) dy := by
  have hd' : ¬ isDegenerate (gram bs) := fun h =>
    hd ((C64_degenerate _ (by rw [gram_eq, normalMatrix_symm]) _).1 h)
  set M := makeM q with hMdef
  have hpd := step_posDef M (makeM_injective q hq) ws bs hl hw hd'
  have hsol := hllt _ (Mᵀ *ᵥ gradient (ws.zip bs)) hpd
  set s := llt (Mᵀ * normalMatrix (ws.zip bs) * M) (Mᵀ *ᵥ gradient (ws.zip bs)) with hs
  have hne : Mᵀ *ᵥ (normalMatrix (ws.zip bs) *ᵥ (M *ᵥ -s) + gradient (ws.zip bs)) = 0 := by
    rw [mulVec_add, mulVec_neg, mulVec_neg, mulVec_neg, ← hsol, ← mulVec_mulVec, ← mulVec_mulVec]
    simp
  refine ⟨-s, ?_, ?_, ?_⟩
  · unfold weightedUpdate
    rw [if_pos (by simpa using hl), if_pos (by simpa using hl), accumulate_blocks ws bs hl]
    simp only [bind, Except.bind]
    rw [zero_add, zero_add, zero_add, if_neg hd']
    rfl
  · intro j
    have h1 := congrFun hne j
    have h2 : (Mᵀ *ᵥ (normalMatrix (ws.zip bs) *ᵥ (M *ᵥ -s) + gradient (ws.zip bs))) j =
        (M *ᵥ Pi.single j 1) ⬝ᵥ (normalMatrix (ws.zip bs) *ᵥ (M *ᵥ -s) + gradient (ws.zip bs)) := by
      rw [mulVec_single_one]
      rfl
    rw [h2, dotProduct_add, quad_normalMatrix, dot_gradient] at h1
    rw [Pi.zero_apply] at h1
    rw [← h1]
    generalize ws.zip bs = wb
    induction wb with
    | nil => simp
    | cons p ps ih =>
      simp only [List.map_cons, List.sum_cons, ih]
      have : ∑ i, (p.2.J * M) i j * (p.2.J *ᵥ (M *ᵥ -s) + p.2.r) i =
          (p.2.J *ᵥ (M *ᵥ Pi.single j 1)) ⬝ᵥ (p.2.J *ᵥ (M *ᵥ -s)) +
            (p.2.J *ᵥ (M *ᵥ Pi.single j 1)) ⬝ᵥ p.2.r := by
        rw [← dotProduct_add, mulVec_mulVec, mulVec_single_one]
        rfl
      rw [this]
      ring
  · intro dy hdy
    have hpos := hpd.dotProduct_mulVec_pos (x := dy - -s) (sub_ne_zero.2 hdy)
    rw [star_trivial, Matrix.mul_assoc, ← mulVec_mulVec, dotProduct_mulVec, vecMul_transpose,
      ← mulVec_mulVec] at hpos
    rw [cost_eq, cost_eq]
    have hcross : (M *ᵥ (dy - -s)) ⬝ᵥ (normalMatrix (ws.zip bs) *ᵥ (M *ᵥ -s) + gradient (ws.zip bs)) = 0 := by
      rw [← vecMul_transpose, ← dotProduct_mulVec, hne, dotProduct_zero]
    have hsym : ∀ x y : Fin 7 → ℝ, x ⬝ᵥ (normalMatrix (ws.zip bs) *ᵥ y) =
        y ⬝ᵥ (normalMatrix (ws.zip bs) *ᵥ x) := by
      intro x y
      rw [dotProduct_mulVec, dotProduct_comm, ← mulVec_transpose, normalMatrix_symm]
    rw [mulVec_sub] at hpos hcross
    simp only [mulVec_sub, sub_dotProduct, dotProduct_sub, dotProduct_add] at hpos hcross
    have := hsym (M *ᵥ dy) (M *ᵥ -s)
    linarith

/-- C46: if some direction is observed by an eigenvalue below 0.1 the step is zero. -/
theorem C46_degenerate (llt : Llt) (M : Matrix (Fin 7) (Fin 6) ℝ) (ws : List ℝ)
    (bs : List Block) (hl : ws.length = bs.length)
    (hd : ∃ l, IsEigenvalue (gram bs) l ∧ |l| < 1 / 10) :
    weightedUpdate llt M ws (bs.map Block.jac) (bs.map Block.res) = .ok 0 := by
  have hd' : isDegenerate (gram bs) :=
    (C64_degenerate _ (by rw [gram_eq, normalMatrix_symm]) _).2 hd
  unfold weightedUpdate
  rw [if_pos (by simpa using hl), if_pos (by simpa using hl), accumulate_blocks ws bs hl]
  simp only [bind, Except.bind]
  rw [zero_add, zero_add, zero_add, if_pos hd']
  rfl

/-- C46: numbers of weights, Jacobians and residuals that differ fail an assertion. -/
theorem C46_sizes (llt : Llt) (M : Matrix (Fin 7) (Fin 6) ℝ) (ws : List ℝ) (Js : List DMat)
    (rs : List DVec) (h : ws.length ≠ Js.length ∨ ws.length ≠ rs.length) :
    weightedUpdate llt M ws Js rs = .error .assertFail := by
  unfold weightedUpdate
  by_cases h1 : ws.length = Js.length
  · rcases h with h | h
    · exact absurd h1 h
    · rw [if_pos h1, if_neg h]
  · rw [if_neg h1]

/-! ### C74 -/

/-- C74: `MakeM(q)` maps a step `(θ, δ)` to the velocity, at the start, of the curve of poses that the
step describes: rotation by `s k` about the unit axis `u` appended to `q`, translation `t + s δ`. -/
theorem C74_velocity (q : Quat) (t u δ : Fin 3 → ℝ) (k : ℝ) :
    HasDerivAt (fun s : ℝ => Loc.coords (q.mul (Quat.ofAngleAxis (s * k) u)) (t + s • δ))
      (makeM q *ᵥ (Fin.append (k • u) δ : Fin (3 + 3) → ℝ)) 0 := by
  rw [makeM_mulVec, hasDerivAt_pi]
  have hc : HasDerivAt (fun s : ℝ => Real.cos (s * k / 2)) 0 0 := by
    have h := (Real.hasDerivAt_cos (0 * k / 2)).comp (0 : ℝ)
      (((hasDerivAt_id (0 : ℝ)).mul_const k).div_const 2)
    refine h.congr_deriv ?_
    simp
  have hs : HasDerivAt (fun s : ℝ => Real.sin (s * k / 2)) (k / 2) 0 := by
    have h := (Real.hasDerivAt_sin (0 * k / 2)).comp (0 : ℝ)
      (((hasDerivAt_id (0 : ℝ)).mul_const k).div_const 2)
    refine h.congr_deriv ?_
    simp
  intro j
  refine Fin.addCases (m := 4) (n := 3) (fun j => ?_) (fun j => ?_) j
  · simp only [Loc.coords, Fin.append_left]
    have e0 : (Fin.append (k • u) δ : Fin (3 + 3) → ℝ) 0 = k * u 0 := Fin.append_left (k • u) δ 0
    have e1 : (Fin.append (k • u) δ : Fin (3 + 3) → ℝ) 1 = k * u 1 := Fin.append_left (k • u) δ 1
    have e2 : (Fin.append (k • u) δ : Fin (3 + 3) → ℝ) 2 = k * u 2 := Fin.append_left (k • u) δ 2
    have hx := hs.mul_const (u 0)
    have hy := hs.mul_const (u 1)
    have hz := hs.mul_const (u 2)
    fin_cases j
    · refine ((((hc.const_mul q.w).sub (hx.const_mul q.x)).sub (hy.const_mul q.y)).sub
        (hz.const_mul q.z)).congr_deriv ?_
      simp [toWXYZ, Quat.mul, e0, e1, e2]; ring
    · refine ((((hx.const_mul q.w).add (hc.const_mul q.x)).add (hz.const_mul q.y)).sub
        (hy.const_mul q.z)).congr_deriv ?_
      simp [toWXYZ, Quat.mul, e0, e1, e2]; ring
    · refine ((((hy.const_mul q.w).add (hc.const_mul q.y)).add (hx.const_mul q.z)).sub
        (hz.const_mul q.x)).congr_deriv ?_
      simp [toWXYZ, Quat.mul, e0, e1, e2]; ring
    · refine ((((hz.const_mul q.w).add (hc.const_mul q.z)).add (hy.const_mul q.x)).sub
        (hx.const_mul q.y)).congr_deriv ?_
      simp [toWXYZ, Quat.mul, e0, e1, e2]; ring
  · simp only [Loc.coords, Fin.append_right]
    refine (((hasDerivAt_id (0 : ℝ)).mul_const (δ j)).const_add (t j)).congr_deriv ?_
    simp

/-- C74: the rotation that the code appends for a step of length `k ≥ 1e-8` about the unit axis `u` is
the end point of that curve. -/
theorem C74_end_point (u : Fin 3 → ℝ) (hu : u ⬝ᵥ u = 1) (k : ℝ) (hk : 1 / 100000000 ≤ k) :
    angleAxisToQuaternion (k • u) = Quat.ofAngleAxis k u := by
  have hk0 : 0 < k := lt_of_lt_of_le (by norm_num) hk
  have hn : Rot.norm (k • u) = k := by
    unfold Rot.norm
    rw [smul_dotProduct, dotProduct_smul, hu, smul_eq_mul, smul_eq_mul, mul_one,
      Real.sqrt_mul_self hk0.le]
  unfold angleAxisToQuaternion
  simp only [hn]
  rw [if_neg (not_lt.2 hk)]
  unfold Quat.ofAngleAxis
  simp only [Pi.smul_apply, smul_eq_mul, mul_div_cancel_left₀ _ hk0.ne', mul_comm]

/-- C74: the chain rule as the code uses it: if `J` is the derivative of a residual by the seven
coordinates of the pose, `J M` is its derivative by the six coordinates of the step, along every
step. -/
theorem C74_chain {n : ℕ} (f : (Fin (4 + 3) → ℝ) → Fin n → ℝ) (J : Matrix (Fin n) (Fin (4 + 3)) ℝ)
    (q : Quat) (t u δ : Fin 3 → ℝ) (k : ℝ) (hJ : HasFDerivAt f (mat J) (Loc.coords q t)) :
    HasDerivAt (fun s : ℝ => f (Loc.coords (q.mul (Quat.ofAngleAxis (s * k) u)) (t + s • δ)))
      ((J * makeM q) *ᵥ (Fin.append (k • u) δ : Fin (3 + 3) → ℝ)) 0 := by
  have h0 : Loc.coords (q.mul (Quat.ofAngleAxis (0 * k) u)) (t + (0 : ℝ) • δ) = Loc.coords q t := by
    simp [Quat.ofAngleAxis, Quat.mul]
  have hv := C74_velocity q t u δ k
  have hJ' : HasFDerivAt f (mat J)
      ((fun s : ℝ => Loc.coords (q.mul (Quat.ofAngleAxis (s * k) u)) (t + s • δ)) 0) := by
    simp only [h0]
    exact hJ
  have := hJ'.comp_hasDerivAt (0 : ℝ) hv
  rw [mat_apply, mulVec_mulVec] at this
  exact this

/-! Non-vacuity. -/

/-- One block with identity Jacobian: not degenerate, all hypotheses of `C46_step` hold. -/
example : ¬ ∃ l, IsEigenvalue (gram [⟨7, 1, fun _ => 1⟩]) l ∧ |l| < 1 / 10 := by
  rintro ⟨l, ⟨v, hv, hl⟩, hlt⟩
  have hg : gram [⟨7, 1, fun _ => 1⟩] = 1 := by simp [gram]
  rw [hg, one_mulVec] at hl
  obtain ⟨i, hi⟩ := Function.ne_iff.1 hv
  have h1 := congrFun hl i
  simp only [Pi.smul_apply, smul_eq_mul] at h1
  have h2 : l = 1 := by
    have : (l - 1) * v i = 0 := by linarith
    rcases mul_eq_zero.1 this with h | h
    · linarith
    · exact absurd h hi
  rw [h2] at hlt
  norm_num at hlt

/-- A solver meeting `LltSpec`. -/
example : LltSpec fun S b => S⁻¹ *ᵥ b := by
  intro S b hS
  rw [mulVec_mulVec, Matrix.mul_nonsing_inv _ (isUnit_iff_ne_zero.2 hS.det_pos.ne'), one_mulVec]

example : Loc.principalIsReliable ![9, 1, 2] = true :=
  (C64_reliable ![9, 1, 2] 1 2 9 (by norm_num) (by norm_num) (by
    simpa using (List.perm_append_comm (l₁ := [(1 : ℝ), 2]) (l₂ := [9])))).2 (by norm_num)

end Verif.Opt
