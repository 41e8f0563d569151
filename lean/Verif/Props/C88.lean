/-
C88 the alignment problem.
-/
import Verif.Model.Alignment
import Verif.Props.C44
import Verif.Props.C83

set_option autoImplicit false

namespace Verif.Align

open Matrix Verif.Rot Verif.Opt Verif.Loc

/-- A point. -/
abbrev V3 := Fin 3 → ℝ

/-! ### One pass of the optimiser loop -/

open Classical in
theorem runLoop_pass {nth : Nth} (hn : Lib.IsNthElement nth) {llt : Llt} (hllt : LltSpec llt)
    (blocks : Pose → List Block) (n : ℕ) (iter : ℤ) (q : Quat) (hq : q.IsUnit) (t : V3) (ps pe : ℝ)
    (hb : blocks (makePose q t) ≠ []) :
    ∃ s dx, IsScale (errorsOf (blocks (makePose q t))) s ∧
      IsStep q (blocks (makePose q t)) (weightsOf (blocks (makePose q t)) s) dx ∧
      runLoop nth llt (problem blocks) (n + 1) iter q t ps pe =
        (if pe < (errorsOf (blocks (makePose q t))).sum then
          .ok ⟨makePose q t, .largerError, iter, (errorsOf (blocks (makePose q t))).sum, s, true⟩
        else if ps < s then
          .ok ⟨makePose q t, .largerScale, iter, (errorsOf (blocks (makePose q t))).sum, s, true⟩
        else if checkConvergence (angleAxisToQuaternion ![dx 0, dx 1, dx 2]) ![dx 3, dx 4, dx 5] then
          .ok ⟨makePose (q.mul (angleAxisToQuaternion ![dx 0, dx 1, dx 2])) (t + ![dx 3, dx 4, dx 5]),
            .converged, iter, (errorsOf (blocks (makePose q t))).sum, s, true⟩
        else runLoop nth llt (problem blocks) n (iter + 1)
          (q.mul (angleAxisToQuaternion ![dx 0, dx 1, dx 2])) (t + ![dx 3, dx 4, dx 5]) s
          (errorsOf (blocks (makePose q t))).sum) := by
  set bs := blocks (makePose q t) with hbs
  have hlen : ¬ (bs.map Block.res).length = 0 := by simpa using hb
  have hes : errorsOf bs ≠ [] := by simpa [errorsOf] using hb
  obtain ⟨m, d, s, hm, hd, hs, hs', -⟩ := (C73_scale hn (errorsOf bs)).2 hes
  obtain ⟨dx, hdx, hstep⟩ := isStep_exists hllt q hq bs s
  refine ⟨s, dx, ⟨m, d, hm, hd, hs'⟩, hstep, ?_⟩
  have hnorm : normalizeErrorScale nth (errorsOf bs) =
      .ok ((errorsOf bs).map fun e => e / (s + 1 / 10 ^ 16), s) := by
    simp [normalizeErrorScale, hs, bind, Except.bind, pure, Except.pure]
  have hcalc : calcUpdate llt q (weightsOf bs s) (bs.map Block.jac) (bs.map Block.res) =
      .ok (angleAxisToQuaternion ![dx 0, dx 1, dx 2], ![dx 3, dx 4, dx 5]) := by
    have e1 : (fun i : Fin 3 => dx (Fin.castAdd 3 i)) = ![dx 0, dx 1, dx 2] := by
      funext i; fin_cases i <;> rfl
    have e2 : (fun i : Fin 3 => dx (Fin.natAdd 3 i)) = ![dx 3, dx 4, dx 5] := by
      funext i; fin_cases i <;> rfl
    simp only [calcUpdate, hdx, bind, Except.bind, pure, Except.pure, e1, e2]
  have hw : computeWeights ((errorsOf bs).map fun e => e / (s + 1 / 10 ^ 16)) = weightsOf bs s := by
    simp [computeWeights, weightsOf, huberK, Function.comp_def]
  rw [runLoop]
  simp only [problem, bind, Except.bind, ← hbs]
  rw [if_neg hlen]
  simp only [computeErrors_blocks, hnorm, hw, hcalc]
  rfl

theorem isStep_unique {q : Quat} {bs : List Block} {ws : List ℝ} {dx dy : Fin 6 → ℝ}
    (hx : IsStep q bs ws dx) (hd : ¬ Degenerate bs)
    (hy : ∀ dz, cost (makeM q) (ws.zip bs) dy ≤ cost (makeM q) (ws.zip bs) dz) : dx = dy := by
  by_contra h
  have := hx.2 hd dy (fun e => h e.symm)
  exact absurd (hy dx) (not_le.2 this)

/-! ### C88 -/

/-- The blocks of the alignment problem. -/
noncomputable def alignmentBlocks (pairs : List (V3 × V3)) (T : Pose) : List Block :=
  pairs.map fun p => ⟨3, alignmentJacobian (Quat.ofMatrix T.linear) p.1, alignmentResidual T p.1 p.2⟩

theorem alignmentMake_eq (source target : List V3) (h : source.length = target.length) :
    alignmentMake source target = problem (alignmentBlocks (source.zip target)) := by
  funext T
  simp only [alignmentMake, alignmentResiduals, if_pos h, problem, bind, Except.bind, pure, Except.pure]
  congr 2
  · simp only [alignmentJacobians, alignmentBlocks, List.map_map]
    conv_lhs => rw [← List.map_fst_zip (l₁ := source) (l₂ := target) (by omega)]
    rw [List.map_map]
    rfl
  · simp only [alignmentBlocks, List.map_map]
    clear h
    induction source generalizing target with
    | nil => rfl
    | cons x xs ih => cases target with
      | nil => rfl
      | cons y ys => simp only [List.zipWith_cons_cons, List.zip_cons_cons, List.map_cons, ih]; rfl

/-- C88: clouds of different sizes are refused. For clouds of equal size there is one block per pair of
points, in order: the residual is the moved point minus its partner, and the matrix is its derivative
by the coordinates of the pose. -/
theorem C88_blocks (source target : List V3) (T : Pose) :
    (source.length ≠ target.length → alignmentMake source target T = .error .assertFail) ∧
    (source.length = target.length → ∃ bs : List Block,
      alignmentMake source target T = .ok (bs.map Block.jac, bs.map Block.res) ∧
      bs.length = source.length ∧
      ∀ (i : ℕ) (x y : V3), source[i]? = some x → target[i]? = some y →
        ∃ J : Matrix (Fin 3) (Fin (4 + 3)) ℝ,
          bs[i]? = some ⟨3, J, T.linear *ᵥ x + T.translation - y⟩ ∧
          (IsRotation T.linear → ∃ q : Quat, q.IsUnit ∧ q.toRotationMatrix = T.linear ∧
            HasFDerivAt (fun c => moved x c - y) (mat J) (coords q T.translation))) := by
  constructor
  · intro h
    simp [alignmentMake, alignmentResiduals, if_neg h, bind, Except.bind]
  · intro h
    refine ⟨alignmentBlocks (source.zip target) T, ?_, ?_, ?_⟩
    · rw [alignmentMake_eq source target h]
      rfl
    · simp [alignmentBlocks, h]
    · intro i x y hx hy
      refine ⟨alignmentJacobian (Quat.ofMatrix T.linear) x, ?_, fun hR => ?_⟩
      · have : (source.zip target)[i]? = some (x, y) := by
          rw [List.getElem?_zip_eq_some]
          exact ⟨hx, hy⟩
        simp only [alignmentBlocks, List.getElem?_map, this, Option.map_some]
        rfl
      · obtain ⟨h1, h2⟩ := C71_matrix_to_quaternion _ hR
        exact ⟨_, h1, h2, (C72_alignment _ h1 T.translation x y).2⟩

/-- Two pairs of points. -/
example : ∃ bs : List Block,
    alignmentMake [![1, 0, 0], ![0, 1, 0]] [![1, 0, 1], ![0, 1, 1]] ⟨1, ![0, 0, 2]⟩ =
      .ok (bs.map Block.jac, bs.map Block.res) ∧ bs.length = 2 := by
  obtain ⟨bs, h1, h2, -⟩ := (C88_blocks [![1, 0, 0], ![0, 1, 0]] [![1, 0, 1], ![0, 1, 1]]
    ⟨1, ![0, 0, 2]⟩).2 rfl
  exact ⟨bs, h1, h2⟩

/-! ### Steps of the alignment problem -/

/-- The opposite quaternion, which describes the same rotation. -/
def opp (q : Quat) : Quat := ⟨-q.w, -q.x, -q.y, -q.z⟩

theorem dRpDq_apply (q : Quat) (p : V3) (a : Fin 4 → ℝ) :
    dRpDq q p *ᵥ a =
      ![2 * (a 0 * (q.w * p 0 + (q.y * p 2 - q.z * p 1)) + a 1 * (q.x * p 0 + q.y * p 1 + q.z * p 2) +
          a 2 * (q.x * p 1 - p 0 * q.y + q.w * p 2) + a 3 * (q.x * p 2 - p 0 * q.z - q.w * p 1)),
        2 * (a 0 * (q.w * p 1 + (q.z * p 0 - q.x * p 2)) + a 1 * (q.y * p 0 - p 1 * q.x - q.w * p 2) +
          a 2 * (q.x * p 0 + q.y * p 1 + q.z * p 2) + a 3 * (q.y * p 2 - p 1 * q.z + q.w * p 0)),
        2 * (a 0 * (q.w * p 2 + (q.x * p 1 - q.y * p 0)) + a 1 * (q.z * p 0 - p 2 * q.x + q.w * p 1) +
          a 2 * (q.z * p 1 - p 2 * q.y - q.w * p 0) + a 3 * (q.x * p 0 + q.y * p 1 + q.z * p 2))] := by
  have e1 : (1 : Matrix (Fin 3) (Fin 3) ℝ) 1 (Fin.succ 0) = 1 := by rfl
  have e2 : (1 : Matrix (Fin 3) (Fin 3) ℝ) 2 (Fin.succ 0).succ = 1 := by rfl
  funext i
  fin_cases i
  all_goals
    simp [dRpDq, mulVec, dotProduct, Fin.sum_univ_succ, Quat.vec, Rot.cross, hat, vecMulVec, e1, e2]
    ring

theorem dRpDq_mul (q : Quat) (hq : q.IsUnit) (p θ : V3) :
    dRpDq q p *ᵥ toWXYZ (q.mul ⟨0, θ 0 / 2, θ 1 / 2, θ 2 / 2⟩) = q.toRotationMatrix *ᵥ (θ ⨯₃ p) := by
  unfold Quat.IsUnit at hq
  rw [dRpDq_apply, cross_apply]
  funext i
  fin_cases i
  all_goals
    simp [Quat.toRotationMatrix, toWXYZ, Quat.mul, mulVec, dotProduct, Fin.sum_univ_succ]
  · linear_combination (θ 1 * p 2 - θ 2 * p 1) * hq
  · linear_combination (θ 2 * p 0 - θ 0 * p 2) * hq
  · linear_combination (θ 0 * p 1 - θ 1 * p 0) * hq

/-- Rotation and translation part of a step. -/
def turn (dx : Fin 6 → ℝ) : V3 := ![dx 0, dx 1, dx 2]
def shift (dx : Fin 6 → ℝ) : V3 := ![dx 3, dx 4, dx 5]

theorem jacobian_step (q : Quat) (hq : q.IsUnit) (p : V3) (dx : Fin 6 → ℝ) :
    alignmentJacobian q p *ᵥ (makeM q *ᵥ dx) = q.toRotationMatrix *ᵥ (turn dx ⨯₃ p) + shift dx := by
  rw [← dRpDq_mul q hq p (turn dx)]
  have h := makeM_mulVec q dx
  unfold alignmentJacobian
  rw [hcat_mulVec, one_mulVec]
  congr 1
  · congr 1
    funext i
    have := congrFun h (Fin.castAdd 3 i)
    simpa [coords, turn] using this
  · funext i
    have := congrFun h (Fin.natAdd 4 i)
    rw [this]
    fin_cases i <;> simp [coords, shift] <;> rfl

theorem opp_jacobian_step (q : Quat) (hq : q.IsUnit) (p : V3) (dx : Fin 6 → ℝ) :
    alignmentJacobian (opp q) p *ᵥ (makeM q *ᵥ dx) =
      -(q.toRotationMatrix *ᵥ (turn dx ⨯₃ p)) + shift dx := by
  have h := jacobian_step q hq p dx
  unfold alignmentJacobian at h ⊢
  rw [hcat_mulVec] at h ⊢
  rw [one_mulVec] at h ⊢
  have e : dRpDq (opp q) p *ᵥ (fun i => (makeM q *ᵥ dx) (Fin.castAdd 3 i)) =
      -(dRpDq q p *ᵥ fun i => (makeM q *ᵥ dx) (Fin.castAdd 3 i)) := by
    rw [dRpDq_apply, dRpDq_apply]
    funext i
    fin_cases i <;> simp [opp] <;> ring
  have hs : (fun i => (makeM q *ᵥ dx) (Fin.natAdd 4 i)) = shift dx := by
    have h' := makeM_mulVec q dx
    funext i
    have := congrFun h' (Fin.natAdd 4 i)
    rw [this]
    fin_cases i <;> simp [coords, shift] <;> rfl
  rw [e, hs]
  rw [hs] at h
  rw [add_right_cancel h]

end Verif.Align
