/-
C89 the direction of the optimiser's steps.
-/
import Verif.Props.C88

set_option autoImplicit false

namespace Verif.Align

open Matrix Verif.Rot Verif.Opt Verif.Loc

/-! ### A rotation has two quaternions -/

theorem opp_isUnit {q : Quat} (hq : q.IsUnit) : (opp q).IsUnit := by
  unfold Quat.IsUnit opp at *
  simpa using hq

theorem opp_opp (q : Quat) : opp (opp q) = q := by simp [opp]

theorem opp_toRotationMatrix (q : Quat) : (opp q).toRotationMatrix = q.toRotationMatrix := by
  ext i j
  fin_cases i <;> fin_cases j <;> simp [Quat.toRotationMatrix, opp]

theorem eq_or_opp {p q : Quat} (hp : p.IsUnit) (hq : q.IsUnit)
    (h : p.toRotationMatrix = q.toRotationMatrix) : p = q ∨ p = opp q := by
  unfold Quat.IsUnit at hp hq
  have e : ∀ i j, p.toRotationMatrix i j = q.toRotationMatrix i j := fun i j => by rw [h]
  have e00 := e 0 0
  have e01 := e 0 1
  have e02 := e 0 2
  have e10 := e 1 0
  have e11 := e 1 1
  have e12 := e 1 2
  have e20 := e 2 0
  have e21 := e 2 1
  have e22 := e 2 2
  simp [Quat.toRotationMatrix] at e00 e01 e02 e10 e11 e12 e20 e21 e22
  have hxx : p.x * p.x = q.x * q.x := by linear_combination (e11 + e22 - e00) / 4
  have hyy : p.y * p.y = q.y * q.y := by linear_combination (e00 + e22 - e11) / 4
  have hzz : p.z * p.z = q.z * q.z := by linear_combination (e00 + e11 - e22) / 4
  have hww : p.w * p.w = q.w * q.w := by linear_combination hp - hq - hxx - hyy - hzz
  have hxy : p.x * p.y = q.x * q.y := by linear_combination (e01 + e10) / 4
  have hxz : p.x * p.z = q.x * q.z := by linear_combination (e02 + e20) / 4
  have hyz : p.y * p.z = q.y * q.z := by linear_combination (e12 + e21) / 4
  have hwx : p.w * p.x = q.w * q.x := by linear_combination (e21 - e12) / 4
  have hwy : p.w * p.y = q.w * q.y := by linear_combination (e02 - e20) / 4
  have hwz : p.w * p.z = q.w * q.z := by linear_combination (e10 - e01) / 4
  obtain ⟨d, hd⟩ : ∃ d, d = p.w * q.w + p.x * q.x + p.y * q.y + p.z * q.z := ⟨_, rfl⟩
  have hd2 : d ^ 2 = 1 := by
    rw [hd]
    linear_combination q.w ^ 2 * hww + q.x ^ 2 * hxx + q.y ^ 2 * hyy + q.z ^ 2 * hzz +
      2 * (q.w * q.x * hwx + q.w * q.y * hwy + q.w * q.z * hwz + q.x * q.y * hxy + q.x * q.z * hxz +
      q.y * q.z * hyz) + (q.w ^ 2 + q.x ^ 2 + q.y ^ 2 + q.z ^ 2 + 1) * hq
  have hsum : (p.w - d * q.w) ^ 2 + (p.x - d * q.x) ^ 2 + (p.y - d * q.y) ^ 2 + (p.z - d * q.z) ^ 2 = 0 := by
    linear_combination hp + d ^ 2 * hq + 2 * d * hd - hd2
  have n1 := sq_nonneg (p.w - d * q.w)
  have n2 := sq_nonneg (p.x - d * q.x)
  have n3 := sq_nonneg (p.y - d * q.y)
  have n4 := sq_nonneg (p.z - d * q.z)
  have hw : p.w = d * q.w := sub_eq_zero.1 (pow_eq_zero_iff two_ne_zero |>.1 (by linarith))
  have hx : p.x = d * q.x := sub_eq_zero.1 (pow_eq_zero_iff two_ne_zero |>.1 (by linarith))
  have hy : p.y = d * q.y := sub_eq_zero.1 (pow_eq_zero_iff two_ne_zero |>.1 (by linarith))
  have hz : p.z = d * q.z := sub_eq_zero.1 (pow_eq_zero_iff two_ne_zero |>.1 (by linarith))
  rcases (sq_eq_sq_iff_eq_or_eq_neg.1 (hd2.trans (one_pow 2).symm)) with h1 | h1
  · left
    rw [h1, one_mul] at hw hx hy hz
    exact Quat.ext hw hx hy hz
  · right
    rw [h1, neg_one_mul] at hw hx hy hz
    exact Quat.ext hw hx hy hz

theorem ofMatrix_eq_or_opp {q : Quat} (hq : q.IsUnit) :
    Quat.ofMatrix q.toRotationMatrix = q ∨ Quat.ofMatrix q.toRotationMatrix = opp q := by
  obtain ⟨h1, h2⟩ := C71_matrix_to_quaternion _ (toRotationMatrix_rotation q hq)
  exact eq_or_opp h1 hq h2

theorem ofMatrix_idem {R : Matrix (Fin 3) (Fin 3) ℝ} (hR : IsRotation R) :
    Quat.ofMatrix (Quat.ofMatrix R).toRotationMatrix = Quat.ofMatrix R := by
  rw [(C71_matrix_to_quaternion _ hR).2]

/-! ### Descent -/

/-- The curve of poses that a step describes, in coordinates: after `s = 1` it ends in the pose of the
next iterate (C74). -/
noncomputable def path (q : Quat) (t : V3) (dx : Fin 6 → ℝ) (s : ℝ) : Fin (4 + 3) → ℝ :=
  coords (q.mul (Quat.ofAngleAxis (s * len (turn dx)) ((len (turn dx))⁻¹ • turn dx))) (t + s • shift dx)

/-- The blocks `bs` are residuals `f` and their derivatives, at the pose with coordinates `q` and `t`. -/
def Linearises (f : (b : Block) → (Fin 7 → ℝ) → Fin b.n → ℝ) (q : Quat) (t : V3) (bs : List Block) :
    Prop :=
  ∀ b ∈ bs, HasFDerivAt (f b) (mat b.J) (coords q t) ∧ f b (coords q t) = b.r

theorem len_smul_turn (dx : Fin 6 → ℝ) : len (turn dx) • ((len (turn dx))⁻¹ • turn dx) = turn dx := by
  by_cases h : len (turn dx) = 0
  · rw [h, zero_smul]
    unfold len at h
    rw [Real.sqrt_eq_zero (by rw [← sqLen_eq]; exact sqLen_nonneg _)] at h
    exact (dotProduct_self_eq_zero.1 h).symm
  · rw [smul_smul, mul_inv_cancel₀ h, one_smul]

theorem append_turn_shift (dx : Fin 6 → ℝ) : (Fin.append (turn dx) (shift dx) : Fin (3 + 3) → ℝ) = dx := by
  funext i
  fin_cases i <;> rfl

theorem path_zero (q : Quat) (t : V3) (dx : Fin 6 → ℝ) : path q t dx 0 = coords q t := by
  unfold path
  have : q.mul (Quat.ofAngleAxis (0 * len (turn dx)) ((len (turn dx))⁻¹ • turn dx)) = q := by
    simp [Quat.ofAngleAxis, Quat.mul]
  rw [this, zero_smul, add_zero]

theorem path_deriv {n : ℕ} (f : (Fin 7 → ℝ) → Fin n → ℝ) (J : Matrix (Fin n) (Fin 7) ℝ) (q : Quat)
    (t : V3) (dx : Fin 6 → ℝ) (hJ : HasFDerivAt f (mat J) (coords q t)) :
    HasDerivAt (fun s => f (path q t dx s)) (J *ᵥ (makeM q *ᵥ dx)) 0 := by
  have h := C74_chain f J q t ((len (turn dx))⁻¹ • turn dx) (shift dx) (len (turn dx)) hJ
  rw [len_smul_turn, append_turn_shift, ← mulVec_mulVec] at h
  exact h

theorem sqLen_deriv {n : ℕ} {g : ℝ → Fin n → ℝ} {v : Fin n → ℝ} {s : ℝ} (h : HasDerivAt g v s) :
    HasDerivAt (fun s => sqLen (g s)) (2 * (v ⬝ᵥ g s)) s := by
  have h' := hasDerivAt_pi.1 h
  have := HasDerivAt.fun_sum (u := Finset.univ) fun i _ => (h' i).fun_pow 2
  have e : 2 * (v ⬝ᵥ g s) = ∑ i, (2 : ℕ) * g s i ^ (2 - 1) * v i := by
    simp only [dotProduct, Finset.mul_sum]
    refine Finset.sum_congr rfl fun i _ => ?_
    simp
    ring
  rw [e]
  exact this

theorem weighted_deriv (f : (b : Block) → (Fin 7 → ℝ) → Fin b.n → ℝ) (q : Quat) (t : V3)
    (wb : List (ℝ × Block)) (h : Linearises f q t (wb.map Prod.snd)) (dx : Fin 6 → ℝ) :
    HasDerivAt (fun s => (wb.map fun p => p.1 * sqLen (f p.2 (path q t dx s))).sum)
      (2 * ((makeM q *ᵥ dx) ⬝ᵥ gradient wb)) 0 := by
  rw [dot_gradient]
  induction wb with
  | nil => simpa using hasDerivAt_const (0 : ℝ) (0 : ℝ)
  | cons p ps ih =>
    obtain ⟨h1, h2⟩ := h p.2 (by simp)
    have hd := (sqLen_deriv (path_deriv (f p.2) p.2.J q t dx h1)).const_mul p.1
    rw [path_zero, h2] at hd
    have hps := ih fun b hb => h b (by simp only [List.map_cons]; exact List.mem_cons_of_mem _ hb)
    simp only [List.map_cons, List.sum_cons]
    have e : 2 * (p.1 * ((p.2.J *ᵥ (makeM q *ᵥ dx)) ⬝ᵥ p.2.r) +
        (ps.map fun p => p.1 * ((p.2.J *ᵥ (makeM q *ᵥ dx)) ⬝ᵥ p.2.r)).sum) =
        p.1 * (2 * ((p.2.J *ᵥ (makeM q *ᵥ dx)) ⬝ᵥ p.2.r)) +
        2 * (ps.map fun p => p.1 * ((p.2.J *ᵥ (makeM q *ᵥ dx)) ⬝ᵥ p.2.r)).sum := by ring
    rw [e]
    exact hd.add hps

theorem cost_smul (q : Quat) (wb : List (ℝ × Block)) (dx : Fin 6 → ℝ) (τ : ℝ) :
    cost (makeM q) wb (τ • dx) = τ ^ 2 * ((makeM q *ᵥ dx) ⬝ᵥ (normalMatrix wb *ᵥ (makeM q *ᵥ dx))) +
      τ * (2 * ((makeM q *ᵥ dx) ⬝ᵥ gradient wb)) + (wb.map fun p => p.1 * sqLen p.2.r).sum := by
  rw [cost_eq]
  simp only [mulVec_smul, smul_dotProduct, dotProduct_smul, smul_eq_mul]
  ring

theorem step_slope {q : Quat} {bs : List Block} {ws : List ℝ} {dx : Fin 6 → ℝ} (h : IsStep q bs ws dx) :
    2 * ((makeM q *ᵥ dx) ⬝ᵥ gradient (ws.zip bs)) ≤ 0 ∧
      (dx ≠ 0 → 2 * ((makeM q *ᵥ dx) ⬝ᵥ gradient (ws.zip bs)) < 0) := by
  by_cases h0 : dx = 0
  · subst h0
    simp
  have hd : ¬ Degenerate bs := fun hd => h0 (h.1 hd)
  have hmin : ∀ τ : ℝ, τ ≠ 1 → cost (makeM q) (ws.zip bs) ((1 : ℝ) • dx) < cost (makeM q) (ws.zip bs) (τ • dx) := by
    intro τ hτ
    rw [one_smul]
    refine h.2 hd _ fun e => hτ ?_
    have : (τ - 1) • dx = 0 := by rw [sub_smul, e, one_smul, sub_self]
    rcases smul_eq_zero.1 this with h1 | h1
    · linarith
    · exact absurd h1 h0
  simp only [cost_smul] at hmin
  generalize (makeM q *ᵥ dx) ⬝ᵥ (normalMatrix (ws.zip bs) *ᵥ (makeM q *ᵥ dx)) = A at hmin
  generalize 2 * ((makeM q *ᵥ dx) ⬝ᵥ gradient (ws.zip bs)) = D at hmin ⊢
  have e0 := hmin 0 (by norm_num)
  have e2 := hmin 2 (by norm_num)
  have hD : D < 0 := by linarith
  exact ⟨hD.le, fun _ => hD⟩

/-- The step with the rotation reversed. -/
def reversed (dx : Fin 6 → ℝ) : Fin 6 → ℝ := ![-dx 0, -dx 1, -dx 2, dx 3, dx 4, dx 5]

theorem reversed_reversed (dx : Fin 6 → ℝ) : reversed (reversed dx) = dx := by
  funext i
  fin_cases i <;> simp [reversed]

theorem makeM_opp (q : Quat) (dx : Fin 6 → ℝ) : makeM (opp q) *ᵥ dx = makeM q *ᵥ reversed dx := by
  have h1 := makeM_mulVec q (reversed dx)
  have h2 := makeM_mulVec (opp q) dx
  rw [h1, h2]
  congr 1
  · apply Quat.ext <;> simp [Quat.mul, opp, reversed] <;> ring
  · funext i
    fin_cases i <;> rfl

theorem cost_opp (q : Quat) (wb : List (ℝ × Block)) (dx : Fin 6 → ℝ) :
    cost (makeM (opp q)) wb dx = cost (makeM q) wb (reversed dx) := by
  unfold cost
  rw [makeM_opp]

theorem reversed_zero : reversed 0 = 0 := by
  funext i
  fin_cases i <;> simp [reversed]

theorem isStep_opp {q : Quat} {bs : List Block} {ws : List ℝ} {dx : Fin 6 → ℝ} (h : IsStep q bs ws dx) :
    IsStep (opp q) bs ws (reversed dx) := by
  refine ⟨fun hd => by rw [h.1 hd, reversed_zero], fun hd dy hdy => ?_⟩
  rw [cost_opp, cost_opp, reversed_reversed]
  refine h.2 hd _ fun e => hdy ?_
  rw [← e, reversed_reversed]

theorem zip_weightsOf_snd (bs : List Block) (s : ℝ) : ((weightsOf bs s).zip bs).map Prod.snd = bs :=
  List.map_snd_zip (by simp [weightsOf, errorsOf])

/-- C89, the part that holds: if the quaternion of the iterate is the one at which the problem takes its
derivatives, the step goes downhill: along the curve of poses that the step describes, the weighted sum
of squared residuals decreases at the beginning, unless the step is zero. Missing: iterates whose
quaternion is the opposite of it (see `C89_reversed` and `C89_uphill_violated`). -/
theorem C89_downhill_partial (f : (b : Block) → (Fin 7 → ℝ) → Fin b.n → ℝ) (q : Quat) (t : V3)
    (bs : List Block) (s : ℝ) (dx : Fin 6 → ℝ)
    (hf : Linearises f (Quat.ofMatrix (makePose q t).linear) t bs)
    (hq : Quat.ofMatrix (makePose q t).linear = q)
    (h : IsStep q bs (weightsOf bs s) dx) :
    ∃ d, HasDerivAt (fun τ => (((weightsOf bs s).zip bs).map fun p =>
        p.1 * sqLen (f p.2 (path q t dx τ))).sum) d 0 ∧ d ≤ 0 ∧ (dx ≠ 0 → d < 0) := by
  rw [hq] at hf
  refine ⟨_, weighted_deriv f q t _ ?_ dx, step_slope h⟩
  rw [zip_weightsOf_snd]
  exact hf

/-- C89: the first iterate of a run has the quaternion at which the problem takes its derivatives. -/
theorem C89_first (initial : Pose) (hR : IsRotation initial.linear) :
    Quat.ofMatrix (start initial).pose.linear = (start initial).1 := ofMatrix_idem hR

/-- C89: later iterates have this quaternion or its opposite, and nothing else. -/
theorem C89_two_signs (q : Quat) (hq : q.IsUnit) (t : V3) :
    Quat.ofMatrix (makePose q t).linear = q ∨ Quat.ofMatrix (makePose q t).linear = opp q :=
  ofMatrix_eq_or_opp hq

/-- C89: if it is the opposite, the step that goes downhill is the step of the code with its rotation
reversed. -/
theorem C89_reversed (f : (b : Block) → (Fin 7 → ℝ) → Fin b.n → ℝ) (q : Quat) (t : V3)
    (bs : List Block) (s : ℝ) (dx : Fin 6 → ℝ)
    (hf : Linearises f (Quat.ofMatrix (makePose q t).linear) t bs)
    (hq : Quat.ofMatrix (makePose q t).linear = opp q)
    (h : IsStep q bs (weightsOf bs s) dx) :
    IsStep (opp q) bs (weightsOf bs s) (reversed dx) ∧
    ∃ d, HasDerivAt (fun τ => (((weightsOf bs s).zip bs).map fun p =>
        p.1 * sqLen (f p.2 (path (opp q) t (reversed dx) τ))).sum) d 0 ∧ d ≤ 0 ∧ (dx ≠ 0 → d < 0) := by
  have hstep := isStep_opp h
  rw [hq] at hf
  refine ⟨hstep, _, weighted_deriv f (opp q) t _ ?_ (reversed dx), (step_slope hstep).1, fun h0 => ?_⟩
  · rw [zip_weightsOf_snd]
    exact hf
  · refine (step_slope hstep).2 fun e => h0 ?_
    rw [← reversed_reversed dx, e, reversed_zero]

/-- C89: the blocks of the alignment problem are the residuals and their derivatives, at that
quaternion. -/
theorem C89_alignment (pairs : List (V3 × V3)) (T : Pose) (hT : IsRotation T.linear) :
    ∃ f, Linearises f (Quat.ofMatrix T.linear) T.translation (alignmentBlocks pairs T) := by
  have h : ∀ b : Block, ∃ g : (Fin 7 → ℝ) → Fin b.n → ℝ, b ∈ alignmentBlocks pairs T →
      HasFDerivAt g (mat b.J) (coords (Quat.ofMatrix T.linear) T.translation) ∧
        g (coords (Quat.ofMatrix T.linear) T.translation) = b.r := by
    intro b
    by_cases hb : b ∈ alignmentBlocks pairs T
    · unfold alignmentBlocks at hb
      obtain ⟨p, hp, rfl⟩ := List.mem_map.1 hb
      obtain ⟨h1, h2⟩ := C71_matrix_to_quaternion _ hT
      obtain ⟨h3, h4⟩ := C72_alignment _ h1 T.translation p.1 p.2
      refine ⟨fun c => moved p.1 c - p.2, fun _ => ⟨h4, ?_⟩⟩
      refine h3.symm.trans ?_
      unfold makePose
      rw [h2]
    · exact ⟨fun _ => b.r, fun h => absurd h hb⟩
  choose f hf using h
  exact ⟨f, fun b hb => hf b hb⟩

theorem exists_of_mem_right {α β : Type*} {R : α → β → Prop} {l : List α} {m : List β}
    (h : List.Forall₂ R l m) {b : β} (hb : b ∈ m) : ∃ a, R a b := by
  induction h with
  | nil => cases hb
  | cons h1 _ ih =>
    rcases List.mem_cons.1 hb with rfl | hb
    · exact ⟨_, h1⟩
    · exact ih hb

/-- C89: so are the blocks of the scan matching problem. -/
theorem C89_scan_matching {L : Loam.Libs} {edgeMap surfaceMap : List V3} {k : ℤ} {edgeScan surfaceScan : List V3}
    {T : Pose} {bs : List Block} (h : Loam.Matches L edgeMap surfaceMap k edgeScan surfaceScan T bs) :
    ∃ f, Linearises f (Quat.ofMatrix T.linear) T.translation bs := by
  obtain ⟨es, ss, rfl, he, hs⟩ := h
  have h : ∀ b : Block, ∃ g : (Fin 7 → ℝ) → Fin b.n → ℝ, b ∈ es ++ ss →
      HasFDerivAt g (mat b.J) (coords (Quat.ofMatrix T.linear) T.translation) ∧
        g (coords (Quat.ofMatrix T.linear) T.translation) = b.r := by
    intro b
    by_cases hb : b ∈ es ++ ss
    · rcases List.mem_append.1 hb with hb | hb
      · obtain ⟨p, X, -, -, a, d, r, J, rfl, -, -, -, q, rfl, -, -, h1, h2⟩ :=
          exists_of_mem_right he hb
        exact ⟨_, fun _ => ⟨h2, h1.symm⟩⟩
      · obtain ⟨p, X, -, w, d, J, rfl, -, -, -, -, q, rfl, -, -, h1, h2⟩ :=
          exists_of_mem_right hs hb
        exact ⟨_, fun _ => ⟨h2, by funext _; exact h1.symm⟩⟩
    · exact ⟨fun _ => b.r, fun h => absurd h hb⟩
  choose f hf using h
  exact ⟨f, fun b hb => hf b hb⟩

end Verif.Align
