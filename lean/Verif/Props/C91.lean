/-
C91 independence of the frame.
-/
import Verif.Props.C90

set_option autoImplicit false

namespace Verif.Align

open Matrix Verif.Rot Verif.Opt Verif.Loc

/-! ### C91 -/

/-- The result with the pose moved by `s`. -/
def Opt.Result.moved (s : V3) (r : Result) : Result :=
  { r with pose := ⟨r.pose.linear, r.pose.translation + s⟩ }

theorem runLoop_moved (nth : Nth) (llt : Llt) (make make' : Problem) (s : V3)
    (h : ∀ q t, make' (makePose q (t + s)) = make (makePose q t)) (n : ℕ) :
    ∀ (iter : ℤ) (q : Quat) (t : V3) (ps pe : ℝ),
      runLoop nth llt make' n iter q (t + s) ps pe =
        (runLoop nth llt make n iter q t ps pe).map (Opt.Result.moved s) := by
  induction n with
  | zero =>
    intro iter q t ps pe
    rfl
  | succ n ih =>
    intro iter q t ps pe
    rw [runLoop, runLoop, h]
    cases make (makePose q t) with
    | error e => rfl
    | ok jr =>
      obtain ⟨js, rs⟩ := jr
      simp only [bind, Except.bind]
      split
      · rfl
      cases normalizeErrorScale nth (computeErrors rs) with
      | error e => rfl
      | ok ns =>
        obtain ⟨ns, sc⟩ := ns
        simp only
        split
        · rfl
        split
        · rfl
        cases calcUpdate llt q (computeWeights ns) js rs with
        | error e => rfl
        | ok u =>
          obtain ⟨dq, dt⟩ := u
          simp only
          split
          · show Except.ok _ = Except.ok _
            simp only [Opt.Result.moved, makePose]
            rw [add_right_comm]
          · rw [add_right_comm, ih]

/-- C91: moving the target points and the initial pose by the same vector moves the result by that
vector, and changes nothing else: not the message, the number of iterations or the errors, nor whether
an assertion fails. -/
theorem C91_translation (nth : Nth) (llt : Llt) (source target : List V3) (s : V3) (maxIter : ℤ)
    (initial : Pose) :
    run nth llt (alignmentMake source (target.map fun y => y + s)) maxIter
        ⟨initial.linear, initial.translation + s⟩ =
      (run nth llt (alignmentMake source target) maxIter initial).map fun r =>
        { r with pose := ⟨r.pose.linear, r.pose.translation + s⟩ } := by
  have h : ∀ q t, alignmentMake source (target.map fun y => y + s) (makePose q (t + s)) =
      alignmentMake source target (makePose q t) := by
    intro q t
    have hres : alignmentResiduals (makePose q (t + s)) source (target.map fun y => y + s) =
        alignmentResiduals (makePose q t) source target := by
      unfold alignmentResiduals
      rw [List.length_map]
      split
      · congr 1
        rw [List.zipWith_map_right]
        congr 1
        funext x y
        congr 1
        simp only [alignmentResidual, makePose, Pose.apply]
        abel
      · rfl
    simp only [alignmentMake, hres]
    rfl
  unfold run
  simp only
  split
  · rfl
  · exact runLoop_moved nth llt _ _ s h _ _ _ _ _ _

theorem isScale_unique {l : List ℝ} {s s' : ℝ} (h : IsScale l s) (h' : IsScale l s') : s = s' := by
  obtain ⟨m, d, hm, hd, rfl⟩ := h
  obtain ⟨m', d', hm', hd', rfl⟩ := h'
  have := hm.unique hm'
  subst this
  rw [hd.unique hd']

theorem residual_turned (G : Matrix (Fin 3) (Fin 3) ℝ) (T : Pose) (x y : V3) :
    alignmentResidual ⟨G * T.linear, G *ᵥ T.translation⟩ x (G *ᵥ y) = G *ᵥ alignmentResidual T x y := by
  simp only [alignmentResidual, Pose.apply, mulVec_sub, mulVec_add, mulVec_mulVec]

/-- Both parts of a step. -/
def joined (θ δ : V3) : Fin 6 → ℝ := ![θ 0, θ 1, θ 2, δ 0, δ 1, δ 2]

theorem turn_joined (θ δ : V3) : turn (joined θ δ) = θ := by
  funext i
  fin_cases i <;> rfl

theorem shift_joined (θ δ : V3) : shift (joined θ δ) = δ := by
  funext i
  fin_cases i <;> rfl

theorem joined_turn_shift (dx : Fin 6 → ℝ) : joined (turn dx) (shift dx) = dx := by
  funext i
  fin_cases i <;> rfl

theorem errors_turned {G : Matrix (Fin 3) (Fin 3) ℝ} (hG : IsRotation G) (pairs : List (V3 × V3)) (T : Pose) :
    errorsOf (alignmentBlocks (pairs.map fun p => (p.1, G *ᵥ p.2)) ⟨G * T.linear, G *ᵥ T.translation⟩) =
      errorsOf (alignmentBlocks pairs T) := by
  simp only [errorsOf, alignmentBlocks, List.map_map]
  refine List.map_congr_left fun p _ => ?_
  show sqLen (alignmentResidual _ _ _) = sqLen (alignmentResidual _ _ _)
  rw [residual_turned, rot_sqLen hG]

theorem rot_mul {G R : Matrix (Fin 3) (Fin 3) ℝ} (hG : IsRotation G) (hR : IsRotation R) :
    IsRotation (G * R) := by
  constructor
  · rw [transpose_mul, Matrix.mul_assoc, ← Matrix.mul_assoc Gᵀ, hG.1, Matrix.one_mul, hR.1]
  · rw [det_mul, hG.2, hR.2, one_mul]

theorem cost_turned {G : Matrix (Fin 3) (Fin 3) ℝ} (hG : IsRotation G) (pairs : List (V3 × V3)) (T : Pose)
    (hT : IsRotation T.linear) (ws : List ℝ) (θ δ : V3) :
    cost (makeM (Quat.ofMatrix (G * T.linear))) (ws.zip
      (alignmentBlocks (pairs.map fun p => (p.1, G *ᵥ p.2)) ⟨G * T.linear, G *ᵥ T.translation⟩))
      (joined θ (G *ᵥ δ)) =
    cost (makeM (Quat.ofMatrix T.linear)) (ws.zip (alignmentBlocks pairs T)) (joined θ δ) := by
  obtain ⟨u1, r1⟩ := C71_matrix_to_quaternion _ hT
  obtain ⟨u2, r2⟩ := C71_matrix_to_quaternion _ (rot_mul hG hT)
  unfold cost alignmentBlocks
  rw [List.map_map, List.zip_map_right, List.zip_map_right, List.map_map, List.map_map]
  congr 1
  refine List.map_congr_left fun p _ => ?_
  obtain ⟨w, x, y⟩ := p
  simp only [Function.comp, Prod.map, id]
  rw [jacobian_step _ u1, jacobian_step _ u2, r1, r2, residual_turned, turn_joined, turn_joined, shift_joined,
    shift_joined, ← mulVec_mulVec, ← mulVec_add, ← mulVec_add, rot_sqLen hG]

/-- C91, the part that holds for rotations: turning the target points and the initial pose turns the
result of the first step, and changes nothing else. Missing: later steps (see the theorem after
this). -/
theorem C91_first_step_partial {nth : Nth} (hn : Lib.IsNthElement nth) {llt : Llt} (hllt : LltSpec llt)
    {G : Matrix (Fin 3) (Fin 3) ℝ} (hG : IsRotation G) (source target : List V3)
    (initial : Pose) (hR : IsRotation initial.linear) :
    run nth llt (alignmentMake source (target.map fun y => G *ᵥ y)) 1
        ⟨G * initial.linear, G *ᵥ initial.translation⟩ =
      (run nth llt (alignmentMake source target) 1 initial).map fun r =>
        { r with pose := ⟨G * r.pose.linear, G *ᵥ r.pose.translation⟩ } := by
  obtain ⟨u1, r1⟩ := C71_matrix_to_quaternion _ hR
  obtain ⟨u2, r2⟩ := C71_matrix_to_quaternion _ (rot_mul hG hR)
  have hp1 : makePose (Quat.ofMatrix initial.linear) initial.translation = initial := by
    unfold makePose
    rw [r1]
  have hp2 : makePose (Quat.ofMatrix (G * initial.linear)) (G *ᵥ initial.translation) =
      ⟨G * initial.linear, G *ᵥ initial.translation⟩ := by
    unfold makePose
    rw [r2]
  by_cases hlen : source.length = target.length
  swap
  · unfold run
    simp only [show ¬ (1 : ℤ) < 0 by norm_num, if_false, Int.toNat_one]
    rw [runLoop, runLoop]
    simp [alignmentMake, alignmentResiduals, hlen, bind, Except.bind, Except.map]
  have hzip : source.zip (target.map fun y => G *ᵥ y) =
      (source.zip target).map fun p => (p.1, G *ᵥ p.2) := by
    rw [List.zip_map_right]
    rfl
  rw [alignmentMake_eq _ _ (by simpa using hlen), alignmentMake_eq _ _ hlen, hzip]
  generalize source.zip target = pairs
  unfold run
  simp only [show ¬ (1 : ℤ) < 0 by norm_num, if_false, Int.toNat_one]
  show runLoop _ _ _ (0 + 1) _ _ _ _ _ = (runLoop _ _ _ (0 + 1) _ _ _ _ _).map _
  by_cases hne : pairs = []
  · subst hne
    rw [runLoop, runLoop]
    simp [problem, alignmentBlocks, bind, Except.bind, Except.map, pure, Except.pure, hp1, hp2]
  have hb1 : alignmentBlocks pairs (makePose (Quat.ofMatrix initial.linear) initial.translation) ≠ [] := by
    simpa [alignmentBlocks] using hne
  have hb2 : alignmentBlocks (pairs.map fun p => (p.1, G *ᵥ p.2))
      (makePose (Quat.ofMatrix (G * initial.linear)) (G *ᵥ initial.translation)) ≠ [] := by
    simpa [alignmentBlocks] using hne
  obtain ⟨s, dx, a1, a2, a3⟩ := runLoop_pass hn hllt (alignmentBlocks pairs) 0 0 _ u1 initial.translation
    dblMax dblMax hb1
  obtain ⟨s', dx', b1, b2, b3⟩ := runLoop_pass hn hllt
    (alignmentBlocks (pairs.map fun p => (p.1, G *ᵥ p.2))) 0 0 _ u2 (G *ᵥ initial.translation)
    dblMax dblMax hb2
  rw [hp1] at a1 a2 a3
  rw [hp2] at b1 b2 b3
  rw [errors_turned hG] at b1 b3
  have hs := isScale_unique b1 a1
  subst hs
  have hw : weightsOf (alignmentBlocks (pairs.map fun p => (p.1, G *ᵥ p.2))
      ⟨G * initial.linear, G *ᵥ initial.translation⟩) s' = weightsOf (alignmentBlocks pairs initial) s' := by
    unfold weightsOf
    rw [errors_turned hG]
  rw [hw] at b2
  have hdeg : Degenerate (alignmentBlocks (pairs.map fun p => (p.1, G *ᵥ p.2))
      ⟨G * initial.linear, G *ᵥ initial.translation⟩) ↔ Degenerate (alignmentBlocks pairs initial) := by
    rw [alignment_degenerate _ _ hR, alignment_degenerate _ ⟨_, _⟩ (rot_mul hG hR), List.map_map]
    rfl
  have hdx : dx' = joined (turn dx) (G *ᵥ shift dx) := by
    by_cases hd : Degenerate (alignmentBlocks pairs initial)
    · rw [b2.1 (hdeg.2 hd), a2.1 hd]
      have e1 : turn 0 = 0 := by funext i; fin_cases i <;> rfl
      have e2 : shift 0 = 0 := by funext i; fin_cases i <;> rfl
      rw [e1, e2, mulVec_zero]
      funext i
      fin_cases i <;> rfl
    · refine isStep_unique b2 (fun h => hd (hdeg.1 h)) fun dz => ?_
      have hz : dz = joined (turn dz) (G *ᵥ (Gᵀ *ᵥ shift dz)) := by
        rw [rot_inv hG, joined_turn_shift]
      rw [hz, cost_turned hG pairs initial hR, cost_turned hG pairs initial hR, joined_turn_shift]
      by_cases e : joined (turn dz) (Gᵀ *ᵥ shift dz) = dx
      · rw [e]
      · exact (a2.2 hd _ e).le
  have e1 : (![dx' 0, dx' 1, dx' 2] : V3) = ![dx 0, dx 1, dx 2] := by
    have : turn dx' = turn dx := by rw [hdx, turn_joined]
    exact this
  have e2 : (![dx' 3, dx' 4, dx' 5] : V3) = G *ᵥ ![dx 3, dx 4, dx 5] := by
    have : shift dx' = G *ᵥ shift dx := by rw [hdx, shift_joined]
    exact this
  have hnorm : Rot.norm (G *ᵥ ![dx 3, dx 4, dx 5]) = Rot.norm ![dx 3, dx 4, dx 5] := by
    unfold Rot.norm
    rw [← sqLen_eq, ← sqLen_eq, rot_sqLen hG]
  have hcc : checkConvergence (angleAxisToQuaternion ![dx 0, dx 1, dx 2]) (G *ᵥ ![dx 3, dx 4, dx 5]) ↔
      checkConvergence (angleAxisToQuaternion ![dx 0, dx 1, dx 2]) ![dx 3, dx 4, dx 5] := by
    unfold checkConvergence
    rw [hnorm]
  have hfin : makePose ((Quat.ofMatrix (G * initial.linear)).mul (angleAxisToQuaternion ![dx 0, dx 1, dx 2]))
      (G *ᵥ initial.translation + G *ᵥ ![dx 3, dx 4, dx 5]) =
      ⟨G * (makePose ((Quat.ofMatrix initial.linear).mul (angleAxisToQuaternion ![dx 0, dx 1, dx 2]))
        (initial.translation + ![dx 3, dx 4, dx 5])).linear,
       G *ᵥ (makePose ((Quat.ofMatrix initial.linear).mul (angleAxisToQuaternion ![dx 0, dx 1, dx 2]))
        (initial.translation + ![dx 3, dx 4, dx 5])).translation⟩ := by
    have hu := C51_unit ![dx 0, dx 1, dx 2]
    unfold makePose
    simp only
    rw [toRotationMatrix_mul _ _ u1 hu, toRotationMatrix_mul _ _ u2 hu, r1, r2, mulVec_add, Matrix.mul_assoc]
  rw [a3, b3, e1, e2]
  by_cases c1 : dblMax < (errorsOf (alignmentBlocks pairs initial)).sum
  · rw [if_pos c1, if_pos c1]
    rfl
  rw [if_neg c1, if_neg c1]
  by_cases c2 : dblMax < s'
  · rw [if_pos c2, if_pos c2]
    rfl
  rw [if_neg c2, if_neg c2]
  by_cases c3 : checkConvergence (angleAxisToQuaternion ![dx 0, dx 1, dx 2]) ![dx 3, dx 4, dx 5]
  · rw [if_pos (hcc.2 c3), if_pos c3, hfin]
    rfl
  · rw [if_neg fun h => c3 (hcc.1 h), if_neg c3]
    simp only [runLoop, Except.map, hfin]

/-- C91 is false for rotations of the frame: a square is to be aligned with its copy turned by a quarter.
Turning the target frame changes what two steps achieve. -/
theorem C91_rotation_violated {nth : Nth} (hn : Lib.IsNthElement nth) {llt : Llt} (hllt : LltSpec llt) :
    let target := corners.map fun x => rotZ (Real.pi / 2) *ᵥ x
    ∃ (G : Matrix (Fin 3) (Fin 3) ℝ) (r r' : Result), IsRotation G ∧
      run nth llt (alignmentMake corners target) 2 ⟨1, 0⟩ = .ok r ∧
      run nth llt (alignmentMake corners (target.map fun y => G *ᵥ y)) 2 ⟨G, 0⟩ = .ok r' ∧
      r'.pose.linear ≠ G * r.pose.linear ∧
      misfit corners target r.pose < misfit corners (target.map fun y => G *ᵥ y) r'.pose := by
  intro target
  have hpi := Real.pi_gt_d2
  have hc1 := half_le_cos_one
  have hc1' := Real.cos_one_le
  have hdbl := dblMax_large
  have h1 : (1 : Matrix (Fin 3) (Fin 3) ℝ) = rotZ 0 := by
    ext i j
    fin_cases i <;> fin_cases j <;> simp [rotZ]
  have hmap : (target.map fun y => rotZ heading *ᵥ y) =
      corners.map fun x => rotZ (heading + Real.pi / 2) *ᵥ x := by
    simp only [target, List.map_map, Function.comp_def, mulVec_mulVec, rotZ_add]
  obtain ⟨-, r2, -, -, x2, -, -, x5, -⟩ := C89_uphill_violated hn hllt
  have hmake : alignmentMake corners target = problem (alignmentBlocks (turned (Real.pi / 2))) := by
    rw [alignmentMake_eq _ _ (by simp [target]), turned_zip]
  have s0 : Signed 1 (qz 0) (Quat.ofMatrix (rotZ 0)) :=
    Or.inl ⟨rfl, ofMatrix_rotZ_same_w 0 (by simp; norm_num) (by simp)⟩
  have s1 : Signed 1 (qz 1) (Quat.ofMatrix (rotZ 1)) :=
    Or.inl ⟨rfl, ofMatrix_rotZ_same_w 1 (by linarith)
      (Real.cos_pos_of_mem_Ioo ⟨by linarith, by linarith⟩)⟩
  have p0 := turned_pass hn hllt 0 (Real.pi / 2) 1 s0 (by simp; norm_num) 1 0 dblMax dblMax (by linarith)
  rw [sub_zero, Real.sin_pi_div_two, Real.cos_pi_div_two, if_neg (by linarith)] at p0
  have p1 := turned_pass hn hllt 1 (Real.pi / 2) 1 s1
    (by rw [Real.sin_pi_div_two_sub, abs_of_nonneg (by linarith)]; linarith) 0 1 0 8 le_rfl
  have hs1 : 0 < Real.sin 1 := Real.sin_pos_of_pos_of_lt_pi (by norm_num) (by linarith)
  rw [Real.sin_pi_div_two_sub, Real.cos_pi_div_two_sub, if_neg (by linarith)] at p1
  have hq0 : Quat.ofMatrix (rotZ 0) = qz 0 := by
    rcases s0 with ⟨-, h⟩ | ⟨h, -⟩
    · exact h
    · norm_num at h
  have hrun : run nth llt (alignmentMake corners target) 2 ⟨1, 0⟩ =
      .ok ⟨⟨rotZ (1 + Real.cos 1), 0⟩, .maximumIteration, 2, 8 - 8 * Real.sin 1, 0, false⟩ := by
    unfold run
    rw [hmake, if_neg (by norm_num)]
    simp only [h1, hq0]
    show runLoop _ _ _ (1 + 1) 0 _ _ _ _ = _
    rw [p0]
    norm_num
    show runLoop _ _ _ (0 + 1) 1 _ _ _ _ = _
    rw [p1]
    simp only [runLoop, makePose, qz_rot]
    norm_num
  have m1 : misfit corners target ⟨rotZ (1 + Real.cos 1), 0⟩ = 8 - 8 * Real.sin (1 + Real.cos 1) := by
    rw [turned_misfit, Real.cos_pi_div_two_sub]
  have m2 : misfit corners (target.map fun y => rotZ heading *ᵥ y) r2.pose =
      8 - 8 * Real.sin (1 - Real.cos 1) := by
    rw [x5, hmap, turned_misfit, ← Real.cos_pi_div_two_sub]
    congr 3
    ring
  have hlt : Real.sin (1 - Real.cos 1) < Real.sin (1 + Real.cos 1) :=
    Real.sin_lt_sin_of_lt_of_le_pi_div_two (by linarith) (by linarith) (by linarith)
  refine ⟨rotZ heading, _, r2, rotZ_isRotation _, hrun, ?_, fun h => ?_, ?_⟩
  · rw [hmap]
    exact x2
  · simp only at h
    have h2 : r2.pose = ⟨rotZ (heading + (1 + Real.cos 1)), 0⟩ := by
      rw [x5] at h ⊢
      rw [rotZ_add, ← h]
    rw [h2, hmap, turned_misfit] at m2
    have e : heading + Real.pi / 2 - (heading + (1 + Real.cos 1)) = Real.pi / 2 - (1 + Real.cos 1) := by ring
    rw [e, Real.cos_pi_div_two_sub] at m2
    linarith
  · rw [m1, m2]
    linarith

end Verif.Align
