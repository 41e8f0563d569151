/-
C146: from a neighbourhood of the true pose, scan matching arrives at it, whatever makes it stop.
-/
import Verif.Props.C134
import Verif.Props.C89W

set_option autoImplicit false

namespace Verif.Align

open Matrix Verif.Rot Verif.Opt Verif.Loc

/-- The pose `T` is wrong by at most `d` in rotation and `τ` in translation, if `S` is the true one. -/
structure Close (S : Pose) (d τ : ℝ) (T : Pose) : Prop where
  rotation : IsRotation T.linear
  turned : ∀ x, vlen (T.linear *ᵥ x - S.linear *ᵥ x) ≤ d * vlen x
  shifted : vlen (T.translation - S.translation) ≤ τ

theorem Close.mono {S T : Pose} {d τ d' τ' : ℝ} (h : Close S d τ T) (hd : d ≤ d') (hτ : τ ≤ τ') :
    Close S d' τ' T :=
  ⟨h.rotation, fun x => (h.turned x).trans (mul_le_mul_of_nonneg_right hd (vlen_nonneg x)),
    h.shifted.trans hτ⟩

/-- The product of two quaternions as vectors. -/
def qdot (p q : Quat) : ℝ := p.w * q.w + p.x * q.x + p.y * q.y + p.z * q.z

/-- The quaternions that the conversion finds for the rotations of the neighbourhood have the same sign:
no two of them point in opposite directions. -/
def Steady (S : Pose) (d τ : ℝ) : Prop :=
  ∀ T T', Close S d τ T → Close S d τ T' → 0 < qdot (Quat.ofMatrix T.linear) (Quat.ofMatrix T'.linear)

/-! ### The sign of the quaternion -/

theorem qdot_mul (q p : Quat) (hq : q.IsUnit) : qdot q (q.mul p) = p.w := by
  unfold Quat.IsUnit at hq
  simp only [qdot, Quat.mul]
  linear_combination p.w * hq

theorem angleAxis_w_pos (θ : V3) (h : vlen θ ≤ 1) : 0 < (angleAxisToQuaternion θ).w := by
  by_cases hs : Rot.norm θ < 1 / 100000000
  · rw [C51_near_zero θ hs]
    norm_num
  · have e : (angleAxisToQuaternion θ).w = Real.cos (Rot.norm θ / 2) := by
      unfold angleAxisToQuaternion
      simp only
      rw [if_neg hs]
    rw [e, norm_eq_vlen]
    apply Real.cos_pos_of_mem_Ioo
    have := Real.pi_gt_three
    have := vlen_nonneg θ
    constructor <;> linarith

theorem opp_qdot (p q : Quat) : qdot p (opp q) = -qdot p q := by
  simp only [qdot, opp]
  ring

/-- The optimiser's quaternion keeps the sign of the converted one. -/
theorem steady_mul {S : Pose} {d τ : ℝ} (h : Steady S d τ) {q : Quat} (hq : q.IsUnit) {t t' : V3}
    (hsame : Quat.ofMatrix q.toRotationMatrix = q) {θ : V3} (hθ : vlen θ ≤ 1)
    (h1 : Close S d τ (makePose q t)) (h2 : Close S d τ (makePose (q.mul (angleAxisToQuaternion θ)) t')) :
    (q.mul (angleAxisToQuaternion θ)).IsUnit ∧
    Quat.ofMatrix (q.mul (angleAxisToQuaternion θ)).toRotationMatrix = q.mul (angleAxisToQuaternion θ) := by
  have hu : (q.mul (angleAxisToQuaternion θ)).IsUnit := mul_isUnit _ _ hq (C51_unit θ)
  refine ⟨hu, ?_⟩
  rcases ofMatrix_eq_or_opp hu with h3 | h3
  · exact h3
  · exfalso
    have h4 := h _ _ h1 h2
    have e1 : (makePose q t).linear = q.toRotationMatrix := rfl
    have e2 : (makePose (q.mul (angleAxisToQuaternion θ)) t').linear =
      (q.mul (angleAxisToQuaternion θ)).toRotationMatrix := rfl
    rw [e1, e2, hsame, h3, opp_qdot, qdot_mul _ _ hq] at h4
    have := angleAxis_w_pos θ hθ
    linarith

/-- The trace of `PᵀQ` for the matrices of two quaternions. -/
theorem qdot_trace (p q : Quat) (hp : p.IsUnit) (hq : q.IsUnit) :
    (p.toRotationMatrixᵀ * q.toRotationMatrix).trace = 4 * qdot p q ^ 2 - 1 := by
  unfold Quat.IsUnit at hp hq
  have e : ∀ r : Quat, r.w * r.w + r.x * r.x + r.y * r.y + r.z * r.z = 1 → r.toRotationMatrix =
      !![r.w ^ 2 + r.x ^ 2 - r.y ^ 2 - r.z ^ 2, 2 * (r.x * r.y - r.w * r.z), 2 * (r.x * r.z + r.w * r.y);
        2 * (r.x * r.y + r.w * r.z), r.w ^ 2 - r.x ^ 2 + r.y ^ 2 - r.z ^ 2, 2 * (r.y * r.z - r.w * r.x);
        2 * (r.x * r.z - r.w * r.y), 2 * (r.y * r.z + r.w * r.x), r.w ^ 2 - r.x ^ 2 - r.y ^ 2 + r.z ^ 2] := by
    intro r hr
    ext i j
    fin_cases i <;> fin_cases j <;> simp [Quat.toRotationMatrix] <;> linarith
  rw [e p (by linarith), e q (by linarith)]
  have h : (1 : ℝ) = (p.w ^ 2 + p.x ^ 2 + p.y ^ 2 + p.z ^ 2) * (q.w ^ 2 + q.x ^ 2 + q.y ^ 2 + q.z ^ 2) := by
    rw [show p.w ^ 2 + p.x ^ 2 + p.y ^ 2 + p.z ^ 2 = 1 by linarith,
      show q.w ^ 2 + q.x ^ 2 + q.y ^ 2 + q.z ^ 2 = 1 by linarith, one_mul]
  simp only [trace, diag_apply, Fin.sum_univ_three, mul_apply, transpose_apply, qdot]
  simp
  linear_combination h

theorem ofMatrix_w_half (R : Matrix (Fin 3) (Fin 3) ℝ) (h : 0 < R 0 0 + R 1 1 + R 2 2) :
    1 / 2 < (Quat.ofMatrix R).w := by
  unfold Quat.ofMatrix
  simp only [if_pos h]
  have : 1 < Real.sqrt (R 0 0 + R 1 1 + R 2 2 + 1) := Real.lt_sqrt_of_sq_lt (by linarith)
  linarith

theorem abs_le_vlen (v : V3) (i : Fin 3) : |v i| ≤ vlen v := by
  refine abs_le_of_sq_le_sq ?_ (vlen_nonneg _)
  rw [vlen_sq_eq]
  simp only [sqLen, Fin.sum_univ_three]
  fin_cases i <;> simp <;> nlinarith [mul_self_nonneg (v 0), mul_self_nonneg (v 1), mul_self_nonneg (v 2)]

theorem vlen_single (i : Fin 3) : vlen (Pi.single i 1 : V3) = 1 := by
  rw [vlen]
  fin_cases i <;> simp [Fin.sum_univ_three]

/-- C146: the quaternions have the same sign if the vehicle is turned by less than about 120° from the
directions of the map. -/
theorem C146_steady (S : Pose) (d τ : ℝ) (hd : d ≤ 2 / 3)
    (h : 3 * d < S.linear 0 0 + S.linear 1 1 + S.linear 2 2) : Steady S d τ := by
  intro T T' hT hT'
  have col : ∀ (A : Matrix (Fin 3) (Fin 3) ℝ) i, A *ᵥ (Pi.single i 1 : V3) = fun j => A j i := by
    intro A i
    funext j
    rw [mulVec_single_one]
    rfl
  have tr : ∀ T, Close S d τ T → 0 < T.linear 0 0 + T.linear 1 1 + T.linear 2 2 := by
    intro T hT
    have hii : ∀ i, |T.linear i i - S.linear i i| ≤ d := by
      intro i
      have h1 := hT.turned (Pi.single i 1)
      rw [vlen_single, mul_one, col, col] at h1
      exact (abs_le_vlen _ i).trans h1
    have h0 := (abs_le.1 (hii 0)).1
    have h1 := (abs_le.1 (hii 1)).1
    have h2 := (abs_le.1 (hii 2)).1
    linarith
  have w1 := ofMatrix_w_half _ (tr T hT)
  have w2 := ofMatrix_w_half _ (tr T' hT')
  obtain ⟨u1, r1⟩ := C71_matrix_to_quaternion _ hT.rotation
  obtain ⟨u2, r2⟩ := C71_matrix_to_quaternion _ hT'.rotation
  have ht := qdot_trace _ _ u1 u2
  rw [r1, r2] at ht
  have hd0 : 0 ≤ d := by
    have := hT.turned (Pi.single 0 1)
    rw [vlen_single, mul_one] at this
    exact (vlen_nonneg _).trans this
  have key : 3 - 6 * d ^ 2 ≤ (T.linearᵀ * T'.linear).trace := by
    have hcol : ∀ i, 1 - 2 * d ^ 2 ≤ (T.linearᵀ * T'.linear) i i := by
      intro i
      have a1 := hT.turned (Pi.single i 1)
      have a2 := hT'.turned (Pi.single i 1)
      rw [vlen_single, mul_one] at a1 a2
      have a3 := vlen_sub_le (T.linear *ᵥ (Pi.single i 1 : V3) - S.linear *ᵥ (Pi.single i 1 : V3))
        (T'.linear *ᵥ (Pi.single i 1 : V3) - S.linear *ᵥ (Pi.single i 1 : V3))
      rw [sub_sub_sub_cancel_right] at a3
      have a4 : vlen (T.linear *ᵥ (Pi.single i 1 : V3) - T'.linear *ᵥ (Pi.single i 1 : V3)) ≤ 2 * d := by linarith
      have a5 := pow_le_pow_left₀ (vlen_nonneg _) a4 2
      have b1 := vlen_rot hT.rotation (Pi.single i 1)
      have b2 := vlen_rot hT'.rotation (Pi.single i 1)
      rw [vlen_single, col] at b1 b2
      rw [col, col, vlen_sq_eq] at a5
      have c1 := vlen_sq_eq (fun j => T.linear j i)
      have c2 := vlen_sq_eq (fun j => T'.linear j i)
      rw [b1] at c1
      rw [b2] at c2
      simp only [sqLen, Fin.sum_univ_three, Pi.sub_apply] at a5 c1 c2
      simp only [mul_apply, transpose_apply, Fin.sum_univ_three]
      nlinarith
    simp only [trace, diag_apply, Fin.sum_univ_three]
    linarith [hcol 0, hcol 1, hcol 2]
  rw [ht] at key
  set p := Quat.ofMatrix T.linear
  set q := Quat.ofMatrix T'.linear
  by_contra hneg
  rw [not_lt] at hneg
  have k1 : 1 / 3 ≤ qdot p q ^ 2 := by nlinarith
  have k2 : qdot p q ≤ -(1 / 2) := by
    by_contra hc
    rw [not_le] at hc
    nlinarith
  unfold Quat.IsUnit at u1 u2
  unfold qdot at k2
  nlinarith [sq_nonneg (p.x + q.x), sq_nonneg (p.y + q.y), sq_nonneg (p.z + q.z)]

end Verif.Align

namespace Verif.Loam

open Matrix Verif.Rot Verif.Opt Verif.Loc Verif.Align

/-- The bound of the error of the translation after a step from a pose turned by `d`. -/
noncomputable def Scene.shiftAfter (c : Scene) (η ρ κ μ d : ℝ) : ℝ :=
  (4 * ρ * d ^ 2 + 8 * η) * Real.sqrt ((c.edges.length + c.surfaces.length) * κ / μ)

/-- The bound of the error of the rotation after a step from a pose turned by `d`. -/
noncomputable def Scene.turnAfter (c : Scene) (η ρ κ μ d : ℝ) : ℝ :=
  c.shiftAfter η ρ κ μ d + (d + c.shiftAfter η ρ κ μ d) ^ 2 + d ^ 2 / 2 + 1 / 100000000

/-- The bound of the error of the rotation after `k` steps, `D` at the beginning. -/
noncomputable def Scene.turned (c : Scene) (D η ρ κ μ : ℝ) (k : ℕ) : ℝ := (c.turnAfter η ρ κ μ)^[k] D

/-- The bound of the error of the translation after `k` steps, `τ` at the beginning. -/
noncomputable def Scene.shifted (c : Scene) (D τ η ρ κ μ : ℝ) : ℕ → ℝ
  | 0 => τ
  | k + 1 => c.shiftAfter η ρ κ μ (c.turned D η ρ κ μ k)

/-- `S` is the true pose, under which every point is within `η` of its line or plane. From every pose that is
wrong by at most `D` and `τ`: the lines and planes are those that fit the points found best; every motion is
seen (`μ`); no offset is more than `κ` times another, or 1.345 times the robust scale if that is more; the
quaternions have the same sign. The points of the scan reach as far as `ρ`. A step leaves the neighbourhood
nowhere. -/
structure Scene.Basin (c : Scene) (knn : Knn) (edgeMap surfaceMap : List V3) (S : Pose)
    (D τ η ρ κ μ : ℝ) : Prop where
  proper : c.Proper
  ne_nil : c.edges ≠ [] ∨ c.surfaces ≠ []
  true_rotation : IsRotation S.linear
  D_nonneg : 0 ≤ D
  noise : ∀ e ∈ c.offsets S, e ≤ 2 * η
  extent : ∀ p ∈ c.edges ++ c.surfaces, vlen p ≤ ρ
  edges : ∀ T, Close S D τ T → ∀ p ∈ c.edges, c.EdgeFound knn edgeMap p (T.apply p)
  surfaces : ∀ T, Close S D τ T → ∀ p ∈ c.surfaces, c.SurfaceFound knn surfaceMap p (T.apply p)
  μ_min : 1 / 10 ≤ μ
  observed : ∀ T, Close S D τ T → ∀ (s : ℝ) (ω v : V3), μ * (s ^ 2 + sqLen ω + sqLen v) ≤ c.rates T.linear s ω v
  κ_one : 1 ≤ κ
  scale : ∀ T, Close S D τ T → ∀ s, IsScale ((c.offsets T).map (· ^ 2)) s → ∀ e ∈ c.offsets T,
    ∀ e' ∈ c.offsets T, e ^ 2 ≤ κ ^ 2 * max (e' ^ 2) (1.345 ^ 2 * (s + 1 / 10 ^ 16))
  finite : 8 * (c.edges.length + c.surfaces.length) * (ρ * D + τ + η) ^ 2 ≤ dblMax
  steady : Steady S D τ
  turn_stays : c.turnAfter η ρ κ μ D ≤ D
  shift_stays : c.shiftAfter η ρ κ μ D ≤ τ

section
variable {c : Scene} {knn : Knn} {edgeMap surfaceMap : List V3} {S : Pose} {D τ η ρ κ μ : ℝ}

theorem Scene.Basin.bounds (h : c.Basin knn edgeMap surfaceMap S D τ η ρ κ μ) : 0 ≤ η ∧ 0 ≤ ρ := by
  rcases h.ne_nil with hn | hn
  · obtain ⟨p, hp⟩ := List.exists_mem_of_ne_nil _ hn
    have h1 := h.noise _ (List.mem_append_left _ (List.mem_map_of_mem hp))
    have h2 := vlen_nonneg (c.dir p ⨯₃ (S.apply p - c.anchor p))
    exact ⟨by linarith, (vlen_nonneg _).trans (h.extent p (List.mem_append_left _ hp))⟩
  · obtain ⟨p, hp⟩ := List.exists_mem_of_ne_nil _ hn
    have h1 := h.noise _ (List.mem_append_right _ (List.mem_map_of_mem hp))
    have h2 : 0 ≤ |c.normal p ⬝ᵥ S.apply p + 1| / vlen (c.normal p) := div_nonneg (abs_nonneg _) (vlen_nonneg _)
    exact ⟨by linarith, (vlen_nonneg _).trans (h.extent p (List.mem_append_right _ hp))⟩

theorem shiftAfter_nonneg (hη : 0 ≤ η) (hρ : 0 ≤ ρ) (d : ℝ) : 0 ≤ c.shiftAfter η ρ κ μ d := by
  unfold Scene.shiftAfter
  have := Real.sqrt_nonneg ((c.edges.length + c.surfaces.length) * κ / μ)
  positivity

theorem shiftAfter_mono (hρ : 0 ≤ ρ) {d d' : ℝ} (h0 : 0 ≤ d) (h : d ≤ d') :
    c.shiftAfter η ρ κ μ d ≤ c.shiftAfter η ρ κ μ d' := by
  unfold Scene.shiftAfter
  refine mul_le_mul_of_nonneg_right ?_ (Real.sqrt_nonneg _)
  have := mul_le_mul_of_nonneg_left (pow_le_pow_left₀ h0 h 2) (by positivity : 0 ≤ 4 * ρ)
  linarith

theorem turnAfter_nonneg (hη : 0 ≤ η) (hρ : 0 ≤ ρ) (d : ℝ) : 0 ≤ c.turnAfter η ρ κ μ d := by
  unfold Scene.turnAfter
  have := shiftAfter_nonneg (c := c) (κ := κ) (μ := μ) hη hρ d
  positivity

theorem turnAfter_mono (hη : 0 ≤ η) (hρ : 0 ≤ ρ) {d d' : ℝ} (h0 : 0 ≤ d) (h : d ≤ d') :
    c.turnAfter η ρ κ μ d ≤ c.turnAfter η ρ κ μ d' := by
  unfold Scene.turnAfter
  have h1 := shiftAfter_mono (c := c) (η := η) (κ := κ) (μ := μ) hρ h0 h
  have h2 := shiftAfter_nonneg (c := c) (κ := κ) (μ := μ) hη hρ d
  have h3 := pow_le_pow_left₀ (by linarith : 0 ≤ d + c.shiftAfter η ρ κ μ d) (add_le_add h h1) 2
  have h4 := pow_le_pow_left₀ h0 h 2
  linarith

theorem turned_succ (k : ℕ) : c.turned D η ρ κ μ (k + 1) = c.turnAfter η ρ κ μ (c.turned D η ρ κ μ k) := by
  unfold Scene.turned
  rw [Function.iterate_succ_apply']

theorem Scene.Basin.turned_le (h : c.Basin knn edgeMap surfaceMap S D τ η ρ κ μ) (k : ℕ) :
    0 ≤ c.turned D η ρ κ μ k ∧ c.turned D η ρ κ μ k ≤ D := by
  obtain ⟨hη, hρ⟩ := h.bounds
  induction k with
  | zero => exact ⟨h.D_nonneg, le_refl _⟩
  | succ k ih =>
    rw [turned_succ]
    exact ⟨turnAfter_nonneg hη hρ _, (turnAfter_mono hη hρ ih.1 ih.2).trans h.turn_stays⟩

theorem Scene.Basin.shifted_le (h : c.Basin knn edgeMap surfaceMap S D τ η ρ κ μ) (k : ℕ) :
    c.shifted D τ η ρ κ μ k ≤ τ := by
  cases k with
  | zero => exact le_refl _
  | succ k =>
    have := h.turned_le k
    exact (shiftAfter_mono h.bounds.2 this.1 this.2).trans h.shift_stays

theorem Scene.Basin.step_le (h : c.Basin knn edgeMap surfaceMap S D τ η ρ κ μ) :
    D + c.shiftAfter η ρ κ μ D ≤ 1 := by
  have h1 := h.turn_stays
  obtain ⟨hη, hρ⟩ := h.bounds
  have h2 := shiftAfter_nonneg (c := c) (κ := κ) (μ := μ) hη hρ D
  have h3 := h.D_nonneg
  unfold Scene.turnAfter at h1
  set B := c.shiftAfter η ρ κ μ D
  by_contra hc
  rw [not_le] at hc
  nlinarith

/-- The conditions of a step, from every pose of the neighbourhood. -/
theorem Scene.Basin.near (h : c.Basin knn edgeMap surfaceMap S D τ η ρ κ μ) {fs : List Feature} (hfs : Stands c fs)
    {T : Pose} {d τ' : ℝ} (hd0 : 0 ≤ d) (hd : d ≤ D) (hτ : τ' ≤ τ) (hT : Close S d τ' T) :
    Align.Near fs S T d τ' (2 * η) ρ 2 κ μ where
  ne_nil := by
    rw [← List.length_pos_iff, hfs.length]
    rcases h.ne_nil with h | h
    · have := List.length_pos_iff.2 h
      omega
    · have := List.length_pos_iff.2 h
      omega
  true_rotation := h.true_rotation
  rotation := hT.rotation
  d_nonneg := hd0
  rotation_error := hT.turned
  translation_error := hT.shifted
  noise := fun f hf => h.noise _ (by
    rw [← hfs.errors]
    exact List.mem_map_of_mem (f := fun f : Feature => vlen (f.residual S)) hf)
  extent := fun f hf => h.extent _ (hfs.points f hf)
  α_nonneg := by norm_num
  gain := hfs.gain
  μ_min := h.μ_min
  observed := fun s ω v => by
    rw [hfs.seen]
    exact h.observed T (hT.mono hd hτ) s ω v
  κ_one := h.κ_one
  scale := by
    intro s hs e he e' he'
    obtain ⟨f, hf, rfl⟩ := List.mem_map.1 he
    obtain ⟨f', hf', rfl⟩ := List.mem_map.1 he'
    have hm : ∀ f ∈ fs, vlen (f.residual T) ∈ c.offsets T := fun f hf => by
      rw [← hfs.errors]
      exact List.mem_map_of_mem (f := fun f : Feature => vlen (f.residual T)) hf
    have e : (c.offsets T).map (· ^ 2) = featureErrors fs T := by
      rw [← hfs.errors, List.map_map]
      rfl
    exact h.scale T (hT.mono hd hτ) s (by rwa [e]) _ (hm f hf) _ (hm f' hf')
  finite := by
    rw [hfs.length]
    push_cast
    have h1 := h.finite
    obtain ⟨hη, hρ⟩ := h.bounds
    have hτ0 : 0 ≤ τ' := (vlen_nonneg _).trans hT.shifted
    have h2 : ρ * d + τ' + η ≤ ρ * D + τ + η := by nlinarith
    have h3 := pow_le_pow_left₀ (by positivity : 0 ≤ ρ * d + τ' + η) h2 2
    have h4 := mul_le_mul_of_nonneg_left h3 (by positivity : (0:ℝ) ≤ 8 * (c.edges.length + c.surfaces.length))
    nlinarith

theorem after_eq {fs : List Feature} (hfs : Stands c fs) (d : ℝ) :
    after fs.length d (2 * η) ρ 2 κ μ = c.shiftAfter η ρ κ μ d := by
  unfold after Scene.shiftAfter
  rw [hfs.length]
  push_cast
  ring

/-- A pass of the optimiser for a problem that has, at the current pose, the given blocks. -/
theorem runLoop_pass' {nth : Nth} (hn : Lib.IsNthElement nth) {llt : Llt} (hllt : LltSpec llt)
    (make : Problem) (bs : List Block) (n : ℕ) (iter : ℤ) (q : Quat) (hq : q.IsUnit) (t : V3) (ps pe : ℝ)
    (hmake : make (makePose q t) = .ok (bs.map Block.jac, bs.map Block.res)) (hb : bs ≠ []) :
    ∃ s dx, IsScale (errorsOf bs) s ∧ IsStep q bs (weightsOf bs s) dx ∧
      ((pe < (errorsOf bs).sum ∧ runLoop nth llt make (n + 1) iter q t ps pe =
          .ok ⟨makePose q t, .largerError, iter, (errorsOf bs).sum, s, true⟩) ∨
      (ps < s ∧ runLoop nth llt make (n + 1) iter q t ps pe =
          .ok ⟨makePose q t, .largerScale, iter, (errorsOf bs).sum, s, true⟩) ∨
      (checkConvergence (angleAxisToQuaternion (turn dx)) (shift dx) ∧
        runLoop nth llt make (n + 1) iter q t ps pe =
          .ok ⟨makePose (q.mul (angleAxisToQuaternion (turn dx))) (t + shift dx),
            .converged, iter, (errorsOf bs).sum, s, true⟩) ∨
      (¬ checkConvergence (angleAxisToQuaternion (turn dx)) (shift dx) ∧
        runLoop nth llt make (n + 1) iter q t ps pe = runLoop nth llt make n (iter + 1)
          (q.mul (angleAxisToQuaternion (turn dx))) (t + shift dx) s (errorsOf bs).sum)) := by
  have hlen : ¬ (bs.map Block.res).length = 0 := by simpa using hb
  have hes : errorsOf bs ≠ [] := by simpa [errorsOf] using hb
  obtain ⟨m, d, s, hm, hd, hs, hs', -⟩ := (C73_scale hn (errorsOf bs)).2 hes
  obtain ⟨dx, hdx, hstep⟩ := isStep_exists hllt q hq bs s
  refine ⟨s, dx, ⟨m, d, hm, hd, hs'⟩, hstep, ?_⟩
  have hnorm : normalizeErrorScale nth (errorsOf bs) =
      .ok ((errorsOf bs).map fun e => e / (s + 1 / 10 ^ 16), s) := by
    simp [normalizeErrorScale, hs, bind, Except.bind, pure, Except.pure]
  have hcalc : calcUpdate llt q (weightsOf bs s) (bs.map Block.jac) (bs.map Block.res) =
      .ok (angleAxisToQuaternion (turn dx), shift dx) := by
    have e1 : (fun i : Fin 3 => dx (Fin.castAdd 3 i)) = turn dx := by
      funext i; fin_cases i <;> rfl
    have e2 : (fun i : Fin 3 => dx (Fin.natAdd 3 i)) = shift dx := by
      funext i; fin_cases i <;> rfl
    simp only [calcUpdate, hdx, bind, Except.bind, pure, Except.pure, e1, e2]
  have hw : computeWeights ((errorsOf bs).map fun e => e / (s + 1 / 10 ^ 16)) = weightsOf bs s := by
    simp [computeWeights, weightsOf, huberK, Function.comp_def]
  rw [runLoop]
  simp only [hmake, bind, Except.bind]
  rw [if_neg hlen]
  simp only [computeErrors_blocks, hnorm, hw, hcalc]
  by_cases c1 : pe < (errorsOf bs).sum
  · left
    rw [if_pos c1]
    exact ⟨c1, rfl⟩
  · rw [if_neg c1]
    by_cases c2 : ps < s
    · right; left
      rw [if_pos c2]
      exact ⟨c2, rfl⟩
    · rw [if_neg c2]
      by_cases c3 : checkConvergence (angleAxisToQuaternion (turn dx)) (shift dx)
      · right; right; left
        rw [if_pos c3]
        exact ⟨c3, rfl⟩
      · right; right; right
        rw [if_neg c3]
        exact ⟨c3, rfl⟩

theorem near_finite {fs : List Feature} {S T : Pose} {d τ η ρ α κ μ : ℝ} (h : Align.Near fs S T d τ η ρ α κ μ) {s : ℝ}
    (hs : IsScale (featureErrors fs T) s) : ¬ dblMax < (featureErrors fs T).sum ∧ ¬ dblMax < s := by
  have hE : ∀ e ∈ featureErrors fs T, 0 ≤ e ∧ e ≤ (α * (ρ * d + τ) + η) ^ 2 := by
    intro e he
    obtain ⟨f, hf, rfl⟩ := List.mem_map.1 he
    exact ⟨sq_nonneg _, pow_le_pow_left₀ (vlen_nonneg _) (h.residual_le f hf) 2⟩
  have hpos : (1 : ℝ) ≤ fs.length := by
    have := List.length_pos_iff.2 h.ne_nil
    exact_mod_cast this
  have hsq := sq_nonneg (α * (ρ * d + τ) + η)
  have hfin := h.finite
  constructor
  · have h2 := sum_le_length (featureErrors fs T) id _ fun e he => (hE e he).2
    rw [List.map_id] at h2
    have h3 : (featureErrors fs T).length = fs.length := by simp [featureErrors]
    rw [h3] at h2
    nlinarith
  · have h2 := (isScale_bounds hE hs).2
    nlinarith

/-- What a step does to a pose of the neighbourhood: it undoes the error up to `shiftAfter`. -/
def Scene.Undoes (c : Scene) (S : Pose) (D τ η ρ κ μ : ℝ) (T : Pose) (dx : Fin 6 → ℝ) : Prop :=
  ∀ d τ', 0 ≤ d → d ≤ D → τ' ≤ τ → Close S d τ' T →
    vlen (turn dx - axial (T.linearᵀ * S.linear)) ≤ c.shiftAfter η ρ κ μ d ∧
    vlen (shift dx - (S.translation - T.translation)) ≤ c.shiftAfter η ρ κ μ d

/-- The pose after the step `dx`. -/
noncomputable def moved (T : Pose) (dx : Fin 6 → ℝ) : Pose :=
  makePose ((Quat.ofMatrix T.linear).mul (angleAxisToQuaternion (turn dx))) (T.translation + shift dx)

theorem within_moved (hS : IsRotation S.linear) {T : Pose} {dx : Fin 6 → ℝ}
    (hu : c.Undoes S D τ η ρ κ μ T dx) {d τ' : ℝ} (hd0 : 0 ≤ d) (hd : d ≤ D) (hτ : τ' ≤ τ) (hT : Close S d τ' T) :
    Close S (c.turnAfter η ρ κ μ d) (c.shiftAfter η ρ κ μ d) (moved T dx) ∧
    vlen (turn dx) ≤ d + c.shiftAfter η ρ κ μ d ∧ vlen (shift dx) ≤ τ' + c.shiftAfter η ρ κ μ d := by
  obtain ⟨h1, h2⟩ := hu d τ' hd0 hd hτ hT
  obtain ⟨a1, a2, a3, a4⟩ := after_step hS hT.rotation hd0 hT.turned hT.shifted h1 h2
  refine ⟨⟨?_, a2, a1⟩, a3, a4⟩
  exact toRotationMatrix_rotation _ (mul_isUnit _ _ (C71_matrix_to_quaternion _ hT.rotation).1 (C51_unit _))

/-- The optimiser from any iterate on. -/
theorem arrive_loop {nth : Nth} (hn : Lib.IsNthElement nth) {llt : Llt} (hllt : LltSpec llt) {L : Libs}
    (he : EigSpec L.eig) (hqr : QrSpec L.qr) {edgeMap surfaceMap surfaceScan : List V3}
    (hs : L.downsample surfaceScan = c.surfaces)
    (h : c.Basin L.knn edgeMap surfaceMap S D τ η ρ κ μ) (P : Pose → Prop)
    (hP : ∀ T dx, Close S D τ T → c.Undoes S D τ η ρ κ μ T dx →
      checkConvergence (angleAxisToQuaternion (turn dx)) (shift dx) → P (moved T dx)) (n : ℕ) :
    ∀ (k : ℕ) (iter : ℤ) (q : Quat) (t : V3) (ps pe : ℝ), q.IsUnit → Quat.ofMatrix q.toRotationMatrix = q →
      Close S (c.turned D η ρ κ μ k) (c.shifted D τ η ρ κ μ k) (makePose q t) →
      (1 ≤ k ∨ ps = dblMax ∧ pe = dblMax ∧ 1 ≤ n) →
      ∃ r k', runLoop nth llt (make L edgeMap surfaceMap nNeighbors c.edges surfaceScan) n iter q t ps pe = .ok r ∧
        1 ≤ k' ∧ k ≤ k' ∧ k' ≤ k + n ∧
        Close S (c.turned D η ρ κ μ k') (c.shifted D τ η ρ κ μ k') r.pose ∧
        (r.success = true ∨ r.message = .maximumIteration ∧ k' = k + n) ∧
        (r.message = .converged → P r.pose) ∧
        ∀ j, k ≤ j → j < k + n →
          c.turned D η ρ κ μ j + c.shifted D τ η ρ κ μ (j + 1) < 1 / 1000 →
          c.shifted D τ η ρ κ μ j + c.shifted D τ η ρ κ μ (j + 1) < 1 / 1000 → r.success = true ∧ k' ≤ j + 1 := by
  induction n with
  | zero =>
    intro k iter q t ps pe _ _ hT hk
    have hk1 : 1 ≤ k := by omega
    exact ⟨_, k, rfl, hk1, le_refl _, le_refl _, hT, Or.inr ⟨rfl, rfl⟩, fun hc => absurd hc (by simp),
      fun j h1 h2 => by omega⟩
  | succ n ih =>
    intro k iter q t ps pe hq hsame hT hk
    have hb := h.turned_le k
    have hbs := h.shifted_le k
    have hbig := hT.mono hb.2 hbs
    obtain ⟨fs, hfs, hmake⟩ := stands he hqr h.proper hs (h.edges _ hbig) (h.surfaces _ hbig)
    have hnear := h.near hfs hb.1 hb.2 hbs hT
    obtain ⟨s, dx, p1, p2, p3⟩ := runLoop_pass' hn hllt _ _ n iter q hq t ps pe hmake (by simpa using hnear.ne_nil)
    rw [featureErrors_eq] at p1 p3
    have hlin : (makePose q t).linear = q.toRotationMatrix := rfl
    have htr : (makePose q t).translation = t := rfl
    have hu : c.Undoes S D τ η ρ κ μ (makePose q t) dx := by
      intro d τ' a1 a2 a3 a4
      have a5 := (h.near hfs a1 a2 a3 a4).step p1 (by rwa [hlin, hsame])
      rw [after_eq hfs] at a5
      exact a5.2
    have hmoved : moved (makePose q t) dx = makePose (q.mul (angleAxisToQuaternion (turn dx))) (t + shift dx) := by
      unfold moved
      rw [hlin, hsame, htr]
    obtain ⟨m1, m2, m3⟩ := within_moved h.true_rotation hu hb.1 hb.2 hbs hT
    rw [hmoved] at m1
    have hnext : Close S (c.turned D η ρ κ μ (k + 1)) (c.shifted D τ η ρ κ μ (k + 1))
        (makePose (q.mul (angleAxisToQuaternion (turn dx))) (t + shift dx)) := by
      rw [turned_succ]
      exact m1
    have hstep1 : vlen (turn dx) ≤ 1 :=
      m2.trans ((add_le_add hb.2 (shiftAfter_mono h.bounds.2 hb.1 hb.2)).trans h.step_le)
    obtain ⟨hq', hsame'⟩ := steady_mul h.steady hq hsame hstep1 hbig
      (hnext.mono (h.turned_le _).2 (h.shifted_le _))
    have hconv : c.turned D η ρ κ μ k + c.shifted D τ η ρ κ μ (k + 1) < 1 / 1000 →
        c.shifted D τ η ρ κ μ k + c.shifted D τ η ρ κ μ (k + 1) < 1 / 1000 →
        checkConvergence (angleAxisToQuaternion (turn dx)) (shift dx) := by
      intro b1 b2
      refine ⟨lt_of_le_of_lt (vec_le _) (lt_of_le_of_lt m2 b1), ?_⟩
      rw [norm_eq_vlen]
      exact lt_of_le_of_lt m3 b2
    rcases p3 with ⟨p4, p3⟩ | ⟨p4, p3⟩ | ⟨p4, p3⟩ | ⟨p4, p3⟩
    · have hk1 : 1 ≤ k := by
        rcases hk with hk | ⟨-, rfl, -⟩
        · exact hk
        · exact absurd p4 (near_finite hnear p1).1
      exact ⟨_, k, p3, hk1, le_refl _, by omega, hT, Or.inl rfl, fun hc => absurd hc (by simp),
        fun j j1 _ _ _ => ⟨rfl, by omega⟩⟩
    · have hk1 : 1 ≤ k := by
        rcases hk with hk | ⟨rfl, -, -⟩
        · exact hk
        · exact absurd p4 (near_finite hnear p1).2
      exact ⟨_, k, p3, hk1, le_refl _, by omega, hT, Or.inl rfl, fun hc => absurd hc (by simp),
        fun j j1 _ _ _ => ⟨rfl, by omega⟩⟩
    · exact ⟨_, k + 1, p3, by omega, by omega, by omega, hnext, Or.inl rfl, fun _ => by
        rw [← hmoved]
        exact hP _ _ hbig hu p4,
        fun j j1 _ _ _ => ⟨rfl, by omega⟩⟩
    · obtain ⟨r, k', r1, r2, r3, r4, r5, r6, r7, r8⟩ := ih (k + 1) (iter + 1) _ _ s (featureErrors fs (makePose q t)).sum
        hq' hsame' hnext (Or.inl (by omega))
      refine ⟨r, k', p3.trans r1, r2, by omega, by omega, r5, ?_, r7, fun j j1 j2 j3 j4 => ?_⟩
      · rcases r6 with r6 | ⟨r6, r6'⟩
        · exact Or.inl r6
        · exact Or.inr ⟨r6, by omega⟩
      · rcases Nat.eq_or_lt_of_le j1 with rfl | j1
        · exact absurd (hconv j3 j4) p4
        · exact r8 j j1 (by omega) j3 j4

/-- C146: from every pose of the neighbourhood, with at least one iteration allowed, scan matching returns a
pose that has been improved `k` times, at least once, whatever made it stop. It is reported as a success unless
the limit of iterations was used up; it is a success, after at most `j + 1` improvements, if the errors after
`j` of them are small enough for the test of convergence. -/
theorem C146_arrives {nth : Nth} (hn : Lib.IsNthElement nth) {llt : Llt} (hllt : LltSpec llt) {L : Libs}
    (he : EigSpec L.eig) (hqr : QrSpec L.qr) (edgeMap surfaceMap surfaceScan : List V3)
    (c : Scene) (hs : L.downsample surfaceScan = c.surfaces) (S : Pose) (D τ η ρ κ μ : ℝ)
    (h : c.Basin L.knn edgeMap surfaceMap S D τ η ρ κ μ) (T : Pose) (hT : Close S D τ T)
    (maxIter : ℕ) (hmax : 1 ≤ maxIter) :
    ∃ r k, run nth llt (make L edgeMap surfaceMap nNeighbors c.edges surfaceScan) maxIter T = .ok r ∧
      1 ≤ k ∧ k ≤ maxIter ∧ Close S (c.turned D η ρ κ μ k) (c.shifted D τ η ρ κ μ k) r.pose ∧
      (r.success = true ∨ r.message = .maximumIteration ∧ k = maxIter) ∧
      ∀ j, j < maxIter →
        c.turned D η ρ κ μ j + c.shifted D τ η ρ κ μ (j + 1) < 1 / 1000 →
        c.shifted D τ η ρ κ μ j + c.shifted D τ η ρ κ μ (j + 1) < 1 / 1000 → r.success = true ∧ k ≤ j + 1 := by
  obtain ⟨hq, hR⟩ := C71_matrix_to_quaternion _ hT.rotation
  have hpose : makePose (Quat.ofMatrix T.linear) T.translation = T := by
    unfold makePose
    rw [hR]
  obtain ⟨r, k, r1, r2, -, r4, r5, r6, -, r8⟩ := arrive_loop hn hllt he hqr hs h (fun _ => True)
    (fun _ _ _ _ _ => trivial) maxIter 0 0 (Quat.ofMatrix T.linear) T.translation dblMax dblMax hq (by rw [hR])
    (by rw [hpose]; exact hT) (Or.inr ⟨rfl, rfl, hmax⟩)
  have hrun : run nth llt (make L edgeMap surfaceMap nNeighbors c.edges surfaceScan) maxIter T = .ok r := by
    unfold Opt.run
    simp only
    rw [if_neg (by omega), Int.toNat_natCast]
    exact r1
  refine ⟨r, k, hrun, r2, by omega, r5, ?_, fun j j1 j2 j3 => r8 j (by omega) (by omega) j2 j3⟩
  simpa using r6

/-! ### The rate -/

/-- How much of the error the noise leaves. -/
noncomputable def Scene.floor (c : Scene) (η κ μ : ℝ) : ℝ :=
  8 * η * Real.sqrt ((c.edges.length + c.surfaces.length) * κ / μ)

/-- The neighbourhood is small enough for the error to shrink quickly. -/
structure Scene.Small (c : Scene) (D η ρ κ μ : ℝ) : Prop where
  curved : 32 * ρ * D * Real.sqrt ((c.edges.length + c.surfaces.length) * κ / μ) ≤ 1
  turn : D ≤ 1 / 16
  noise : c.floor η κ μ ≤ 1 / 16

theorem shiftAfter_small (hs : c.Small D η ρ κ μ) (hρ : 0 ≤ ρ) {d : ℝ} (h0 : 0 ≤ d) (h : d ≤ D) :
    c.shiftAfter η ρ κ μ d ≤ d / 8 + c.floor η κ μ := by
  have h1 := hs.curved
  unfold Scene.shiftAfter Scene.floor
  set A := Real.sqrt ((c.edges.length + c.surfaces.length) * κ / μ)
  have hA : 0 ≤ A := Real.sqrt_nonneg _
  have h2 : d * (ρ * A) ≤ D * (ρ * A) := mul_le_mul_of_nonneg_right h (by positivity)
  have h3 : d * (d * (ρ * A)) ≤ d * (1 / 32) := mul_le_mul_of_nonneg_left (by linarith) h0
  linarith

theorem turnAfter_small (hs : c.Small D η ρ κ μ) (hη : 0 ≤ η) (hρ : 0 ≤ ρ) {d : ℝ} (h0 : 0 ≤ d) (h : d ≤ D) :
    c.turnAfter η ρ κ μ d ≤ d / 3 + 6 / 5 * c.floor η κ μ + 1 / 100000000 := by
  have h1 := shiftAfter_small hs hρ h0 h
  have h2 := shiftAfter_nonneg (c := c) (κ := κ) (μ := μ) hη hρ d
  have h3 := hs.turn
  have h4 := hs.noise
  have h5 : 0 ≤ c.floor η κ μ := by
    unfold Scene.floor
    have := Real.sqrt_nonneg ((c.edges.length + c.surfaces.length) * κ / μ)
    positivity
  unfold Scene.turnAfter
  set B := c.shiftAfter η ρ κ μ d
  set N := c.floor η κ μ
  have h6 : (d + B) ^ 2 ≤ (9 / 8 * d + N) * (17 / 128) := by
    have a1 : d + B ≤ 9 / 8 * d + N := by linarith
    have a2 : d + B ≤ 17 / 128 := by linarith
    rw [sq]
    exact mul_le_mul a1 a2 (by linarith) (by linarith)
  have h7 : d ^ 2 ≤ d * (1 / 16) := by
    rw [sq]
    exact mul_le_mul_of_nonneg_left (by linarith) h0
  linarith

/-- In a small neighbourhood every step takes the error of the rotation to a third of what it was, up to
the noise and 1e-8. -/
theorem rate (h : c.Basin knn edgeMap surfaceMap S D τ η ρ κ μ) (hs : c.Small D η ρ κ μ) (k : ℕ) :
    c.turned D η ρ κ μ k ≤ D / 3 ^ k + 2 * (c.floor η κ μ + 1 / 100000000) ∧
    c.shifted D τ η ρ κ μ (k + 1) ≤ c.turned D η ρ κ μ k / 8 + c.floor η κ μ := by
  obtain ⟨hη, hρ⟩ := h.bounds
  have hN : 0 ≤ c.floor η κ μ := by
    unfold Scene.floor
    have := Real.sqrt_nonneg ((c.edges.length + c.surfaces.length) * κ / μ)
    positivity
  refine ⟨?_, shiftAfter_small hs hρ (h.turned_le k).1 (h.turned_le k).2⟩
  induction k with
  | zero =>
    show D ≤ _
    simp only [pow_zero, div_one]
    linarith
  | succ k ih =>
    rw [turned_succ]
    have h1 := turnAfter_small hs hη hρ (h.turned_le k).1 (h.turned_le k).2
    have h2 : D / 3 ^ (k + 1) = D / 3 ^ k / 3 := by
      rw [pow_succ]
      field_simp
    rw [h2]
    linarith

theorem turn_of_vec (θ : V3) (h1 : vlen θ ≤ 1)
    (h : Rot.norm (angleAxisToQuaternion θ).vec < 1 / 1000) : vlen θ ≤ 1 / 450 := by
  by_cases hs : Rot.norm θ < 1 / 100000000
  · rw [← norm_eq_vlen]
    linarith
  · have hk0 : 0 < Rot.norm θ := lt_of_lt_of_le (by norm_num) (not_lt.1 hs)
    have e : (angleAxisToQuaternion θ).vec = (Real.sin (Rot.norm θ / 2) / Rot.norm θ) • θ := by
      unfold angleAxisToQuaternion
      simp only
      rw [if_neg hs]
      funext i
      fin_cases i <;> simp [Quat.vec] <;> ring
    rw [norm_eq_vlen, e, vlen_smul, ← norm_eq_vlen, abs_div, abs_of_pos hk0, div_mul_cancel₀ _ hk0.ne'] at h
    rw [← norm_eq_vlen] at h1 ⊢
    set k := Rot.norm θ
    have h2 := Real.sin_gt_sub_cube (x := k / 2) (by linarith)
    have h3 := lt_of_le_of_lt (le_abs_self _) h
    have h4 : (k / 2) ^ 3 ≤ (k / 2) * (1 / 4) := by
      have : (k / 2) ^ 2 ≤ 1 / 4 := by nlinarith
      calc (k / 2) ^ 3 = (k / 2) * (k / 2) ^ 2 := by ring
        _ ≤ _ := mul_le_mul_of_nonneg_left this (by linarith)
    linarith

/-- A step of length `θ` shows how far the rotation is from the true one. -/
theorem turned_by_step (h : c.Basin knn edgeMap surfaceMap S D τ η ρ κ μ) (hs : c.Small D η ρ κ μ) {T : Pose}
    {dx : Fin 6 → ℝ} (hT : Close S D τ T) (hu : c.Undoes S D τ η ρ κ μ T dx) {a : ℝ} (ha : vlen (turn dx) ≤ a) :
    Close S (min D (32 / 27 * (a + c.floor η κ μ))) τ T := by
  obtain ⟨hη, hρ⟩ := h.bounds
  have hN : 0 ≤ c.floor η κ μ := by
    unfold Scene.floor
    have := Real.sqrt_nonneg ((c.edges.length + c.surfaces.length) * κ / μ)
    positivity
  have ha0 : 0 ≤ a := (vlen_nonneg _).trans ha
  set N := c.floor η κ μ
  set e := 32 / 27 * (a + N) with he
  have he0 : 0 ≤ e := by positivity
  have hD := h.D_nonneg
  have key : ∀ n : ℕ, Close S (min D (e + D * (5 / 32) ^ n)) τ T := by
    intro n
    induction n with
    | zero =>
      rw [min_eq_left (by simp; exact he0)]
      exact hT
    | succ n ih =>
      set d := min D (e + D * (5 / 32) ^ n) with hd
      have hd0 : 0 ≤ d := le_min hD (by positivity)
      have hdD : d ≤ D := min_le_left _ _
      have hde : d ≤ e + D * (5 / 32) ^ n := min_le_right _ _
      obtain ⟨hQ, hQd, hQS⟩ := turned_of h.true_rotation hT.rotation ih.turned
      have h1 := (hu d τ hd0 hdD (le_refl _) ih).1
      have h2 := shiftAfter_small hs hρ hd0 hdD
      have hnew : ∀ x, vlen (T.linear *ᵥ x - S.linear *ᵥ x) ≤ (e + D * (5 / 32) ^ (n + 1)) * vlen x := by
        intro x
        have hx := vlen_nonneg x
        set Q := T.linearᵀ * S.linear with hQdef
        have e1 : T.linear *ᵥ x - S.linear *ᵥ x = T.linear *ᵥ (x - Q *ᵥ x) := by
          rw [mulVec_sub, mulVec_mulVec, hQS]
        have e2 : x - Q *ᵥ x = -((Q *ᵥ x - x - axial Q ⨯₃ x) + axial Q ⨯₃ x) := by abel
        rw [e1, vlen_rot hT.rotation, e2, vlen_neg]
        have b1 := vlen_add_le (Q *ᵥ x - x - axial Q ⨯₃ x) (axial Q ⨯₃ x)
        have b2 := rot_second_order hQ hd0 hQd x
        have b3 := vlen_cross_le (axial Q) x
        have b4 : vlen (axial Q) ≤ a + (d / 8 + N) := by
          have b5 := vlen_sub_le (turn dx) (turn dx - axial Q)
          rw [sub_sub_cancel] at b5
          linarith
        have b6 := mul_le_mul_of_nonneg_right b4 hx
        have b7 : d ^ 2 ≤ d * (1 / 16) := by
          rw [sq]
          exact mul_le_mul_of_nonneg_left (hdD.trans hs.turn) hd0
        have b8 : d ^ 2 / 2 + (a + (d / 8 + N)) ≤ e + D * (5 / 32) ^ (n + 1) := by
          have b10 : (5 / 32 : ℝ) ^ (n + 1) = (5 / 32) ^ n * (5 / 32) := pow_succ _ _
          rw [b10]
          linarith
        have b9 := mul_le_mul_of_nonneg_right b8 hx
        linarith
      refine ⟨hT.rotation, fun x => ?_, hT.shifted⟩
      rcases min_choice D (e + D * (5 / 32) ^ (n + 1)) with hm | hm
      · rw [hm]
        exact hT.turned x
      · rw [hm]
        exact hnew x
  refine ⟨hT.rotation, fun x => ?_, hT.shifted⟩
  have hx := vlen_nonneg x
  rcases min_choice D e with hm | hm
  · rw [hm]
    exact hT.turned x
  · rw [hm]
    refine le_of_forall_pos_le_add fun ε hε => ?_
    obtain ⟨n, hn⟩ := exists_pow_lt_of_lt_one (show 0 < ε / (D * vlen x + 1) by positivity)
      (show (5 / 32 : ℝ) < 1 by norm_num)
    rw [lt_div_iff₀ (by positivity)] at hn
    have h1 := (key n).turned x
    have h2 := mul_le_mul_of_nonneg_right (min_le_right D (e + D * (5 / 32) ^ n)) hx
    have h3 : 0 ≤ (5 / 32 : ℝ) ^ n := by positivity
    nlinarith

/-- C146: in a small neighbourhood every improvement takes the error of the rotation to a third of what it was,
up to the noise and 1e-8. With six iterations or more and little noise the result is a success. If the step was
found to have converged, the result is wrong by at most a thousandth and twice the floor of the noise. -/
theorem C146_converges {nth : Nth} (hn : Lib.IsNthElement nth) {llt : Llt} (hllt : LltSpec llt) {L : Libs}
    (he : EigSpec L.eig) (hqr : QrSpec L.qr) (edgeMap surfaceMap surfaceScan : List V3)
    (c : Scene) (hs : L.downsample surfaceScan = c.surfaces) (S : Pose) (D τ η ρ κ μ : ℝ)
    (h : c.Basin L.knn edgeMap surfaceMap S D τ η ρ κ μ) (hsmall : c.Small D η ρ κ μ) (T : Pose) (hT : Close S D τ T)
    (maxIter : ℕ) (hmax : 1 ≤ maxIter) :
    ∃ r k, run nth llt (make L edgeMap surfaceMap nNeighbors c.edges surfaceScan) maxIter T = .ok r ∧
      1 ≤ k ∧ k ≤ maxIter ∧
      Close S (D / 3 ^ k + 2 * (c.floor η κ μ + 1 / 10 ^ 8)) (D / 3 ^ k + 2 * (c.floor η κ μ + 1 / 10 ^ 8)) r.pose ∧
      (r.success = true ∨ r.message = .maximumIteration ∧ k = maxIter) ∧
      (6 ≤ maxIter → c.floor η κ μ ≤ 1 / 5000 → r.success = true ∧ k ≤ 6) ∧
      (r.message = .converged →
        Close S (1 / 1000 + 2 * c.floor η κ μ) (1 / 1000 + 2 * c.floor η κ μ) r.pose) := by
  obtain ⟨hη, hρ⟩ := h.bounds
  have hN : 0 ≤ c.floor η κ μ := by
    unfold Scene.floor
    have := Real.sqrt_nonneg ((c.edges.length + c.surfaces.length) * κ / μ)
    positivity
  have hD := h.D_nonneg
  have hD16 := hsmall.turn
  obtain ⟨hq, hR⟩ := C71_matrix_to_quaternion _ hT.rotation
  have hpose : makePose (Quat.ofMatrix T.linear) T.translation = T := by
    unfold makePose
    rw [hR]
  obtain ⟨r, k, r1, r2, -, r4, r5, r6, r7, r8⟩ := arrive_loop hn hllt he hqr hs h
    (fun T' => Close S (1 / 1000 + 2 * c.floor η κ μ) (1 / 1000 + 2 * c.floor η κ μ) T')
    (by
      intro T dx hT hu hc
      have h1 := (within_moved h.true_rotation hu hD (le_refl _) (le_refl _) hT).2.1
      have h2 := turn_of_vec (turn dx) (h1.trans h.step_le) hc.1
      have h3 := turned_by_step h hsmall hT hu h2
      set d := min D (32 / 27 * (1 / 450 + c.floor η κ μ))
      have hd0 : 0 ≤ d := le_min hD (by positivity)
      have hdD : d ≤ D := min_le_left _ _
      have hde : d ≤ 32 / 27 * (1 / 450 + c.floor η κ μ) := min_le_right _ _
      have h4 := (within_moved h.true_rotation hu hd0 hdD (le_refl _) h3).1
      refine h4.mono ?_ ?_
      · have := turnAfter_small hsmall hη hρ hd0 hdD
        linarith
      · have := shiftAfter_small hsmall hρ hd0 hdD
        linarith)
    maxIter 0 0 (Quat.ofMatrix T.linear) T.translation dblMax dblMax hq (by rw [hR])
    (by rw [hpose]; exact hT) (Or.inr ⟨rfl, rfl, hmax⟩)
  have hrun : run nth llt (make L edgeMap surfaceMap nNeighbors c.edges surfaceScan) maxIter T = .ok r := by
    unfold Opt.run
    simp only
    rw [if_neg (by omega), Int.toNat_natCast]
    exact r1
  refine ⟨r, k, hrun, r2, by omega, r5.mono ?_ ?_, by simpa using r6, fun m1 m2 => ?_, r7⟩
  · have := (rate h hsmall k).1
    norm_num at this ⊢
    linarith
  · obtain ⟨k, rfl⟩ : ∃ i, k = i + 1 := ⟨k - 1, by omega⟩
    obtain ⟨a1, a2⟩ := rate h hsmall k
    have e : D / 3 ^ (k + 1) = D / 3 ^ k / 3 := by
      rw [pow_succ]
      field_simp
    have e0 : 0 ≤ D / 3 ^ k := by positivity
    rw [e]
    norm_num at a1 ⊢
    linarith
  · obtain ⟨a4, b4⟩ := rate h hsmall 4
    obtain ⟨a5, b5⟩ := rate h hsmall 5
    norm_num at a4 a5 b4 b5
    exact r8 5 (by omega) (by omega) (by norm_num; linarith) (by norm_num; linarith)

/-- Surroundings that are seen clearly from the true pose have a neighbourhood as the theorems need it. -/
theorem basin_clear {L : Libs} (he : EigSpec L.eig) (hqr : QrSpec L.qr) {c : Scene}
    {edgeMap surfaceMap surfaceScan : List V3} (hs : L.downsample surfaceScan = c.surfaces) {S : Pose} {g μ D τ ρ : ℝ}
    (h : c.Clear L.knn edgeMap surfaceMap S g μ) (hρ : ∀ p ∈ c.edges ++ c.surfaces, vlen p ≤ ρ)
    (hg : ρ * D + τ ≤ g) (hD : 1 / 50000000 ≤ D) (hτ : D ≤ τ)
    (htr : 3 * D < S.linear 0 0 + S.linear 1 1 + S.linear 2 2)
    (hseen : (c.edges.length + c.surfaces.length) * (64 * D ^ 2 * ρ ^ 2) * μ ≤ (μ - 1 / 10) ^ 2 / 2)
    (hfin : 8 * (c.edges.length + c.surfaces.length) * (ρ * D + τ + 0) ^ 2 ≤ dblMax)
    (hsmall : c.Small D 0 ρ (1 + 2 * 10 ^ 8 * (ρ * D + τ)) (1 / 10)) :
    c.Basin L.knn edgeMap surfaceMap S D τ 0 ρ (1 + 2 * 10 ^ 8 * (ρ * D + τ)) (1 / 10) := by
  have hD0 : 0 ≤ D := le_trans (by norm_num) hD
  have hτ0 : 0 ≤ τ := hD0.trans hτ
  have hne : c.edges ≠ [] ∨ c.surfaces ≠ [] := by
    by_contra hcon
    rw [not_or, not_not, not_not] at hcon
    have := h.observed 1 0 0
    rw [Scene.rates, hcon.1, hcon.2] at this
    simp [sqLen] at this
    linarith [h.μ_min]
  have hρ0 : 0 ≤ ρ := by
    rcases hne with hn | hn
    · obtain ⟨p, hp⟩ := List.exists_mem_of_ne_nil _ hn
      exact (vlen_nonneg _).trans (hρ p (List.mem_append_left _ hp))
    · obtain ⟨p, hp⟩ := List.exists_mem_of_ne_nil _ hn
      exact (vlen_nonneg _).trans (hρ p (List.mem_append_right _ hp))
  have near : ∀ T, Close S D τ T →
      c.Near L.knn edgeMap surfaceMap S T D τ 0 ρ (1 + 2 * 10 ^ 8 * (ρ * D + τ)) (1 / 10) := fun T hT =>
    near_clear he hqr hs h hT.rotation hD0 hT.turned hT.shifted hρ0 hρ hg hseen hfin
  have hfloor : c.floor 0 (1 + 2 * 10 ^ 8 * (ρ * D + τ)) (1 / 10) = 0 := by
    unfold Scene.floor
    rw [mul_zero, zero_mul]
  have hκ : 1 ≤ 1 + 2 * 10 ^ 8 * (ρ * D + τ) := by
    have : 0 ≤ 2 * 10 ^ 8 * (ρ * D + τ) := by positivity
    linarith
  refine ⟨h.proper, hne, h.rotation, hD0, fun e he => by rw [h.exact e he]; norm_num, hρ, fun T hT => (near T hT).edges,
    fun T hT => (near T hT).surfaces, le_refl _, fun T hT => (near T hT).observed, hκ, ?_, hfin,
    C146_steady S D τ (by linarith [hsmall.turn]) htr, ?_, ?_⟩
  · intro T hT s hsc e he e' he'
    have hnn : ∀ e ∈ c.offsets T, 0 ≤ e := by
      intro e he
      rcases List.mem_append.1 he with he | he
      · obtain ⟨p, -, rfl⟩ := List.mem_map.1 he
        exact mul_nonneg (by norm_num) (vlen_nonneg _)
      · obtain ⟨p, -, rfl⟩ := List.mem_map.1 he
        exact div_nonneg (abs_nonneg _) (vlen_nonneg _)
    have hs0 : 0 ≤ s := (isScale_bounds (hi := ((c.offsets T).map (· ^ 2)).sum) (by
      have hsq : ∀ e ∈ (c.offsets T).map (· ^ 2), 0 ≤ e := by
        intro e he
        obtain ⟨f, -, rfl⟩ := List.mem_map.1 he
        exact sq_nonneg _
      intro e he
      exact ⟨hsq e he, List.single_le_sum hsq e he⟩) hsc).1
    have h2 := pow_le_pow_left₀ (hnn e he) ((near T hT).ratio e he e' he') 2
    rw [mul_pow] at h2
    refine h2.trans (mul_le_mul_of_nonneg_left ?_ (sq_nonneg _))
    rcases le_total e' (1 / 10 ^ 8) with h3 | h3
    · rw [max_eq_right h3]
      refine le_trans ?_ (le_max_right _ _)
      norm_num
      linarith
    · rw [max_eq_left h3]
      exact le_max_left _ _
  · have := turnAfter_small hsmall (le_refl _) hρ0 hD0 (le_refl _)
    rw [hfloor] at this
    linarith
  · have := shiftAfter_small hsmall hρ0 hD0 (le_refl _)
    rw [hfloor] at this
    linarith

theorem exScene_extent : ∀ p ∈ exScene.edges ++ exScene.surfaces, vlen p ≤ 11 := by
  intro p hp
  refine vlen_le_of_sq _ (by norm_num) ?_
  simp only [exScene, List.cons_append, List.nil_append, List.mem_cons, List.not_mem_nil, or_false] at hp
  rcases hp with rfl | rfl | rfl | rfl | rfl | rfl | rfl | rfl <;> simp [sqLen, Fin.sum_univ_three] <;> norm_num

theorem exScene_small : exScene.Small (1 / 20000000) 0 11 (1 + 2 * 10 ^ 8 * (11 * (1 / 20000000) + 1 / 10)) (1 / 10) := by
  refine ⟨?_, by norm_num, by unfold Scene.floor; norm_num⟩
  have h : Real.sqrt ((exScene.edges.length + exScene.surfaces.length) *
      (1 + 2 * 10 ^ 8 * (11 * (1 / 20000000) + 1 / 10)) / (1 / 10)) ≤ 50000 := by
    refine Real.sqrt_le_sqrt (y := 50000 ^ 2) ?_ |>.trans (le_of_eq (Real.sqrt_sq (by norm_num)))
    norm_num [exScene]
  linarith

theorem exScene_basin : exScene.Basin exKnn exPoles exWall ⟨1, 0⟩ (1 / 20000000) (1 / 10) 0 11
    (1 + 2 * 10 ^ 8 * (11 * (1 / 20000000) + 1 / 10)) (1 / 10) := by
  refine basin_clear (L := exLibs) (surfaceScan := exScene.surfaces) exEig_spec exQr_spec rfl exScene_clear
    exScene_extent (by norm_num) (by norm_num) (by norm_num) ?_ ?_ ?_ exScene_small
  · simp
    norm_num
  · norm_num [exScene]
  · have := dblMax_large
    norm_num [exScene]
    linarith

/-- The scene of C134, started up to ten centimetres beside the true place: from more than a few millimetres the
first step is too long for the test of convergence, and more iterations are needed; twenty are enough. -/
example {nth : Nth} (hn : Lib.IsNthElement nth) {llt : Llt} (hllt : LltSpec llt) (t : V3) (ht : vlen t ≤ 1 / 10) :
    ∃ r, run nth llt (make exLibs exPoles exWall nNeighbors exScene.edges exScene.surfaces) 20 ⟨1, t⟩ = .ok r ∧
      r.success = true ∧ vlen r.pose.translation ≤ 1 / 10000000 := by
  obtain ⟨r, k, r1, r2, -, r4, -, r6, -⟩ := C146_converges hn hllt (L := exLibs) exEig_spec exQr_spec exPoles exWall
    exScene.surfaces exScene rfl ⟨1, 0⟩ _ _ _ _ _ _ exScene_basin exScene_small ⟨1, t⟩
    ⟨⟨by simp, by simp⟩, fun x => by rw [sub_self, vlen_zero]; have := vlen_nonneg x; positivity,
      by rw [sub_zero]; exact ht⟩ 20 (by norm_num)
  have hf : exScene.floor 0 (1 + 2 * 10 ^ 8 * (11 * (1 / 20000000) + 1 / 10)) (1 / 10) = 0 := by
    unfold Scene.floor
    rw [mul_zero, zero_mul]
  refine ⟨r, r1, (r6 (by norm_num) (by rw [hf]; norm_num)).1, ?_⟩
  have h1 := r4.shifted
  rw [sub_zero, hf] at h1
  have h2 : (1 : ℝ) ≤ 3 ^ k := one_le_pow₀ (by norm_num)
  have h3 : (1 / 20000000 : ℝ) / 3 ^ k ≤ 1 / 20000000 := div_le_self (by norm_num) h2
  norm_num at h1 h3 ⊢
  linarith

end

end Verif.Loam
