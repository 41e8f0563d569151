/-
C133: near the true pose, one step of the alignment squares the error.
-/
import Verif.Props.C129
import Mathlib.Analysis.InnerProductSpace.PiL2
import Mathlib.Analysis.SpecialFunctions.Trigonometric.Bounds

set_option autoImplicit false

namespace Verif.Align

open Matrix Verif.Rot Verif.Opt Verif.Loc

/-! ### Lengths -/

theorem vlen_eq_norm {n : ℕ} (v : Fin n → ℝ) : vlen v = ‖WithLp.toLp 2 v‖ := by
  rw [EuclideanSpace.norm_eq, vlen]
  simp

theorem vlen_add_le {n : ℕ} (v w : Fin n → ℝ) : vlen (v + w) ≤ vlen v + vlen w := by
  rw [vlen_eq_norm, vlen_eq_norm, vlen_eq_norm, WithLp.toLp_add]
  exact norm_add_le _ _

theorem vlen_neg {n : ℕ} (v : Fin n → ℝ) : vlen (-v) = vlen v := by simp [vlen]

theorem vlen_sub_le {n : ℕ} (v w : Fin n → ℝ) : vlen (v - w) ≤ vlen v + vlen w := by
  rw [sub_eq_add_neg, ← vlen_neg w]
  exact vlen_add_le _ _

theorem vlen_smul {n : ℕ} (c : ℝ) (v : Fin n → ℝ) : vlen (c • v) = |c| * vlen v := by
  rw [vlen_eq_norm, vlen_eq_norm, WithLp.toLp_smul, norm_smul, Real.norm_eq_abs]

theorem vlen_rot {R : Matrix (Fin 3) (Fin 3) ℝ} (hR : IsRotation R) (v : V3) : vlen (R *ᵥ v) = vlen v := by
  have := rot_sqLen hR v
  unfold sqLen at this
  rw [vlen, vlen, this]

theorem vlen_rotT {R : Matrix (Fin 3) (Fin 3) ℝ} (hR : IsRotation R) (v : V3) : vlen (Rᵀ *ᵥ v) = vlen v := by
  rw [← vlen_rot hR, rot_inv hR]

theorem vlen_cross_le (a b : V3) : vlen (a ⨯₃ b) ≤ vlen a * vlen b := by
  refine vlen_le_of_sq _ (mul_nonneg (vlen_nonneg _) (vlen_nonneg _)) ?_
  rw [mul_pow, vlen_sq_eq, vlen_sq_eq]
  exact sqLen_cross_le a b

theorem norm_eq_vlen {n : ℕ} (v : Fin n → ℝ) : Rot.norm v = vlen v := by
  simp [Rot.norm, vlen, dotProduct, sq]

/-! ### A rotation is, to second order, its antisymmetric part -/

/-- The vector of the antisymmetric part of a matrix. -/
noncomputable def axial (Q : Matrix (Fin 3) (Fin 3) ℝ) : V3 :=
  ![(Q 2 1 - Q 1 2) / 2, (Q 0 2 - Q 2 0) / 2, (Q 1 0 - Q 0 1) / 2]

theorem axial_cross (Q : Matrix (Fin 3) (Fin 3) ℝ) (x : V3) :
    axial Q ⨯₃ x = (1 / 2 : ℝ) • (Q *ᵥ x - Qᵀ *ᵥ x) := by
  rw [cross_apply]
  funext i
  fin_cases i <;> simp [axial, mulVec, dotProduct, Fin.sum_univ_succ] <;> ring

theorem rot_second_order {Q : Matrix (Fin 3) (Fin 3) ℝ} (hQ : IsRotation Q) {d : ℝ} (hd0 : 0 ≤ d)
    (hd : ∀ x, vlen (Q *ᵥ x - x) ≤ d * vlen x) (x : V3) :
    vlen (Q *ᵥ x - x - axial Q ⨯₃ x) ≤ d ^ 2 / 2 * vlen x := by
  have hd' : ∀ x, vlen (Qᵀ *ᵥ x - x) ≤ d * vlen x := by
    intro x
    have h := hd (Qᵀ *ᵥ x)
    rw [rot_inv hQ, vlen_rotT hQ] at h
    rwa [← vlen_neg, neg_sub]
  have e : Q *ᵥ x - x - axial Q ⨯₃ x = (-(1 / 2) : ℝ) • (Qᵀ *ᵥ (Q *ᵥ x - x) - (Q *ᵥ x - x)) := by
    rw [axial_cross, mulVec_sub, mulVec_mulVec, hQ.1, one_mulVec]
    funext i
    simp only [Pi.sub_apply, Pi.smul_apply, smul_eq_mul]
    ring
  rw [e, vlen_smul, abs_neg, abs_of_pos (by norm_num : (0 : ℝ) < 1 / 2)]
  have h1 := hd' (Q *ᵥ x - x)
  have h2 := mul_le_mul_of_nonneg_left (hd x) hd0
  nlinarith

theorem exists_orth (a : V3) : ∃ x, vlen x = 1 ∧ a ⬝ᵥ x = 0 := by
  by_cases h : a 0 = 0 ∧ a 1 = 0
  · refine ⟨![1, 0, 0], by simp [vlen, Fin.sum_univ_succ], ?_⟩
    simp [dotProduct, Fin.sum_univ_succ, h.1]
  · have hp : 0 < a 0 ^ 2 + a 1 ^ 2 := by
      by_contra hn
      apply h
      constructor <;> nlinarith [sq_nonneg (a 0), sq_nonneg (a 1)]
    have hs := Real.sqrt_pos.2 hp
    refine ⟨![-(a 1) / Real.sqrt (a 0 ^ 2 + a 1 ^ 2), a 0 / Real.sqrt (a 0 ^ 2 + a 1 ^ 2), 0], ?_, ?_⟩
    · rw [vlen, Real.sqrt_eq_one]
      simp [Fin.sum_univ_succ, div_pow, Real.sq_sqrt hp.le]
      field_simp
      ring
    · simp [dotProduct, Fin.sum_univ_succ]
      field_simp
      ring

theorem axial_le {Q : Matrix (Fin 3) (Fin 3) ℝ} (hQ : IsRotation Q) {d : ℝ}
    (hd : ∀ x, vlen (Q *ᵥ x - x) ≤ d * vlen x) : vlen (axial Q) ≤ d := by
  obtain ⟨x, hx, ho⟩ := exists_orth (axial Q)
  have h1 : vlen (axial Q ⨯₃ x) = vlen (axial Q) := by
    have e : sqLen (axial Q ⨯₃ x) = sqLen (axial Q) * sqLen x - (axial Q ⬝ᵥ x) ^ 2 := by
      rw [cross_apply]
      simp [sqLen, dotProduct, Fin.sum_univ_succ]
      ring
    have hx2 : sqLen x = 1 := by rw [← vlen_sq_eq, hx]; norm_num
    rw [ho, hx2] at e
    have : sqLen (axial Q ⨯₃ x) = sqLen (axial Q) := by rw [e]; ring
    unfold sqLen at this
    rw [vlen, vlen, this]
  have h2 : vlen (axial Q ⨯₃ x) ≤ d := by
    rw [axial_cross, vlen_smul, abs_of_pos (by norm_num : (0 : ℝ) < 1 / 2)]
    have h3 := hd x
    have h4 := hd (Qᵀ *ᵥ x)
    rw [rot_inv hQ, vlen_rotT hQ] at h4
    have h5 : Q *ᵥ x - Qᵀ *ᵥ x = (Q *ᵥ x - x) + (x - Qᵀ *ᵥ x) := by abel
    have h6 := vlen_add_le (Q *ᵥ x - x) (x - Qᵀ *ᵥ x)
    rw [h5]
    rw [hx] at h3 h4
    linarith
  rwa [h1] at h2

/-! ### The rotation appended by a step -/

theorem sin_second (t : ℝ) (ht : 0 ≤ t) : |Real.sin t - t| ≤ t ^ 2 / 2 := by
  have h1 : Real.sin t ≤ t := Real.sin_le ht
  rw [abs_of_nonpos (by linarith)]
  rcases ht.lt_or_eq with h0 | h0
  · have h2 := Real.sin_gt_sub_cube h0
    have h3 := Real.neg_one_le_sin t
    by_cases h : t ≤ 3
    · nlinarith [mul_nonneg (sq_nonneg t) (sub_nonneg.2 h)]
    · nlinarith
  · rw [← h0]; simp

theorem cos_second (t : ℝ) : |1 - Real.cos t| ≤ t ^ 2 / 2 := by
  rw [abs_of_nonneg (by linarith [Real.cos_le_one t])]
  linarith [Real.one_sub_sq_div_two_le_cos (x := t)]

theorem exp_second_order (θ x : V3) :
    vlen ((angleAxisToQuaternion θ).toRotationMatrix *ᵥ x - x - θ ⨯₃ x) ≤
      (vlen θ ^ 2 + 1 / 100000000) * vlen x := by
  have hx := vlen_nonneg x
  have hc := vlen_cross_le θ x
  by_cases h : Rot.norm θ < 1 / 100000000
  · rw [C51_near_zero θ h, show (⟨1, 0, 0, 0⟩ : Quat).toRotationMatrix = 1 by
      ext i j
      fin_cases i <;> fin_cases j <;> simp [Quat.toRotationMatrix], one_mulVec, sub_self, zero_sub, vlen_neg]
    rw [norm_eq_vlen] at h
    refine hc.trans (mul_le_mul_of_nonneg_right ?_ hx)
    nlinarith [sq_nonneg (vlen θ)]
  · have hk := not_lt.1 h
    have hr := C51_rodrigues θ hk x
    simp only at hr
    rw [← toRotationMatrix_sandwich _ (C51_unit θ)] at hr
    rw [hr]
    set k := Rot.norm θ with hkd
    have hk0 : 0 < k := lt_of_lt_of_le (by norm_num) hk
    set u : V3 := k⁻¹ • θ with hu
    have hkv : vlen θ = k := by rw [hkd, norm_eq_vlen]
    have hul : vlen u = 1 := by
      rw [hu, vlen_smul, abs_of_pos (inv_pos.2 hk0), hkv, inv_mul_cancel₀ hk0.ne']
    have huu : u ⬝ᵥ u = 1 := by rw [dot_self_eq, hul]; norm_num
    have hcr : θ ⨯₃ x = k • (u ⨯₃ x) := by
      rw [hu, map_smul, LinearMap.smul_apply, smul_smul, mul_inv_cancel₀ hk0.ne', one_smul]
    have hdouble : u ⨯₃ (u ⨯₃ x) = (u ⬝ᵥ x) • u - x := by
      rw [show u ⨯₃ (u ⨯₃ x) = (u ⬝ᵥ x) • u - (u ⬝ᵥ u) • x by
        rw [cross_apply, cross_apply]
        funext i
        fin_cases i <;> simp [dotProduct, Fin.sum_univ_succ] <;> ring, huu, one_smul]
    clear_value u
    have e : Real.cos k • x + Real.sin k • (u ⨯₃ x) + ((1 - Real.cos k) * (u ⬝ᵥ x)) • u - x - θ ⨯₃ x =
        (Real.sin k - k) • (u ⨯₃ x) + (1 - Real.cos k) • (u ⨯₃ (u ⨯₃ x)) := by
      rw [hdouble]
      rw [hcr]
      funext i
      simp only [Pi.sub_apply, Pi.add_apply, Pi.smul_apply, smul_eq_mul]
      ring
    rw [e, hkv]
    have h1 : vlen (u ⨯₃ x) ≤ vlen x := by have := vlen_cross_le u x; rwa [hul, one_mul] at this
    have h2 : vlen (u ⨯₃ (u ⨯₃ x)) ≤ vlen x := by
      have := vlen_cross_le u (u ⨯₃ x)
      rw [hul, one_mul] at this
      exact this.trans h1
    refine (vlen_add_le _ _).trans ?_
    rw [vlen_smul, vlen_smul]
    have h3 := mul_le_mul (sin_second k hk0.le) h1 (vlen_nonneg _) (by positivity)
    have h4 := mul_le_mul (cos_second k) h2 (vlen_nonneg _) (by positivity)
    nlinarith

theorem vec_le (θ : V3) : Rot.norm (angleAxisToQuaternion θ).vec ≤ vlen θ := by
  rw [norm_eq_vlen]
  by_cases h : Rot.norm θ < 1 / 100000000
  · rw [C51_near_zero θ h]
    have : (⟨1, 0, 0, 0⟩ : Quat).vec = 0 := by
      funext i
      fin_cases i <;> rfl
    rw [this, vlen_zero]
    exact vlen_nonneg _
  · have hk0 : 0 < Rot.norm θ := lt_of_lt_of_le (by norm_num) (not_lt.1 h)
    have e : (angleAxisToQuaternion θ).vec = (Real.sin (Rot.norm θ / 2) / Rot.norm θ) • θ := by
      unfold angleAxisToQuaternion
      simp only
      rw [if_neg h]
      funext i
      fin_cases i <;> simp [Quat.vec] <;> ring
    rw [e, vlen_smul, norm_eq_vlen, abs_div]
    rw [norm_eq_vlen] at hk0
    rw [abs_of_pos hk0, div_mul_cancel₀ _ hk0.ne']
    have h1 := Real.abs_sin_le_abs (x := vlen θ / 2)
    rw [abs_of_pos (by linarith : 0 < vlen θ / 2)] at h1
    linarith

/-! ### One step -/

theorem median_bounds {l : List ℝ} {m lo hi : ℝ} (h : ∀ e ∈ l, lo ≤ e ∧ e ≤ hi) (hm : Lib.IsMedian l m) :
    lo ≤ m ∧ m ≤ hi := by
  obtain ⟨a, b, ha, hb, rfl⟩ := hm
  have h1 := h a ha.1
  have h2 := h b hb.1
  constructor <;> linarith [h1.1, h1.2, h2.1, h2.2]

theorem isScale_bounds {l : List ℝ} {s hi : ℝ} (h : ∀ e ∈ l, 0 ≤ e ∧ e ≤ hi) (hs : IsScale l s) :
    0 ≤ s ∧ s ≤ 2 * hi := by
  obtain ⟨m, d, hm, hd, rfl⟩ := hs
  have h1 := median_bounds h hm
  have h2 : ∀ e ∈ l.map fun x => |x - m|, 0 ≤ e ∧ e ≤ hi := by
    intro e he
    obtain ⟨x, hx, rfl⟩ := List.mem_map.1 he
    have h3 := h x hx
    exact ⟨abs_nonneg _, abs_le.2 ⟨by linarith [h1.1, h1.2, h3.1, h3.2], by linarith [h1.1, h1.2, h3.1, h3.2]⟩⟩
  have h3 := median_bounds h2 hd
  constructor <;> nlinarith [h3.1, h3.2, h1.1, h1.2]

theorem huber_ratio {e e' κ k s : ℝ} (hk : 0 < k) (hs : 0 < s) (hκ : 1 ≤ κ)
    (he : e ≤ κ ^ 2 * max e' (k ^ 2 * s)) :
    huberDerivative (e' / s) k ≤ κ * huberDerivative (e / s) k := by
  have hw := ((C45_weight k hk).1 (e' / s)).2
  unfold huberDerivative
  by_cases h : e / s < k * k
  · rw [if_pos h]
    unfold huberDerivative at hw
    linarith
  · rw [if_neg h]
    have he0 : 0 < e / s := lt_of_lt_of_le (mul_pos hk hk) (not_lt.1 h)
    have hr := Real.sqrt_pos.2 he0
    have hle : e / s ≤ κ ^ 2 * max (e' / s) (k ^ 2) := by
      rw [div_le_iff₀ hs, mul_assoc, max_mul_of_nonneg _ _ hs.le, div_mul_cancel₀ _ hs.ne']
      exact he
    have hsq : Real.sqrt (e / s) ≤ κ * Real.sqrt (max (e' / s) (k ^ 2)) := by
      rw [← Real.sqrt_sq (by linarith : 0 ≤ κ), ← Real.sqrt_mul (sq_nonneg κ)]
      exact Real.sqrt_le_sqrt hle
    split_ifs with h'
    · rw [max_eq_right (by nlinarith), Real.sqrt_sq hk.le] at hsq
      rw [mul_div_assoc', le_div_iff₀ hr]
      linarith
    · have h2 : k * k ≤ e' / s := not_lt.1 h'
      have he0' : 0 < e' / s := lt_of_lt_of_le (mul_pos hk hk) h2
      have hr' := Real.sqrt_pos.2 he0'
      rw [max_eq_left (by nlinarith)] at hsq
      rw [mul_div_assoc', div_le_div_iff₀ hr' hr]
      nlinarith

/-- The minimiser of a weighted linear problem is as close to any other point as that point's residuals are
small. -/
theorem minimiser_close (M : Matrix (Fin 7) (Fin 6) ℝ) (ws : List ℝ) (bs : List Block)
    (hl : ws.length = bs.length) {κ ε : ℝ} (hκ : 0 < κ) (hpos : ∀ w ∈ ws, 0 < w)
    (hw : ∀ w ∈ ws, ∀ w' ∈ ws, w' ≤ κ * w) (dx x : Fin 6 → ℝ)
    (hmin : cost M (ws.zip bs) dx ≤ cost M (ws.zip bs) x)
    (hx : ∀ b ∈ bs, sqLen (b.J *ᵥ (M *ᵥ x) + b.r) ≤ ε) :
    (bs.map fun b => sqLen (b.J *ᵥ (M *ᵥ (dx - x)))).sum ≤ 4 * κ * bs.length * ε := by
  rcases List.eq_nil_or_concat ws with hnil | ⟨ws', w', hc⟩
  · rw [hnil] at hl
    rw [List.length_eq_zero_iff.1 hl.symm]
    simp
  obtain ⟨w0, hm0, hmin0⟩ := ws.toFinset.exists_min_image id ⟨w', by simp [hc]⟩
  rw [List.mem_toFinset] at hm0
  have hlow : ∀ w ∈ ws, w0 ≤ w := fun w h => hmin0 w (List.mem_toFinset.2 h)
  have hw0 := hpos w0 hm0
  have hcx : cost M (ws.zip bs) x ≤ bs.length * (κ * w0 * ε) := by
    have hz : (ws.zip bs).length = bs.length := by simp [hl]
    rw [← hz]
    refine sum_le_length _ _ _ ?_
    intro p hp
    obtain ⟨h1, h2⟩ := List.of_mem_zip hp
    exact mul_le_mul (hw w0 hm0 _ h1) (hx _ h2) (sqLen_nonneg _) (mul_pos hκ hw0).le
  have hsum : (bs.map fun b => sqLen (b.J *ᵥ (M *ᵥ (dx - x)))).sum =
      ((ws.zip bs).map fun p => sqLen (p.2.J *ᵥ (M *ᵥ (dx - x)))).sum := by
    conv_lhs => rw [← List.map_snd_zip (l₁ := ws) (l₂ := bs) (by omega), List.map_map]
    rfl
  have hle : w0 * ((ws.zip bs).map fun p => sqLen (p.2.J *ᵥ (M *ᵥ (dx - x)))).sum ≤
      ((ws.zip bs).map fun p => 2 * (p.1 * sqLen (p.2.J *ᵥ (M *ᵥ dx) + p.2.r)) +
        2 * (p.1 * sqLen (p.2.J *ᵥ (M *ᵥ x) + p.2.r))).sum := by
    rw [← List.sum_map_mul_left]
    refine List.sum_le_sum fun p hp => ?_
    obtain ⟨h1, -⟩ := List.of_mem_zip hp
    have e : p.2.J *ᵥ (M *ᵥ (dx - x)) = (p.2.J *ᵥ (M *ᵥ dx) + p.2.r) - (p.2.J *ᵥ (M *ᵥ x) + p.2.r) := by
      rw [mulVec_sub, mulVec_sub]
      abel
    have h2 : ∀ {n : ℕ} (a b : Fin n → ℝ), sqLen (a - b) ≤ 2 * sqLen a + 2 * sqLen b := by
      intro n a b
      unfold sqLen
      rw [Finset.mul_sum, Finset.mul_sum, ← Finset.sum_add_distrib]
      refine Finset.sum_le_sum fun i _ => ?_
      simp only [Pi.sub_apply]
      nlinarith [sq_nonneg (a i + b i)]
    have h3 := h2 (p.2.J *ᵥ (M *ᵥ dx) + p.2.r) (p.2.J *ᵥ (M *ᵥ x) + p.2.r)
    rw [← e] at h3
    have h4 := sqLen_nonneg (p.2.J *ᵥ (M *ᵥ dx) + p.2.r)
    have h5 := sqLen_nonneg (p.2.J *ᵥ (M *ᵥ x) + p.2.r)
    have h6 := hlow _ h1
    nlinarith [mul_nonneg h4 (sub_nonneg.2 h6), mul_nonneg h5 (sub_nonneg.2 h6)]
  rw [hsum]
  rw [List.sum_map_add, List.sum_map_mul_left, List.sum_map_mul_left] at hle
  have hle' : w0 * ((ws.zip bs).map fun p => sqLen (p.2.J *ᵥ (M *ᵥ (dx - x)))).sum ≤
      2 * cost M (ws.zip bs) dx + 2 * cost M (ws.zip bs) x := hle
  refine le_of_mul_le_mul_left ?_ hw0
  calc _ ≤ 2 * cost M (ws.zip bs) dx + 2 * cost M (ws.zip bs) x := hle'
    _ ≤ 4 * (bs.length * (κ * w0 * ε)) := by linarith
    _ = _ := by ring

/-- Specification: the squared distances of the pairs under a pose. -/
noncomputable def errorsAt (source target : List V3) (T : Pose) : List ℝ :=
  (source.zip target).map fun p => vlen (T.apply p.1 - p.2) ^ 2

/-- Specification of the situation: `S` is the true pose, under which every pair matches up to `η`; `T` is the
pose to start from, its rotation wrong by `d` and its translation by `τ`; the source points reach as far as
`ρ` and determine the pose (`μ`, and enough for the degeneracy test); under `T` no pair is more than
`κ` times as far apart as another, or as 1.345 times the robust scale if that is more. -/
structure Situation (source target : List V3) (S T : Pose) (d τ η ρ κ μ : ℝ) : Prop where
  length : source.length = target.length
  true_rotation : IsRotation S.linear
  rotation : IsRotation T.linear
  d_nonneg : 0 ≤ d
  rotation_error : ∀ x, vlen (T.linear *ᵥ x - S.linear *ᵥ x) ≤ d * vlen x
  translation_error : vlen (T.translation - S.translation) ≤ τ
  noise : ∀ p ∈ source.zip target, vlen (S.apply p.1 - p.2) ≤ η
  extent : ∀ x ∈ source, vlen x ≤ ρ
  spread : Spread source
  μ_pos : 0 < μ
  determined : ∀ θ δ : V3, μ * (vlen θ ^ 2 + vlen δ ^ 2) ≤
    (source.map fun x => vlen (θ ⨯₃ x + δ) ^ 2).sum
  κ_one : 1 ≤ κ
  scale : ∀ s, IsScale (errorsAt source target T) s → ∀ e ∈ errorsAt source target T,
    ∀ e' ∈ errorsAt source target T, e ≤ κ ^ 2 * max e' (1.345 ^ 2 * (s + 1 / 10 ^ 16))
  finite : 2 * source.length * (ρ * d + τ + η) ^ 2 ≤ dblMax

/-- Specification: the bound of the error of the translation after the step. -/
noncomputable def bound (source : List V3) (d η ρ κ μ : ℝ) : ℝ :=
  2 * (ρ * d ^ 2 / 2 + η) * Real.sqrt (source.length * κ / μ)

/-- Specification: the bound of the error of the rotation after the step. -/
noncomputable def boundR (source : List V3) (d η ρ κ μ : ℝ) : ℝ :=
  bound source d η ρ κ μ + (d + bound source d η ρ κ μ) ^ 2 + d ^ 2 / 2 + 1 / 100000000

section
variable {source target : List V3} {S T : Pose} {d τ η ρ κ μ : ℝ}

theorem errorsAt_eq (source target : List V3) (T : Pose) :
    errorsOf (alignmentBlocks (source.zip target) T) = errorsAt source target T := by
  unfold errorsOf alignmentBlocks errorsAt
  rw [List.map_map]
  refine List.map_congr_left fun p _ => ?_
  rw [vlen_sq_eq]
  rfl

theorem Situation.ne_nil (h : Situation source target S T d τ η ρ κ μ) : source.zip target ≠ [] := by
  have h1 := spread_ne_nil h.spread
  have h2 := h.length
  intro h3
  apply h1
  have : (source.zip target).length = source.length := by simp [h2]
  rw [h3] at this
  exact List.length_eq_zero_iff.1 this.symm

theorem Situation.residual (h : Situation source target S T d τ η ρ κ μ) (p : V3 × V3)
    (hp : p ∈ source.zip target) : vlen (T.apply p.1 - p.2) ≤ ρ * d + τ + η := by
  have e : T.apply p.1 - p.2 = (T.linear *ᵥ p.1 - S.linear *ᵥ p.1) + (T.translation - S.translation) +
      (S.apply p.1 - p.2) := by
    simp only [Pose.apply]
    abel
  rw [e]
  have h1 := h.rotation_error p.1
  have h2 := h.noise p hp
  have h3 := h.extent p.1 (List.of_mem_zip hp).1
  have h4 := mul_le_mul_of_nonneg_left h3 h.d_nonneg
  have h5 := vlen_add_le ((T.linear *ᵥ p.1 - S.linear *ᵥ p.1) + (T.translation - S.translation))
    (S.apply p.1 - p.2)
  have h6 := vlen_add_le (T.linear *ᵥ p.1 - S.linear *ᵥ p.1) (T.translation - S.translation)
  linarith [h.translation_error]

theorem Situation.turned (h : Situation source target S T d τ η ρ κ μ) :
    IsRotation (T.linearᵀ * S.linear) ∧
    (∀ x, vlen ((T.linearᵀ * S.linear) *ᵥ x - x) ≤ d * vlen x) ∧
    T.linear * (T.linearᵀ * S.linear) = S.linear := by
  have hTT := mul_eq_one_comm.1 h.rotation.1
  refine ⟨⟨?_, ?_⟩, fun x => ?_, ?_⟩
  · rw [transpose_mul, transpose_transpose, Matrix.mul_assoc, ← Matrix.mul_assoc T.linear, hTT,
      Matrix.one_mul, h.true_rotation.1]
  · rw [det_mul, det_transpose, h.rotation.2, h.true_rotation.2, one_mul]
  · have e : (T.linearᵀ * S.linear) *ᵥ x - x = T.linearᵀ *ᵥ (S.linear *ᵥ x - T.linear *ᵥ x) := by
      rw [mulVec_sub, mulVec_mulVec, mulVec_mulVec, h.rotation.1, one_mulVec]
    rw [e, vlen_rotT h.rotation, ← vlen_neg, neg_sub]
    exact h.rotation_error x
  · rw [← Matrix.mul_assoc, hTT, Matrix.one_mul]

/-- The step of the optimiser, compared with the error it should undo. -/
theorem Situation.step (h : Situation source target S T d τ η ρ κ μ) {s : ℝ} {dx : Fin 6 → ℝ}
    (hs : IsScale (errorsAt source target T) s)
    (hstep : IsStep (Quat.ofMatrix T.linear) (alignmentBlocks (source.zip target) T)
      (weightsOf (alignmentBlocks (source.zip target) T) s) dx) :
    0 ≤ bound source d η ρ κ μ ∧
    vlen (turn dx - axial (T.linearᵀ * S.linear)) ≤ bound source d η ρ κ μ ∧
    vlen (shift dx - (S.translation - T.translation)) ≤ bound source d η ρ κ μ := by
  obtain ⟨hQ, hQd, hQS⟩ := h.turned
  set Q := T.linearᵀ * S.linear with hQdef
  set v := axial Q with hv
  set a := S.translation - T.translation with ha
  obtain ⟨hq, hR⟩ := C71_matrix_to_quaternion _ h.rotation
  set q := Quat.ofMatrix T.linear with hqd
  set bs := alignmentBlocks (source.zip target) T with hbs
  have hκ0 : 0 < κ := lt_of_lt_of_le one_pos h.κ_one
  have hlenb : bs.length = source.length := by
    simp [hbs, alignmentBlocks, h.length]
  obtain ⟨p0, hp0⟩ := List.exists_mem_of_ne_nil _ h.ne_nil
  have hη : 0 ≤ η := (vlen_nonneg _).trans (h.noise p0 hp0)
  have hρ : 0 ≤ ρ := (vlen_nonneg _).trans (h.extent p0.1 (List.of_mem_zip hp0).1)
  have he0 : 0 ≤ ρ * d ^ 2 / 2 + η := by positivity
  have hsnn : 0 ≤ s := (isScale_bounds (hi := (ρ * d + τ + η) ^ 2) (by
    intro e he
    obtain ⟨p, hp, rfl⟩ := List.mem_map.1 he
    exact ⟨sq_nonneg _, pow_le_pow_left₀ (vlen_nonneg _) (h.residual p hp) 2⟩) hs).1
  set x : Fin 6 → ℝ := ![v 0, v 1, v 2, a 0, a 1, a 2] with hx
  have hxt : turn x = v := by
    funext i
    fin_cases i <;> simp [turn, hx]
  have hxs : shift x = a := by
    funext i
    fin_cases i <;> simp [shift, hx]
  have hnd : ¬ Degenerate bs := by
    rw [hbs, alignment_degenerate _ _ h.rotation, not_not, List.map_fst_zip (by rw [h.length])]
    exact h.spread
  have hmin : cost (makeM q) ((weightsOf bs s).zip bs) dx ≤ cost (makeM q) ((weightsOf bs s).zip bs) x := by
    by_cases hxe : x = dx
    · rw [hxe]
    · exact (hstep.2 hnd x hxe).le
  have hws : ∀ w ∈ weightsOf bs s, ∀ w' ∈ weightsOf bs s, w' ≤ κ * w := by
    intro w hw w' hw'
    unfold weightsOf at hw hw'
    rw [errorsAt_eq] at hw hw'
    obtain ⟨e, he, rfl⟩ := List.mem_map.1 hw
    obtain ⟨e', he', rfl⟩ := List.mem_map.1 hw'
    exact huber_ratio (by norm_num) (by positivity) h.κ_one (h.scale s hs e he e' he')
  have hclose := minimiser_close (makeM q) (weightsOf bs s) bs (by simp [weightsOf, errorsOf]) hκ0
    (weightsOf_pos bs s) hws dx x hmin
    (ε := (ρ * d ^ 2 / 2 + η) ^ 2) (by
      intro b hb
      obtain ⟨p, hp, rfl⟩ := List.mem_map.1 hb
      show sqLen (alignmentJacobian q p.1 *ᵥ (makeM q *ᵥ x) + (T.apply p.1 - p.2)) ≤ _
      rw [jacobian_step q hq, hR, hxt, hxs]
      have e : T.linear *ᵥ (v ⨯₃ p.1) + a + (T.apply p.1 - p.2) =
          (S.apply p.1 - p.2) - T.linear *ᵥ (Q *ᵥ p.1 - p.1 - v ⨯₃ p.1) := by
        rw [mulVec_sub, mulVec_sub, mulVec_mulVec, hQS, ha]
        simp only [Pose.apply]
        abel
      rw [e, ← vlen_sq_eq]
      refine pow_le_pow_left₀ (vlen_nonneg _) ?_ 2
      have h1 := vlen_sub_le (S.apply p.1 - p.2) (T.linear *ᵥ (Q *ᵥ p.1 - p.1 - v ⨯₃ p.1))
      rw [vlen_rot h.rotation] at h1
      have h2 := rot_second_order hQ h.d_nonneg hQd p.1
      have h3 := h.noise p hp
      have h4 := mul_le_mul_of_nonneg_left (h.extent p.1 (List.of_mem_zip hp).1)
        (by positivity : 0 ≤ d ^ 2 / 2)
      linarith)
  have hB0 : 0 ≤ bound source d η ρ κ μ := by unfold bound; positivity
  have hB2 : bound source d η ρ κ μ ^ 2 = 4 * κ * source.length * (ρ * d ^ 2 / 2 + η) ^ 2 / μ := by
    have hμ := h.μ_pos
    unfold bound
    rw [mul_pow, Real.sq_sqrt (by positivity)]
    ring
  have hdet := h.determined (turn (dx - x)) (T.linearᵀ *ᵥ shift (dx - x))
  have hsumeq : (source.map fun y => vlen (turn (dx - x) ⨯₃ y + T.linearᵀ *ᵥ shift (dx - x)) ^ 2).sum =
      (bs.map fun b => sqLen (b.J *ᵥ (makeM q *ᵥ (dx - x)))).sum := by
    conv_lhs => rw [← List.map_fst_zip (l₁ := source) (l₂ := target) (by rw [h.length]), List.map_map]
    rw [hbs, alignmentBlocks, List.map_map]
    congr 1
    refine List.map_congr_left fun p _ => ?_
    show vlen (turn (dx - x) ⨯₃ p.1 + T.linearᵀ *ᵥ shift (dx - x)) ^ 2 =
      sqLen (alignmentJacobian q p.1 *ᵥ (makeM q *ᵥ (dx - x)))
    rw [jacobian_step q hq, hR, ← vlen_sq_eq, ← vlen_rot h.rotation, mulVec_add, rot_inv h.rotation]
  rw [hsumeq, vlen_rotT h.rotation] at hdet
  have htot := hdet.trans hclose
  rw [hlenb] at htot
  have hsum : vlen (turn (dx - x)) ^ 2 + vlen (shift (dx - x)) ^ 2 ≤ bound source d η ρ κ μ ^ 2 := by
    rw [hB2, le_div_iff₀ h.μ_pos]
    linarith
  have et : turn (dx - x) = turn dx - v := by
    rw [← hxt]
    funext i
    fin_cases i <;> simp [turn]
  have es : shift (dx - x) = shift dx - a := by
    rw [← hxs]
    funext i
    fin_cases i <;> simp [shift]
  rw [et, es] at hsum
  refine ⟨hB0, ?_, ?_⟩
  · refine abs_le_of_sq_le_sq' ?_ hB0 |>.2
    nlinarith [sq_nonneg (vlen (shift dx - a))]
  · refine abs_le_of_sq_le_sq' ?_ hB0 |>.2
    nlinarith [sq_nonneg (vlen (turn dx - v))]

/-- The pose after the step, compared with the true pose. -/
theorem Situation.after (h : Situation source target S T d τ η ρ κ μ) {s : ℝ} {dx : Fin 6 → ℝ}
    (hs : IsScale (errorsAt source target T) s)
    (hstep : IsStep (Quat.ofMatrix T.linear) (alignmentBlocks (source.zip target) T)
      (weightsOf (alignmentBlocks (source.zip target) T) s) dx) :
    let T' := makePose ((Quat.ofMatrix T.linear).mul (angleAxisToQuaternion (turn dx)))
      (T.translation + shift dx)
    vlen (T'.translation - S.translation) ≤ bound source d η ρ κ μ ∧
    (∀ x, vlen (T'.linear *ᵥ x - S.linear *ᵥ x) ≤ boundR source d η ρ κ μ * vlen x) ∧
    vlen (turn dx) ≤ d + bound source d η ρ κ μ ∧ vlen (shift dx) ≤ τ + bound source d η ρ κ μ := by
  intro T'
  obtain ⟨hB0, h1, h2⟩ := h.step hs hstep
  obtain ⟨hQ, hQd, hQS⟩ := h.turned
  obtain ⟨hq, hR⟩ := C71_matrix_to_quaternion _ h.rotation
  set B := bound source d η ρ κ μ with hBdef
  set Q := T.linearᵀ * S.linear with hQdef
  have hax := axial_le hQ hQd
  have ht : vlen (turn dx) ≤ d + B := by
    have := vlen_add_le (turn dx - axial Q) (axial Q)
    rw [sub_add_cancel] at this
    linarith
  refine ⟨?_, fun x => ?_, ht, ?_⟩
  · have e : T'.translation - S.translation = shift dx - (S.translation - T.translation) := by
      show T.translation + shift dx - S.translation = _
      abel
    rw [e]
    exact h2
  · have e1 : T'.linear = T.linear * (angleAxisToQuaternion (turn dx)).toRotationMatrix := by
      show ((Quat.ofMatrix T.linear).mul (angleAxisToQuaternion (turn dx))).toRotationMatrix = _
      rw [toRotationMatrix_mul _ _ hq (C51_unit _), hR]
    set E := (angleAxisToQuaternion (turn dx)).toRotationMatrix with hE
    have e2 : T'.linear *ᵥ x - S.linear *ᵥ x = T.linear *ᵥ (E *ᵥ x - Q *ᵥ x) := by
      rw [e1, mulVec_sub, mulVec_mulVec, mulVec_mulVec, hQS]
    have e3 : E *ᵥ x - Q *ᵥ x = (E *ᵥ x - x - turn dx ⨯₃ x) + (turn dx - axial Q) ⨯₃ x -
        (Q *ᵥ x - x - axial Q ⨯₃ x) := by
      rw [map_sub, LinearMap.sub_apply]
      abel
    rw [e2, vlen_rot h.rotation, e3]
    have b1 := exp_second_order (turn dx) x
    have b2 := vlen_cross_le (turn dx - axial Q) x
    have b3 := rot_second_order hQ h.d_nonneg hQd x
    have b4 := vlen_sub_le ((E *ᵥ x - x - turn dx ⨯₃ x) + (turn dx - axial Q) ⨯₃ x)
      (Q *ᵥ x - x - axial Q ⨯₃ x)
    have b5 := vlen_add_le (E *ᵥ x - x - turn dx ⨯₃ x) ((turn dx - axial Q) ⨯₃ x)
    have hx := vlen_nonneg x
    have b6 : vlen (turn dx) ^ 2 * vlen x ≤ (d + B) ^ 2 * vlen x :=
      mul_le_mul_of_nonneg_right (pow_le_pow_left₀ (vlen_nonneg _) ht 2) hx
    have b7 := mul_le_mul_of_nonneg_right h1 hx
    unfold boundR
    rw [← hBdef]
    nlinarith
  · have := vlen_add_le (shift dx - (S.translation - T.translation)) (S.translation - T.translation)
    rw [sub_add_cancel] at this
    have h3 := h.translation_error
    rw [← vlen_neg, neg_sub] at h3
    linarith

open Classical in
theorem Situation.run (h : Situation source target S T d τ η ρ κ μ) {nth : Nth} (hn : Lib.IsNthElement nth)
    {llt : Llt} (hllt : LltSpec llt) {maxIter : ℤ} (h1 : 1 ≤ maxIter) :
    ∃ s dx, IsScale (errorsAt source target T) s ∧
      IsStep (Quat.ofMatrix T.linear) (alignmentBlocks (source.zip target) T)
        (weightsOf (alignmentBlocks (source.zip target) T) s) dx ∧
      Opt.run nth llt (alignmentMake source target) maxIter T =
        (if checkConvergence (angleAxisToQuaternion (turn dx)) (shift dx) then
          .ok ⟨makePose ((Quat.ofMatrix T.linear).mul (angleAxisToQuaternion (turn dx)))
            (T.translation + shift dx), .converged, 0, (errorsAt source target T).sum, s, true⟩
        else runLoop nth llt (problem (alignmentBlocks (source.zip target))) (maxIter.toNat - 1) 1
          ((Quat.ofMatrix T.linear).mul (angleAxisToQuaternion (turn dx))) (T.translation + shift dx) s
          (errorsAt source target T).sum) := by
  obtain ⟨hq, hR⟩ := C71_matrix_to_quaternion _ h.rotation
  have hpose : makePose (Quat.ofMatrix T.linear) T.translation = T := by
    unfold makePose
    rw [hR]
  obtain ⟨s, dx, p1, p2, p3⟩ := runLoop_pass hn hllt (alignmentBlocks (source.zip target)) (maxIter.toNat - 1) 0
    (Quat.ofMatrix T.linear) hq T.translation dblMax dblMax (by
      rw [hpose]
      simpa [alignmentBlocks] using h.ne_nil)
  rw [hpose] at p1 p2 p3
  rw [errorsAt_eq] at p1 p3
  have hE : ∀ e ∈ errorsAt source target T, 0 ≤ e ∧ e ≤ (ρ * d + τ + η) ^ 2 := by
    intro e he
    obtain ⟨p, hp, rfl⟩ := List.mem_map.1 he
    exact ⟨sq_nonneg _, pow_le_pow_left₀ (vlen_nonneg _) (h.residual p hp) 2⟩
  have hpos : (1 : ℝ) ≤ source.length := by
    have := List.length_pos_iff.2 (spread_ne_nil h.spread)
    exact_mod_cast this
  have hsq := sq_nonneg (ρ * d + τ + η)
  have hfin := h.finite
  have hb1 : ¬ dblMax < (errorsAt source target T).sum := by
    have h2 := sum_le_length (errorsAt source target T) id _ fun e he => (hE e he).2
    rw [List.map_id] at h2
    have h3 : (errorsAt source target T).length = source.length := by simp [errorsAt, h.length]
    rw [h3] at h2
    nlinarith
  have hb2 : ¬ dblMax < s := by
    have h2 := (isScale_bounds hE p1).2
    nlinarith
  refine ⟨s, dx, p1, p2, ?_⟩
  rw [if_neg hb1, if_neg hb2] at p3
  unfold Opt.run
  rw [if_neg (by omega), alignmentMake_eq _ _ h.length]
  obtain ⟨m, hm⟩ : ∃ m : ℕ, maxIter.toNat = m + 1 := ⟨maxIter.toNat - 1, by omega⟩
  rw [hm, Nat.add_sub_cancel] at p3
  rw [hm, Nat.add_sub_cancel, p3]
  rfl

/-- C133: one iteration of the alignment makes the error quadratic in the error of the rotation, whatever the
error of the translation, plus a multiple of the noise: starting with a rotation wrong by `d`, the
translation ends within `B = (ρ d² + 2 η) √(n κ / μ)` of the true one and the rotation within
`B + (d + B)² + d² / 2 + 1e-8` (rotations below 1e-8 are not applied by the code). -/
theorem C133_step {nth : Nth} (hn : Lib.IsNthElement nth) {llt : Llt} (hllt : LltSpec llt)
    (h : Situation source target S T d τ η ρ κ μ) :
    ∃ r, Opt.run nth llt (alignmentMake source target) 1 T = .ok r ∧
      vlen (r.pose.translation - S.translation) ≤ bound source d η ρ κ μ ∧
      ∀ x, vlen (r.pose.linear *ᵥ x - S.linear *ᵥ x) ≤ boundR source d η ρ κ μ * vlen x := by
  obtain ⟨s, dx, h1, h2, h3⟩ := h.run hn hllt le_rfl
  obtain ⟨a1, a2, -, -⟩ := h.after h1 h2
  rw [h3]
  split_ifs
  · exact ⟨_, rfl, a1, a2⟩
  · exact ⟨_, rfl, a1, a2⟩

/-- C133: if the errors are small enough for the step to be below the limit of the convergence test, the
optimiser stops after that iteration, reports convergence, and the pose it returns has these errors. -/
theorem C133_converges {nth : Nth} (hn : Lib.IsNthElement nth) {llt : Llt} (hllt : LltSpec llt)
    (h : Situation source target S T d τ η ρ κ μ) {maxIter : ℤ} (hmax : 1 ≤ maxIter)
    (hsmall : d + bound source d η ρ κ μ < 1 / 1000) (hsmall' : τ + bound source d η ρ κ μ < 1 / 1000) :
    ∃ r, Opt.run nth llt (alignmentMake source target) maxIter T = .ok r ∧ r.message = .converged ∧
      r.success = true ∧ r.iteration = 0 ∧
      vlen (r.pose.translation - S.translation) ≤ bound source d η ρ κ μ ∧
      ∀ x, vlen (r.pose.linear *ᵥ x - S.linear *ᵥ x) ≤ boundR source d η ρ κ μ * vlen x := by
  obtain ⟨s, dx, h1, h2, h3⟩ := h.run hn hllt hmax
  obtain ⟨a1, a2, a3, a4⟩ := h.after h1 h2
  have hc : checkConvergence (angleAxisToQuaternion (turn dx)) (shift dx) := by
    refine ⟨?_, ?_⟩
    · have := vec_le (turn dx)
      linarith
    · rw [norm_eq_vlen]
      linarith
  rw [h3, if_pos hc]
  exact ⟨_, rfl, rfl, rfl, rfl, a1, a2⟩

end

/-- A situation in which every pair matches exactly under the true pose, close to that pose. -/
theorem situation_exact {source : List V3} (hsp : Spread source) {S T : Pose} (hS : IsRotation S.linear)
    (hT : IsRotation T.linear) {d τ ρ : ℝ} (hd0 : 0 ≤ d)
    (hd : ∀ x, vlen (T.linear *ᵥ x - S.linear *ᵥ x) ≤ d * vlen x)
    (hτ : vlen (T.translation - S.translation) ≤ τ) (hρ : ∀ x ∈ source, vlen x ≤ ρ) (hρ0 : 0 ≤ ρ)
    (hfin : 2 * source.length * (ρ * d + τ + 0) ^ 2 ≤ dblMax) :
    Situation source (source.map S.apply) S T d τ 0 ρ (1 + 10 ^ 8 * (ρ * d + τ)) (1 / 40) := by
  have hτ0 : 0 ≤ τ := (vlen_nonneg _).trans hτ
  have hres : ∀ p ∈ source.zip (source.map S.apply), vlen (T.apply p.1 - p.2) ≤ ρ * d + τ := by
    intro p hp
    rw [zip_map_self] at hp
    obtain ⟨x, hx, rfl⟩ := List.mem_map.1 hp
    have e : T.apply x - S.apply x = (T.linear *ᵥ x - S.linear *ᵥ x) + (T.translation - S.translation) := by
      simp only [Pose.apply]
      abel
    simp only
    rw [e]
    have h1 := vlen_add_le (T.linear *ᵥ x - S.linear *ᵥ x) (T.translation - S.translation)
    have h2 := mul_le_mul_of_nonneg_left (hρ x hx) hd0
    linarith [hd x]
  have hκ0 : 0 ≤ 10 ^ 8 * (ρ * d + τ) := by positivity
  refine ⟨by simp, hS, hT, hd0, hd, hτ, ?_, hρ, hsp, by norm_num, ?_, by linarith, ?_, hfin⟩
  · intro p hp
    rw [zip_map_self] at hp
    obtain ⟨x, hx, rfl⟩ := List.mem_map.1 hp
    simp [vlen_zero]
  · intro θ δ
    have h := hsp 0 ((1 / 2 : ℝ) • θ) δ
    have e : ∀ x, (2 * (0 : ℝ)) • x + (2 : ℝ) • (((1 / 2 : ℝ) • θ) ⨯₃ x) + δ = θ ⨯₃ x + δ := by
      intro x
      rw [map_smul, LinearMap.smul_apply, smul_smul]
      norm_num
    simp only [e] at h
    have e2 : sqLen ((1 / 2 : ℝ) • θ) = 1 / 4 * sqLen θ := by
      rw [← vlen_sq_eq, vlen_smul, mul_pow, vlen_sq_eq, abs_of_pos (by norm_num)]
      norm_num
    rw [e2] at h
    simp only [vlen_sq_eq]
    linarith [sqLen_nonneg θ, sqLen_nonneg δ]
  · intro s hs e he e' he'
    have hs0 : 0 ≤ s := (isScale_bounds (hi := (ρ * d + τ) ^ 2) (by
      intro e he
      obtain ⟨p, hp, rfl⟩ := List.mem_map.1 he
      exact ⟨sq_nonneg _, pow_le_pow_left₀ (vlen_nonneg _) (hres p hp) 2⟩) hs).1
    obtain ⟨p, hp, rfl⟩ := List.mem_map.1 he
    have h1 := pow_le_pow_left₀ (vlen_nonneg _) (hres p hp) 2
    refine h1.trans ?_
    refine le_trans ?_ (mul_le_mul_of_nonneg_left (le_max_right _ _) (sq_nonneg _))
    have h2 : (10 ^ 8 * (ρ * d + τ)) ^ 2 ≤ (1 + 10 ^ 8 * (ρ * d + τ)) ^ 2 :=
      pow_le_pow_left₀ hκ0 (by linarith) 2
    have h3 : (1 : ℝ) / 10 ^ 16 ≤ 1.345 ^ 2 * (s + 1 / 10 ^ 16) := by
      norm_num
      linarith
    calc (ρ * d + τ) ^ 2 = (10 ^ 8 * (ρ * d + τ)) ^ 2 * (1 / 10 ^ 16) := by ring
      _ ≤ _ := mul_le_mul h2 h3 (by norm_num) (sq_nonneg _)

/-- C133: every set of spread source points has a neighbourhood of the true pose - whatever that pose is -
from which the alignment with the exact images of the points converges in one iteration and at least halves
the error of the rotation, up to 1e-8; the translation ends within half the error of the rotation too. -/
theorem C133_neighbourhood {nth : Nth} (hn : Lib.IsNthElement nth) {llt : Llt} (hllt : LltSpec llt)
    (source : List V3) (hsp : Spread source) :
    ∃ ε > 0, ∀ S T : Pose, IsRotation S.linear → IsRotation T.linear → ∀ d, 0 ≤ d → d ≤ ε →
      (∀ x, vlen (T.linear *ᵥ x - S.linear *ᵥ x) ≤ d * vlen x) →
      vlen (T.translation - S.translation) ≤ ε → ∀ maxIter : ℤ, 1 ≤ maxIter →
      ∃ r, Opt.run nth llt (alignmentMake source (source.map S.apply)) maxIter T = .ok r ∧
        r.message = .converged ∧ r.success = true ∧
        vlen (r.pose.translation - S.translation) ≤ d / 2 ∧
        ∀ x, vlen (r.pose.linear *ᵥ x - S.linear *ᵥ x) ≤ (d / 2 + 1 / 100000000) * vlen x := by
  obtain ⟨ρ, hρ0, hρ⟩ : ∃ ρ : ℝ, 0 ≤ ρ ∧ ∀ x ∈ source, vlen x ≤ ρ := by
    refine ⟨(source.map vlen).sum, List.sum_nonneg ?_, fun x hx => ?_⟩
    · intro y hy
      obtain ⟨x, -, rfl⟩ := List.mem_map.1 hy
      exact vlen_nonneg _
    · exact List.single_le_sum (by
        intro y hy
        obtain ⟨x, -, rfl⟩ := List.mem_map.1 hy
        exact vlen_nonneg _) _ (List.mem_map_of_mem hx)
  set n : ℝ := (source.length : ℝ) with hnd
  have hn0 : 0 ≤ n := Nat.cast_nonneg _
  set A := Real.sqrt (n * (1 + 10 ^ 8 * (ρ + 1)) / (1 / 40)) with hA
  have hA0 : 0 ≤ A := Real.sqrt_nonneg _
  have hden1 : 0 < 8 * (ρ * A + 1) := by positivity
  have hden2 : 0 < 2 * n * (ρ + 1) ^ 2 + 1 := by positivity
  refine ⟨min (1 / 4000) (min (1 / (8 * (ρ * A + 1))) (1 / (2 * n * (ρ + 1) ^ 2 + 1))), by positivity, ?_⟩
  intro S T hS hT d hd0 hdε hd ht maxIter hmax
  set ε := min (1 / 4000) (min (1 / (8 * (ρ * A + 1))) (1 / (2 * n * (ρ + 1) ^ 2 + 1))) with hε
  have hε0 : 0 < ε := by positivity
  have hε1 : ε ≤ 1 / 4000 := min_le_left _ _
  have hε2 : ε * (8 * (ρ * A + 1)) ≤ 1 := by
    rw [← le_div_iff₀ hden1]
    exact (min_le_right _ _).trans (min_le_left _ _)
  have hε3 : ε * (2 * n * (ρ + 1) ^ 2 + 1) ≤ 1 := by
    rw [← le_div_iff₀ hden2]
    exact (min_le_right _ _).trans (min_le_right _ _)
  clear_value ε
  have hres : ρ * d + ε ≤ (ρ + 1) * ε := by nlinarith
  have hres0 : 0 ≤ ρ * d + ε := by positivity
  have hfin : 2 * n * (ρ * d + ε + 0) ^ 2 ≤ dblMax := by
    have h1 : (ρ * d + ε + 0) ^ 2 ≤ ((ρ + 1) * ε) ^ 2 := by
      rw [add_zero]
      exact pow_le_pow_left₀ hres0 hres 2
    have h2 : 2 * n * ((ρ + 1) * ε) ^ 2 ≤ 1 := by
      have e : 2 * n * ((ρ + 1) * ε) ^ 2 = (ε * (2 * n * (ρ + 1) ^ 2)) * ε := by ring
      rw [e]
      have h3 : ε * (2 * n * (ρ + 1) ^ 2) ≤ 1 := by linarith
      have h4 : 0 ≤ ε * (2 * n * (ρ + 1) ^ 2) := by positivity
      nlinarith
    have h3 := mul_le_mul_of_nonneg_left h1 (by positivity : 0 ≤ 2 * n)
    linarith [dblMax_large]
  have hsit := situation_exact hsp hS hT hd0 hd ht hρ hρ0 hfin
  set B := bound source d 0 ρ (1 + 10 ^ 8 * (ρ * d + ε)) (1 / 40) with hB
  have hBle : B ≤ d / 8 := by
    have h1 : Real.sqrt (source.length * (1 + 10 ^ 8 * (ρ * d + ε)) / (1 / 40)) ≤ A := by
      refine Real.sqrt_le_sqrt ?_
      refine div_le_div_of_nonneg_right (mul_le_mul_of_nonneg_left ?_ hn0) (by norm_num)
      have : ρ * d + ε ≤ ρ + 1 := by nlinarith
      linarith
    have h2 : B = ρ * d ^ 2 * Real.sqrt (source.length * (1 + 10 ^ 8 * (ρ * d + ε)) / (1 / 40)) := by
      rw [hB]
      unfold bound
      ring
    rw [h2]
    have h3 : ρ * d ^ 2 * Real.sqrt (source.length * (1 + 10 ^ 8 * (ρ * d + ε)) / (1 / 40)) ≤ ρ * d ^ 2 * A :=
      mul_le_mul_of_nonneg_left h1 (by positivity)
    have h4 : d * (ρ * A) ≤ ε * (ρ * A) := mul_le_mul_of_nonneg_right hdε (by positivity)
    have h5 : d * (ρ * A) ≤ 1 / 8 := by nlinarith
    nlinarith [mul_le_mul_of_nonneg_left h5 hd0]
  have hB0 : 0 ≤ B := by rw [hB]; unfold bound; positivity
  obtain ⟨r, r1, r2, r3, -, r5, r6⟩ := C133_converges hn hllt hsit hmax (by rw [← hB]; linarith)
    (by rw [← hB]; linarith)
  refine ⟨r, r1, r2, r3, ?_, fun x => (r6 x).trans (mul_le_mul_of_nonneg_right ?_ (vlen_nonneg _))⟩
  · rw [← hB] at r5
    linarith
  · unfold boundR
    rw [← hB]
    have h1 : (d + B) ^ 2 ≤ (9 / 8 * d) ^ 2 := pow_le_pow_left₀ (by positivity) (by linarith) 2
    nlinarith

theorem rotZ_error (a : ℝ) (x : V3) : vlen (rotZ a *ᵥ x - (1 : Matrix (Fin 3) (Fin 3) ℝ) *ᵥ x) ≤ |a| * vlen x := by
  refine vlen_le_of_sq _ (mul_nonneg (abs_nonneg _) (vlen_nonneg _)) ?_
  rw [mul_pow, vlen_sq_eq, sq_abs, one_mulVec]
  have e : sqLen (rotZ a *ᵥ x - x) = (2 - 2 * Real.cos a) * (x 0 ^ 2 + x 1 ^ 2) := by
    have h := Real.sin_sq_add_cos_sq a
    simp [sqLen, rotZ, dotProduct, Fin.sum_univ_succ]
    linear_combination (x 0 ^ 2 + x 1 ^ 2) * h
  have h1 := Real.one_sub_sq_div_two_le_cos (x := a)
  have e2 : sqLen x = x 0 ^ 2 + x 1 ^ 2 + x 2 ^ 2 := by simp [sqLen, Fin.sum_univ_succ]; ring
  rw [e, e2]
  nlinarith [sq_nonneg (x 0), sq_nonneg (x 1), mul_nonneg (sq_nonneg a) (sq_nonneg (x 2)),
    mul_nonneg (by linarith : 0 ≤ a ^ 2 - (2 - 2 * Real.cos a)) (by positivity : 0 ≤ x 0 ^ 2 + x 1 ^ 2)]

/-- A situation: the corners of a square, seen from a pose that is wrong by half a radian and half a metre. -/
example : Situation corners (corners.map (⟨1, 0⟩ : Pose).apply) ⟨1, 0⟩ ⟨rotZ (1 / 2), ![1 / 2, 0, 0]⟩ (1 / 2)
    (1 / 2) 0 1 (1 + 10 ^ 8 * (1 * (1 / 2) + 1 / 2)) (1 / 40) := by
  refine situation_exact corners_spread ⟨by simp, by simp⟩ (rotZ_isRotation _) (by norm_num) (fun x => ?_) ?_ ?_
    (by norm_num) ?_
  · have := rotZ_error (1 / 2) x
    rwa [abs_of_pos (by norm_num)] at this
  · refine vlen_le_of_sq _ (by norm_num) ?_
    simp [sqLen, Fin.sum_univ_succ]
  · intro x hx
    refine vlen_le_of_sq _ (by norm_num) ?_
    simp only [corners, List.mem_cons, List.not_mem_nil, or_false] at hx
    rcases hx with rfl | rfl | rfl | rfl <;> simp [sqLen, Fin.sum_univ_three]
  · have := dblMax_large
    norm_num [corners]
    linarith

end Verif.Align
