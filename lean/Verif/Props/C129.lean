/-
C129: a minority of wrong matches cannot carry the pose away.
-/
import Verif.Props.C45
import Verif.Props.C46
import Verif.Props.C89W
import Verif.Props.C90

set_option autoImplicit false

namespace Verif.Opt

open Matrix Verif.Rot

/-- Euclidean length. -/
noncomputable def vlen {n : ℕ} (v : Fin n → ℝ) : ℝ := Real.sqrt (∑ i, v i ^ 2)

theorem vlen_nonneg {n : ℕ} (v : Fin n → ℝ) : 0 ≤ vlen v := Real.sqrt_nonneg _

theorem vlen_sq {n : ℕ} (v : Fin n → ℝ) : vlen v ^ 2 = ∑ i, v i ^ 2 :=
  Real.sq_sqrt (Finset.sum_nonneg fun _ _ => sq_nonneg _)

theorem vlen_zero {n : ℕ} : vlen (0 : Fin n → ℝ) = 0 := by
  simp [vlen]

/-- The weight of an error times its square root is at most `k √s`. -/
theorem weight_pull {e s k : ℝ} (he : 0 ≤ e) (hs : 0 < s) (hk : 0 < k) :
    huberDerivative (e / s) k * Real.sqrt e ≤ k * Real.sqrt s := by
  unfold huberDerivative
  split_ifs with h
  · rw [one_mul]
    have h1 : e ≤ k ^ 2 * s := by
      rw [div_lt_iff₀ hs] at h
      nlinarith
    calc Real.sqrt e ≤ Real.sqrt (k ^ 2 * s) := Real.sqrt_le_sqrt h1
      _ = k * Real.sqrt s := by rw [Real.sqrt_mul (sq_nonneg k), Real.sqrt_sq hk.le]
  · have hpos : 0 < e / s := lt_of_lt_of_le (mul_pos hk hk) (not_lt.1 h)
    have he' : 0 < e := by
      by_contra hn
      have : e = 0 := le_antisymm (not_lt.1 hn) he
      rw [this, zero_div] at hpos
      exact lt_irrefl _ hpos
    have h1 : Real.sqrt (e / s) = Real.sqrt e / Real.sqrt s := Real.sqrt_div he s
    have h2 : 0 < Real.sqrt e := Real.sqrt_pos.2 he'
    have h3 : 0 < Real.sqrt s := Real.sqrt_pos.2 hs
    rw [h1]
    apply le_of_eq
    field_simp

/-- The weight of an error that is at most `hi`, times `√(1.48… hi + 10⁻¹⁶)`, is at least `√s` for every
scale `s` up to that bound. -/
theorem weight_good {e s S hi k : ℝ} (he : 0 ≤ e) (hehi : e ≤ hi) (hs : 0 < s) (hsS : s ≤ S) (hiS : hi ≤ S)
    (hk : 1 ≤ k) : Real.sqrt s ≤ huberDerivative (e / s) k * Real.sqrt S := by
  have h3 : 0 < Real.sqrt s := Real.sqrt_pos.2 hs
  unfold huberDerivative
  split_ifs with h
  · rw [one_mul]
    exact Real.sqrt_le_sqrt hsS
  · have hpos : 0 < e / s := lt_of_lt_of_le (mul_pos (by linarith) (by linarith)) (not_lt.1 h)
    have he' : 0 < e := by
      by_contra hn
      have : e = 0 := le_antisymm (not_lt.1 hn) he
      rw [this, zero_div] at hpos
      exact lt_irrefl _ hpos
    have h2 : 0 < Real.sqrt e := Real.sqrt_pos.2 he'
    have h4 : Real.sqrt e ≤ Real.sqrt S := Real.sqrt_le_sqrt (hehi.trans hiS)
    rw [Real.sqrt_div he s, div_div_eq_mul_div, div_mul_eq_mul_div, le_div_iff₀ h2]
    have h5 : Real.sqrt s * Real.sqrt e ≤ Real.sqrt s * Real.sqrt S := mul_le_mul_of_nonneg_left h4 h3.le
    have h6 : 0 ≤ Real.sqrt s * Real.sqrt S := mul_nonneg h3.le (Real.sqrt_nonneg _)
    nlinarith

/-- The optimiser's weights for the given errors. -/
theorem weights_eq {nth : Nth} {residuals : List DVec} {normalized : List ℝ} {s : ℝ}
    (h : normalizeErrorScale nth (computeErrors residuals) = .ok (normalized, s)) :
    scale nth (computeErrors residuals) = .ok s ∧
    computeWeights normalized = residuals.map fun r =>
      huberDerivative ((r.data ⬝ᵥ r.data) / (s + 1 / 10 ^ 16)) huberK := by
  unfold normalizeErrorScale at h
  cases hs : scale nth (computeErrors residuals) with
  | error e => rw [hs] at h; simp only [bind, Except.bind, reduceCtorEq] at h
  | ok s' =>
    rw [hs] at h
    simp only [bind, Except.bind, pure, Except.pure, Except.ok.injEq, Prod.mk.injEq] at h
    obtain ⟨rfl, rfl⟩ := h
    refine ⟨rfl, ?_⟩
    simp only [computeWeights, computeErrors, List.map_map]
    rfl

theorem dot_self_eq {n : ℕ} (v : Fin n → ℝ) : v ⬝ᵥ v = vlen v ^ 2 := by
  rw [vlen_sq]
  exact Finset.sum_congr rfl fun i _ => (sq (v i)).symm

/-- C129, pull: whatever its residual, weighted as the optimiser does no feature counts in the step
equations with more than 1.345 times the square root of the scale of all errors. -/
theorem C129_pull {nth : Nth} {residuals : List DVec} {normalized : List ℝ} {s : ℝ} (hs : 0 ≤ s)
    (h : normalizeErrorScale nth (computeErrors residuals) = .ok (normalized, s)) (i : ℕ) (r : DVec)
    (hr : residuals[i]? = some r) :
    ∃ w, (computeWeights normalized)[i]? = some w ∧ 0 < w ∧
      w * vlen r.data ≤ 1.345 * Real.sqrt (s + 1e-16) := by
  obtain ⟨-, hw⟩ := weights_eq h
  refine ⟨huberDerivative ((r.data ⬝ᵥ r.data) / (s + 1 / 10 ^ 16)) huberK, ?_, ?_, ?_⟩
  · rw [hw, List.getElem?_map, hr]
    rfl
  · exact ((C45_weight huberK (by norm_num [huberK])).1 _).1
  · have e1 : (1e-16 : ℝ) = 1 / 10 ^ 16 := by norm_num
    rw [e1, dot_self_eq]
    have := weight_pull (e := vlen r.data ^ 2) (s := s + 1 / 10 ^ 16) (k := huberK) (sq_nonneg _)
      (by positivity) (by norm_num [huberK])
    rw [Real.sqrt_sq (vlen_nonneg _)] at this
    exact this

theorem sum_mul_list {α : Type} {n : ℕ} (l : List α) (g : α → Fin n → ℝ) (x : Fin n → ℝ) :
    ∑ j, x j * (l.map fun a => g a j).sum = (l.map fun a => ∑ j, x j * g a j).sum := by
  induction l with
  | nil => simp
  | cons a l ih =>
    simp only [List.map_cons, List.sum_cons, mul_add, Finset.sum_add_distrib, ih]

theorem block_dot {n : ℕ} (J : Matrix (Fin n) (Fin 7) ℝ) (M : Matrix (Fin 7) (Fin 6) ℝ) (dx : Fin 6 → ℝ)
    (v : Fin n → ℝ) (w : ℝ) :
    ∑ j, dx j * (w * ∑ i, (J * M) i j * v i) = w * ∑ i, (J *ᵥ (M *ᵥ dx)) i * v i := by
  have hf : ∀ i, (J *ᵥ (M *ᵥ dx)) i = ∑ j, (J * M) i j * dx j := by
    intro i
    rw [mulVec_mulVec]
    rfl
  simp only [hf, Finset.mul_sum, Finset.sum_mul]
  rw [Finset.sum_comm]
  refine Finset.sum_congr rfl fun i _ => Finset.sum_congr rfl fun j _ => ?_
  ring

theorem zip_weights (W : Block → ℝ) (l : List Block) : (l.map W).zip l = l.map fun b => (W b, b) := by
  induction l with
  | nil => rfl
  | cons b l ih => simp only [List.map_cons, List.zip_cons_cons, ih]

theorem sum_map_neg' {α : Type} (l : List α) (f : α → ℝ) : (l.map fun a => -f a).sum = -(l.map f).sum := by
  induction l with
  | nil => simp
  | cons a l ih =>
    simp only [List.map_cons, List.sum_cons, ih]
    ring

theorem sum_le_length {α : Type} (l : List α) (f : α → ℝ) (c : ℝ) (h : ∀ a ∈ l, f a ≤ c) :
    (l.map f).sum ≤ l.length * c := by
  induction l with
  | nil => simp
  | cons a l ih =>
    have h1 := h a List.mem_cons_self
    have h2 := ih fun b hb => h b (List.mem_cons_of_mem a hb)
    simp only [List.map_cons, List.sum_cons, List.length_cons, Nat.cast_add, Nat.cast_one]
    linarith

/-- C129: however wrong a minority of the matches is, one step of the optimiser moves the pose by at most
an amount given by the majority. `inliers` are more than half of the blocks, with squared residuals up to
`hi`, and determine the pose (`μ`); `outliers` have any residuals at all; `c` bounds how strongly a residual
depends on the pose. -/
theorem C129_step {nth : Nth} (hn : Lib.IsNthElement nth) {llt : Llt} (hllt : LltSpec llt) (q : Quat)
    (hq : q.IsUnit) (blocks inliers outliers : List Block) (hi c μ : ℝ) (hmu : 0 < μ)
    (hperm : blocks.Perm (inliers ++ outliers)) (hmost : outliers.length < inliers.length)
    (hgood : ∀ b ∈ inliers, vlen b.r ^ 2 ≤ hi)
    (hc : ∀ b ∈ blocks, ∀ x, vlen (b.J *ᵥ (makeM q *ᵥ x)) ≤ c * vlen x)
    (hdet : ∀ x, μ * vlen x ^ 2 ≤ (inliers.map fun b => vlen (b.J *ᵥ (makeM q *ᵥ x)) ^ 2).sum) :
    ∃ normalized s dx,
      normalizeErrorScale nth (computeErrors (blocks.map Block.res)) = .ok (normalized, s) ∧
      weightedUpdate llt (makeM q) (computeWeights normalized) (blocks.map Block.jac)
        (blocks.map Block.res) = .ok dx ∧
      vlen dx ≤ blocks.length * c * 1.345 * Real.sqrt (1.482602218505602 * hi + 1e-16) / μ := by
  have e16 : (1e-16 : ℝ) = 1 / 10 ^ 16 := by norm_num
  -- the errors and their scale
  have herr : computeErrors (blocks.map Block.res) = blocks.map fun b => vlen b.r ^ 2 := by
    simp only [computeErrors, List.map_map]
    exact List.map_congr_left fun b _ => dot_self_eq b.r
  have hne : computeErrors (blocks.map Block.res) ≠ [] := by
    intro h0
    have := congrArg List.length h0
    have hl := hperm.length_eq
    simp only [computeErrors, List.length_map, List.length_nil, List.length_append] at this hl
    omega
  obtain ⟨m, d, s, -, -, hs, -, hs0⟩ := (C73_scale hn _).2 hne
  have hhi : 0 ≤ hi := by
    cases hin : inliers with
    | nil => rw [hin] at hmost; simp at hmost
    | cons b l => exact (sq_nonneg _).trans (hgood b (by rw [hin]; exact List.mem_cons_self))
  have hsle : s ≤ 1.482602218505602 * hi := by
    have := C73_scale_robust hn _ s 0 hi hs (by
      rw [herr]
      have hp := hperm.map fun b => vlen b.r ^ 2
      rw [hp.length_eq, hp.countP_eq, List.map_append, List.countP_append, List.length_append,
        List.length_map, List.length_map]
      have hall : (inliers.map fun b => vlen b.r ^ 2).countP (fun x => decide (0 ≤ x ∧ x ≤ hi)) =
          inliers.length := by
        rw [List.countP_eq_length.2, List.length_map]
        intro x hx
        obtain ⟨b, hb, rfl⟩ := List.mem_map.1 hx
        simp only [decide_eq_true_eq]
        exact ⟨sq_nonneg _, hgood b hb⟩
      rw [hall]
      omega)
    linarith
  obtain ⟨normalized, hnorm⟩ : ∃ normalized,
      normalizeErrorScale nth (computeErrors (blocks.map Block.res)) = .ok (normalized, s) := by
    unfold normalizeErrorScale
    rw [hs]
    exact ⟨_, rfl⟩
  obtain ⟨-, hw⟩ := weights_eq hnorm
  set s' := s + 1 / 10 ^ 16 with hs'
  have hs'0 : 0 < s' := by positivity
  set S := 1.482602218505602 * hi + 1e-16 with hS
  have hsS : s' ≤ S := by rw [hs', hS, e16]; linarith
  have hiS : hi ≤ S := by rw [hS]; nlinarith
  set W : Block → ℝ := fun b => huberDerivative (vlen b.r ^ 2 / s') huberK with hW
  have hk : (0 : ℝ) < huberK := by norm_num [huberK]
  have hk1 : (1 : ℝ) ≤ huberK := by norm_num [huberK]
  have hk' : huberK = 1.345 := rfl
  have hws : computeWeights normalized = blocks.map W := by
    rw [hw, List.map_map]
    refine List.map_congr_left fun b _ => ?_
    have e : (b.res.data ⬝ᵥ b.res.data) = vlen b.r ^ 2 := dot_self_eq b.r
    simp only [Function.comp, hW]
    rw [e]
  have hc0 : ∀ b ∈ blocks, 0 ≤ c := by
    intro b hb
    have h1 := hc b hb 1
    have h2 := vlen_nonneg (b.J *ᵥ (makeM q *ᵥ 1))
    have h3 : 0 < vlen (1 : Fin 6 → ℝ) := by
      unfold vlen
      exact Real.sqrt_pos.2 (by norm_num)
    by_contra hneg
    have := mul_neg_of_neg_of_pos (not_le.1 hneg) h3
    linarith
  have hSnn : 0 ≤ Real.sqrt S := Real.sqrt_nonneg _
  have hc00 : 0 ≤ c := by
    cases hb : blocks with
    | nil =>
      have hl := hperm.length_eq
      rw [hb, List.length_append] at hl
      simp only [List.length_nil] at hl
      omega
    | cons b l => exact hc0 b (by rw [hb]; exact List.mem_cons_self)
  have hbound0 : 0 ≤ blocks.length * c * 1.345 * Real.sqrt S / μ := by positivity
  by_cases hdeg : ∃ l, IsEigenvalue (gram blocks) l ∧ |l| < 1 / 10
  · refine ⟨normalized, s, 0, hnorm, ?_, ?_⟩
    · rw [hws]
      exact C46_degenerate llt _ _ blocks (by rw [List.length_map]) hdeg
    · rw [vlen_zero]
      exact hbound0
  · obtain ⟨dx, hdx, heq, -⟩ := C46_step hllt q hq (blocks.map W) blocks (by rw [List.length_map])
      (by
        intro w hwm
        obtain ⟨b, -, rfl⟩ := List.mem_map.1 hwm
        exact ((C45_weight huberK hk).1 _).1) hdeg
    refine ⟨normalized, s, dx, hnorm, by rw [hws]; exact hdx, ?_⟩
    rw [zip_weights] at heq
    set f : (b : Block) → Fin b.n → ℝ := fun b => b.J *ᵥ (makeM q *ᵥ dx) with hf
    have heq' : ∀ j, (blocks.map fun b => W b * ∑ i, (b.J * makeM q) i j * (f b + b.r) i).sum = 0 := by
      intro j
      have := heq j
      rw [List.map_map] at this
      exact this
    -- the step equations, multiplied by the step
    have hsum : (blocks.map fun b => W b * ∑ i, f b i * (f b + b.r) i).sum = 0 := by
      have h0 : ∑ j, dx j * (blocks.map fun b => W b * ∑ i, (b.J * makeM q) i j * (f b + b.r) i).sum = 0 :=
        Finset.sum_eq_zero fun j _ => by rw [heq' j, mul_zero]
      rw [sum_mul_list blocks (fun b j => W b * ∑ i, (b.J * makeM q) i j * (f b + b.r) i) dx] at h0
      rw [← h0]
      congr 1
      exact List.map_congr_left fun b _ => (block_dot b.J (makeM q) dx (f b + b.r) (W b)).symm
    have hleft : (blocks.map fun b => W b * vlen (f b) ^ 2).sum ≤
        blocks.length * (c * vlen dx * (huberK * Real.sqrt s')) := by
      have e : (blocks.map fun b => W b * vlen (f b) ^ 2).sum =
          (blocks.map fun b => -(W b * ∑ i, f b i * b.r i)).sum := by
        have : (blocks.map fun b => W b * ∑ i, f b i * (f b + b.r) i).sum =
            (blocks.map fun b => W b * vlen (f b) ^ 2).sum -
              (blocks.map fun b => -(W b * ∑ i, f b i * b.r i)).sum := by
          rw [sub_eq_add_neg, ← sum_map_neg', ← List.sum_map_add]
          congr 1
          refine List.map_congr_left fun b _ => ?_
          rw [vlen_sq]
          simp only [Pi.add_apply, mul_add, Finset.sum_add_distrib]
          rw [Finset.sum_congr rfl fun i _ => (sq (f b i)).symm]
          ring
        rw [hsum] at this
        linarith
      rw [e]
      refine sum_le_length _ _ _ fun b hb => ?_
      have hWb : 0 < W b := ((C45_weight huberK hk).1 _).1
      have hcs : -∑ i, f b i * b.r i ≤ vlen (f b) * vlen b.r := by
        have := Real.sum_mul_le_sqrt_mul_sqrt Finset.univ (fun i => -f b i) b.r
        simp only [neg_sq, neg_mul, Finset.sum_neg_distrib] at this
        exact this
      have hp := weight_pull (e := vlen b.r ^ 2) (sq_nonneg _) hs'0 hk
      rw [Real.sqrt_sq (vlen_nonneg _)] at hp
      calc -(W b * ∑ i, f b i * b.r i) = W b * -∑ i, f b i * b.r i := by ring
        _ ≤ W b * (vlen (f b) * vlen b.r) := mul_le_mul_of_nonneg_left hcs hWb.le
        _ = vlen (f b) * (W b * vlen b.r) := by ring
        _ ≤ c * vlen dx * (huberK * Real.sqrt s') :=
          mul_le_mul (hc b hb dx) hp (mul_nonneg hWb.le (vlen_nonneg _))
            (mul_nonneg hc00 (vlen_nonneg _))
    have hright : Real.sqrt s' * (μ * vlen dx ^ 2) ≤
        Real.sqrt S * (blocks.map fun b => W b * vlen (f b) ^ 2).sum := by
      have h1 : Real.sqrt s' * (inliers.map fun b => vlen (f b) ^ 2).sum ≤
          Real.sqrt S * (inliers.map fun b => W b * vlen (f b) ^ 2).sum := by
        rw [← List.sum_map_mul_left, ← List.sum_map_mul_left]
        refine List.sum_le_sum fun b hb => ?_
        have := weight_good (sq_nonneg _) (hgood b hb) hs'0 hsS hiS hk1
        calc Real.sqrt s' * vlen (f b) ^ 2 ≤ W b * Real.sqrt S * vlen (f b) ^ 2 :=
              mul_le_mul_of_nonneg_right this (sq_nonneg _)
          _ = _ := by ring
      have h2 : (inliers.map fun b => W b * vlen (f b) ^ 2).sum ≤
          (blocks.map fun b => W b * vlen (f b) ^ 2).sum := by
        rw [(hperm.map _).sum_eq, List.map_append, List.sum_append]
        have : 0 ≤ (outliers.map fun b => W b * vlen (f b) ^ 2).sum := List.sum_nonneg (by
          intro x hx
          obtain ⟨b, -, rfl⟩ := List.mem_map.1 hx
          exact mul_nonneg ((C45_weight huberK hk).1 _).1.le (sq_nonneg _))
        linarith
      calc Real.sqrt s' * (μ * vlen dx ^ 2) ≤ Real.sqrt s' * (inliers.map fun b => vlen (f b) ^ 2).sum :=
            mul_le_mul_of_nonneg_left (hdet dx) (Real.sqrt_nonneg _)
        _ ≤ _ := h1
        _ ≤ _ := mul_le_mul_of_nonneg_left h2 hSnn
    have hs'p : 0 < Real.sqrt s' := Real.sqrt_pos.2 hs'0
    rw [le_div_iff₀ hmu]
    by_cases hz : vlen dx = 0
    · rw [hz, zero_mul]
      positivity
    have hlp : 0 < vlen dx := lt_of_le_of_ne (vlen_nonneg _) (Ne.symm hz)
    have hfin : Real.sqrt s' * (μ * vlen dx ^ 2) ≤
        Real.sqrt S * (blocks.length * (c * vlen dx * (huberK * Real.sqrt s'))) :=
      hright.trans (mul_le_mul_of_nonneg_left hleft hSnn)
    have hpp : 0 < Real.sqrt s' * vlen dx := mul_pos hs'p hlp
    refine le_of_mul_le_mul_left ?_ hpp
    calc Real.sqrt s' * vlen dx * (vlen dx * μ) = Real.sqrt s' * (μ * vlen dx ^ 2) := by ring
      _ ≤ _ := hfin
      _ = _ := by rw [hk']; ring

end Verif.Opt

namespace Verif.Align

open Matrix Verif.Rot Verif.Opt Verif.Loc

theorem vlen_sq_eq {n : ℕ} (v : Fin n → ℝ) : vlen v ^ 2 = sqLen v := vlen_sq v

theorem vlen_le_of_sq {n : ℕ} (v : Fin n → ℝ) {c : ℝ} (hc : 0 ≤ c) (h : sqLen v ≤ c ^ 2) : vlen v ≤ c :=
  Real.sqrt_le_iff.2 ⟨hc, h⟩

theorem sqLen_cross_le (a b : V3) : sqLen (a ⨯₃ b) ≤ sqLen a * sqLen b := by
  rw [cross_apply]
  simp only [sqLen, Fin.sum_univ_three, Matrix.cons_val_zero, Matrix.cons_val_one, Matrix.cons_val]
  nlinarith [sq_nonneg (a 0 * b 0 + a 1 * b 1 + a 2 * b 2)]

theorem dot_sq_le (a b : V3) : (a ⬝ᵥ b) ^ 2 ≤ sqLen a * sqLen b := by
  simp only [sqLen, dotProduct, Fin.sum_univ_three]
  nlinarith [sq_nonneg (a 0 * b 1 - a 1 * b 0), sq_nonneg (a 0 * b 2 - a 2 * b 0),
    sq_nonneg (a 1 * b 2 - a 2 * b 1)]

theorem sqLen_add (a b : V3) : sqLen (a + b) = sqLen a + 2 * (a ⬝ᵥ b) + sqLen b := by
  simp only [sqLen, dotProduct, Fin.sum_univ_three, Pi.add_apply]
  ring

theorem sqLen_parts (dx : Fin 6 → ℝ) : sqLen dx = sqLen (turn dx) + sqLen (shift dx) := by
  simp only [sqLen, turn, shift, Fin.sum_univ_three, Fin.sum_univ_six, Matrix.cons_val_zero,
    Matrix.cons_val_one, Matrix.cons_val]
  ring

/-- A point within `ρ` of the origin moves by at most `√(1 + ρ²)` times the size of the step. -/
theorem move_le (θ δ x : V3) (ρ : ℝ) (hx : sqLen x ≤ ρ ^ 2) :
    sqLen (θ ⨯₃ x + δ) ≤ (1 + ρ ^ 2) * (sqLen θ + sqLen δ) := by
  have h1 : sqLen (θ ⨯₃ x) ≤ sqLen θ * ρ ^ 2 :=
    (sqLen_cross_le θ x).trans (mul_le_mul_of_nonneg_left hx (sqLen_nonneg θ))
  have h2 := dot_sq_le (θ ⨯₃ x) δ
  have h0 := sqLen_nonneg θ
  have hd := sqLen_nonneg δ
  have h3 : ((θ ⨯₃ x) ⬝ᵥ δ) ^ 2 ≤ sqLen θ * (ρ ^ 2 * sqLen δ) := by
    calc _ ≤ _ := h2
      _ ≤ sqLen θ * ρ ^ 2 * sqLen δ := mul_le_mul_of_nonneg_right h1 hd
      _ = _ := by ring
  have h4 : 2 * ((θ ⨯₃ x) ⬝ᵥ δ) ≤ sqLen θ + ρ ^ 2 * sqLen δ := by
    have hb : 0 ≤ ρ ^ 2 * sqLen δ := mul_nonneg (sq_nonneg _) hd
    refine abs_le_of_sq_le_sq' ?_ (by linarith) |>.2
    nlinarith [sq_nonneg (sqLen θ - ρ ^ 2 * sqLen δ)]
  rw [sqLen_add]
  nlinarith

/-- What one pass of the optimiser returns. -/
theorem run_one {nth : Nth} {llt : Llt} (blocks : Pose → List Block) (T : Pose)
    (hR : makePose (Quat.ofMatrix T.linear) T.translation = T) {normalized : List ℝ} {s : ℝ} {dx : Fin 6 → ℝ}
    (h1 : normalizeErrorScale nth (computeErrors ((blocks T).map Block.res)) = .ok (normalized, s))
    (h2 : weightedUpdate llt (makeM (Quat.ofMatrix T.linear)) (computeWeights normalized)
      ((blocks T).map Block.jac) ((blocks T).map Block.res) = .ok dx) :
    ∃ r, run nth llt (problem blocks) 1 T = .ok r ∧
      (r.pose = T ∨ r.pose = makePose ((Quat.ofMatrix T.linear).mul (angleAxisToQuaternion (turn dx)))
        (T.translation + shift dx)) := by
  have hcalc : calcUpdate llt (Quat.ofMatrix T.linear) (computeWeights normalized)
      ((blocks T).map Block.jac) ((blocks T).map Block.res) =
      .ok (angleAxisToQuaternion (turn dx), shift dx) := by
    have e1 : (fun i : Fin 3 => dx (Fin.castAdd 3 i)) = turn dx := by
      funext i; fin_cases i <;> rfl
    have e2 : (fun i : Fin 3 => dx (Fin.natAdd 3 i)) = shift dx := by
      funext i; fin_cases i <;> rfl
    simp only [calcUpdate, h2, bind, Except.bind, pure, Except.pure, e1, e2]
  rw [run]
  rw [if_neg (by norm_num)]
  show ∃ r, runLoop nth llt (problem blocks) 1 0 _ _ _ _ = _ ∧ _
  rw [runLoop]
  simp only [problem, bind, Except.bind, hR, pure, Except.pure, h1, hcalc]
  split_ifs
  · exact ⟨_, rfl, Or.inl rfl⟩
  · exact ⟨_, rfl, Or.inl rfl⟩
  · exact ⟨_, rfl, Or.inl rfl⟩
  · exact ⟨_, rfl, Or.inr rfl⟩
  · rw [runLoop]
    exact ⟨_, rfl, Or.inr rfl⟩

/-- C129: the same for the alignment of two point lists: when more than half of the pairs are `good` – at
most `√hi` apart under the pose the optimiser starts with – and the good source points are spread out, then
one iteration moves the translation by at most `B` and turns by at most the rotation vector `v` of length
`B`, whatever the other pairs are, where `B` only mentions the number of pairs, the extent `ρ` of the source
points, the spread `μ` of the good ones and `hi`. -/
theorem C129_alignment {nth : Nth} (hn : Lib.IsNthElement nth) {llt : Llt} (hllt : LltSpec llt)
    (source target : List V3) (hlen : source.length = target.length) (good bad : List (V3 × V3))
    (hperm : (source.zip target).Perm (good ++ bad)) (hmost : bad.length < good.length)
    (T : Pose) (hT : IsRotation T.linear) (hi ρ μ : ℝ) (hmu : 0 < μ)
    (hgood : ∀ p ∈ good, vlen (T.apply p.1 - p.2) ^ 2 ≤ hi) (hρ : ∀ x ∈ source, vlen x ≤ ρ)
    (hspread : ∀ θ δ : V3, μ * (vlen θ ^ 2 + vlen δ ^ 2) ≤
      (good.map fun p => vlen (θ ⨯₃ p.1 + δ) ^ 2).sum) :
    let B := source.length * Real.sqrt (1 + ρ ^ 2) * 1.345 *
      Real.sqrt (1.482602218505602 * hi + 1e-16) / μ
    ∃ r v, run nth llt (alignmentMake source target) 1 T = .ok r ∧
      vlen (r.pose.translation - T.translation) ≤ B ∧ vlen v ≤ B ∧
      r.pose.linear = T.linear * (angleAxisToQuaternion v).toRotationMatrix := by
  intro B
  obtain ⟨hq, hR⟩ := C71_matrix_to_quaternion _ hT
  set q := Quat.ofMatrix T.linear with hqd
  have hpose : makePose q T.translation = T := by
    unfold makePose
    rw [hR]
  rw [alignmentMake_eq _ _ hlen]
  have hJ : ∀ (x : V3) (dx : Fin 6 → ℝ), sqLen (alignmentJacobian q x *ᵥ (makeM q *ᵥ dx)) =
      sqLen (turn dx ⨯₃ x + T.linearᵀ *ᵥ shift dx) := by
    intro x dx
    have : T.linear *ᵥ (turn dx ⨯₃ x) + shift dx = T.linear *ᵥ (turn dx ⨯₃ x + T.linearᵀ *ᵥ shift dx) := by
      rw [mulVec_add, mulVec_mulVec, mul_eq_one_comm.1 hT.1, one_mulVec]
    rw [jacobian_step q hq, hR, this, rot_sqLen hT]
  have hTt : ∀ v : V3, sqLen (T.linearᵀ *ᵥ v) = sqLen v := by
    intro v
    rw [← rot_sqLen hT (T.linearᵀ *ᵥ v), mulVec_mulVec, mul_eq_one_comm.1 hT.1, one_mulVec]
  have hρ' : ∀ p ∈ source.zip target, sqLen p.1 ≤ ρ ^ 2 := by
    intro p hp
    have := hρ p.1 (List.of_mem_zip hp).1
    rw [← vlen_sq_eq]
    exact pow_le_pow_left₀ (vlen_nonneg _) this 2
  have hroot : Real.sqrt (1 + ρ ^ 2) ^ 2 = 1 + ρ ^ 2 := Real.sq_sqrt (by positivity)
  obtain ⟨normalized, s, dx, e1, e2, e3⟩ := C129_step hn hllt q hq (alignmentBlocks (source.zip target) T)
    (alignmentBlocks good T) (alignmentBlocks bad T) hi (Real.sqrt (1 + ρ ^ 2)) μ hmu
    (by
      have := hperm.map fun p : V3 × V3 => (⟨3, alignmentJacobian (Quat.ofMatrix T.linear) p.1,
        alignmentResidual T p.1 p.2⟩ : Block)
      rwa [List.map_append] at this)
    (by simpa [alignmentBlocks] using hmost)
    (by
      intro b hb
      obtain ⟨p, hp, rfl⟩ := List.mem_map.1 hb
      exact hgood p hp)
    (by
      intro b hb x
      obtain ⟨p, hp, rfl⟩ := List.mem_map.1 hb
      refine vlen_le_of_sq _ (mul_nonneg (Real.sqrt_nonneg _) (vlen_nonneg _)) ?_
      show sqLen (alignmentJacobian q p.1 *ᵥ (makeM q *ᵥ x)) ≤ _
      rw [hJ, mul_pow, hroot, vlen_sq_eq, sqLen_parts x]
      have := move_le (turn x) (T.linearᵀ *ᵥ shift x) p.1 ρ (hρ' p hp)
      rwa [hTt] at this)
    (by
      intro x
      have := hspread (turn x) (T.linearᵀ *ᵥ shift x)
      rw [vlen_sq_eq, vlen_sq_eq, hTt, ← sqLen_parts, ← vlen_sq_eq] at this
      refine this.trans (le_of_eq ?_)
      rw [alignmentBlocks, List.map_map]
      refine congrArg List.sum (List.map_congr_left fun p _ => ?_)
      show _ = vlen (alignmentJacobian q p.1 *ᵥ (makeM q *ᵥ x)) ^ 2
      rw [vlen_sq_eq, vlen_sq_eq, hJ])
  have hB : vlen dx ≤ B := by
    have hl : (alignmentBlocks (source.zip target) T).length = source.length := by
      simp [alignmentBlocks, hlen]
    rwa [hl] at e3
  have hB0 : 0 ≤ B := (vlen_nonneg _).trans hB
  obtain ⟨r, hr, hc⟩ := run_one (alignmentBlocks (source.zip target)) T hpose e1 e2
  have hturn : vlen (turn dx) ≤ B := by
    refine (Real.sqrt_le_sqrt ?_).trans hB
    have := sqLen_parts dx
    have h2 := sqLen_nonneg (shift dx)
    show sqLen _ ≤ sqLen _
    linarith
  have hshift : vlen (shift dx) ≤ B := by
    refine (Real.sqrt_le_sqrt ?_).trans hB
    have := sqLen_parts dx
    have h2 := sqLen_nonneg (turn dx)
    show sqLen _ ≤ sqLen _
    linarith
  rcases hc with hc | hc
  · refine ⟨r, 0, hr, ?_, ?_, ?_⟩
    · rw [hc, sub_self, vlen_zero]
      exact hB0
    · rw [vlen_zero]
      exact hB0
    · rw [hc, C51_near_zero 0 (by simp [Rot.norm]), show (⟨1, 0, 0, 0⟩ : Quat).toRotationMatrix = 1 by
        ext i j
        fin_cases i <;> fin_cases j <;> simp [Quat.toRotationMatrix], mul_one]
  · refine ⟨r, turn dx, hr, ?_, hturn, ?_⟩
    · rw [hc]
      show vlen (T.translation + shift dx - T.translation) ≤ B
      rwa [add_sub_cancel_left]
    · rw [hc]
      show ((q.mul (angleAxisToQuaternion (turn dx))).toRotationMatrix) = _
      rw [toRotationMatrix_mul _ _ hq (C51_unit _), hR]

/-- Four exact pairs and a fifth that is wrong by any distance `d`: an iteration moves the pose by less than
a ten-millionth. -/
example {nth : Nth} (hn : Lib.IsNthElement nth) {llt : Llt} (hllt : LltSpec llt) (d : ℝ) :
    ∃ r, run nth llt (alignmentMake (corners ++ [0]) (corners ++ [![d, 0, 0]])) 1 ⟨1, 0⟩ = .ok r ∧
      vlen r.pose.translation ≤ 1e-7 := by
  have hid : IsRotation (1 : Matrix (Fin 3) (Fin 3) ℝ) := ⟨by simp, by simp⟩
  have hz : ∀ p ∈ corners.zip corners, p.1 = p.2 := by
    intro p hp
    simp only [corners, List.zip_cons_cons, List.zip_nil_right, List.mem_cons, List.not_mem_nil, or_false] at hp
    rcases hp with rfl | rfl | rfl | rfl <;> rfl
  obtain ⟨r, v, h1, h2, -, -⟩ := C129_alignment hn hllt (corners ++ [0]) (corners ++ [![d, 0, 0]]) (by simp)
    (corners.zip corners) [(0, ![d, 0, 0])] (by rw [List.zip_append rfl]; exact List.Perm.refl _)
    (by simp [corners]) ⟨1, 0⟩ hid 0 1 2 (by norm_num)
    (by
      intro p hp
      rw [← hz p hp]
      simp [Pose.apply, vlen_zero])
    (by
      intro x hx
      refine vlen_le_of_sq _ (by norm_num) ?_
      simp only [corners, List.cons_append, List.nil_append, List.mem_cons, List.not_mem_nil, or_false] at hx
      rcases hx with rfl | rfl | rfl | rfl | rfl <;> simp [sqLen, Fin.sum_univ_three])
    (by
      intro θ δ
      simp only [vlen_sq_eq, corners, List.zip_cons_cons, List.zip_nil_right, List.map_cons, List.map_nil,
        List.sum_cons, List.sum_nil, cross_apply]
      simp only [sqLen, Fin.sum_univ_three, Pi.add_apply, Matrix.cons_val_zero, Matrix.cons_val_one,
        Matrix.cons_val]
      nlinarith [sq_nonneg (θ 2), sq_nonneg (δ 0), sq_nonneg (δ 1), sq_nonneg (δ 2)])
  refine ⟨r, h1, ?_⟩
  rw [sub_zero] at h2
  refine h2.trans ?_
  have e1 : Real.sqrt (1 + 1 ^ 2) ≤ 3 / 2 := Real.sqrt_le_iff.2 ⟨by norm_num, by norm_num⟩
  have e2 : Real.sqrt (1.482602218505602 * 0 + 1e-16) ≤ 1e-8 := Real.sqrt_le_iff.2 ⟨by norm_num, by norm_num⟩
  have e3 := Real.sqrt_nonneg (1.482602218505602 * 0 + 1e-16)
  have e4 : ((corners ++ [0]).length : ℝ) = 5 := by norm_num [corners]
  rw [e4, div_le_iff₀ (by norm_num)]
  have : Real.sqrt (1 + 1 ^ 2) * Real.sqrt (1.482602218505602 * 0 + 1e-16) ≤ 3 / 2 * 1e-8 :=
    mul_le_mul e1 e2 e3 (by norm_num)
  nlinarith

end Verif.Align
