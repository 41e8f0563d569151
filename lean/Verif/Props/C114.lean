/-
C114: it does not matter when a measurement is processed; C115: smoothing counts a measurement once.
-/
import Verif.Props.C32
import Verif.Model.Measurement
import Mathlib.Analysis.Matrix.Order
import Mathlib.LinearAlgebra.Matrix.ToLinearEquiv

set_option autoImplicit false

namespace Verif.Kalman

open Matrix Verif.Ekf

/-! ### Specifications -/

/-- A measurement `y` of `C x`, with covariance `R`, of the state after `tick` predictions. -/
structure Meas (d : ℕ) where
  h : ℕ
  y : Fin h → ℝ
  C : Matrix (Fin h) (Fin d) ℝ
  R : Matrix (Fin h) (Fin h) ℝ
  tick : ℕ

/-- A step of a linear process: `A x + v` plus noise of covariance `Q`. -/
structure Pred (d : ℕ) where
  A : Matrix (Fin d) (Fin d) ℝ
  v : Fin d → ℝ
  Q : Matrix (Fin d) (Fin d) ℝ

/-- What happens to a filter. -/
inductive Op (d : ℕ) where
  | predict (p : Pred d)
  | measure (m : Meas d)

variable {n d : ℕ}

/-- The filter after a prediction of a linear process. -/
noncomputable def predictLinear (f : TimeDelayKalmanFilter ℝ (n + 1) d) (p : Pred d) :
    TimeDelayKalmanFilter ℝ (n + 1) d :=
  f.predict n.succ_pos (p.A *ᵥ f.getLatestX n.succ_pos + p.v) p.A p.Q

/-- The filter after a sequence of calls, `t` predictions having been made before: a measurement is
passed with the number of predictions made since its tick as delay. -/
noncomputable def exec : ℕ → List (Op d) → TimeDelayKalmanFilter ℝ (n + 1) d →
    Res (TimeDelayKalmanFilter ℝ (n + 1) d)
  | _, [], f => .ok f
  | t, .predict p :: ops, f => exec (t + 1) ops (predictLinear f p)
  | t, .measure m :: ops, f => f.update m.y m.C m.R ((t : ℤ) - m.tick) >>= exec t ops

/-- The predictions of a sequence of calls. -/
def preds : List (Op d) → List (Pred d)
  | [] => []
  | .predict p :: ops => p :: preds ops
  | .measure _ :: ops => preds ops

/-- The measurements of a sequence of calls. -/
def measurements : List (Op d) → List (Meas d)
  | [] => []
  | .predict _ :: ops => measurements ops
  | .measure m :: ops => m :: measurements ops

/-- No measurement is processed before its tick, or later than the history of `N` states allows; process
noise and measurement noise are covariances, the latter regular. -/
def Timely (N : ℕ) : ℕ → List (Op d) → Prop
  | _, [] => True
  | t, .predict p :: ops => p.Q.PosSemidef ∧ Timely N (t + 1) ops
  | t, .measure m :: ops => m.R.PosDef ∧ m.tick ≤ t ∧ t < m.tick + N ∧ Timely N t ops

/-- An estimate: mean and covariance. -/
abbrev Belief (d : ℕ) := (Fin d → ℝ) × Matrix (Fin d) (Fin d) ℝ

/-- The Kalman filter of the textbook, prediction. -/
def Belief.predict (b : Belief d) (p : Pred d) : Belief d :=
  (p.A *ᵥ b.1 + p.v, p.A * b.2 * p.Aᵀ + p.Q)

/-- The Kalman filter of the textbook, correction. -/
noncomputable def Belief.correct (b : Belief d) (m : Meas d) : Belief d :=
  let G := b.2 * m.Cᵀ * (m.R + m.C * b.2 * m.Cᵀ)⁻¹
  (b.1 + G *ᵥ (m.y - m.C *ᵥ b.1), b.2 - G * m.C * b.2)

/-- The Kalman filter of the textbook that gets every measurement in time: after the `k`-th prediction it
is given the measurements with tick `k`. -/
noncomputable def inTime (ms : List (Meas d)) : ℕ → List (Pred d) → Belief d → Belief d
  | k, [], b => (ms.filter fun m => m.tick = k).foldl Belief.correct b
  | k, p :: ps, b =>
    inTime ms (k + 1) ps (((ms.filter fun m => m.tick = k).foldl Belief.correct b).predict p)

/-- A measurement whose covariance has been multiplied by `r`, as the node does for a message that it
processes `r` times. -/
def Meas.smoothed (m : Meas d) (r : ℕ) : Meas d := { m with R := (r : ℝ) • m.R }

/-! ### The information form of the update -/

section Information
variable {ι β : Type} [Fintype ι] [DecidableEq ι] [Fintype β] [DecidableEq β]

theorem update_information (P : Matrix ι ι ℝ) (x : ι → ℝ) (D : Matrix β ι ℝ) (R : Matrix β β ℝ) (y : β → ℝ)
    (hR : R.det ≠ 0) (hS : (R + D * P * Dᵀ).det ≠ 0) :
    let G := P * Dᵀ * (R + D * P * Dᵀ)⁻¹
    (1 + P * (Dᵀ * R⁻¹ * D)) * (P - G * D * P) = P ∧
    (1 + P * (Dᵀ * R⁻¹ * D)) *ᵥ (x + G *ᵥ (y - D *ᵥ x)) = x + P *ᵥ ((Dᵀ * R⁻¹) *ᵥ y) := by
  intro G
  have hR' : IsUnit R.det := isUnit_iff_ne_zero.2 hR
  have hS' : IsUnit (R + D * P * Dᵀ).det := isUnit_iff_ne_zero.2 hS
  have key : (1 + P * (Dᵀ * R⁻¹ * D)) * G = P * (Dᵀ * R⁻¹) := by
    have h1 : (1 + P * (Dᵀ * R⁻¹ * D)) * (P * Dᵀ) = P * (Dᵀ * R⁻¹) * (R + D * P * Dᵀ) := by
      rw [Matrix.add_mul, Matrix.one_mul, Matrix.mul_add]
      congr 1
      · rw [Matrix.mul_assoc, Matrix.mul_assoc, Matrix.nonsing_inv_mul _ hR', Matrix.mul_one]
      · simp only [Matrix.mul_assoc]
    show (1 + P * (Dᵀ * R⁻¹ * D)) * (P * Dᵀ * (R + D * P * Dᵀ)⁻¹) = _
    rw [← Matrix.mul_assoc, h1, Matrix.mul_assoc, Matrix.mul_nonsing_inv _ hS', Matrix.mul_one]
  constructor
  · rw [Matrix.mul_sub, Matrix.mul_assoc G, ← Matrix.mul_assoc _ G, key, Matrix.add_mul, Matrix.one_mul]
    simp only [Matrix.mul_assoc]
    abel
  · rw [Matrix.mulVec_add, Matrix.mulVec_mulVec, key, Matrix.mulVec_sub, Matrix.add_mulVec,
      Matrix.one_mulVec]
    simp only [Matrix.mulVec_mulVec, Matrix.mul_assoc]
    abel

theorem one_add_injective {P M : Matrix ι ι ℝ} (hP : P.PosSemidef) (hM : M.PosSemidef) :
    IsUnit (1 + P * M).det := by
  rw [isUnit_iff_ne_zero]
  intro hdet
  obtain ⟨v, hv, h⟩ := exists_mulVec_eq_zero_iff.2 hdet
  apply hv
  rw [Matrix.add_mulVec, Matrix.one_mulVec, ← Matrix.mulVec_mulVec] at h
  have h1 : 0 ≤ star v ⬝ᵥ (M *ᵥ v) := hM.dotProduct_mulVec_nonneg v
  have h2 : 0 ≤ star (M *ᵥ v) ⬝ᵥ (P *ᵥ (M *ᵥ v)) := hP.dotProduct_mulVec_nonneg _
  have h3 : v = -(P *ᵥ (M *ᵥ v)) := eq_neg_of_add_eq_zero_left h
  have h4 : star (M *ᵥ v) ⬝ᵥ (P *ᵥ (M *ᵥ v)) = -(star v ⬝ᵥ (M *ᵥ v)) := by
    have : P *ᵥ (M *ᵥ v) = -v := eq_neg_of_add_eq_zero_right h
    rw [this, dotProduct_neg, star_trivial, star_trivial, dotProduct_comm]
  have h5 : star v ⬝ᵥ (M *ᵥ v) = 0 := by linarith
  have h6 : M *ᵥ v = 0 := (hM.dotProduct_mulVec_zero_iff v).1 h5
  rw [h6, Matrix.mulVec_zero, neg_zero] at h3
  exact h3

end Information

/-! ### Updates as information -/

/-- An update with a delay within the history. -/
noncomputable def upd (f : TimeDelayKalmanFilter ℝ (n + 1) d) (a : Meas d × Fin (n + 1)) :
    Res (TimeDelayKalmanFilter ℝ (n + 1) d) :=
  f.update a.1.y a.1.C a.1.R (a.2.val : ℤ)

/-- The information matrix of a measurement. -/
noncomputable def infoMatrix (a : Meas d × Fin (n + 1)) :
    Matrix (Fin (n + 1) × Fin d) (Fin (n + 1) × Fin d) ℝ :=
  (delayedMeasurement a.1.C a.2)ᵀ * a.1.R⁻¹ * delayedMeasurement a.1.C a.2

/-- The information vector of a measurement. -/
noncomputable def infoVector (a : Meas d × Fin (n + 1)) : Fin (n + 1) × Fin d → ℝ :=
  ((delayedMeasurement a.1.C a.2)ᵀ * a.1.R⁻¹) *ᵥ a.1.y

theorem transpose_eq {α β : Type} (M : Matrix α β ℝ) : Mᵀ = Mᴴ :=
  (Matrix.conjTranspose_eq_transpose_of_trivial M).symm

theorem infoMatrix_psd (a : Meas d × Fin (n + 1)) (hR : a.1.R.PosDef) : (infoMatrix a).PosSemidef := by
  unfold infoMatrix
  rw [transpose_eq]
  exact hR.inv.posSemidef.conjTranspose_mul_mul_same _

theorem filter_ext {f g : TimeDelayKalmanFilter ℝ (n + 1) d} (hx : augX f.x = augX g.x)
    (hP : aug f.P = aug g.P) : f = g := by
  obtain ⟨x, P⟩ := f
  obtain ⟨x', P'⟩ := g
  congr 1
  · funext c
    obtain ⟨a, rfl⟩ := finProdFinEquiv.surjective c
    exact congrFun hx a
  · funext c e
    obtain ⟨a, rfl⟩ := finProdFinEquiv.surjective c
    obtain ⟨b, rfl⟩ := finProdFinEquiv.surjective e
    exact congrFun (congrFun hP a) b

theorem upd_ok (f : TimeDelayKalmanFilter ℝ (n + 1) d) (a : Meas d × Fin (n + 1)) (hf : f.P.PosSemidef)
    (hR : a.1.R.PosDef) : ∃ f', upd f a = .ok f' ∧ f'.P.PosSemidef ∧
      (1 + aug f.P * infoMatrix a) * aug f'.P = aug f.P ∧
      (1 + aug f.P * infoMatrix a) *ᵥ augX f'.x = augX f.x + aug f.P *ᵥ infoVector a := by
  obtain ⟨f', h⟩ := C34_accepted f a.1.y a.1.C a.1.R a.2 hf hR
  obtain ⟨hS, hx, hP⟩ := C33_augmented f f' _ _ _ _ h
  have hR' : a.1.R.det ≠ 0 := ((isUnit_iff_isUnit_det _).1 hR.isUnit).ne_zero
  have hpsd := applyOp_psd f (.update _ a.1.y a.1.C a.1.R (a.2.val : ℤ)) hf hR.posSemidef
  simp only [applyOp, h] at hpsd
  obtain ⟨k1, k2⟩ := update_information (aug f.P) (augX f.x) (delayedMeasurement a.1.C a.2) a.1.R a.1.y
    hR' hS
  refine ⟨f', h, hpsd, ?_, ?_⟩
  · rw [hP]; exact k1
  · rw [hx]; exact k2

theorem fold_ok (l : List (Meas d × Fin (n + 1))) (hl : ∀ a ∈ l, a.1.R.PosDef)
    (f : TimeDelayKalmanFilter ℝ (n + 1) d) (hf : f.P.PosSemidef) :
    ∃ f', l.foldlM upd f = .ok f' ∧ f'.P.PosSemidef ∧
      (1 + aug f.P * (l.map infoMatrix).sum) * aug f'.P = aug f.P ∧
      (1 + aug f.P * (l.map infoMatrix).sum) *ᵥ augX f'.x =
        augX f.x + aug f.P *ᵥ (l.map infoVector).sum := by
  induction l generalizing f with
  | nil => exact ⟨f, rfl, hf, by simp, by simp⟩
  | cons a l ih =>
    obtain ⟨f1, h1, hf1, hP1, hx1⟩ := upd_ok f a hf (hl a List.mem_cons_self)
    obtain ⟨f', h2, hf', hP2, hx2⟩ := ih (fun b hb => hl b (List.mem_cons_of_mem _ hb)) f1 hf1
    have key : 1 + aug f.P * (infoMatrix a + (l.map infoMatrix).sum) =
        (1 + aug f.P * infoMatrix a) * (1 + aug f1.P * (l.map infoMatrix).sum) := by
      rw [Matrix.mul_add, Matrix.mul_add, Matrix.mul_one, ← Matrix.mul_assoc, hP1, add_assoc]
    refine ⟨f', ?_, hf', ?_, ?_⟩
    · rw [List.foldlM_cons, h1]
      exact h2
    · rw [List.map_cons, List.sum_cons, key, Matrix.mul_assoc, hP2, hP1]
    · rw [List.map_cons, List.sum_cons, key, ← Matrix.mulVec_mulVec, hx2, Matrix.mulVec_add, hx1,
        Matrix.mulVec_mulVec, hP1, List.map_cons, List.sum_cons, Matrix.mulVec_add, add_assoc]

/-- Updates are determined by their information. -/
theorem fold_same (l l' : List (Meas d × Fin (n + 1))) (hl : ∀ a ∈ l, a.1.R.PosDef)
    (hl' : ∀ a ∈ l', a.1.R.PosDef) (hM : (l.map infoMatrix).sum = (l'.map infoMatrix).sum)
    (hv : (l.map infoVector).sum = (l'.map infoVector).sum)
    (f : TimeDelayKalmanFilter ℝ (n + 1) d) (hf : f.P.PosSemidef) :
    l.foldlM upd f = l'.foldlM upd f := by
  obtain ⟨g, h, -, hP, hx⟩ := fold_ok l hl f hf
  obtain ⟨g', h', -, hP', hx'⟩ := fold_ok l' hl' f hf
  rw [← hM] at hP' hx'
  rw [← hv] at hx'
  have hpsd : (l.map infoMatrix).sum.PosSemidef := by
    clear hM hv h h' hP hP' hx hx'
    induction l with
    | nil => exact Matrix.PosSemidef.zero
    | cons a l ih =>
      rw [List.map_cons, List.sum_cons]
      exact (infoMatrix_psd a (hl a List.mem_cons_self)).add
        (ih fun b hb => hl b (List.mem_cons_of_mem _ hb))
  have hu := one_add_injective ((psd_aug f.P).2 hf) hpsd
  rw [h, h']
  congr 1
  refine filter_ext ?_ ?_
  · exact Matrix.mulVec_injective_of_isUnit ((Matrix.isUnit_iff_isUnit_det _).2 hu) (hx.trans hx'.symm)
  · have := congrArg (fun M => (1 + aug f.P * (l.map infoMatrix).sum)⁻¹ * M) (hP.trans hP'.symm)
    simpa only [← Matrix.mul_assoc, Matrix.nonsing_inv_mul _ hu, Matrix.one_mul] using this

theorem fold_perm {l l' : List (Meas d × Fin (n + 1))} (h : l.Perm l') (hl : ∀ a ∈ l, a.1.R.PosDef)
    (f : TimeDelayKalmanFilter ℝ (n + 1) d) (hf : f.P.PosSemidef) : l.foldlM upd f = l'.foldlM upd f :=
  fold_same l l' hl (fun a ha => hl a (h.mem_iff.2 ha)) (h.map _).sum_eq (h.map _).sum_eq f hf

/-! ### Updates and predictions -/

theorem predictLinear_psd (f : TimeDelayKalmanFilter ℝ (n + 1) d) (p : Pred d) (hf : f.P.PosSemidef)
    (hQ : p.Q.PosSemidef) : (predictLinear f p).P.PosSemidef :=
  applyOp_psd f (.predict (p.A *ᵥ f.getLatestX n.succ_pos + p.v) p.A p.Q) hf hQ

theorem delayed_shift {h : ℕ} (C : Matrix (Fin h) (Fin d) ℝ) (A : Matrix (Fin d) (Fin d) ℝ) (δ : Fin n) :
    delayedMeasurement C δ.succ * shiftMatrix A = delayedMeasurement C δ.castSucc := by
  ext r ⟨j, l⟩
  rw [Matrix.mul_apply, Fintype.sum_prod_type, Finset.sum_eq_single δ.succ]
  · rw [Finset.sum_eq_single l]
    · by_cases hj : j = δ.castSucc
      · subst hj
        simp [delayedMeasurement, shiftMatrix]
      · have : δ.val ≠ j.val := fun e => hj (Fin.ext e.symm)
        simp [delayedMeasurement, shiftMatrix, hj, this]
    · intro k _ hk
      simp [delayedMeasurement, shiftMatrix, hk]
    · simp
  · intro i _ hi
    exact Finset.sum_eq_zero fun k _ => by simp [delayedMeasurement, hi]
  · simp

theorem delayed_noise {h : ℕ} (C : Matrix (Fin h) (Fin d) ℝ) (Q : Matrix (Fin d) (Fin d) ℝ) (δ : Fin n) :
    delayedMeasurement C δ.succ * newestNoise (n := n) Q = 0 := by
  ext r ⟨j, l⟩
  rw [Matrix.mul_apply, Fintype.sum_prod_type]
  refine Finset.sum_eq_zero fun i _ => Finset.sum_eq_zero fun k _ => ?_
  by_cases hi : i = δ.succ
  · subst hi
    simp [newestNoise]
  · simp [delayedMeasurement, hi]

theorem noise_delayed {h : ℕ} (C : Matrix (Fin h) (Fin d) ℝ) (Q : Matrix (Fin d) (Fin d) ℝ) (δ : Fin n) :
    newestNoise (n := n) Q * (delayedMeasurement C δ.succ)ᵀ = 0 := by
  have h1 : (newestNoise (n := n) Q) = (newestNoise Qᵀ)ᵀ := by
    ext a b
    simp [newestNoise, and_comm]
  rw [h1, ← Matrix.transpose_mul, delayed_noise, Matrix.transpose_zero]

theorem delayed_input {h : ℕ} (C : Matrix (Fin h) (Fin d) ℝ) (v : Fin d → ℝ) (δ : Fin n) :
    delayedMeasurement C δ.succ *ᵥ newestInput v = 0 := by
  funext r
  simp only [Matrix.mulVec, dotProduct, Fintype.sum_prod_type]
  refine Finset.sum_eq_zero fun i _ => Finset.sum_eq_zero fun k _ => ?_
  by_cases hi : i = δ.succ
  · subst hi
    simp [newestInput]
  · simp [delayedMeasurement, hi]

/-- A measurement may be processed before a prediction or, with a delay larger by one, after it. -/
theorem upd_predict (f : TimeDelayKalmanFilter ℝ (n + 1) d) (p : Pred d) (m : Meas d) (δ : Fin n)
    (hf : f.P.PosSemidef) (hQ : p.Q.PosSemidef) (hR : m.R.PosDef) :
    upd (predictLinear f p) (m, δ.succ) =
      (upd f (m, δ.castSucc)).map fun g => predictLinear g p := by
  obtain ⟨g, h1, -⟩ := upd_ok f (m, δ.castSucc) hf hR
  obtain ⟨g', h2, -⟩ := upd_ok (predictLinear f p) (m, δ.succ) (predictLinear_psd f p hf hQ) hR
  rw [h1, h2]
  show Except.ok g' = Except.ok (predictLinear g p)
  congr 1
  obtain ⟨-, hx, hP⟩ := C33_augmented f g _ _ _ _ h1
  obtain ⟨-, hx', hP'⟩ := C33_augmented (predictLinear f p) g' _ _ _ _ h2
  have ePf : aug (predictLinear f p).P = _ := C32_covariance f _ p.A p.Q
  have ePg : aug (predictLinear g p).P = _ := C32_covariance g _ p.A p.Q
  have exf : augX (predictLinear f p).x = _ := C32_state f p.A p.Q p.v
  have exg : augX (predictLinear g p).x = _ := C32_state g p.A p.Q p.v
  have hPD : (shiftMatrix p.A * aug f.P * (shiftMatrix p.A)ᵀ + newestNoise p.Q) *
      (delayedMeasurement m.C δ.succ)ᵀ =
      shiftMatrix p.A * (aug f.P * (delayedMeasurement m.C δ.castSucc)ᵀ) := by
    rw [Matrix.add_mul, noise_delayed, add_zero, Matrix.mul_assoc, ← Matrix.transpose_mul, delayed_shift,
      Matrix.mul_assoc]
  have hDP : delayedMeasurement m.C δ.succ *
      (shiftMatrix p.A * aug f.P * (shiftMatrix p.A)ᵀ + newestNoise p.Q) =
      delayedMeasurement m.C δ.castSucc * aug f.P * (shiftMatrix p.A)ᵀ := by
    rw [Matrix.mul_add, delayed_noise, add_zero, ← Matrix.mul_assoc, ← Matrix.mul_assoc, delayed_shift]
  have hDx : delayedMeasurement m.C δ.succ *ᵥ (shiftMatrix p.A *ᵥ augX f.x + newestInput p.v) =
      delayedMeasurement m.C δ.castSucc *ᵥ augX f.x := by
    rw [Matrix.mulVec_add, delayed_input, add_zero, Matrix.mulVec_mulVec, delayed_shift]
  have hS : delayedMeasurement m.C δ.succ *
      (shiftMatrix p.A * aug f.P * (shiftMatrix p.A)ᵀ + newestNoise p.Q) *
      (delayedMeasurement m.C δ.succ)ᵀ =
      delayedMeasurement m.C δ.castSucc * aug f.P * (delayedMeasurement m.C δ.castSucc)ᵀ := by
    rw [hDP, Matrix.mul_assoc, ← Matrix.transpose_mul, delayed_shift]
  simp only at hx hP hx' hP'
  refine filter_ext ?_ ?_
  · rw [hx', exg, hx, exf, ePf, hPD, hS, hDx, Matrix.mulVec_add, Matrix.mulVec_mulVec]
    simp only [Matrix.mul_assoc]
    abel
  · rw [hP', ePg, hP, ePf, hPD, hS]
    simp only [Matrix.mul_assoc]
    simp only [Matrix.mul_assoc] at hDP
    rw [hDP, Matrix.sub_mul, Matrix.mul_sub]
    simp only [Matrix.mul_assoc]
    abel

/-! ### Schedules -/

/-- The delayed filter that gets every measurement in time. -/
noncomputable def reference (ms : List (Meas d)) : ℕ → List (Pred d) →
    TimeDelayKalmanFilter ℝ (n + 1) d → Res (TimeDelayKalmanFilter ℝ (n + 1) d)
  | k, [], f => ((ms.filter fun m => m.tick = k).map fun m => (m, 0)).foldlM upd f
  | k, p :: ps, f => ((ms.filter fun m => m.tick = k).map fun m => (m, 0)).foldlM upd f >>=
      fun g => reference ms (k + 1) ps (predictLinear g p)

theorem group_posDef {ms : List (Meas d)} (hms : ∀ m ∈ ms, m.R.PosDef) (k : ℕ) :
    ∀ a ∈ (ms.filter fun m => m.tick = k).map fun m => (m, (0 : Fin (n + 1))), a.1.R.PosDef := by
  intro a ha
  obtain ⟨m, hm, rfl⟩ := List.mem_map.1 ha
  exact hms m (List.mem_filter.1 hm).1

theorem reference_ok {ms : List (Meas d)} (hms : ∀ m ∈ ms, m.R.PosDef) (ps : List (Pred d))
    (hps : ∀ p ∈ ps, p.Q.PosSemidef) (k : ℕ) (f : TimeDelayKalmanFilter ℝ (n + 1) d)
    (hf : f.P.PosSemidef) : ∃ f', reference ms k ps f = .ok f' ∧ f'.P.PosSemidef := by
  induction ps generalizing k f with
  | nil =>
    obtain ⟨f', h, hf', -⟩ := fold_ok _ (group_posDef (n := n) hms k) f hf
    exact ⟨f', h, hf'⟩
  | cons p ps ih =>
    obtain ⟨g, h, hg, -⟩ := fold_ok _ (group_posDef (n := n) hms k) f hf
    obtain ⟨f', h', hf'⟩ := ih (fun q hq => hps q (List.mem_cons_of_mem _ hq)) (k + 1) (predictLinear g p)
      (predictLinear_psd g p hg (hps p List.mem_cons_self))
    refine ⟨f', ?_, hf'⟩
    rw [reference, h]
    exact h'

theorem group_upd {ms : List (Meas d)} (hms : ∀ m ∈ ms, m.R.PosDef) (k : ℕ)
    (f : TimeDelayKalmanFilter ℝ (n + 1) d) (hf : f.P.PosSemidef) (a : Meas d × Fin (n + 1))
    (ha : a.1.R.PosDef) :
    (upd f a >>= fun g => ((ms.filter fun m => m.tick = k).map fun m => (m, 0)).foldlM upd g) =
      (((ms.filter fun m => m.tick = k).map fun m => (m, 0)).foldlM upd f >>= fun g => upd g a) := by
  have hgrp := group_posDef (n := n) hms k
  generalize ((ms.filter fun m => m.tick = k).map fun m => (m, (0 : Fin (n + 1)))) = grp at hgrp
  have h := fold_perm (n := n) (List.perm_append_comm (l₁ := [a]) (l₂ := grp)) (by
    intro b hb
    rcases List.mem_append.1 hb with hb | hb
    · rw [List.mem_singleton.1 hb]; exact ha
    · exact hgrp b hb) f hf
  rw [List.foldlM_append, List.foldlM_append] at h
  simpa only [List.foldlM_cons, List.foldlM_nil, bind_assoc, pure_bind, bind_pure] using h

/-- A measurement may be processed before or after a run of the reference. -/
theorem reference_upd {ms : List (Meas d)} (hms : ∀ m ∈ ms, m.R.PosDef) (m : Meas d) (hm : m.R.PosDef)
    (ps : List (Pred d)) (hps : ∀ p ∈ ps, p.Q.PosSemidef) (k : ℕ)
    (f : TimeDelayKalmanFilter ℝ (n + 1) d) (hf : f.P.PosSemidef) (δ : ℕ) (hδ : δ + ps.length < n + 1) :
    (upd f (m, ⟨δ, by omega⟩) >>= fun g => reference ms k ps g) =
      (reference ms k ps f >>= fun g => upd g (m, ⟨δ + ps.length, hδ⟩)) := by
  induction ps generalizing k f δ with
  | nil => exact group_upd hms k f hf _ hm
  | cons p ps ih =>
    have hlen : δ + 1 + ps.length < n + 1 := by rw [List.length_cons] at hδ; omega
    have hQ := hps p List.mem_cons_self
    obtain ⟨g, h1, hgp, -⟩ := fold_ok _ (group_posDef (n := n) hms k) f hf
    have hcomm := upd_predict g p m ⟨δ, by omega⟩ hgp hQ hm
    have hnext := ih (fun q hq => hps q (List.mem_cons_of_mem _ hq)) (k + 1) (predictLinear g p)
      (predictLinear_psd g p hgp hQ) (δ + 1) hlen
    obtain ⟨g', h2, -⟩ := upd_ok g (m, ⟨δ, by omega⟩) hgp hm
    have h3 := group_upd hms k f hf (m, (⟨δ, by omega⟩ : Fin (n + 1))) hm
    rw [h1] at h3
    have h2' : upd g (m, (⟨δ, by omega⟩ : Fin n).castSucc) = .ok g' := h2
    rw [h2'] at hcomm
    have hcomm' : upd (predictLinear g p) (m, (⟨δ + 1, by omega⟩ : Fin (n + 1))) =
      .ok (predictLinear g' p) := hcomm
    rw [hcomm'] at hnext
    have e : (⟨δ + (p :: ps).length, hδ⟩ : Fin (n + 1)) = ⟨δ + 1 + ps.length, hlen⟩ := by
      apply Fin.ext
      simp only [List.length_cons]
      omega
    simp only [reference]
    rw [e, ← bind_assoc, h3, h1]
    show (upd g _ >>= _) = _
    rw [h2]
    exact hnext

theorem reference_other (m : Meas d) (ms : List (Meas d)) (ps : List (Pred d)) (k : ℕ)
    (hk : m.tick < k ∨ k + ps.length < m.tick) (f : TimeDelayKalmanFilter ℝ (n + 1) d) :
    reference (ms ++ [m]) k ps f = reference ms k ps f := by
  have hne : m.tick ≠ k := by omega
  have hfil : ((ms ++ [m]).filter fun m => m.tick = k) = ms.filter fun m => m.tick = k := by
    simp [List.filter_append, hne]
  induction ps generalizing k f with
  | nil => simp only [reference, hfil]
  | cons p ps ih =>
    have hk' : m.tick < k + 1 ∨ k + 1 + ps.length < m.tick := by
      rw [List.length_cons] at hk; omega
    have hne' : m.tick ≠ k + 1 := by omega
    simp only [reference, hfil]
    congr 1
    funext g
    exact ih (k + 1) hk' _ hne' (by simp [List.filter_append, hne'])

/-- A measurement appended to the reference counts as a delayed one at the end. -/
theorem reference_append {ms : List (Meas d)} (hms : ∀ m ∈ ms, m.R.PosDef) (m : Meas d) (hm : m.R.PosDef)
    (ps : List (Pred d)) (hps : ∀ p ∈ ps, p.Q.PosSemidef) (k : ℕ)
    (f : TimeDelayKalmanFilter ℝ (n + 1) d) (hf : f.P.PosSemidef) (hk : k ≤ m.tick)
    (hk' : m.tick ≤ k + ps.length) (hδ : k + ps.length - m.tick < n + 1) :
    reference (ms ++ [m]) k ps f =
      (reference ms k ps f >>= fun g => upd g (m, ⟨k + ps.length - m.tick, hδ⟩)) := by
  induction ps generalizing k f with
  | nil =>
    have e : m.tick = k := by simp only [List.length_nil] at hk'; omega
    have e' : (⟨k + ([] : List (Pred d)).length - m.tick, hδ⟩ : Fin (n + 1)) = 0 := by
      apply Fin.ext; simp [e]
    rw [e']
    simp [reference, List.filter_append, e, List.foldlM_append]
  | cons p ps ih =>
    have hQ := hps p List.mem_cons_self
    have hps' : ∀ q ∈ ps, q.Q.PosSemidef := fun q hq => hps q (List.mem_cons_of_mem _ hq)
    obtain ⟨g, h1, hgp, -⟩ := fold_ok _ (group_posDef (n := n) hms k) f hf
    simp only [List.length_cons] at hk' hδ
    by_cases e : m.tick = k
    · have hfil : ((ms ++ [m]).filter fun m => m.tick = k) = (ms.filter fun m => m.tick = k) ++ [m] := by
        simp [List.filter_append, e]
      obtain ⟨g', h2, -⟩ := upd_ok g (m, (0 : Fin (n + 1))) hgp hm
      have hn : 0 < n := by omega
      have hcomm := upd_predict g p m ⟨0, hn⟩ hgp hQ hm
      have h2' : upd g (m, (⟨0, hn⟩ : Fin n).castSucc) = .ok g' := h2
      rw [h2'] at hcomm
      have hcomm' : upd (predictLinear g p) (m, (⟨1, by omega⟩ : Fin (n + 1))) =
        .ok (predictLinear g' p) := hcomm
      have hlen : 1 + ps.length < n + 1 := by omega
      have hnext := reference_upd hms m hm ps hps' (k + 1) (predictLinear g p)
        (predictLinear_psd g p hgp hQ) 1 hlen
      rw [hcomm'] at hnext
      have e' : (⟨k + (p :: ps).length - m.tick, hδ⟩ : Fin (n + 1)) = ⟨1 + ps.length, hlen⟩ := by
        apply Fin.ext
        simp only [List.length_cons]
        omega
      rw [e']
      simp only [reference, hfil, List.map_append, List.foldlM_append, List.map_cons, List.map_nil]
      rw [h1]
      show ((upd g (m, 0) >>= fun g => pure g) >>= _) = _
      rw [h2]
      show reference (ms ++ [m]) (k + 1) ps (predictLinear g' p) = _
      rw [reference_other m ms ps (k + 1) (.inl (by omega))]
      exact hnext
    · have hfil : ((ms ++ [m]).filter fun m => m.tick = k) = ms.filter fun m => m.tick = k := by
        simp [List.filter_append, e]
      have hδ' : k + 1 + ps.length - m.tick < n + 1 := by omega
      have e' : (⟨k + (p :: ps).length - m.tick, hδ⟩ : Fin (n + 1)) = ⟨k + 1 + ps.length - m.tick, hδ'⟩ := by
        apply Fin.ext
        simp only [List.length_cons]
        omega
      have := ih hps' (k + 1) (predictLinear g p) (predictLinear_psd g p hgp hQ) (by omega) (by omega) hδ'
      rw [e']
      simp only [reference, hfil]
      rw [h1]
      exact this

theorem reference_predict (ms : List (Meas d)) (p : Pred d) (ps : List (Pred d)) (k : ℕ)
    (hms : ∀ m ∈ ms, m.tick ≤ k + ps.length) (f : TimeDelayKalmanFilter ℝ (n + 1) d) :
    reference ms k (ps ++ [p]) f = (reference ms k ps f).map fun g => predictLinear g p := by
  induction ps generalizing k f with
  | nil =>
    have : (ms.filter fun m => m.tick = k + 1) = [] := by
      rw [List.filter_eq_nil_iff]
      intro m hm
      have := hms m hm
      simp only [List.length_nil] at this
      simp only [decide_eq_true_eq]
      omega
    simp only [List.nil_append, reference, this]
    generalize (List.foldlM upd f _ : Res (TimeDelayKalmanFilter ℝ (n + 1) d)) = r
    cases r <;> rfl
  | cons q ps ih =>
    simp only [List.cons_append, reference]
    generalize (List.foldlM upd f _ : Res (TimeDelayKalmanFilter ℝ (n + 1) d)) = r
    cases r with
    | error e => rfl
    | ok g => exact ih (k + 1) (fun m hm => by have := hms m hm; simp only [List.length_cons] at this; omega) _

/-! ### Sequences of calls, from the end -/

theorem exec_append (ops ops' : List (Op d)) (t : ℕ) (f : TimeDelayKalmanFilter ℝ (n + 1) d) :
    exec t (ops ++ ops') f = (exec t ops f >>= exec (t + (preds ops).length) ops') := by
  induction ops generalizing t f with
  | nil => rfl
  | cons op ops ih =>
    cases op with
    | predict p =>
      simp only [List.cons_append, exec, preds, List.length_cons, ih]
      rw [Nat.add_assoc, Nat.add_comm 1]
    | measure m =>
      simp only [List.cons_append, exec, preds, bind_assoc]
      congr 1
      funext g
      exact ih t g

theorem preds_append (ops ops' : List (Op d)) : preds (ops ++ ops') = preds ops ++ preds ops' := by
  induction ops with
  | nil => rfl
  | cons op ops ih => cases op <;> simp [preds, ih]

theorem measurements_append (ops ops' : List (Op d)) :
    measurements (ops ++ ops') = measurements ops ++ measurements ops' := by
  induction ops with
  | nil => rfl
  | cons op ops ih => cases op <;> simp [measurements, ih]

theorem timely_append (N : ℕ) (ops ops' : List (Op d)) (t : ℕ) :
    Timely N t (ops ++ ops') ↔ Timely N t ops ∧ Timely N (t + (preds ops).length) ops' := by
  induction ops generalizing t with
  | nil => simp [Timely, preds]
  | cons op ops ih =>
    cases op with
    | predict p =>
      simp only [List.cons_append, Timely, preds, List.length_cons, ih]
      rw [show t + 1 + (preds ops).length = t + ((preds ops).length + 1) from by omega, and_assoc]
    | measure m =>
      simp only [List.cons_append, Timely, preds, ih, and_assoc]

theorem timely_facts {N : ℕ} {ops : List (Op d)} {t : ℕ} (h : Timely N t ops) :
    (∀ p ∈ preds ops, p.Q.PosSemidef) ∧ (∀ m ∈ measurements ops, m.R.PosDef) ∧
    ∀ m ∈ measurements ops, m.tick ≤ t + (preds ops).length := by
  induction ops generalizing t with
  | nil => simp [preds, measurements]
  | cons op ops ih =>
    cases op with
    | predict p =>
      obtain ⟨hQ, h⟩ := h
      obtain ⟨h1, h2, h3⟩ := ih h
      refine ⟨?_, h2, ?_⟩
      · simpa [preds] using ⟨hQ, h1⟩
      · intro m hm
        have := h3 m hm
        simp only [preds, List.length_cons]
        omega
    | measure m =>
      obtain ⟨hR, h4, -, h⟩ := h
      obtain ⟨h1, h2, h3⟩ := ih h
      refine ⟨h1, ?_, ?_⟩
      · simpa [measurements] using ⟨hR, h2⟩
      · intro m' hm'
        simp only [measurements, List.mem_cons] at hm'
        rcases hm' with rfl | hm'
        · exact h4.trans (Nat.le_add_right _ _)
        · exact h3 m' hm'

/-- Every timely sequence of calls leads to the filter that gets every measurement in time. -/
theorem exec_reference (ops : List (Op d)) (h : Timely (n + 1) 0 ops)
    (f : TimeDelayKalmanFilter ℝ (n + 1) d) (hf : f.P.PosSemidef) :
    exec 0 ops f = reference (measurements ops) 0 (preds ops) f := by
  induction ops using List.reverseRecOn with
  | nil => rfl
  | append_singleton ops op ih =>
    obtain ⟨h1, h2⟩ := (timely_append _ _ _ _).1 h
    obtain ⟨hQ, hR, ht⟩ := timely_facts h1
    rw [exec_append, preds_append, measurements_append, ih h1]
    cases op with
    | predict p =>
      simp only [preds, measurements, List.append_nil]
      rw [reference_predict _ _ _ _ ht]
      generalize reference (measurements ops) 0 (preds ops) f = r
      cases r <;> rfl
    | measure m =>
      obtain ⟨hm, hle, hlt, -⟩ := h2
      simp only [preds, measurements, List.append_nil]
      have hδ : 0 + (preds ops).length - m.tick < n + 1 := by omega
      rw [reference_append hR m hm _ hQ 0 f hf (Nat.zero_le _) hle hδ]
      congr 1
      funext g
      simp only [exec, upd]
      rw [show (((0 + (preds ops).length - m.tick : ℕ) : ℤ)) =
        ((0 + (preds ops).length : ℕ) : ℤ) - (m.tick : ℤ) from by omega]
      generalize (g.update _ _ _ _ : Res (TimeDelayKalmanFilter ℝ (n + 1) d)) = r
      cases r <;> rfl

theorem reference_info {ms ms' : List (Meas d)} (hms : ∀ m ∈ ms, m.R.PosDef)
    (hms' : ∀ m ∈ ms', m.R.PosDef)
    (hM : ∀ k, (((ms.filter fun m => m.tick = k).map fun m => (m, (0 : Fin (n + 1)))).map infoMatrix).sum =
      (((ms'.filter fun m => m.tick = k).map fun m => (m, 0)).map infoMatrix).sum)
    (hv : ∀ k, (((ms.filter fun m => m.tick = k).map fun m => (m, (0 : Fin (n + 1)))).map infoVector).sum =
      (((ms'.filter fun m => m.tick = k).map fun m => (m, 0)).map infoVector).sum)
    (ps : List (Pred d)) (hps : ∀ p ∈ ps, p.Q.PosSemidef) (k : ℕ)
    (f : TimeDelayKalmanFilter ℝ (n + 1) d) (hf : f.P.PosSemidef) :
    reference ms k ps f = reference ms' k ps f := by
  have hgrp : ∀ k, ∀ f : TimeDelayKalmanFilter ℝ (n + 1) d, f.P.PosSemidef →
      ((ms.filter fun m => m.tick = k).map fun m => (m, 0)).foldlM upd f =
      ((ms'.filter fun m => m.tick = k).map fun m => (m, 0)).foldlM upd f := fun k f hf =>
    fold_same _ _ (group_posDef hms k) (group_posDef hms' k) (hM k) (hv k) f hf
  induction ps generalizing k f with
  | nil => exact hgrp k f hf
  | cons p ps ih =>
    obtain ⟨g, h1, hg, -⟩ := fold_ok _ (group_posDef (n := n) hms k) f hf
    have h2 := hgrp k f hf
    rw [h1] at h2
    simp only [reference]
    rw [h1, ← h2]
    exact ih (fun q hq => hps q (List.mem_cons_of_mem _ hq)) (k + 1) _
      (predictLinear_psd g p hg (hps p List.mem_cons_self))

theorem reference_perm {ms ms' : List (Meas d)} (h : ms.Perm ms') (hms : ∀ m ∈ ms, m.R.PosDef)
    (ps : List (Pred d)) (hps : ∀ p ∈ ps, p.Q.PosSemidef) (k : ℕ)
    (f : TimeDelayKalmanFilter ℝ (n + 1) d) (hf : f.P.PosSemidef) :
    reference ms k ps f = reference ms' k ps f :=
  reference_info hms (fun m hm => hms m (h.mem_iff.2 hm))
    (fun k => (((h.filter _).map _).map _).sum_eq) (fun k => (((h.filter _).map _).map _).sum_eq) ps hps k f
    hf

/-! ### The newest state and the filter of the textbook -/

/-- The published estimate: newest state and its covariance. -/
def belief (f : TimeDelayKalmanFilter ℝ (n + 1) d) : Belief d :=
  (f.getLatestX n.succ_pos, f.getLatestP n.succ_pos)

theorem belief_blk (f : TimeDelayKalmanFilter ℝ (n + 1) d) : belief f = (blkX f.x 0, blk f.P 0 0) := by
  refine Prod.ext ?_ ?_
  · funext k
    simp only [belief, TimeDelayKalmanFilter.getLatestX, blkX]
    rw [emb_slot_zero]
  · funext k l
    simp only [belief, TimeDelayKalmanFilter.getLatestP, blk]
    rw [emb_slot_zero, emb_slot_zero]

theorem belief_predict (f : TimeDelayKalmanFilter ℝ (n + 1) d) (p : Pred d) :
    belief (predictLinear f p) = (belief f).predict p := by
  have hx : f.getLatestX n.succ_pos = (belief f).1 := rfl
  rw [belief_blk (predictLinear f p)]
  refine Prod.ext ?_ ?_
  · simp only [predictLinear, TimeDelayKalmanFilter.predict, updateX_blk_zero, Belief.predict, hx]
  · simp only [predictLinear, TimeDelayKalmanFilter.predict, updateP_blk_00, Belief.predict, belief_blk]

theorem belief_upd (f f' : TimeDelayKalmanFilter ℝ (n + 1) d) (m : Meas d) (h : upd f (m, 0) = .ok f') :
    belief f' = (belief f).correct m := by
  obtain ⟨h1, h2⟩ := C33_blocks f m.y m.C m.R 0
  have h' : f.update m.y m.C m.R (((0 : Fin (n + 1)).val : ℕ) : ℤ) = .ok f' := h
  have hdet : (m.R + m.C * blk f.P 0 0 * m.Cᵀ).det ≠ 0 := by
    intro h0
    rw [h1 h0] at h'
    cases h'
  obtain ⟨g, hg, hx, hP⟩ := h2 hdet
  rw [h'] at hg
  injection hg with hg
  subst hg
  simp only [belief_blk, hx, hP, Belief.correct]

theorem belief_fold (ms : List (Meas d)) (f f' : TimeDelayKalmanFilter ℝ (n + 1) d)
    (h : (ms.map fun m => (m, 0)).foldlM upd f = .ok f') :
    belief f' = ms.foldl Belief.correct (belief f) := by
  induction ms generalizing f with
  | nil => injection h with h; rw [← h]; rfl
  | cons m ms ih =>
    rw [List.map_cons, List.foldlM_cons] at h
    cases h1 : upd f (m, 0) with
    | error e => rw [h1] at h; cases h
    | ok g =>
      rw [h1] at h
      rw [ih g h, belief_upd f g m h1]
      rfl

theorem belief_reference (ms : List (Meas d)) (ps : List (Pred d)) (k : ℕ)
    (f f' : TimeDelayKalmanFilter ℝ (n + 1) d) (h : reference ms k ps f = .ok f') :
    belief f' = inTime ms k ps (belief f) := by
  induction ps generalizing k f with
  | nil => exact belief_fold _ f f' h
  | cons p ps ih =>
    simp only [reference] at h
    cases h1 : ((ms.filter fun m => m.tick = k).map fun m => (m, 0)).foldlM upd f with
    | error e => rw [h1] at h; cases h
    | ok g =>
      rw [h1] at h
      rw [ih (k + 1) _ h, belief_predict, belief_fold _ f g h1]
      rfl

/-! ### C114 -/

/-- C114: whenever the measurements of a linear process are processed, as long as each is within the
history of the filter, the newest state and its covariance are those of the Kalman filter of the textbook
that gets every measurement in time. -/
theorem C114_in_time (ops : List (Op d)) (h : Timely (n + 1) 0 ops)
    (f : TimeDelayKalmanFilter ℝ (n + 1) d) (hf : f.P.PosSemidef) :
    ∃ f', exec 0 ops f = .ok f' ∧
      (f'.getLatestX n.succ_pos, f'.getLatestP n.succ_pos) =
        inTime (measurements ops) 0 (preds ops) (f.getLatestX n.succ_pos, f.getLatestP n.succ_pos) := by
  obtain ⟨hQ, hR, -⟩ := timely_facts h
  obtain ⟨f', h1, -⟩ := reference_ok hR (preds ops) hQ 0 f hf
  refine ⟨f', ?_, belief_reference _ _ 0 f f' h1⟩
  rw [exec_reference ops h f hf, h1]

/-- C114: two sequences of calls with the same predictions and the same measurements, processed in
different orders and at different times, lead to the same filter, with all its history. -/
theorem C114_order (ops ops' : List (Op d)) (h : Timely (n + 1) 0 ops) (h' : Timely (n + 1) 0 ops')
    (hp : preds ops = preds ops') (hm : (measurements ops).Perm (measurements ops'))
    (f : TimeDelayKalmanFilter ℝ (n + 1) d) (hf : f.P.PosSemidef) : exec 0 ops f = exec 0 ops' f := by
  obtain ⟨hQ, hR, -⟩ := timely_facts h
  rw [exec_reference ops h f hf, exec_reference ops' h' f hf, ← hp]
  exact reference_perm hm hR _ hQ 0 f hf

/-! ### C115 -/

theorem smoothed_posDef (m : Meas d) (hm : m.R.PosDef) {r : ℕ} (hr : 0 < r) : (m.smoothed r).R.PosDef :=
  hm.smul (by exact_mod_cast hr : (0 : ℝ) < r)

theorem smoothed_inv (m : Meas d) (hm : m.R.PosDef) {r : ℕ} (hr : 0 < r) :
    (m.smoothed r).R⁻¹ = (r : ℝ)⁻¹ • m.R⁻¹ := by
  have hr' : (r : ℝ) ≠ 0 := by exact_mod_cast hr.ne'
  have hu : IsUnit m.R.det := (isUnit_iff_isUnit_det _).1 hm.isUnit
  refine Matrix.inv_eq_left_inv ?_
  show ((r : ℝ)⁻¹ • m.R⁻¹) * ((r : ℝ) • m.R) = 1
  rw [Matrix.smul_mul, Matrix.mul_smul, smul_smul, inv_mul_cancel₀ hr', one_smul,
    Matrix.nonsing_inv_mul _ hu]

theorem smoothed_info (m : Meas d) (hm : m.R.PosDef) {r : ℕ} (hr : 0 < r) (δ : Fin (n + 1)) :
    r • infoMatrix (m.smoothed r, δ) = infoMatrix (m, δ) ∧
    r • infoVector (m.smoothed r, δ) = infoVector (m, δ) := by
  have hr' : (r : ℝ) ≠ 0 := by exact_mod_cast hr.ne'
  have hi : ((r : ℝ) • m.R)⁻¹ = (r : ℝ)⁻¹ • m.R⁻¹ := smoothed_inv m hm hr
  constructor
  · show r • ((delayedMeasurement m.C δ)ᵀ * ((r : ℝ) • m.R)⁻¹ * delayedMeasurement m.C δ) =
      (delayedMeasurement m.C δ)ᵀ * m.R⁻¹ * delayedMeasurement m.C δ
    rw [hi, ← Nat.cast_smul_eq_nsmul ℝ, Matrix.mul_smul, Matrix.smul_mul, smul_smul, mul_inv_cancel₀ hr',
      one_smul]
  · show r • (((delayedMeasurement m.C δ)ᵀ * ((r : ℝ) • m.R)⁻¹) *ᵥ m.y) =
      ((delayedMeasurement m.C δ)ᵀ * m.R⁻¹) *ᵥ m.y
    rw [hi, ← Nat.cast_smul_eq_nsmul ℝ, Matrix.mul_smul, Matrix.smul_mulVec, smul_smul,
      mul_inv_cancel₀ hr', one_smul]

theorem smoothed_sum {V : Type} [AddCommMonoid V] (φ : Meas d × Fin (n + 1) → V) (r : Meas d → ℕ)
    (hφ : ∀ m, m.R.PosDef → r m • φ (m.smoothed (r m), 0) = φ (m, 0)) (ms : List (Meas d))
    (hms : ∀ m ∈ ms, m.R.PosDef) (k : ℕ) :
    ((((ms.flatMap fun m => List.replicate (r m) (m.smoothed (r m))).filter fun m => m.tick = k).map
      fun m => (m, (0 : Fin (n + 1)))).map φ).sum =
    (((ms.filter fun m => m.tick = k).map fun m => (m, 0)).map φ).sum := by
  induction ms with
  | nil => rfl
  | cons m ms ih =>
    rw [List.flatMap_cons, List.filter_append, List.map_append, List.map_append, List.sum_append,
      ih fun q hq => hms q (List.mem_cons_of_mem _ hq)]
    have ht : (m.smoothed (r m)).tick = m.tick := rfl
    by_cases e : m.tick = k
    · rw [List.filter_replicate_of_pos (by simpa [ht] using e), List.filter_cons_of_pos (by simpa using e),
        List.map_replicate, List.map_replicate, List.sum_replicate, hφ m (hms m List.mem_cons_self)]
      simp
    · rw [List.filter_replicate_of_neg (by simpa [ht] using e), List.filter_cons_of_neg (by simpa using e)]
      simp

/-- C115: process each measurement `r` times (`r` may differ between measurements), at any times within the
history, with its covariance multiplied by `r`. The filter is the same as if each were processed once with
its own covariance. -/
theorem C115_smoothing (ms : List (Meas d)) (r : Meas d → ℕ) (hr : ∀ m, 0 < r m) (ops ops' : List (Op d))
    (h : Timely (n + 1) 0 ops) (h' : Timely (n + 1) 0 ops') (hp : preds ops = preds ops')
    (hm : (measurements ops).Perm (ms.flatMap fun m => List.replicate (r m) (m.smoothed (r m))))
    (hm' : (measurements ops').Perm ms) (f : TimeDelayKalmanFilter ℝ (n + 1) d) (hf : f.P.PosSemidef) :
    exec 0 ops f = exec 0 ops' f := by
  obtain ⟨hQ, hR, -⟩ := timely_facts h
  obtain ⟨-, hR', -⟩ := timely_facts h'
  have hms : ∀ m ∈ ms, m.R.PosDef := fun m hm => hR' m (hm'.mem_iff.2 hm)
  rw [exec_reference ops h f hf, exec_reference ops' h' f hf, ← hp, reference_perm hm hR _ hQ 0 f hf,
    reference_perm hm' hR' _ hQ 0 f hf]
  exact reference_info (fun m hq => hR m (hm.mem_iff.2 hq)) hms
    (smoothed_sum infoMatrix r (fun m hq => (smoothed_info m hq (hr m) 0).1) ms hms)
    (smoothed_sum infoVector r (fun m hq => (smoothed_info m hq (hr m) 0).2) ms hms) _ hQ 0 f hf

/-- C115, what the node does: the covariances it passes to the filter are those of the message (rows and
columns x, y, yaw of a pose; forward and angular velocity of a twist) multiplied by the smoothing steps. -/
theorem C115_node_covariance (c : Fin 6 → Fin 6 → ℝ) (s : ℤ) (h0 : 0 ≤ s) (h1 : s < 2147483648) :
    let msg : Fin 36 → ℝ := fun a => c ⟨a.val / 6, by omega⟩ ⟨a.val % 6, by omega⟩
    let pose : Meas 6 := ⟨3, 0, poseMeasurementMatrix, Matrix.of fun i j => c (![0, 1, 5] i) (![0, 1, 5] j), 0⟩
    let twist : Meas 6 := ⟨2, 0, twistMeasurementMatrix, Matrix.of fun i j => c (![0, 5] i) (![0, 5] j), 0⟩
    poseMeasurementCovariance msg (toSizeT s) = (pose.smoothed s.toNat).R ∧
    twistMeasurementCovariance msg (toSizeT s) = (twist.smoothed s.toNat).R := by
  intro msg pose twist
  have hs : toSizeT s = s.toNat := by
    unfold toSizeT
    rw [Int.emod_eq_of_lt h0 (by omega)]
  rw [hs]
  constructor
  · show _ = (s.toNat : ℝ) • (Matrix.of fun i j => c (![0, 1, 5] i) (![0, 1, 5] j) : Matrix (Fin 3) (Fin 3) ℝ)
    unfold poseMeasurementCovariance
    congr 1
    ext i j
    fin_cases i <;> fin_cases j <;> rfl
  · show _ = (s.toNat : ℝ) • (Matrix.of fun i j => c (![0, 5] i) (![0, 5] j) : Matrix (Fin 2) (Fin 2) ℝ)
    unfold twistMeasurementCovariance
    congr 1
    ext i j
    fin_cases i <;> fin_cases j <;> rfl

/-! ### Cases -/

/-- A state of one component that grows by 1 per step. -/
def exPred : Pred 1 := ⟨1, ![1], 1⟩

/-- The value 4 measured before the first step, with variance 1. -/
def exMeas : Meas 1 := ⟨1, ![4], 1, 1, 0⟩

/-- Late by one step; and twice, smoothed: late by one and by two steps. -/
example : Timely 3 0 [.predict exPred, .measure exMeas, .predict exPred] ∧
    Timely 3 0 [.predict exPred, .measure (exMeas.smoothed 2), .predict exPred,
      .measure (exMeas.smoothed 2)] := by
  have hR : (1 : Matrix (Fin 1) (Fin 1) ℝ).PosDef := Matrix.PosDef.one
  have hQ : exPred.Q.PosSemidef := Matrix.PosSemidef.one
  have hs : (exMeas.smoothed 2).R.PosDef := smoothed_posDef exMeas hR (by norm_num)
  exact ⟨⟨hQ, hR, by decide, by decide, hQ, trivial⟩,
    hQ, hs, by decide, by decide, hQ, hs, by decide, by decide, trivial⟩

/-- The result for a state known to be 0 with variance 1: the estimate 2 of variance 1/2 before the first
step, thus 4 of variance 5/2 after two. -/
example (f : TimeDelayKalmanFilter ℝ 3 1) (hf : f.P.PosSemidef) (hx : f.getLatestX (by norm_num) = 0)
    (hP : f.getLatestP (by norm_num) = 1) :
    ∃ f', exec 0 [.predict exPred, .measure (exMeas.smoothed 2), .predict exPred,
        .measure (exMeas.smoothed 2)] f = .ok f' ∧
      f'.getLatestX (by norm_num) = ![4] ∧ f'.getLatestP (by norm_num) = !![5 / 2] := by
  have hR : exMeas.R.PosDef := Matrix.PosDef.one
  have hQ : exPred.Q.PosSemidef := Matrix.PosSemidef.one
  have hs : (exMeas.smoothed 2).R.PosDef := smoothed_posDef exMeas hR (by norm_num)
  have h1 : Timely 3 0 [.predict exPred, .measure exMeas, .predict exPred] :=
    ⟨hQ, hR, by decide, by decide, hQ, trivial⟩
  have h2 : Timely 3 0 [.predict exPred, .measure (exMeas.smoothed 2), .predict exPred,
      .measure (exMeas.smoothed 2)] :=
    ⟨hQ, hs, by decide, by decide, hQ, hs, by decide, by decide, trivial⟩
  obtain ⟨f', h, hb⟩ := C114_in_time _ h1 f hf
  refine ⟨f', ?_, ?_⟩
  · rw [← h]
    exact C115_smoothing [exMeas] (fun _ => 2) (fun _ => by norm_num) _ _ h2 h1 rfl (List.Perm.refl _)
      (List.Perm.refl _) f hf
  · rw [hx, hP] at hb
    have hinv : ((1 : Matrix (Fin 1) (Fin 1) ℝ) + 1)⁻¹ = !![1 / 2] := by
      refine Matrix.inv_eq_left_inv ?_
      ext i j
      fin_cases i; fin_cases j
      simp [Matrix.mul_apply]
      norm_num
    have hval : inTime (measurements [.predict exPred, .measure exMeas, .predict exPred]) 0
        (preds [.predict exPred, .measure exMeas, .predict exPred]) (0, 1) =
        (((0 : Fin 1 → ℝ), (1 : Matrix (Fin 1) (Fin 1) ℝ)) |> fun b =>
          ((Belief.correct b exMeas).predict exPred).predict exPred) := by
      simp [measurements, preds, inTime, exMeas]
    have hcor : Belief.correct ((0 : Fin 1 → ℝ), (1 : Matrix (Fin 1) (Fin 1) ℝ)) exMeas =
        (![2], !![1 / 2]) := by
      let I : Matrix (Fin 1) (Fin 1) ℝ := 1
      have key : ((0 : Fin 1 → ℝ) + (I * Iᵀ * (I + I * I * Iᵀ)⁻¹) *ᵥ (![4] - I *ᵥ 0),
          I - I * Iᵀ * (I + I * I * Iᵀ)⁻¹ * I * I) = ((![2], !![1 / 2]) : Belief 1) := by
        simp only [I, Matrix.transpose_one, Matrix.mul_one, Matrix.one_mul, Matrix.one_mulVec, hinv]
        refine Prod.ext ?_ ?_
        · funext i
          fin_cases i
          simp [Matrix.mulVec, dotProduct]
          norm_num
        · ext i j
          fin_cases i; fin_cases j
          simp
          norm_num
      exact key
    simp only [hcor, Belief.predict, exPred, Matrix.transpose_one, Matrix.mul_one, Matrix.one_mul,
      Matrix.one_mulVec] at hval
    have hb1 := congrArg Prod.fst (hb.trans hval)
    have hb2 := congrArg Prod.snd (hb.trans hval)
    simp only at hb1 hb2
    constructor
    · rw [hb1]
      funext i
      fin_cases i
      simp
      norm_num
    · rw [hb2]
      ext i j
      fin_cases i; fin_cases j
      simp
      norm_num

end Verif.Kalman
