/-
C32: delayed prediction; C33: delayed update; C34: covariances stay positive semidefinite;
C35: the shift register of states.
-/
import Verif.Model.Kalman
import Mathlib.LinearAlgebra.Matrix.PosDef
import Mathlib.Data.Real.Basic
import Mathlib.Data.Real.Star
import Mathlib.Algebra.Order.Star.Real
import Mathlib.Logic.Equiv.Fin.Basic
import Mathlib.Algebra.BigOperators.Fin
import Mathlib.Tactic.NoncommRing
import Mathlib.Tactic.NormNum
import Mathlib.Tactic.FinCases

set_option autoImplicit false

namespace Verif.Kalman

open Matrix

section Spec
variable {K : Type} {N d : ℕ}

/-- Component `k` of the state `i` steps back in the augmented vector. -/
def slot (i : Fin N) (k : Fin d) : Fin (N * d) := finProdFinEquiv (i, k)

/-- The state `i` steps back. -/
def blkX (x : Fin (N * d) → K) (i : Fin N) : Fin d → K := fun k => x (slot i k)

/-- The covariance of the states `i` and `j` steps back. -/
def blk (P : Matrix (Fin (N * d)) (Fin (N * d)) K) (i j : Fin N) : Matrix (Fin d) (Fin d) K :=
  fun k l => P (slot i k) (slot j l)

/-- The augmented matrix, indexed by (step, component). -/
def aug (P : Matrix (Fin (N * d)) (Fin (N * d)) K) : Matrix (Fin N × Fin d) (Fin N × Fin d) K :=
  fun a b => P (slot a.1 a.2) (slot b.1 b.2)

/-- The augmented vector, indexed by (step, component). -/
def augX (x : Fin (N * d) → K) : Fin N × Fin d → K := fun a => x (slot a.1 a.2)

variable [Field K]

/-- Specification: the transition matrix of the shift register; the newest state goes through `A`,
every other one moves one step back. -/
def shiftMatrix {n : ℕ} (A : Matrix (Fin d) (Fin d) K) :
    Matrix (Fin (n + 1) × Fin d) (Fin (n + 1) × Fin d) K := fun a b =>
  if a.1.val = 0 then (if b.1.val = 0 then A a.2 b.2 else 0)
  else if a.1.val = b.1.val + 1 ∧ a.2 = b.2 then 1 else 0

/-- Specification: process noise acts on the newest state only. -/
def newestNoise {n : ℕ} (Q : Matrix (Fin d) (Fin d) K) :
    Matrix (Fin (n + 1) × Fin d) (Fin (n + 1) × Fin d) K := fun a b =>
  if a.1.val = 0 ∧ b.1.val = 0 then Q a.2 b.2 else 0

/-- Specification: input acts on the newest state only. -/
def newestInput {n : ℕ} (v : Fin d → K) : Fin (n + 1) × Fin d → K := fun a =>
  if a.1.val = 0 then v a.2 else 0

/-- Specification: a measurement matrix looking at the state `δ` steps back. -/
def delayedMeasurement {h : ℕ} (C : Matrix (Fin h) (Fin d) K) (δ : Fin N) :
    Matrix (Fin h) (Fin N × Fin d) K := fun r b => if b.1 = δ then C r b.2 else 0

end Spec

/-! ### Helper lemmas -/

section Lemmas
variable {K : Type} [Field K] {N d n : ℕ}

theorem slot_val (i : Fin N) (k : Fin d) : (slot i k).val = k.val + d * i.val := rfl

theorem slot_zero_lt (k : Fin d) : (slot (0 : Fin (n + 1)) k).val < d := by
  rw [slot_val]; simp

theorem slot_succ_not_lt (i : Fin n) (k : Fin d) : ¬ (slot i.succ k).val < d := by
  rw [slot_val, Fin.val_succ, Nat.mul_add, Nat.mul_one]
  have := Nat.zero_le (d * i.val)
  omega

theorem slot_succ_sub (i : Fin n) (k : Fin d) (h : (slot i.succ k).val - d < (n + 1) * d) :
    (⟨(slot i.succ k).val - d, h⟩ : Fin ((n + 1) * d)) = slot i.castSucc k := by
  apply Fin.ext
  simp only [slot_val, Fin.val_succ, Fin.val_castSucc, Nat.mul_add, Nat.mul_one]
  omega

theorem sum_slot {M : Type} [AddCommMonoid M] (f : Fin (N * d) → M) :
    ∑ c, f c = ∑ j : Fin N, ∑ l : Fin d, f (slot j l) := by
  rw [← finProdFinEquiv.sum_comp, Fintype.sum_prod_type]
  rfl

theorem updateX_blk_zero (x : Fin ((n + 1) * d) → K) (v : Fin d → K) :
    blkX (updateX x v) 0 = v := by
  funext k
  simp only [blkX, updateX, dif_pos (slot_zero_lt k)]
  congr 1

theorem updateX_blk_succ (x : Fin ((n + 1) * d) → K) (v : Fin d → K) (i : Fin n) :
    blkX (updateX x v) i.succ = blkX x i.castSucc := by
  funext k
  simp only [blkX, updateX, dif_neg (slot_succ_not_lt i k)]
  rw [slot_succ_sub]

theorem emb_slot_zero (k : Fin d) (h : k.val < (n + 1) * d) :
    (⟨k.val, h⟩ : Fin ((n + 1) * d)) = slot 0 k := by
  apply Fin.ext; simp [slot_val]

theorem val_slot_zero (k : Fin d) (h : (slot (0 : Fin (n + 1)) k).val < d) :
    (⟨(slot (0 : Fin (n + 1)) k).val, h⟩ : Fin d) = k := by
  apply Fin.ext; simp [slot_val]

variable [DecidableEq K]

theorem updateP_blk_00 (hb : d ≤ (n + 1) * d) (P : Matrix (Fin ((n + 1) * d)) (Fin ((n + 1) * d)) K)
    (A Q : Matrix (Fin d) (Fin d) K) : blk (updateP hb P A Q) 0 0 = A * blk P 0 0 * Aᵀ + Q := by
  funext k l
  simp only [blk, updateP, dif_pos (slot_zero_lt k), dif_pos (slot_zero_lt l), val_slot_zero]
  have : (fun i j => P ⟨i.val, by omega⟩ ⟨j.val, by omega⟩ : Matrix (Fin d) (Fin d) K) =
      blk P 0 0 := by
    funext i j
    simp only [emb_slot_zero, blk]
  rw [this]

theorem updateP_blk_0s (hb : d ≤ (n + 1) * d) (P : Matrix (Fin ((n + 1) * d)) (Fin ((n + 1) * d)) K)
    (A Q : Matrix (Fin d) (Fin d) K) (j : Fin n) :
    blk (updateP hb P A Q) 0 j.succ = A * blk P 0 j.castSucc := by
  funext k l
  simp only [blk, updateP, dif_pos (slot_zero_lt k), dif_neg (slot_succ_not_lt j l), val_slot_zero,
    Matrix.mul_apply]
  refine (Matrix.mul_apply).trans (Finset.sum_congr rfl fun q _ => ?_)
  rw [emb_slot_zero, slot_succ_sub]

theorem updateP_blk_s0 (hb : d ≤ (n + 1) * d) (P : Matrix (Fin ((n + 1) * d)) (Fin ((n + 1) * d)) K)
    (A Q : Matrix (Fin d) (Fin d) K) (i : Fin n) :
    blk (updateP hb P A Q) i.succ 0 = blk P i.castSucc 0 * Aᵀ := by
  funext k l
  simp only [blk, updateP, dif_pos (slot_zero_lt l), dif_neg (slot_succ_not_lt i k), val_slot_zero,
    Matrix.mul_apply]
  refine (Matrix.mul_apply).trans (Finset.sum_congr rfl fun q _ => ?_)
  rw [emb_slot_zero, slot_succ_sub]

theorem updateP_blk_ss (hb : d ≤ (n + 1) * d) (P : Matrix (Fin ((n + 1) * d)) (Fin ((n + 1) * d)) K)
    (A Q : Matrix (Fin d) (Fin d) K) (i j : Fin n) :
    blk (updateP hb P A Q) i.succ j.succ = blk P i.castSucc j.castSucc := by
  funext k l
  simp only [blk, updateP, dif_neg (slot_succ_not_lt i k), dif_neg (slot_succ_not_lt j l)]
  rw [slot_succ_sub, slot_succ_sub]

theorem shift_mul_zero {ι : Type} (A : Matrix (Fin d) (Fin d) K)
    (M : Matrix (Fin (n + 1) × Fin d) ι K) (k : Fin d) (y : ι) :
    (shiftMatrix (n := n) A * M) (0, k) y = ∑ l, A k l * M (0, l) y := by
  rw [Matrix.mul_apply, Fintype.sum_prod_type]
  rw [Finset.sum_eq_single (0 : Fin (n + 1))]
  · simp [shiftMatrix]
  · intro j _ hj
    have : j.val ≠ 0 := fun h => hj (Fin.ext h)
    simp [shiftMatrix, this]
  · simp

theorem shift_mul_succ {ι : Type} (A : Matrix (Fin d) (Fin d) K)
    (M : Matrix (Fin (n + 1) × Fin d) ι K) (i : Fin n) (k : Fin d) (y : ι) :
    (shiftMatrix (n := n) A * M) (i.succ, k) y = M (i.castSucc, k) y := by
  rw [Matrix.mul_apply, Fintype.sum_prod_type]
  rw [Finset.sum_eq_single i.castSucc]
  · rw [Finset.sum_eq_single k]
    · simp [shiftMatrix]
    · intro l _ hl
      simp [shiftMatrix, Ne.symm hl]
    · simp
  · intro j _ hj
    refine Finset.sum_eq_zero fun l _ => ?_
    have : ¬ (i.val = j.val) := fun h => hj (Fin.ext h.symm)
    simp [shiftMatrix, this]
  · simp

theorem mul_shiftT {ι : Type} (A : Matrix (Fin d) (Fin d) K)
    (M : Matrix ι (Fin (n + 1) × Fin d) K) : M * (shiftMatrix (n := n) A)ᵀ = (shiftMatrix (n := n) A * Mᵀ)ᵀ := by
  rw [Matrix.transpose_mul, Matrix.transpose_transpose]

end Lemmas

/-! ### C32 -/

section C32
variable {K : Type} [Field K] [DecidableEq K] {n d : ℕ}

/-- C32, covariance: for every dimension and history length, the blockwise prediction equals
`F P Fᵀ + Q` on the augmented state, `F` being the shift register. -/
theorem C32_covariance (f : TimeDelayKalmanFilter K (n + 1) d) (xNext : Fin d → K)
    (A Q : Matrix (Fin d) (Fin d) K) :
    aug (f.predict n.succ_pos xNext A Q).P =
      shiftMatrix A * aug f.P * (shiftMatrix A)ᵀ + newestNoise Q := by
  have h00 := updateP_blk_00 (Nat.le_mul_of_pos_left d n.succ_pos) f.P A Q
  have h0s := updateP_blk_0s (Nat.le_mul_of_pos_left d n.succ_pos) f.P A Q
  have hs0 := updateP_blk_s0 (Nat.le_mul_of_pos_left d n.succ_pos) f.P A Q
  have hss := updateP_blk_ss (Nat.le_mul_of_pos_left d n.succ_pos) f.P A Q
  rw [Matrix.mul_assoc, mul_shiftT]
  ext ⟨i, k⟩ ⟨j, l⟩
  rw [Matrix.add_apply]
  refine Fin.cases ?_ (fun i => ?_) i <;> refine Fin.cases ?_ (fun j => ?_) j
  · rw [shift_mul_zero]
    simp only [Matrix.transpose_apply, shift_mul_zero]
    have := congrFun (congrFun h00 k) l
    change blk _ 0 0 k l = _
    simp only [TimeDelayKalmanFilter.predict]
    rw [this, Matrix.mul_assoc, Matrix.add_apply, Matrix.mul_apply]
    simp only [newestNoise, Fin.val_zero, and_self, if_true]
    congr 1
    refine Finset.sum_congr rfl fun q _ => ?_
    congr 1
    rw [Matrix.mul_apply]
    refine Finset.sum_congr rfl fun r _ => ?_
    simp only [Matrix.transpose_apply, aug, blk, mul_comm]
  · rw [shift_mul_zero]
    simp only [Matrix.transpose_apply, shift_mul_succ]
    have := congrFun (congrFun (h0s j) k) l
    change blk _ 0 j.succ k l = _
    simp only [TimeDelayKalmanFilter.predict]
    rw [this, Matrix.mul_apply]
    simp [newestNoise, aug, blk]
  · rw [shift_mul_succ]
    simp only [Matrix.transpose_apply, shift_mul_zero]
    have := congrFun (congrFun (hs0 i) k) l
    change blk _ i.succ 0 k l = _
    simp only [TimeDelayKalmanFilter.predict]
    rw [this, Matrix.mul_apply]
    simp [newestNoise, aug, blk, mul_comm]
  · rw [shift_mul_succ]
    simp only [Matrix.transpose_apply, shift_mul_succ]
    have := congrFun (congrFun (hss i j) k) l
    change blk _ i.succ j.succ k l = _
    simp only [TimeDelayKalmanFilter.predict]
    rw [this]
    simp [newestNoise, aug, blk]

/-- C32, state: for a linear process `A x + v` the predicted augmented state is `F x` plus the input
at the newest step. -/
theorem C32_state (f : TimeDelayKalmanFilter K (n + 1) d) (A Q : Matrix (Fin d) (Fin d) K)
    (v : Fin d → K) :
    augX (f.predict n.succ_pos (A *ᵥ f.getLatestX n.succ_pos + v) A Q).x =
      shiftMatrix A *ᵥ augX f.x + newestInput v := by
  have hl : f.getLatestX n.succ_pos = blkX f.x 0 := by
    funext k
    simp only [TimeDelayKalmanFilter.getLatestX, blkX]
    rw [emb_slot_zero]
  funext ⟨i, k⟩
  have hmv : ∀ a, (shiftMatrix A *ᵥ augX f.x) a =
      (shiftMatrix (n := n) A * (Matrix.of fun b (_ : Unit) => augX f.x b)) a () := by
    intro a
    rw [Matrix.mul_apply]
    rfl
  rw [Pi.add_apply, hmv]
  refine Fin.cases ?_ (fun i => ?_) i
  · rw [shift_mul_zero]
    change blkX _ 0 k = _
    simp only [TimeDelayKalmanFilter.predict]
    rw [updateX_blk_zero, hl]
    simp only [Pi.add_apply, newestInput, Fin.val_zero, if_true]
    rfl
  · rw [shift_mul_succ]
    change blkX _ i.succ k = _
    simp only [TimeDelayKalmanFilter.predict]
    rw [updateX_blk_succ]
    simp [newestInput, augX, blkX]

/-- C32, any process model: the newest state is the given prediction, the others move back. -/
theorem C32_state_nonlinear (f : TimeDelayKalmanFilter K (n + 1) d) (xNext : Fin d → K)
    (A Q : Matrix (Fin d) (Fin d) K) :
    (f.predict n.succ_pos xNext A Q).getLatestX n.succ_pos = xNext ∧
    ∀ i : Fin n, blkX (f.predict n.succ_pos xNext A Q).x i.succ = blkX f.x i.castSucc := by
  refine ⟨?_, fun i => updateX_blk_succ _ _ i⟩
  funext k
  simp only [TimeDelayKalmanFilter.getLatestX, TimeDelayKalmanFilter.predict]
  rw [emb_slot_zero]
  exact congrFun (updateX_blk_zero f.x xNext) k

end C32

/-! ### C33 -/

section C33
variable {K : Type} [Field K] [DecidableEq K] {N d h : ℕ}

theorem makeMeasurementMatrix_slot (C : Matrix (Fin h) (Fin d) K) (δ : Fin N) (r : Fin h)
    (j : Fin N) (l : Fin d) :
    makeMeasurementMatrix C N δ.val r (slot j l) = if j = δ then C r l else 0 := by
  unfold makeMeasurementMatrix
  by_cases hj : j = δ
  · subst hj
    rw [if_pos rfl, dif_pos ⟨by rw [slot_val]; omega, by rw [slot_val]; omega⟩]
    congr 1
    apply Fin.ext
    simp [slot_val]
  · rw [if_neg hj, dif_neg]
    rintro ⟨h1, h2⟩
    rw [slot_val] at h1 h2
    apply hj
    apply Fin.ext
    have hl := l.isLt
    rcases lt_trichotomy j.val δ.val with hlt | heq | hgt
    · have : d * (j.val + 1) ≤ d * δ.val := Nat.mul_le_mul_left d hlt
      rw [Nat.mul_add, Nat.mul_one] at this
      omega
    · exact heq
    · have : d * (δ.val + 1) ≤ d * j.val := Nat.mul_le_mul_left d hgt
      rw [Nat.mul_add, Nat.mul_one] at this
      omega

/-- `D M` picks the rows of block `δ`. -/
theorem meas_mul {ι : Type} (C : Matrix (Fin h) (Fin d) K) (δ : Fin N)
    (M : Matrix (Fin (N * d)) ι K) (r : Fin h) (y : ι) :
    (makeMeasurementMatrix C N δ.val * M) r y = ∑ l, C r l * M (slot δ l) y := by
  rw [Matrix.mul_apply, sum_slot, Finset.sum_eq_single δ]
  · refine Finset.sum_congr rfl fun l _ => ?_
    rw [makeMeasurementMatrix_slot, if_pos rfl]
  · intro j _ hj
    refine Finset.sum_eq_zero fun l _ => ?_
    rw [makeMeasurementMatrix_slot, if_neg hj, zero_mul]
  · simp

theorem meas_mulVec (C : Matrix (Fin h) (Fin d) K) (δ : Fin N) (x : Fin (N * d) → K) :
    makeMeasurementMatrix C N δ.val *ᵥ x = C *ᵥ blkX x δ := by
  funext r
  have := meas_mul C δ (Matrix.of fun b (_ : Unit) => x b) r ()
  rw [Matrix.mul_apply] at this
  exact this

theorem mul_measT {ι : Type} (C : Matrix (Fin h) (Fin d) K) (δ : Fin N)
    (M : Matrix ι (Fin (N * d)) K) (a : ι) (r : Fin h) :
    (M * (makeMeasurementMatrix C N δ.val)ᵀ) a r = ∑ l, M a (slot δ l) * C r l := by
  have := meas_mul C δ Mᵀ r a
  rw [← Matrix.transpose_apply (M := makeMeasurementMatrix C N δ.val * Mᵀ), Matrix.transpose_mul,
    Matrix.transpose_transpose] at this
  rw [this]
  refine Finset.sum_congr rfl fun l _ => ?_
  rw [Matrix.transpose_apply, mul_comm]

theorem innovation_eq (P : Matrix (Fin (N * d)) (Fin (N * d)) K) (C : Matrix (Fin h) (Fin d) K)
    (δ : Fin N) :
    makeMeasurementMatrix C N δ.val * (P * (makeMeasurementMatrix C N δ.val)ᵀ) =
      C * blk P δ δ * Cᵀ := by
  ext r s
  rw [meas_mul, Matrix.mul_assoc, Matrix.mul_apply]
  refine Finset.sum_congr rfl fun l _ => ?_
  rw [mul_measT, Matrix.mul_apply]
  rfl

/-- C33: with `S = R + C P_δδ Cᵀ`, an update with a delay inside the history succeeds exactly when
`S` is invertible, and then is the Kalman update of every stored state `i` with the measurement of
the state `δ` steps back: `x_i + P_iδ Cᵀ S⁻¹ (y - C x_δ)`, `P_ij - P_iδ Cᵀ S⁻¹ C P_δj`. -/
theorem C33_blocks (f : TimeDelayKalmanFilter K N d) (y : Fin h → K) (C : Matrix (Fin h) (Fin d) K)
    (R : Matrix (Fin h) (Fin h) K) (δ : Fin N) :
    ((R + C * blk f.P δ δ * Cᵀ).det = 0 → f.update y C R (δ.val : ℤ) = .error .invalidArgument) ∧
    ((R + C * blk f.P δ δ * Cᵀ).det ≠ 0 → ∃ f', f.update y C R (δ.val : ℤ) = .ok f' ∧
      (∀ i, blkX f'.x i = blkX f.x i +
        (blk f.P i δ * Cᵀ * (R + C * blk f.P δ δ * Cᵀ)⁻¹) *ᵥ (y - C *ᵥ blkX f.x δ)) ∧
      ∀ i j, blk f'.P i j = blk f.P i j -
        blk f.P i δ * Cᵀ * (R + C * blk f.P δ δ * Cᵀ)⁻¹ * C * blk f.P δ j) := by
  have hlt : ¬ ((δ.val : ℤ) ≥ N) := by have := δ.isLt; omega
  have hnn : ¬ ((δ.val : ℤ) < 0) := by omega
  have hS : R + makeMeasurementMatrix C N δ.val * (f.P * (makeMeasurementMatrix C N δ.val)ᵀ) =
      R + C * blk f.P δ δ * Cᵀ := by rw [innovation_eq]
  have hG : ∀ S : Matrix (Fin h) (Fin h) K, ∀ i k r,
      (f.P * (makeMeasurementMatrix C N δ.val)ᵀ * S) (slot i k) r =
        (blk f.P i δ * Cᵀ * S) k r := by
    intro S i k r
    rw [Matrix.mul_apply, Matrix.mul_apply]
    refine Finset.sum_congr rfl fun s _ => ?_
    rw [mul_measT, Matrix.mul_apply]
    rfl
  constructor
  · intro hdet
    simp only [TimeDelayKalmanFilter.update, if_neg hlt, if_neg hnn, Int.toNat_natCast,
      calcKalmanGain, hS, if_pos hdet]
  · intro hdet
    simp only [TimeDelayKalmanFilter.update, if_neg hlt, if_neg hnn, Int.toNat_natCast,
      calcKalmanGain, hS, if_neg hdet]
    refine ⟨_, rfl, fun i => ?_, fun i j => ?_⟩
    · funext k
      simp only [blkX, updateState, Pi.add_apply]
      congr 1
      rw [meas_mulVec]
      simp only [Matrix.mulVec, dotProduct]
      refine Finset.sum_congr rfl fun r _ => ?_
      rw [hG]
    · ext k l
      simp only [blk, updateCovariance, Matrix.sub_apply]
      congr 1
      rw [Matrix.mul_assoc, Matrix.mul_apply, Matrix.mul_assoc _ C, Matrix.mul_apply]
      refine Finset.sum_congr rfl fun r _ => ?_
      rw [hG, meas_mul]
      rfl

/-- C33: an update with a delay not smaller than the number of stored steps is refused. -/
theorem C33_rejected (f : TimeDelayKalmanFilter K N d) (y : Fin h → K)
    (C : Matrix (Fin h) (Fin d) K) (R : Matrix (Fin h) (Fin h) K) (δ : ℤ) (hδ : (N : ℤ) ≤ δ) :
    f.update y C R δ = .error .invalidArgument := by
  simp [TimeDelayKalmanFilter.update, hδ]

/-- C33 in the form of the property: it is the ordinary Kalman update of the augmented state with a
measurement matrix acting on the state `δ` steps back. -/
theorem C33_augmented (f f' : TimeDelayKalmanFilter K N d) (y : Fin h → K)
    (C : Matrix (Fin h) (Fin d) K) (R : Matrix (Fin h) (Fin h) K) (δ : Fin N)
    (hok : f.update y C R (δ.val : ℤ) = .ok f') :
    let D := delayedMeasurement C δ
    let S := R + D * aug f.P * Dᵀ
    let G := aug f.P * Dᵀ * S⁻¹
    S.det ≠ 0 ∧ augX f'.x = augX f.x + G *ᵥ (y - D *ᵥ augX f.x) ∧
      aug f'.P = aug f.P - G * D * aug f.P := by
  intro D S G
  have hDM : ∀ {ι : Type} (M : Matrix (Fin N × Fin d) ι K) r z,
      (D * M) r z = ∑ l, C r l * M (δ, l) z := by
    intro ι M r z
    rw [Matrix.mul_apply, Fintype.sum_prod_type, Finset.sum_eq_single δ]
    · exact Finset.sum_congr rfl fun l _ => by simp [D, delayedMeasurement]
    · intro j _ hj
      exact Finset.sum_eq_zero fun l _ => by simp [D, delayedMeasurement, hj]
    · simp
  have hMD : ∀ a r, (aug f.P * Dᵀ) a r = ∑ l, aug f.P a (δ, l) * C r l := by
    intro a r
    rw [Matrix.mul_apply, Fintype.sum_prod_type, Finset.sum_eq_single δ]
    · exact Finset.sum_congr rfl fun l _ => by simp [D, delayedMeasurement]
    · intro j _ hj
      exact Finset.sum_eq_zero fun l _ => by simp [D, delayedMeasurement, hj]
    · simp
  have hS : S = R + C * blk f.P δ δ * Cᵀ := by
    simp only [S]
    congr 1
    ext r s
    rw [Matrix.mul_assoc, hDM, Matrix.mul_assoc, Matrix.mul_apply]
    refine Finset.sum_congr rfl fun l _ => ?_
    rw [hMD, Matrix.mul_apply]
    rfl
  have hG : ∀ i k r, G (i, k) r = (blk f.P i δ * Cᵀ * S⁻¹) k r := by
    intro i k r
    simp only [G]
    rw [Matrix.mul_apply, Matrix.mul_apply]
    refine Finset.sum_congr rfl fun s _ => ?_
    rw [hMD, Matrix.mul_apply]
    rfl
  have hDx : D *ᵥ augX f.x = C *ᵥ blkX f.x δ := by
    funext r
    have := hDM (Matrix.of fun b (_ : Unit) => augX f.x b) r ()
    rw [Matrix.mul_apply] at this
    exact this
  obtain ⟨h1, h2⟩ := C33_blocks f y C R δ
  rw [← hS] at h1 h2
  have hdet : S.det ≠ 0 := by
    intro h0
    rw [h1 h0] at hok
    cases hok
  obtain ⟨f'', he, hx, hP⟩ := h2 hdet
  rw [hok] at he
  injection he with he
  subst he
  refine ⟨hdet, ?_, ?_⟩
  · funext ⟨i, k⟩
    have := congrFun (hx i) k
    simp only [blkX, Pi.add_apply] at this
    simp only [augX, Pi.add_apply]
    rw [this, hDx]
    congr 1
    simp only [Matrix.mulVec, dotProduct]
    exact Finset.sum_congr rfl fun r _ => by rw [hG]
  · ext ⟨i, k⟩ ⟨j, l⟩
    have := congrFun (congrFun (hP i j) k) l
    simp only [blk, Matrix.sub_apply] at this
    simp only [aug, Matrix.sub_apply]
    rw [this]
    congr 1
    rw [Matrix.mul_assoc _ C, Matrix.mul_apply, Matrix.mul_assoc G, Matrix.mul_apply]
    refine Finset.sum_congr rfl fun r _ => ?_
    rw [hG, hDM]
    rfl

end C33

/-! ### C34 -/

section C34
variable {N d h : ℕ}

theorem tr_eq {m n : ℕ} (M : Matrix (Fin m) (Fin n) ℝ) : Mᵀ = Mᴴ :=
  (Matrix.conjTranspose_eq_transpose_of_trivial M).symm

/-- The Kalman covariance update keeps positive semidefiniteness and does not increase the
covariance, for every gain computed from a positive semidefinite `R`. -/
theorem updateCovariance_psd {n m : ℕ} (P : Matrix (Fin n) (Fin n) ℝ) (C : Matrix (Fin m) (Fin n) ℝ)
    (R : Matrix (Fin m) (Fin m) ℝ) (G : Matrix (Fin n) (Fin m) ℝ) (hP : P.PosSemidef)
    (hR : R.PosSemidef) (hG : calcKalmanGain P C R = some G) :
    (updateCovariance P C G).PosSemidef ∧ (P - updateCovariance P C G).PosSemidef := by
  simp only [calcKalmanGain] at hG
  split_ifs at hG with hdet
  injection hG with hG
  set S := R + C * (P * Cᵀ) with hSdef
  have hPT : Pᵀ = P := by rw [tr_eq]; exact hP.isHermitian
  have hRT : Rᵀ = R := by rw [tr_eq]; exact hR.isHermitian
  have hSu : IsUnit S.det := isUnit_iff_ne_zero.2 hdet
  have hGS : G * S = P * Cᵀ := by
    rw [← hG, Matrix.mul_assoc, Matrix.nonsing_inv_mul _ hSu, Matrix.mul_one]
  have hCPC : (C * (P * Cᵀ)).PosSemidef := by
    rw [← Matrix.mul_assoc, tr_eq]
    exact hP.mul_mul_conjTranspose_same C
  have hS : S.PosSemidef := hR.add hCPC
  have hST : Sᵀ = S := by rw [tr_eq]; exact hS.isHermitian
  -- G S Gᵀ = G C P
  have hGSG : G * S * Gᵀ = G * C * P := by
    have : S * Gᵀ = C * P := by
      have := congrArg Matrix.transpose hGS
      rw [Matrix.transpose_mul, Matrix.transpose_mul, Matrix.transpose_transpose, hST, hPT] at this
      exact this
    rw [Matrix.mul_assoc, this, Matrix.mul_assoc]
  constructor
  · -- Joseph form
    have hj : updateCovariance P C G =
        (1 - G * C) * P * (1 - G * C)ᵀ + G * R * Gᵀ := by
      have e1 : G * R * Gᵀ = G * S * Gᵀ - G * (C * (P * Cᵀ)) * Gᵀ := by
        rw [hSdef, Matrix.mul_add, Matrix.add_mul, add_sub_cancel_right]
      have e2 : P * (G * C)ᵀ = G * C * P := by
        rw [Matrix.transpose_mul, ← Matrix.mul_assoc, ← hGS, hGSG]
      have e3 : G * (C * (P * Cᵀ)) * Gᵀ = G * C * (P * (G * C)ᵀ) := by
        rw [Matrix.transpose_mul]
        simp only [Matrix.mul_assoc]
      rw [e1, e3, hGSG, Matrix.transpose_sub, Matrix.transpose_one]
      unfold updateCovariance
      rw [Matrix.mul_sub, Matrix.mul_one, Matrix.sub_mul, Matrix.sub_mul, Matrix.one_mul,
        Matrix.mul_assoc (G * C) P, e2]
      abel
    rw [hj]
    refine Matrix.PosSemidef.add ?_ ?_
    · rw [tr_eq]; exact hP.mul_mul_conjTranspose_same _
    · rw [tr_eq]; exact hR.mul_mul_conjTranspose_same _
  · have : P - updateCovariance P C G = G * S * Gᵀ := by
      unfold updateCovariance
      rw [hGSG]; abel
    rw [this, tr_eq]
    exact hS.mul_mul_conjTranspose_same _

/-- Positive semidefiniteness may be checked on the augmented matrix. -/
theorem psd_aug (P : Matrix (Fin (N * d)) (Fin (N * d)) ℝ) :
    (aug P).PosSemidef ↔ P.PosSemidef := by
  have : aug P = P.submatrix (finProdFinEquiv) (finProdFinEquiv) := rfl
  rw [this]
  exact posSemidef_submatrix_equiv finProdFinEquiv

theorem initP_slot (P0 : Matrix (Fin d) (Fin d) ℝ) (i j : Fin N) (k l : Fin d) :
    initP P0 N (slot i k) (slot j l) = if i = j then P0 k l else 0 := by
  have hd : 0 < d := lt_of_le_of_lt (Nat.zero_le _) k.isLt
  have e1 : ∀ (i : Fin N) (k : Fin d), (slot i k).val / d = i.val := by
    intro i k
    rw [slot_val, Nat.add_mul_div_left _ _ hd, Nat.div_eq_of_lt k.isLt, zero_add]
  have e2 : ∀ (i : Fin N) (k : Fin d), (slot i k).val % d = k.val := by
    intro i k
    rw [slot_val, Nat.add_mul_mod_self_left, Nat.mod_eq_of_lt k.isLt]
  simp only [initP, e1, e2, Fin.val_inj, Fin.eta]

theorem initP_psd (P0 : Matrix (Fin d) (Fin d) ℝ) (h : P0.PosSemidef) :
    (initP P0 N).PosSemidef := by
  rw [← psd_aug]
  have : aug (initP P0 N) = ∑ i : Fin N,
      (Matrix.of fun (a : Fin N × Fin d) (k : Fin d) => if a.1 = i ∧ a.2 = k then (1 : ℝ) else 0) *
        P0 * (Matrix.of fun (a : Fin N × Fin d) (k : Fin d) =>
          if a.1 = i ∧ a.2 = k then (1 : ℝ) else 0)ᴴ := by
    ext ⟨i, k⟩ ⟨j, l⟩
    simp only [aug, initP_slot, Matrix.sum_apply]
    have key : ∀ q : Fin N,
        ((Matrix.of fun (a : Fin N × Fin d) (k : Fin d) => if a.1 = q ∧ a.2 = k then (1 : ℝ) else 0) *
        P0 * (Matrix.of fun (a : Fin N × Fin d) (k : Fin d) =>
          if a.1 = q ∧ a.2 = k then (1 : ℝ) else 0)ᴴ) (i, k) (j, l) =
        if i = q ∧ j = q then P0 k l else 0 := by
      intro q
      rw [Matrix.mul_apply]
      rw [Finset.sum_eq_single l]
      · rw [Matrix.mul_apply, Finset.sum_eq_single k]
        · by_cases h1 : i = q <;> by_cases h2 : j = q <;> simp [h1, h2]
        · intro b _ hb; simp [Ne.symm hb]
        · simp
      · intro b _ hb
        simp [Ne.symm hb]
      · simp
    simp only [key]
    by_cases hij : i = j
    · subst hij
      rw [if_pos rfl, Finset.sum_eq_single i]
      · simp
      · intro b _ hb; simp [Ne.symm hb]
      · simp
    · rw [if_neg hij]
      symm
      refine Finset.sum_eq_zero fun q _ => ?_
      rw [if_neg]
      rintro ⟨rfl, rfl⟩
      exact hij rfl
  rw [this]
  exact posSemidef_sum _ fun i _ => h.mul_mul_conjTranspose_same _

/-- Calls of the filter's methods. -/
inductive FilterOp (d : ℕ) where
  | predict (xNext : Fin d → ℝ) (A Q : Matrix (Fin d) (Fin d) ℝ)
  | update (h : ℕ) (y : Fin h → ℝ) (C : Matrix (Fin h) (Fin d) ℝ) (R : Matrix (Fin h) (Fin h) ℝ)
      (δ : ℤ)

/-- The filter after a call; a refused update leaves it as it was. -/
noncomputable def applyOp {n : ℕ} (f : TimeDelayKalmanFilter ℝ (n + 1) d) :
    FilterOp d → TimeDelayKalmanFilter ℝ (n + 1) d
  | .predict xNext A Q => f.predict n.succ_pos xNext A Q
  | .update _ y C R δ => match f.update y C R δ with
    | .ok f' => f'
    | .error _ => f

/-- Noise matrices of a call are covariances. -/
def FilterOp.NoisePsd : FilterOp d → Prop
  | .predict _ _ Q => Q.PosSemidef
  | .update _ _ _ R _ => R.PosSemidef

/-- One call keeps the covariance symmetric positive semidefinite. -/
theorem applyOp_psd {n : ℕ} (f : TimeDelayKalmanFilter ℝ (n + 1) d) (op : FilterOp d)
    (hf : f.P.PosSemidef) (hop : op.NoisePsd) : (applyOp f op).P.PosSemidef := by
  cases op with
  | predict xNext A Q =>
    simp only [applyOp]
    rw [← psd_aug, C32_covariance]
    refine Matrix.PosSemidef.add ?_ ?_
    · rw [← Matrix.conjTranspose_eq_transpose_of_trivial]
      exact ((psd_aug f.P).2 hf).mul_mul_conjTranspose_same _
    · have hQ : Q.PosSemidef := hop
      have : newestNoise (n := n) Q =
          (Matrix.of fun (a : Fin (n + 1) × Fin d) (k : Fin d) =>
            if a.1.val = 0 ∧ a.2 = k then (1 : ℝ) else 0) * Q *
          (Matrix.of fun (a : Fin (n + 1) × Fin d) (k : Fin d) =>
            if a.1.val = 0 ∧ a.2 = k then (1 : ℝ) else 0)ᴴ := by
        ext ⟨i, k⟩ ⟨j, l⟩
        rw [Matrix.mul_apply, Finset.sum_eq_single l]
        · rw [Matrix.mul_apply, Finset.sum_eq_single k]
          · by_cases h1 : i = 0 <;> by_cases h2 : j = 0 <;> simp [newestNoise, h1, h2]
          · intro b _ hb; simp [Ne.symm hb]
          · simp
        · intro b _ hb
          simp [Ne.symm hb]
        · simp
      rw [this]
      exact hQ.mul_mul_conjTranspose_same _
  | update h y C R δ =>
    simp only [applyOp]
    cases hu : f.update y C R δ with
    | error e => exact hf
    | ok f' =>
      simp only [TimeDelayKalmanFilter.update] at hu
      split_ifs at hu with h1 h2
      cases hg : calcKalmanGain f.P (makeMeasurementMatrix C (n + 1) δ.toNat) R with
      | none => rw [hg] at hu; cases hu
      | some G =>
        rw [hg] at hu
        injection hu with hu
        rw [← hu]
        exact (updateCovariance_psd _ _ _ _ hf hop hg).1

/-- C34: for all dimensions and history lengths, after construction with a symmetric positive
semidefinite covariance and any sequence of predictions and updates (accepted or refused) with
positive semidefinite noise, the covariance is symmetric positive semidefinite. -/
theorem C34_psd (n : ℕ) (x0 : Fin d → ℝ) (P0 : Matrix (Fin d) (Fin d) ℝ) (h0 : P0.PosSemidef)
    (ops : List (FilterOp d)) (hops : ∀ op ∈ ops, op.NoisePsd) :
    (ops.foldl applyOp (TimeDelayKalmanFilter.make x0 P0 (n + 1))).P.PosSemidef := by
  have : ∀ (f : TimeDelayKalmanFilter ℝ (n + 1) d), f.P.PosSemidef →
      (ops.foldl applyOp f).P.PosSemidef := by
    induction ops with
    | nil => exact fun f hf => hf
    | cons op ops ih =>
      intro f hf
      rw [List.foldl_cons]
      exact ih (fun o ho => hops o (List.mem_cons_of_mem _ ho)) _
        (applyOp_psd f op hf (hops op List.mem_cons_self))
  exact this _ (initP_psd P0 h0)

/-- C34: the published covariance of the newest state is then symmetric positive semidefinite, too;
in particular its variances are not negative. -/
theorem C34_latest_psd (n : ℕ) (x0 : Fin d → ℝ) (P0 : Matrix (Fin d) (Fin d) ℝ) (h0 : P0.PosSemidef)
    (ops : List (FilterOp d)) (hops : ∀ op ∈ ops, op.NoisePsd) :
    ((ops.foldl applyOp (TimeDelayKalmanFilter.make x0 P0 (n + 1))).getLatestP
      n.succ_pos).PosSemidef :=
  (C34_psd n x0 P0 h0 ops hops).submatrix _

/-- C34: an accepted update never increases the covariance (in the order of symmetric matrices). -/
theorem C34_update_decreases (f f' : TimeDelayKalmanFilter ℝ N d) (y : Fin h → ℝ)
    (C : Matrix (Fin h) (Fin d) ℝ) (R : Matrix (Fin h) (Fin h) ℝ) (δ : ℤ) (hf : f.P.PosSemidef)
    (hR : R.PosSemidef) (hu : f.update y C R δ = .ok f') : (f.P - f'.P).PosSemidef := by
  simp only [TimeDelayKalmanFilter.update] at hu
  split_ifs at hu with h1 h2
  cases hg : calcKalmanGain f.P (makeMeasurementMatrix C N δ.toNat) R with
  | none => rw [hg] at hu; cases hu
  | some G =>
    rw [hg] at hu
    injection hu with hu
    rw [← hu]
    exact (updateCovariance_psd _ _ _ _ hf hR hg).2

/-- C34: with a positive definite measurement covariance no update inside the history is refused. -/
theorem C34_accepted (f : TimeDelayKalmanFilter ℝ N d) (y : Fin h → ℝ)
    (C : Matrix (Fin h) (Fin d) ℝ) (R : Matrix (Fin h) (Fin h) ℝ) (δ : Fin N) (hf : f.P.PosSemidef)
    (hR : R.PosDef) : ∃ f', f.update y C R (δ.val : ℤ) = .ok f' := by
  obtain ⟨f', h1, -⟩ := (C33_blocks f y C R δ).2 (by
    have hb : (blk f.P δ δ).PosSemidef := hf.submatrix fun k => slot δ k
    have hc : (C * blk f.P δ δ * Cᵀ).PosSemidef := by
      rw [tr_eq]; exact hb.mul_mul_conjTranspose_same C
    exact (isUnit_iff_isUnit_det _).1 (hR.add_posSemidef hc).isUnit |>.ne_zero)
  exact ⟨f', h1⟩

/-- C34 for the plain filter of the package (`KalmanFilter`). -/
theorem C34_plain_filter {n m u : ℕ} (f : KalmanFilter ℝ n m u) (hP : f.P.PosSemidef)
    (hQ : f.Q.PosSemidef) (hR : f.R.PosSemidef) :
    (∀ v, (f.predict v).P.PosSemidef) ∧
    ∀ y f', f.update y = .ok f' → f'.P.PosSemidef ∧ (f.P - f'.P).PosSemidef := by
  constructor
  · intro v
    simp only [KalmanFilter.predict, KalmanFilter.predictWith, predictNextCovariance]
    refine Matrix.PosSemidef.add ?_ hQ
    rw [tr_eq]; exact hP.mul_mul_conjTranspose_same _
  · intro y f' hu
    simp only [KalmanFilter.update] at hu
    cases hg : calcKalmanGain f.P f.C f.R with
    | none => rw [hg] at hu; cases hu
    | some G =>
      rw [hg] at hu
      injection hu with hu
      rw [← hu]
      exact updateCovariance_psd _ _ _ _ hP hR hg

end C34

/-! ### C35 -/

section C35
variable {K : Type} [Field K] [DecidableEq K] {n d : ℕ}

/-- C35: after construction and the predictions `xs` (oldest first, with any matrices), the stored
state `i` steps back is the prediction made `i` steps before the last one, or the initial state if
there were not that many. -/
theorem C35_history (x0 : Fin d → K) (P0 : Matrix (Fin d) (Fin d) K)
    (ps : List ((Fin d → K) × Matrix (Fin d) (Fin d) K × Matrix (Fin d) (Fin d) K))
    (i : Fin (n + 1)) :
    (ps.foldl (fun f p => f.predict n.succ_pos p.1 p.2.1 p.2.2)
      (TimeDelayKalmanFilter.make x0 P0 (n + 1))).getX (i.val : ℤ) =
      .ok (((ps.map Prod.fst).reverse[i.val]?).getD x0) := by
  have hget : ∀ (f : TimeDelayKalmanFilter K (n + 1) d) (i : Fin (n + 1)),
      f.getX (i.val : ℤ) = .ok (blkX f.x i) := by
    intro f i
    have : (0 : ℤ) ≤ (i.val : ℤ) ∧ (i.val : ℤ) < (n + 1 : ℕ) := by have := i.isLt; omega
    simp only [TimeDelayKalmanFilter.getX, dif_pos this, Int.toNat_natCast]
    congr 1
    funext k
    simp only [blkX]
    congr 1
    apply Fin.ext
    simp only [slot_val, Nat.mul_comm, Nat.add_comm]
  rw [hget]
  congr 1
  induction ps using List.reverseRecOn generalizing i with
  | nil =>
    simp only [List.foldl_nil, List.map_nil, List.reverse_nil, List.getElem?_nil, Option.getD_none]
    funext k
    simp only [blkX, TimeDelayKalmanFilter.make, initX]
    congr 1
    apply Fin.ext
    simp only [slot_val, Nat.add_mul_mod_self_left, Nat.mod_eq_of_lt k.isLt]
  | append_singleton ps p ih =>
    rw [List.foldl_append]
    simp only [List.foldl_cons, List.foldl_nil, List.map_append, List.map_cons, List.map_nil,
      List.reverse_append, List.reverse_cons, List.reverse_nil, List.nil_append,
      List.singleton_append]
    refine Fin.cases ?_ (fun i => ?_) i
    · simp only [TimeDelayKalmanFilter.predict]
      rw [updateX_blk_zero]
      simp
    · simp only [TimeDelayKalmanFilter.predict]
      rw [updateX_blk_succ]
      simp only [Fin.val_succ, List.getElem?_cons_succ]
      exact ih i.castSucc

end C35

/-! Non-vacuity: a scalar filter with two stored steps. -/

/-- A prediction, an accepted update one step back and one with too large a delay. -/
noncomputable def exampleOps : List (FilterOp 1) :=
  [.predict (fun _ => 1) (fun _ _ => 2) 1, .update 1 (fun _ => 3) 1 1 1, .update 1 (fun _ => 3) 1 1 7]

example : (1 : Matrix (Fin 1) (Fin 1) ℝ).PosSemidef ∧ ∀ op ∈ exampleOps, op.NoisePsd := by
  refine ⟨Matrix.PosSemidef.one, ?_⟩
  intro op hop
  simp only [exampleOps, List.mem_cons, List.not_mem_nil, or_false] at hop
  rcases hop with rfl | rfl | rfl <;> exact Matrix.PosSemidef.one

example : ∃ f', (TimeDelayKalmanFilter.make (fun _ => 0 : Fin 1 → ℝ) 1 2).update
    (fun _ => 3 : Fin 1 → ℝ) 1 1 1 = .ok f' :=
  C34_accepted (h := 1) _ _ _ _ (1 : Fin 2) (initP_psd 1 Matrix.PosSemidef.one) Matrix.PosDef.one

end Verif.Kalman
