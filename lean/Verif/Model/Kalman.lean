/-
Model of `kalman_filter/include/kalman_filter/kalman_filter.hpp`,
`kalman_filter/src/kalman_filter.cpp` and `kalman_filter/src/time_delay_kalman_filter.cpp`.

Vectors and matrices are functions of their flat indices; the block arithmetic of the code
(`i * d + k`) is kept. Arithmetic is exact. Dimensions agree by typing (`Model/Dynamic` is about others).
-/
import Verif.Basic
import Mathlib.LinearAlgebra.Matrix.NonsingularInverse

set_option autoImplicit false

namespace Verif.Kalman

open Matrix

variable {K : Type} [Field K] [DecidableEq K]
variable {n m u : ℕ}

/-- `kalman_filter.hpp` 28-35. -/
def predictNextState (x : Fin n → K) (v : Fin u → K) (A : Matrix (Fin n) (Fin n) K)
    (B : Matrix (Fin n) (Fin u) K) : Fin n → K := A *ᵥ x + B *ᵥ v

/-- `kalman_filter.hpp` 37-43. -/
def predictNextCovariance (P A Q : Matrix (Fin n) (Fin n) K) : Matrix (Fin n) (Fin n) K :=
  A * P * Aᵀ + Q

/-- `kalman_filter.hpp` 45-50 together with the test `HasNan(K) || HasInf(K)` of
`kalman_filter.cpp` 69-71 and `time_delay_kalman_filter.cpp` 130-132. Eigen's inverse of a singular
matrix divides by a zero pivot, so that the gain has a NaN or infinite entry; with exact arithmetic
it has none for an invertible matrix. `none` stands for a gain with such an entry. -/
noncomputable def calcKalmanGain (P : Matrix (Fin n) (Fin n) K) (C : Matrix (Fin m) (Fin n) K)
    (R : Matrix (Fin m) (Fin m) K) : Option (Matrix (Fin n) (Fin m) K) :=
  let PCT := P * Cᵀ
  if (R + C * PCT).det = 0 then none else some (PCT * (R + C * PCT)⁻¹)

/-- `kalman_filter.hpp` 52-57. -/
def updateState (x : Fin n → K) (y : Fin m → K) (C : Matrix (Fin m) (Fin n) K)
    (G : Matrix (Fin n) (Fin m) K) : Fin n → K := x + G *ᵥ (y - C *ᵥ x)

/-- `kalman_filter.hpp` 59-63. -/
def updateCovariance (P : Matrix (Fin n) (Fin n) K) (C : Matrix (Fin m) (Fin n) K)
    (G : Matrix (Fin n) (Fin m) K) : Matrix (Fin n) (Fin n) K := P - G * C * P

/-- `kalman_filter.hpp` 134-140: the members of `KalmanFilter`. -/
structure KalmanFilter (K : Type) (n m u : ℕ) where
  x : Fin n → K
  P : Matrix (Fin n) (Fin n) K
  A : Matrix (Fin n) (Fin n) K
  B : Matrix (Fin n) (Fin u) K
  C : Matrix (Fin m) (Fin n) K
  Q : Matrix (Fin n) (Fin n) K
  R : Matrix (Fin m) (Fin m) K

/-- `kalman_filter.cpp` 39-45. -/
def KalmanFilter.init (f : KalmanFilter K n m u) (x : Fin n → K) (P0 : Matrix (Fin n) (Fin n) K) :
    KalmanFilter K n m u := { f with x := x, P := P0 }

/-- `kalman_filter.cpp` 49-61. -/
def KalmanFilter.predictWith (f : KalmanFilter K n m u) (v : Fin u → K)
    (A : Matrix (Fin n) (Fin n) K) (B : Matrix (Fin n) (Fin u) K) (Q : Matrix (Fin n) (Fin n) K) :
    KalmanFilter K n m u :=
  { f with x := predictNextState f.x v A B, P := predictNextCovariance f.P A Q }

/-- `kalman_filter.cpp` 63. -/
def KalmanFilter.predict (f : KalmanFilter K n m u) (v : Fin u → K) : KalmanFilter K n m u :=
  f.predictWith v f.A f.B f.Q

/-- `kalman_filter.cpp` 65-75. -/
noncomputable def KalmanFilter.update (f : KalmanFilter K n m u) (y : Fin m → K) : Res (KalmanFilter K n m u) :=
  match calcKalmanGain f.P f.C f.R with
  | none => .error .invalidArgument
  | some G => .ok { f with x := updateState f.x y f.C G, P := updateCovariance f.P f.C G }

variable {N d h : ℕ}

/-- `time_delay_kalman_filter.cpp` 19-28: entry `i * d + k` is `x0(k)`. -/
def initX (x0 : Fin d → K) (N : ℕ) : Fin (N * d) → K := fun i =>
  x0 ⟨i.val % d, Nat.mod_lt _ (Nat.pos_of_ne_zero (by rintro rfl; exact absurd i.isLt (by simp)))⟩

/-- `time_delay_kalman_filter.cpp` 30-40: zero but for the blocks `(i * d, i * d)`. -/
def initP (P0 : Matrix (Fin d) (Fin d) K) (N : ℕ) : Matrix (Fin (N * d)) (Fin (N * d)) K :=
  fun i j =>
    have hd : 0 < d := Nat.pos_of_ne_zero (by rintro rfl; exact absurd i.isLt (by simp))
    if i.val / d = j.val / d then P0 ⟨i.val % d, Nat.mod_lt _ hd⟩ ⟨j.val % d, Nat.mod_lt _ hd⟩
    else 0

/-- `time_delay_kalman_filter.cpp` 42-52: the new state in front, then the first `a - b` entries of
the old vector. -/
def updateX {a b : ℕ} (x : Fin a → K) (xNext : Fin b → K) : Fin a → K := fun i =>
  if hi : i.val < b then xNext ⟨i.val, hi⟩ else x ⟨i.val - b, by omega⟩

/-- `time_delay_kalman_filter.cpp` 54-93. `BB`, `BC`, `CB`, `CC` are the blocks of `P` at `(0, 0)`
of sizes `b × b`, `b × c`, `c × b`, `c × c` with `c = a - b`. -/
def updateP {a b : ℕ} (hb : b ≤ a) (P : Matrix (Fin a) (Fin a) K) (A Q : Matrix (Fin b) (Fin b) K) :
    Matrix (Fin a) (Fin a) K :=
  let emb : Fin b → Fin a := fun k => ⟨k.val, by omega⟩
  let embc : Fin (a - b) → Fin a := fun k => ⟨k.val, by omega⟩
  let BB : Matrix (Fin b) (Fin b) K := fun i j => P (emb i) (emb j)
  let BC : Matrix (Fin b) (Fin (a - b)) K := fun i j => P (emb i) (embc j)
  let CB : Matrix (Fin (a - b)) (Fin b) K := fun i j => P (embc i) (emb j)
  let CC : Matrix (Fin (a - b)) (Fin (a - b)) K := fun i j => P (embc i) (embc j)
  let TL := A * BB * Aᵀ + Q
  let TR := A * BC
  let BL := CB * Aᵀ
  fun i j =>
    if hi : i.val < b then
      if hj : j.val < b then TL ⟨i.val, hi⟩ ⟨j.val, hj⟩ else TR ⟨i.val, hi⟩ ⟨j.val - b, by omega⟩
    else
      if hj : j.val < b then BL ⟨i.val - b, by omega⟩ ⟨j.val, hj⟩
      else CC ⟨i.val - b, by omega⟩ ⟨j.val - b, by omega⟩

/-- `time_delay_kalman_filter.cpp` 95-104: zero but for the block of `C` at column
`w * delay_step`. -/
def makeMeasurementMatrix (C : Matrix (Fin h) (Fin d) K) (N δ : ℕ) :
    Matrix (Fin h) (Fin (N * d)) K := fun r c =>
  if hc : d * δ ≤ c.val ∧ c.val < d * δ + d then C r ⟨c.val - d * δ, by omega⟩ else 0

/-- `time_delay_kalman_filter.hpp` 90-93: the members; `N` is `max_delay_step_`, `d` is `dim_x_`. -/
structure TimeDelayKalmanFilter (K : Type) (N d : ℕ) where
  x : Fin (N * d) → K
  P : Matrix (Fin (N * d)) (Fin (N * d)) K

/-- `time_delay_kalman_filter.cpp` 140-146: the constructor. -/
def TimeDelayKalmanFilter.make (x : Fin d → K) (P : Matrix (Fin d) (Fin d) K) (N : ℕ) :
    TimeDelayKalmanFilter K N d := ⟨initX x N, initP P N⟩

theorem lt_of_seqN (hN : 0 < N) {k : ℕ} (hk : k < d) : k < N * d :=
  lt_of_lt_of_le hk (Nat.le_mul_of_pos_left d hN)

/-- `time_delay_kalman_filter.cpp` 148-151; defined for at least one stored step. -/
def TimeDelayKalmanFilter.getLatestX (hN : 0 < N) (f : TimeDelayKalmanFilter K N d) : Fin d → K :=
  fun k => f.x ⟨k.val, lt_of_seqN hN k.isLt⟩

/-- `time_delay_kalman_filter.cpp` 153-156. -/
def TimeDelayKalmanFilter.getLatestP (hN : 0 < N) (f : TimeDelayKalmanFilter K N d) :
    Matrix (Fin d) (Fin d) K :=
  fun k l => f.P ⟨k.val, lt_of_seqN hN k.isLt⟩ ⟨l.val, lt_of_seqN hN l.isLt⟩

/-- `time_delay_kalman_filter.cpp` 106-113, 158-164. -/
def TimeDelayKalmanFilter.predict (hN : 0 < N) (f : TimeDelayKalmanFilter K N d) (xNext : Fin d → K)
    (A Q : Matrix (Fin d) (Fin d) K) : TimeDelayKalmanFilter K N d :=
  ⟨updateX f.x xNext, updateP (Nat.le_mul_of_pos_left d hN) f.P A Q⟩

/-- `time_delay_kalman_filter.cpp` 166-169; Eigen asserts that the segment lies in the vector. -/
def TimeDelayKalmanFilter.getX (f : TimeDelayKalmanFilter K N d) (δ : ℤ) : Res (Fin d → K) :=
  if hδ : 0 ≤ δ ∧ δ < N then
    .ok fun k => f.x ⟨δ.toNat * d + k.val, by
      have h1 : δ.toNat + 1 ≤ N := by omega
      calc δ.toNat * d + k.val < δ.toNat * d + d := by omega
        _ = (δ.toNat + 1) * d := by rw [Nat.add_mul, Nat.one_mul]
        _ ≤ N * d := Nat.mul_le_mul_right d h1⟩
  else .error .assertFail

/-- `time_delay_kalman_filter.cpp` 115-138, 171-176: the filter afterwards. An exception leaves the
members as they were, because they are assigned last (`std::tie`). Eigen asserts that the block of
`makeMeasurementMatrix` lies in the matrix, i.e. that the delay is not negative. -/
noncomputable def TimeDelayKalmanFilter.update (f : TimeDelayKalmanFilter K N d) (y : Fin h → K)
    (C : Matrix (Fin h) (Fin d) K) (R : Matrix (Fin h) (Fin h) K) (δ : ℤ) :
    Res (TimeDelayKalmanFilter K N d) :=
  if δ ≥ N then .error .invalidArgument
  else if δ < 0 then .error .assertFail
  else
    let D := makeMeasurementMatrix C N δ.toNat
    match calcKalmanGain f.P D R with
    | none => .error .invalidArgument
    | some G => .ok ⟨updateState f.x y D G, updateCovariance f.P D G⟩

end Verif.Kalman
