/-
Model of the two filter classes with the sizes of their arguments: Eigen's `VectorXd` and `MatrixXd` carry
their sizes at run time, and operations on sizes that do not fit fail an assertion (of the code, or of Eigen:
`eigen_assert` in `CwiseBinaryOp`, `Product`, `Block`, `PlainObjectBase::resize` and `inverse`; asserts are
active). `Model/Kalman` has the same classes with sizes that agree by typing. Arithmetic is exact, sizes do
not overflow `int`.
-/
import Verif.Model.Kalman

set_option autoImplicit false

namespace Verif.Dyn

open Matrix Verif.Kalman

/-- Eigen's `VectorXd`. -/
structure Vec (K : Type) where
  rows : ℕ
  data : Fin rows → K

/-- Eigen's `MatrixXd`. -/
structure Mat (K : Type) where
  rows : ℕ
  cols : ℕ
  data : Matrix (Fin rows) (Fin cols) K

variable {K : Type}

/-- Eigen's `M.transpose()`. -/
def Mat.transpose (M : Mat K) : Mat K := ⟨M.cols, M.rows, M.dataᵀ⟩

/-- The product of matrices: the inner sizes have to agree. -/
def Mat.mul [Field K] (L M : Mat K) : Res (Mat K) :=
  if h : L.cols = M.rows then .ok ⟨L.rows, M.cols, L.data * M.data.submatrix (Fin.cast h) id⟩
  else .error .assertFail

/-- The product of a matrix and a vector. -/
def Mat.mulVec [Field K] (M : Mat K) (v : Vec K) : Res (Vec K) :=
  if h : M.cols = v.rows then .ok ⟨M.rows, M.data *ᵥ (v.data ∘ Fin.cast h)⟩ else .error .assertFail

/-- The sum of matrices: both sizes have to agree. -/
def Mat.add [Field K] (L M : Mat K) : Res (Mat K) :=
  if h : L.rows = M.rows ∧ L.cols = M.cols then
    .ok ⟨L.rows, L.cols, L.data + M.data.submatrix (Fin.cast h.1) (Fin.cast h.2)⟩
  else .error .assertFail

/-- The difference of matrices. -/
def Mat.sub [Field K] (L M : Mat K) : Res (Mat K) :=
  if h : L.rows = M.rows ∧ L.cols = M.cols then
    .ok ⟨L.rows, L.cols, L.data - M.data.submatrix (Fin.cast h.1) (Fin.cast h.2)⟩
  else .error .assertFail

/-- The sum of vectors. -/
def Vec.add [Field K] (v w : Vec K) : Res (Vec K) :=
  if h : v.rows = w.rows then .ok ⟨v.rows, v.data + w.data ∘ Fin.cast h⟩ else .error .assertFail

/-- The difference of vectors. -/
def Vec.sub [Field K] (v w : Vec K) : Res (Vec K) :=
  if h : v.rows = w.rows then .ok ⟨v.rows, v.data - w.data ∘ Fin.cast h⟩ else .error .assertFail

/-- Eigen's `M.block(i, j, r, c)`, read: the block has to lie in the matrix. The arguments are `int`s. -/
def Mat.block (M : Mat K) (i j r c : ℤ) : Res (Mat K) :=
  if h : 0 ≤ i ∧ 0 ≤ j ∧ 0 ≤ r ∧ 0 ≤ c ∧ i + r ≤ M.rows ∧ j + c ≤ M.cols then
    .ok ⟨r.toNat, c.toNat, Matrix.of fun a b =>
      M.data ⟨i.toNat + a.val, by omega⟩ ⟨j.toNat + b.val, by omega⟩⟩
  else .error .assertFail

/-- Eigen's `v(seqN(i, n))`, read: the segment has to lie in the vector. -/
def Vec.segment (v : Vec K) (i n : ℤ) : Res (Vec K) :=
  if h : 0 ≤ i ∧ 0 ≤ n ∧ i + n ≤ v.rows then
    .ok ⟨n.toNat, fun a => v.data ⟨i.toNat + a.val, by omega⟩⟩
  else .error .assertFail

/-- Eigen's `M.block(i, j, B.rows(), B.cols()) = B`. -/
def Mat.setBlock (M : Mat K) (i j : ℤ) (B : Mat K) : Res (Mat K) :=
  if 0 ≤ i ∧ 0 ≤ j ∧ i + B.rows ≤ M.rows ∧ j + B.cols ≤ M.cols then
    .ok ⟨M.rows, M.cols, Matrix.of fun a b =>
      if h : (i.toNat ≤ a.val ∧ a.val < i.toNat + B.rows) ∧
          (j.toNat ≤ b.val ∧ b.val < j.toNat + B.cols) then
        B.data ⟨a.val - i.toNat, by omega⟩ ⟨b.val - j.toNat, by omega⟩
      else M.data a b⟩
  else .error .assertFail

/-- Eigen's `M.block(i, j, r, c) = B`, where `B` has to be of the size of the block. -/
def Mat.assign (M : Mat K) (i j r c : ℤ) (B : Mat K) : Res (Mat K) :=
  if (B.rows : ℤ) = r ∧ (B.cols : ℤ) = c then M.setBlock i j B else .error .assertFail

/-- Eigen's `v(seqN(i, n)) = w`, where `w` has to be of length `n`. -/
def Vec.assign (v : Vec K) (i n : ℤ) (w : Vec K) : Res (Vec K) :=
  if 0 ≤ i ∧ 0 ≤ n ∧ i + n ≤ v.rows ∧ (w.rows : ℤ) = n then
    .ok ⟨v.rows, fun a =>
      if h : i.toNat ≤ a.val ∧ a.val < i.toNat + w.rows then w.data ⟨a.val - i.toNat, by omega⟩
      else v.data a⟩
  else .error .assertFail

/-- `kalman_filter/include/kalman_filter/matrix_size.hpp` 20-23. -/
def hasZeroElements (M : Mat K) : Bool := M.rows * M.cols == 0

/-- The same for a vector, which is a matrix with one column. -/
def hasZeroElementsVec (v : Vec K) : Bool := v.rows == 0

/-- `assert(b)`. -/
def check (b : Bool) : Res Unit := if b then .ok () else .error .assertFail

variable [Field K] [DecidableEq K]

/-- `kalman_filter.hpp` 28-35. -/
def predictNextState (x u : Vec K) (A B : Mat K) : Res (Vec K) := do
  (← A.mulVec x).add (← B.mulVec u)

/-- `kalman_filter.hpp` 37-43. -/
def predictNextCovariance (P A Q : Mat K) : Res (Mat K) := do
  (← (← A.mul P).mul A.transpose).add Q

/-- `kalman_filter.hpp` 45-50, with the test for NaN and infinite entries; `none` as in
`Kalman.calcKalmanGain`. The inverse asserts that the matrix is square. -/
noncomputable def calcKalmanGain (P C R : Mat K) : Res (Option (Mat K)) := do
  let PCT ← P.mul C.transpose
  let S ← R.add (← C.mul PCT)
  if h : S.rows = S.cols then
    let S' : Matrix (Fin S.rows) (Fin S.rows) K := S.data.submatrix id (Fin.cast h)
    if S'.det = 0 then
      let _ ← PCT.mul S
      .ok none
    else
      .ok (some (← PCT.mul ⟨S.rows, S.rows, S'⁻¹⟩))
  else .error .assertFail

/-- `kalman_filter.hpp` 52-57. -/
def updateState (x y : Vec K) (C G : Mat K) : Res (Vec K) := do
  x.add (← G.mulVec (← y.sub (← C.mulVec x)))

/-- `kalman_filter.hpp` 59-63. -/
def updateCovariance (P C G : Mat K) : Res (Mat K) := do
  P.sub (← (← G.mul C).mul P)

/-- `kalman_filter.hpp` 134-140: the members of `KalmanFilter`. -/
structure KalmanFilter (K : Type) where
  x : Vec K
  P : Mat K
  A : Mat K
  B : Mat K
  C : Mat K
  Q : Mat K
  R : Mat K

/-- `kalman_filter.cpp` 24-37: the constructor. -/
def KalmanFilter.make (x : Vec K) (A B C Q R P : Mat K) : Res (KalmanFilter K) := do
  check (!hasZeroElementsVec x)
  check (!hasZeroElements P)
  check (!hasZeroElements A)
  check (!hasZeroElements B)
  check (!hasZeroElements C)
  check (!hasZeroElements Q)
  check (!hasZeroElements R)
  return ⟨x, P, A, B, C, Q, R⟩

/-- `kalman_filter.cpp` 39-45. -/
def KalmanFilter.init (f : KalmanFilter K) (x : Vec K) (P0 : Mat K) : Res (KalmanFilter K) := do
  check (!hasZeroElementsVec x)
  check (!hasZeroElements P0)
  return { f with x := x, P := P0 }

/-- `kalman_filter.cpp` 49-61. -/
def KalmanFilter.predictWith (f : KalmanFilter K) (u : Vec K) (A B Q : Mat K) : Res (KalmanFilter K) := do
  check (A.cols == f.x.rows)
  check (B.cols == u.rows)
  check (A.cols == f.P.rows)
  check (Q.cols == Q.rows)
  check (A.rows == Q.cols)
  let x ← predictNextState f.x u A B
  let P ← predictNextCovariance f.P A Q
  return { f with x := x, P := P }

/-- `kalman_filter.cpp` 63. -/
def KalmanFilter.predict (f : KalmanFilter K) (u : Vec K) : Res (KalmanFilter K) :=
  f.predictWith u f.A f.B f.Q

/-- `kalman_filter.cpp` 65-75. -/
noncomputable def KalmanFilter.update (f : KalmanFilter K) (y : Vec K) : Res (KalmanFilter K) := do
  match ← calcKalmanGain f.P f.C f.R with
  | none => .error .invalidArgument
  | some G =>
    let x ← updateState f.x y f.C G
    let P ← updateCovariance f.P f.C G
    return { f with x := x, P := P }

/-- `time_delay_kalman_filter.cpp` 19-28. The size `n * d` must not be negative. -/
def initX (x0 : Vec K) (n : ℤ) : Res (Vec K) :=
  if n * x0.rows < 0 then .error .assertFail else .ok ⟨n.toNat * x0.rows, Kalman.initX x0.data n.toNat⟩

/-- `time_delay_kalman_filter.cpp` 30-40. -/
def initP (P0 : Mat K) (n : ℤ) : Res (Mat K) :=
  if h : P0.rows = P0.cols then
    if n * P0.rows < 0 then .error .assertFail
    else .ok ⟨n.toNat * P0.rows, n.toNat * P0.rows,
      Kalman.initP (P0.data.submatrix id (Fin.cast h)) n.toNat⟩
  else .error .assertFail

/-- `time_delay_kalman_filter.cpp` 42-52. The vector is made without initial values; `old` are the values
its memory has. -/
def updateX (old : ℕ → K) (x xNext : Vec K) : Res (Vec K) := do
  let a : ℤ := x.rows
  let b : ℤ := xNext.rows
  let c := a - b
  let updated : Vec K := ⟨x.rows, fun i => old i⟩
  let updated ← updated.assign 0 b xNext
  updated.assign b c (← x.segment 0 c)

/-- `time_delay_kalman_filter.cpp` 54-93; `old` as in `updateX`. -/
def updateP (old : ℕ → ℕ → K) (P A Q : Mat K) : Res (Mat K) := do
  check (A.rows == A.cols)
  check (Q.rows == Q.cols)
  let a : ℤ := P.rows
  let b : ℤ := A.rows
  let c := a - b
  let BB ← P.block 0 0 b b
  let BC ← P.block 0 0 b c
  let CB ← P.block 0 0 c b
  let CC ← P.block 0 0 c c
  let updated : Mat K := ⟨P.rows, P.rows, Matrix.of fun i j => old i j⟩
  let updated ← updated.assign 0 0 b b (← (← (← A.mul BB).mul A.transpose).add Q)
  let updated ← updated.assign 0 b b c (← A.mul BC)
  let updated ← updated.assign b 0 c b (← CB.mul A.transpose)
  updated.assign b b c c CC

/-- `time_delay_kalman_filter.cpp` 95-104. -/
def makeMeasurementMatrix (C : Mat K) (maxDelayStep delayStep : ℤ) : Res (Mat K) :=
  if C.cols * maxDelayStep < 0 then .error .assertFail
  else
    let D : Mat K := ⟨C.rows, (C.cols * maxDelayStep).toNat, 0⟩
    D.assign 0 (C.cols * delayStep) C.rows C.cols C

/-- `time_delay_kalman_filter.hpp` 90-93: the members. -/
structure TimeDelayKalmanFilter (K : Type) where
  x : Vec K
  P : Mat K
  maxDelayStep : ℤ
  dimX : ℕ

/-- `time_delay_kalman_filter.cpp` 140-146: the constructor. -/
def TimeDelayKalmanFilter.make (x : Vec K) (P : Mat K) (maxDelayStep : ℤ) :
    Res (TimeDelayKalmanFilter K) := do
  let xs ← initX x maxDelayStep
  let Ps ← initP P maxDelayStep
  check (x.rows == P.rows)
  return ⟨xs, Ps, maxDelayStep, x.rows⟩

/-- `time_delay_kalman_filter.cpp` 148-151. -/
def TimeDelayKalmanFilter.getLatestX (f : TimeDelayKalmanFilter K) : Res (Vec K) := f.x.segment 0 f.dimX

/-- `time_delay_kalman_filter.cpp` 153-156. -/
def TimeDelayKalmanFilter.getLatestP (f : TimeDelayKalmanFilter K) : Res (Mat K) :=
  f.P.block 0 0 f.dimX f.dimX

/-- `time_delay_kalman_filter.cpp` 106-113, 158-164. -/
def TimeDelayKalmanFilter.predict (oldX : ℕ → K) (oldP : ℕ → ℕ → K) (f : TimeDelayKalmanFilter K)
    (xNext : Vec K) (A Q : Mat K) : Res (TimeDelayKalmanFilter K) := do
  check (A.rows == Q.rows)
  check (A.rows == xNext.rows)
  let x ← updateX oldX f.x xNext
  let P ← updateP oldP f.P A Q
  return { f with x := x, P := P }

/-- `time_delay_kalman_filter.cpp` 166-169. -/
def TimeDelayKalmanFilter.getX (f : TimeDelayKalmanFilter K) (delayStep : ℤ) : Res (Vec K) :=
  f.x.segment (delayStep * f.dimX) f.dimX

/-- `time_delay_kalman_filter.cpp` 115-138, 171-176. -/
noncomputable def TimeDelayKalmanFilter.update (f : TimeDelayKalmanFilter K) (y : Vec K) (C R : Mat K)
    (delayStep : ℤ) : Res (TimeDelayKalmanFilter K) := do
  if delayStep ≥ f.maxDelayStep then .error .invalidArgument
  else
    check (C.rows == y.rows)
    let D ← makeMeasurementMatrix C f.maxDelayStep delayStep
    match ← calcKalmanGain f.P D R with
    | none => .error .invalidArgument
    | some G =>
      let x ← updateState f.x y D G
      let P ← updateCovariance f.P D G
      return { f with x := x, P := P }

end Verif.Dyn
