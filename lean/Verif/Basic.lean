/-
Outcomes of C++ code and bounds-checked access.
-/
import Mathlib.Data.List.Basic
import Mathlib.Data.Int.Notation
import Mathlib.Data.Nat.Notation

set_option autoImplicit false

namespace Verif

/-- How a C++ function can fail to return normally.
* `invalidArgument`, `outOfRange`, `lengthError`: the exceptions `std::invalid_argument`,
  `std::out_of_range`, `std::length_error`;
* `assertFail`: a failing `assert` (asserts are active: every `CMakeLists.txt` builds `Debug`
  without `NDEBUG`);
* `undefinedBehaviour`: the C++ standard gives the program no meaning;
* `notModelled`: not a failure of the program, the execution leaves what the model describes. Used
  only for initial poses with NaN or infinite coordinates (`Model/EkfNode.lean`) and for divisions by
  zero in scan matching (`Model/Loam.lean`). -/
inductive Err where
  | invalidArgument
  | outOfRange
  | lengthError
  | assertFail
  | undefinedBehaviour
  | notModelled
  deriving DecidableEq, Repr

/-- Outcome of a C++ function: a value or a failure. -/
abbrev Res (α : Type*) := Except Err α

variable {α : Type*}

/-- `v.at(i)` for reading, `v` a `std::vector` or the repository's `span`
(`lib/include/lidar_feature_library/span.hpp` 53-57, 70-79): throws `out_of_range` for any index
outside `[0, size)`. A negative `int` converted to `size_t` by `std::vector::at` is larger than
any size, so the negative case is the same. -/
def atI (l : List α) (i : Int) : Res α :=
  if i < 0 then .error .outOfRange
  else match l[i.toNat]? with
    | some a => .ok a
    | none => .error .outOfRange

/-- `v.at(i) = a` for writing (`span.hpp` 108-112, `std::vector::at`). -/
def setI (l : List α) (i : Int) (a : α) : Res (List α) :=
  if 0 ≤ i ∧ i < l.length then .ok (l.set i.toNat a) else .error .outOfRange

/-- `v[i] = a`: unchecked write, undefined behaviour outside the bounds. -/
def setU (l : List α) (i : Nat) (a : α) : Res (List α) :=
  if i < l.length then .ok (l.set i a) else .error .undefinedBehaviour

theorem atI_ok {l : List α} {i : Nat} (h : i < l.length) : atI l (i : Int) = .ok l[i] := by
  have h0 : ¬ ((i : Int) < 0) := by omega
  simp [atI, h0, h]

theorem setI_ok {l : List α} {i : Nat} (h : i < l.length) (a : α) :
    setI l (i : Int) a = .ok (l.set i a) := by
  have : (0 : Int) ≤ (i : Int) ∧ (i : Int) < l.length := by omega
  simp [setI, this]

theorem setU_ok {l : List α} {i : Nat} (h : i < l.length) (a : α) :
    setU l i a = .ok (l.set i a) := by
  simp [setU, h]

/-- A counting loop `for i in 0..n-1` that writes `v i` to position `base + i`. -/
theorem foldlM_setU (n base : Nat) (val : Nat → Res α) (v : Nat → α) (r : List α)
    (hval : ∀ i, i < n → val i = .ok (v i)) (hlen : base + n ≤ r.length) :
    ∃ r', (List.range n).foldlM (fun acc i => do
        let x ← val i
        setU acc (base + i) x) r = .ok r' ∧ r'.length = r.length ∧
      ∀ k, r'[k]? = if base ≤ k ∧ k < base + n then some (v (k - base)) else r[k]? := by
  induction n with
  | zero =>
    refine ⟨r, rfl, rfl, fun k => ?_⟩
    rw [if_neg (by omega)]
  | succ n ih =>
    obtain ⟨r', h1, h2, h3⟩ := ih (fun i hi => hval i (by omega)) (by omega)
    refine ⟨r'.set (base + n) (v n), ?_, by simp [h2], fun k => ?_⟩
    · rw [List.range_succ, List.foldlM_append, h1]
      have hlt : base + n < r'.length := by omega
      simp [hval n (by omega), setU_ok hlt, bind, Except.bind, pure, Except.pure]
    · rw [List.getElem?_set]
      by_cases hk : base + n = k
      · subst hk
        have hlt : base + n < r'.length := by omega
        simp [hlt]
      · rw [if_neg hk, h3]
        by_cases hc : base ≤ k ∧ k < base + n
        · rw [if_pos hc, if_pos (by omega)]
        · rw [if_neg hc, if_neg (by omega)]

end Verif
