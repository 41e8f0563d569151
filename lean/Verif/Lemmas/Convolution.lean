/-
Helper lemmas about the model of convolution and curvature.
-/
import Verif.Model.Convolution
import Mathlib.Algebra.BigOperators.Fin
import Mathlib.Algebra.BigOperators.Intervals
import Mathlib.Algebra.Order.BigOperators.Group.Finset
import Mathlib.Tactic.Ring
import Mathlib.Tactic.Linarith

set_option autoImplicit false

namespace Verif.Extraction

variable {K : Type*} [CommRing K]

theorem innerProductLoop_eq (xs ys : List K) (s : K) (h : xs.length ≤ ys.length) :
    innerProductLoop s xs ys = .ok (s + ∑ k : Fin xs.length, xs[k] * ys[k]) := by
  induction xs generalizing ys s with
  | nil => simp [innerProductLoop]
  | cons a as ih =>
    cases ys with
    | nil => simp at h
    | cons b bs =>
      have h' : as.length ≤ bs.length := by simpa using h
      rw [innerProductLoop, ih bs _ h']
      congr 1
      simp only [List.length_cons]
      rw [Fin.sum_univ_succ]
      simp [add_assoc]

theorem innerProduct_window (input weight : List K) (i : Nat)
    (h : i + weight.length ≤ input.length) :
    innerProduct ((input.drop i).take weight.length) weight =
      .ok (∑ k : Fin weight.length, input[i + k] * weight[k]) := by
  have hl : ((input.drop i).take weight.length).length = weight.length := by
    simp; omega
  rw [innerProduct, innerProductLoop_eq _ _ _ (by omega), zero_add]
  congr 1
  refine Fintype.sum_equiv (finCongr hl) _ _ (fun k => ?_)
  simp

end Verif.Extraction
