/-
C02: curvature is the squared sum of range differences.
-/
import Verif.Props.C01
import Mathlib.Algebra.Order.Ring.Defs
import Mathlib.Data.Rat.Defs
import Mathlib.Algebra.Order.Ring.Unbundled.Rat

set_option autoImplicit false

namespace Verif.Extraction

section Values
variable {K : Type*} [CommRing K]

/-- Specification: the LOAM smoothness of point `i` in a profile `r`, i.e. the square of the sum of
the differences of the `2p` surrounding ranges to the range of the point. -/
def smoothness (r : ℕ → K) (p i : ℕ) : K := (∑ j ∈ Finset.Icc (i - p) (i + p), (r j - r i)) ^ 2

theorem makeWeight_ok (p : ℕ) (hp : 0 < p) :
    (makeWeight (p : Int) : Res (List K)) =
      .ok ((List.replicate (2 * p + 1) (1 : K)).set p (-2 * (p : K))) := by
  have h0 : ((p : Int) * 2 + 1).toNat = 2 * p + 1 := by omega
  simp only [makeWeight]
  rw [if_pos (by omega), h0, setI_ok (by simp; omega)]
  simp

theorem windowSum_eq (r : ℕ → K) (p i : ℕ) (hpi : p ≤ i) :
    ∑ k ∈ Finset.range (2 * p + 1), (if p = k then -2 * (p : K) else 1) * r (i - p + k) =
      ∑ j ∈ Finset.Icc (i - p) (i + p), (r j - r i) := by
  have h1 : Finset.Icc (i - p) (i + p) = Finset.Ico (0 + (i - p)) ((2 * p + 1) + (i - p)) := by
    ext j; simp; omega
  rw [h1, ← Finset.sum_Ico_add' (fun j => r j - r i) 0 (2 * p + 1) (i - p),
    ← Finset.range_eq_Ico, Finset.sum_sub_distrib]
  have h2 : ∀ k ∈ Finset.range (2 * p + 1),
      (if p = k then -2 * (p : K) else 1) * r (i - p + k) =
        r (k + (i - p)) + (if p = k then -(2 * (p : K) + 1) * r i else 0) := by
    intro k _
    by_cases hk : p = k
    · subst hk
      have e1 : i - p + p = i := by omega
      have e2 : p + (i - p) = i := by omega
      simp only [if_true, e1, e2]; ring
    · simp [hk, add_comm]
  rw [Finset.sum_congr rfl h2, Finset.sum_add_distrib, Finset.sum_ite_eq]
  rw [if_pos (by simp; omega)]
  simp
  ring

/-- C02, values: for a ring of `n` points with ranges `r 0, …, r (n-1)` and padding `p > 0`, the
curvature exists iff the window fits and is the smoothness of each interior point, `0` at the
`p` first and last points. Every range vector is of the form `(List.range n).map r`. -/
theorem C02_curvature_values (r : ℕ → K) (n p : ℕ) (hp : 0 < p) (hn : 2 * p + 1 ≤ n) :
    ∃ out, calcCurvature ((List.range n).map r) (p : Int) = .ok out ∧ out.length = n ∧
      ∀ i, i < n → out[i]? = some
        (if p ≤ i ∧ i + p < n then smoothness r p i else 0) := by
  set w : List K := (List.replicate (2 * p + 1) (1 : K)).set p (-2 * (p : K)) with hw
  have hwl : w.length = 2 * p + 1 := by simp [hw]
  obtain ⟨out, ho, hl, hv⟩ := C01_convolution_values ((List.range n).map r) w
    (by omega) (by simp; omega)
  have hl' : out.length = n := by simpa using hl
  refine ⟨out.map fun v => v * v, ?_, by simpa using hl', fun i hi => ?_⟩
  · simp only [calcCurvature, makeWeight_ok p hp, bind, Except.bind, ← hw, ho]
    rfl
  · have hv' := hv i (by simpa using hi)
    have hhalf : w.length / 2 = p := by omega
    simp only [hhalf, List.length_map, List.length_range] at hv'
    have hio : i < out.length := by omega
    rw [List.getElem?_map, List.getElem?_eq_getElem hio]
    simp only [Option.map_some, Option.some.injEq]
    rw [hv']
    by_cases hc : p ≤ i ∧ i + p < n
    · rw [dif_pos hc, if_pos hc, smoothness, ← windowSum_eq r p i hc.1, ← pow_two]
      congr 1
      rw [← Fin.sum_univ_eq_sum_range (fun k =>
        (if p = k then -2 * (p : K) else 1) * r (i - p + k)) (2 * p + 1)]
      refine Fintype.sum_equiv (finCongr hwl) _ _ (fun k => ?_)
      simp [hw, List.getElem_set]
    · rw [dif_neg hc, if_neg hc]; ring

/-- C02, rejection: rings too short for the window are refused with `invalid_argument`. -/
theorem C02_curvature_rejects (l : List K) (p : ℕ) (hp : 0 < p) (hn : l.length < 2 * p + 1) :
    calcCurvature l (p : Int) = .error .invalidArgument := by
  have : l.length < ((List.replicate (2 * p + 1) (1 : K)).set p (-2 * (p : K))).length := by
    simpa using hn
  simp only [calcCurvature, makeWeight_ok p hp, bind, Except.bind, convolution1D, this, if_true]

/-- C02: a padding that is not positive fails the assertion, whatever the ranges. -/
theorem C02_padding_refused (l : List K) (padding : Int) (hp : padding ≤ 0) :
    calcCurvature l padding = .error .assertFail := by
  simp only [calcCurvature, makeWeight, if_neg (by omega : ¬ padding > 0), bind, Except.bind]

example : calcCurvature ([1, 2, 3] : List ℚ) 0 = .error .assertFail := C02_padding_refused _ _ (by norm_num)

/-- The list of values of `calcCurvature` in closed form. -/
theorem calcCurvature_eq (r : ℕ → K) (n p : ℕ) (hp : 0 < p) :
    calcCurvature ((List.range n).map r) (p : Int) =
      if n < 2 * p + 1 then .error .invalidArgument
      else .ok ((List.range n).map fun i =>
        if p ≤ i ∧ i + p < n then smoothness r p i else 0) := by
  by_cases hn : n < 2 * p + 1
  · rw [if_pos hn]; exact C02_curvature_rejects _ p hp (by simpa using hn)
  · rw [if_neg hn]
    obtain ⟨out, ho, hl, hv⟩ := C02_curvature_values r n p hp (by omega)
    rw [ho]
    congr 1
    apply List.ext_getElem?
    intro i
    by_cases hi : i < n
    · rw [hv i hi]; simp [hi]
    · rw [List.getElem?_eq_none (by omega), List.getElem?_eq_none (by simp; omega)]

/-- Every list is the list of values of a function. -/
theorem list_eq_map_range (l : List K) : ∃ r : ℕ → K, l = (List.range l.length).map r := by
  refine ⟨fun i => if h : i < l.length then l[i] else 0, ?_⟩
  apply List.ext_getElem
  · simp
  · intro i h1 h2; simp [h1]

/-- C02, shift invariance: adding a constant to all ranges does not change the curvature. -/
theorem C02_curvature_shift (l : List K) (p : ℕ) (hp : 0 < p) (c : K) :
    calcCurvature (l.map (· + c)) (p : Int) = calcCurvature l (p : Int) := by
  obtain ⟨r, hr⟩ := list_eq_map_range l
  rw [hr, List.map_map]
  have : ((· + c) ∘ r) = fun i => r i + c := rfl
  rw [this, calcCurvature_eq _ _ _ hp, calcCurvature_eq _ _ _ hp]
  simp [smoothness]

/-- C02, scaling: multiplying all ranges by `c` multiplies the curvature by `c²`. -/
theorem C02_curvature_scale (l : List K) (p : ℕ) (hp : 0 < p) (c : K) :
    calcCurvature (l.map (c * ·)) (p : Int) =
      (calcCurvature l (p : Int)).map (fun out => out.map (c ^ 2 * ·)) := by
  obtain ⟨r, hr⟩ := list_eq_map_range l
  rw [hr, List.map_map]
  have : ((c * ·) ∘ r) = fun i => c * r i := rfl
  rw [this, calcCurvature_eq _ _ _ hp, calcCurvature_eq _ _ _ hp]
  by_cases hn : l.length < 2 * p + 1
  · simp [hn, Except.map]
  · simp only [hn, if_false, Except.map, List.map_map]
    congr 1
    apply List.map_congr_left
    intro i _
    simp only [Function.comp]
    split_ifs
    · simp only [smoothness, ← mul_sub, ← Finset.mul_sum]; ring
    · simp

theorem smoothness_affine (a b : K) (p i : ℕ) (hpi : p ≤ i) :
    smoothness (fun j => a + b * (j : K)) p i = 0 := by
  have h1 : Finset.Icc (i - p) (i + p) = Finset.Ico (0 + (i - p)) ((2 * p + 1) + (i - p)) := by
    ext j; simp; omega
  have hip : ((i - p : ℕ) : K) = (i : K) - p := by push_cast [Nat.cast_sub hpi]; ring
  have h3 : ∀ q : ℕ, (∑ k ∈ Finset.range (2 * q + 1), (k : K)) = (2 * (q : K) + 1) * q := by
    intro q
    induction q with
    | zero => simp
    | succ q ih =>
      have : 2 * (q + 1) + 1 = (2 * q + 1) + 1 + 1 := by ring
      rw [this, Finset.sum_range_succ, Finset.sum_range_succ, ih]
      push_cast; ring
  rw [smoothness, h1, ← Finset.sum_Ico_add' (fun j : ℕ => (a + b * (j : K)) - (a + b * (i : K))) 0
    (2 * p + 1) (i - p), ← Finset.range_eq_Ico]
  have h2 : ∀ k ∈ Finset.range (2 * p + 1),
      (a + b * (((k + (i - p) : ℕ)) : K)) - (a + b * (i : K)) = b * (k : K) - b * p := by
    intro k _
    push_cast; rw [hip]; ring
  rw [Finset.sum_congr rfl h2, Finset.sum_sub_distrib, ← Finset.mul_sum, h3]
  simp
  ring

/-- C02, affine profiles: a wall seen as an affine range profile has curvature `0` everywhere. -/
theorem C02_curvature_affine (a b : K) (n p : ℕ) (hp : 0 < p) (hn : 2 * p + 1 ≤ n) :
    calcCurvature ((List.range n).map fun j : ℕ => a + b * (j : K)) (p : Int) =
      .ok (List.replicate n 0) := by
  rw [calcCurvature_eq _ _ _ hp, if_neg (by omega)]
  congr 1
  apply List.ext_getElem
  · simp
  · intro i h1 h2
    simp only [List.getElem_map, List.getElem_range, List.getElem_replicate]
    split_ifs with h
    · exact smoothness_affine a b p i h.1
    · rfl

end Values

/-- C02, sign: no curvature value is negative. -/
theorem C02_curvature_nonneg {K : Type*} [CommRing K] [LinearOrder K] [IsStrictOrderedRing K]
    (l out : List K) (p : ℕ) (h : calcCurvature l (p : Int) = .ok out) : ∀ c ∈ out, 0 ≤ c := by
  simp only [calcCurvature, bind, Except.bind] at h
  cases hw : (makeWeight (p : Int) : Res (List K)) with
  | error e => rw [hw] at h; simp at h
  | ok w =>
    rw [hw] at h
    cases hc : convolution1D l w with
    | error e => simp only [hc] at h; cases h
    | ok v =>
      simp only [hc, pure, Except.pure, Except.ok.injEq] at h
      subst h
      intro c hc
      obtain ⟨x, -, rfl⟩ := List.mem_map.1 hc
      exact mul_self_nonneg x

/-- Non-vacuity: a concrete profile with a jump. -/
example : calcCurvature [1, 1, 1, 4, 4, 4, 4] (2 : ℤ) = .ok [0, 0, 36, 36, 9, 0, (0 : ℚ)] := by
  decide +kernel
example : (2 : ℕ) > 0 ∧ 2 * 2 + 1 ≤ 7 := by decide
example : calcCurvature [1, 1, 1, 4] (2 : ℤ) = (.error .invalidArgument : Res (List ℚ)) := by
  decide +kernel

end Verif.Extraction
