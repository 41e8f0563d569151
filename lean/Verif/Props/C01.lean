/-
C01: convolution keeps the length, zero-pads the border, and is the sliding inner product elsewhere.
-/
import Verif.Lemmas.Convolution

set_option autoImplicit false

namespace Verif.Extraction

variable {K : Type*} [CommRing K]

/-- Specification: `out` is `input` filtered by `weight`: entry `i` is the sum of
`weight[k] * input[i - p + k]` where the whole window fits, and zero at the `p` first and last
positions; `p` is half the weight length. -/
def IsFiltered (input weight out : List K) : Prop :=
  ∃ hl : out.length = input.length,
    ∀ i (hi : i < input.length),
      out[i] = if h : weight.length / 2 ≤ i ∧ i + weight.length / 2 < input.length then
          ∑ k : Fin weight.length, weight[k] * input[i - weight.length / 2 + k]'(by
            have := k.isLt; omega)
        else 0

/-- C01, values: for every odd-length weight and every signal at least as long, the result exists
(no exception, no out-of-bounds access) and is the filtered signal. -/
theorem C01_convolution_values (input weight : List K) (hodd : weight.length % 2 = 1)
    (hlen : weight.length ≤ input.length) :
    ∃ out, convolution1D input weight = .ok out ∧ IsFiltered input weight out := by
  set p := (weight.length - 1) / 2 with hp
  set c := input.length - p * 2 with hc
  have hp2 : weight.length / 2 = p := by omega
  have hw : weight.length = 2 * p + 1 := by omega
  have hn : 2 * p + c = input.length := by omega
  let win : Nat → K := fun i =>
    if h : i + weight.length ≤ input.length then
      ∑ k : Fin weight.length, input[i + k] * weight[k] else 0
  obtain ⟨r1, e1, l1, g1⟩ := foldlM_setU p 0 (fun _ => (pure 0 : Res K)) (fun _ => 0)
    (List.replicate input.length (0 : K)) (fun _ _ => rfl) (by simp; omega)
  obtain ⟨r2, e2, l2, g2⟩ := foldlM_setU c p
    (fun i => innerProduct ((input.drop i).take weight.length) weight) win r1
    (fun i hi => by
      have h : i + weight.length ≤ input.length := by omega
      simp only [win, h, dif_pos]
      exact innerProduct_window input weight i h)
    (by rw [l1]; simp; omega)
  obtain ⟨r3, e3, l3, g3⟩ := foldlM_setU p (c + p) (fun _ => (pure 0 : Res K)) (fun _ => 0) r2
    (fun _ _ => rfl) (by rw [l2, l1]; simp; omega)
  have hl3 : r3.length = input.length := by rw [l3, l2, l1]; simp
  refine ⟨r3, ?_, hl3, fun i hi => ?_⟩
  · have h1 : ¬ input.length < weight.length := by omega
    have h2 : ¬ weight.length % 2 ≠ 1 := by omega
    simp only [convolution1D, h1, h2, if_false, ← hp, ← hc]
    rw [e1]
    simp only [bind, Except.bind] at e2 e3 ⊢
    rw [e2]
    exact e3
  · have hget : r3[i]? = some (r3[i]'(by omega)) := by simp [hl3, hi]
    have key := g3 i
    rw [g2, g1] at key
    simp only [hp2]
    by_cases hB : c + p ≤ i
    · rw [if_pos (by omega), hget] at key
      rw [dif_neg (by omega)]
      exact Option.some.inj key
    · rw [if_neg (by omega)] at key
      by_cases hA : p ≤ i
      · rw [if_pos (by omega), hget] at key
        have hwin : i - p + weight.length ≤ input.length := by omega
        rw [dif_pos (by omega)]
        have := Option.some.inj key
        simp only [win, hwin, dif_pos] at this
        rw [this]
        exact Finset.sum_congr rfl (fun k _ => mul_comm _ _)
      · rw [if_neg (by omega), if_pos (by omega), hget] at key
        rw [dif_neg (by omega)]
        exact Option.some.inj key

/-- C01, rejection: for an odd-length weight the only failure is `invalid_argument`, and it happens
exactly for signals shorter than the weight. -/
theorem C01_convolution_rejects (input weight : List K) (hodd : weight.length % 2 = 1) (e : Err) :
    convolution1D input weight = .error e ↔
      e = .invalidArgument ∧ input.length < weight.length := by
  by_cases h : input.length < weight.length
  · simp [convolution1D, h, eq_comm]
  · obtain ⟨out, ho, -⟩ := C01_convolution_values input weight hodd (by omega)
    rw [ho]
    simp [h]

/-- Non-vacuity: a concrete signal and weight. -/
example : convolution1D [1, 2, 4, 8, 16] [1, -2, (1 : ℤ)] = .ok [0, 1, 2, 4, 0] := by decide
example : ([1, -2, 1] : List ℤ).length % 2 = 1 ∧ 3 ≤ ([1, 2, 4, 8, 16] : List ℤ).length := by decide
/-- Non-vacuity: a signal that is too short. -/
example : convolution1D [1, 2] [1, -2, (1 : ℤ)] = .error .invalidArgument := by decide

end Verif.Extraction
