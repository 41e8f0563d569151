/-
Rounding to nearest: the relative error, and the errors it causes in the extraction.
-/
import Verif.Model.Rounded
import Mathlib.Algebra.Order.Round
import Mathlib.Algebra.Order.Archimedean.Basic
import Mathlib.Tactic.Linarith
import Mathlib.Tactic.NormNum
import Mathlib.Tactic.Positivity
import Mathlib.Tactic.FieldSimp
import Mathlib.Tactic.Zify

set_option autoImplicit false

namespace Verif.Extraction

/-- Specification: a floating-point number with `p` binary digits, of any exponent. -/
def IsFloat (p : ℕ) (x : ℝ) : Prop := ∃ m e : ℤ, |m| ≤ 2 ^ p ∧ x = m * 2 ^ e

/-- Specification: `f` rounds to a nearest number with `p` binary digits; ties in any way. -/
def RoundsToNearest (p : ℕ) (f : ℝ → ℝ) : Prop :=
  ∀ x, IsFloat p (f x) ∧ ∀ y, IsFloat p y → |f x - x| ≤ |y - x|

/-- Specification of the arithmetic: IEEE `double`s and `float`s, rounding to nearest, and a
`std::acos` with an error of at most `2⁻⁴⁸`. -/
structure Arith.Correct (A : Arith) : Prop where
  dbl : RoundsToNearest 53 A.dbl
  flt : RoundsToNearest 24 A.flt
  acos : ∀ x, -1 ≤ x → x ≤ 1 → |A.acos x - Real.arccos x| ≤ 1 / 2 ^ 48

theorem RoundsToNearest.exact {p : ℕ} {f : ℝ → ℝ} (hf : RoundsToNearest p f) {x : ℝ}
    (hx : IsFloat p x) : f x = x := by
  have := (hf x).2 x hx
  rw [sub_self, abs_zero] at this
  exact sub_eq_zero.1 (abs_nonpos_iff.1 this)

/-- The relative error of rounding to nearest. -/
theorem RoundsToNearest.error {p : ℕ} {f : ℝ → ℝ} (hf : RoundsToNearest p f) (x : ℝ) :
    |f x - x| ≤ 1 / 2 ^ p * |x| := by
  rcases eq_or_ne x 0 with rfl | hx
  · rw [hf.exact ⟨0, 0, by simp, by simp⟩]; simp
  · have hx' : 0 < |x| := abs_pos.2 hx
    obtain ⟨e, he1, he2⟩ := exists_mem_Ico_zpow hx' (by norm_num : (1 : ℝ) < 2)
    set g : ℤ := e + 1 - p with hg
    have hgp : (0 : ℝ) < 2 ^ g := by positivity
    have hmul : (2 : ℝ) ^ (e + 1) = 2 ^ p * 2 ^ g := by
      rw [hg, ← zpow_natCast, ← zpow_add₀ (by norm_num)]
      congr 1; ring
    have hr := abs_sub_round (x / 2 ^ g)
    have hlt : |x / 2 ^ g| < 2 ^ p := by
      rw [abs_div, abs_of_pos hgp, div_lt_iff₀ hgp, ← hmul]; exact he2
    have hm : |round (x / 2 ^ g)| ≤ 2 ^ p := by
      have h1 : |(round (x / 2 ^ g) : ℝ)| < 2 ^ p + 1 := by
        have := abs_sub_abs_le_abs_sub ((round (x / 2 ^ g) : ℝ)) (x / 2 ^ g)
        rw [abs_sub_comm] at this
        linarith
      have h2 : |round (x / 2 ^ g)| < 2 ^ p + 1 := by exact_mod_cast h1
      omega
    have h1 := (hf x).2 _ ⟨round (x / 2 ^ g), g, hm, rfl⟩
    have h2 : |(round (x / 2 ^ g) : ℝ) * 2 ^ g - x| ≤ 2 ^ g / 2 := by
      have : (round (x / 2 ^ g) : ℝ) * 2 ^ g - x = -((x / 2 ^ g - round (x / 2 ^ g)) * 2 ^ g) := by
        field_simp; ring
      rw [this, abs_neg, abs_mul, abs_of_pos hgp]
      nlinarith
    have h3 : (2 : ℝ) ^ g / 2 = 1 / 2 ^ p * 2 ^ e := by
      have : (2 : ℝ) ^ (e + 1) = 2 ^ e * 2 := zpow_add_one₀ (by norm_num) e
      rw [this] at hmul
      field_simp
      linarith
    have h4 : 1 / 2 ^ p * (2 : ℝ) ^ e ≤ 1 / 2 ^ p * |x| :=
      mul_le_mul_of_nonneg_left he1 (by positivity)
    linarith

/-- A number with less than half a unit of the last digit to a float is rounded to this float. -/
theorem RoundsToNearest.eq_of {p : ℕ} {f : ℝ → ℝ} (hf : RoundsToNearest p f) (hp : 0 < p)
    {x : ℝ} (m e : ℤ) (h1 : 2 ^ p < 2 * m) (h2 : m ≤ 2 ^ p) (h : |x - m * 2 ^ e| < 2 ^ e / 2) : f x = m * 2 ^ e := by
  have hm0 : 0 < m := by
    have : (0 : ℤ) < 2 ^ p := by positivity
    omega
  obtain ⟨⟨k, g, hk, hy⟩, hn⟩ := hf x
  have hr : IsFloat p ((m : ℝ) * 2 ^ e) := ⟨m, e, by rw [abs_of_pos hm0]; exact h2, rfl⟩
  have hd := hn _ hr
  have he : (0 : ℝ) < 2 ^ e := by positivity
  have hdist : |f x - m * 2 ^ e| < 2 ^ e := by
    have := abs_sub_le (f x) x (m * 2 ^ e)
    rw [abs_sub_comm (m * 2 ^ e : ℝ) x] at hd
    linarith
  rcases le_or_gt e g with hge | hge
  · obtain ⟨n, hn⟩ := Int.eq_ofNat_of_zero_le (sub_nonneg.2 hge)
    have hg : (2 : ℝ) ^ g = ((2 ^ n : ℤ) : ℝ) * 2 ^ e := by
      push_cast
      rw [← zpow_natCast, ← zpow_add₀ (by norm_num)]
      congr 1; omega
    rw [hy, hg, ← mul_assoc, ← Int.cast_mul, ← sub_mul, ← Int.cast_sub, abs_mul, abs_of_pos he]
      at hdist
    have h3 : |((k * 2 ^ n - m : ℤ) : ℝ)| < 1 := by
      by_contra hc
      nlinarith
    have h4 : |k * 2 ^ n - m| < 1 := by exact_mod_cast h3
    have h5 : k * 2 ^ n = m := by
      have := Int.abs_lt_one_iff.1 h4
      omega
    rw [hy, hg, ← mul_assoc, ← Int.cast_mul, h5]
  · exfalso
    have hg : (2 : ℝ) ^ g ≤ 2 ^ e / 2 := by
      have : (2 : ℝ) ^ g ≤ 2 ^ (e - 1) := zpow_le_zpow_right₀ (by norm_num) (by omega)
      rwa [zpow_sub_one₀ (by norm_num), ← div_eq_mul_inv] at this
    have hk' : (k : ℝ) ≤ 2 ^ p := by
      have : k ≤ 2 ^ p := (le_abs_self k).trans hk
      exact_mod_cast this
    have hgp : (0 : ℝ) < 2 ^ g := by positivity
    have hle : f x ≤ 2 ^ p * (2 ^ e / 2) := by
      rw [hy]
      calc (k : ℝ) * 2 ^ g ≤ 2 ^ p * 2 ^ g := mul_le_mul_of_nonneg_right hk' hgp.le
        _ ≤ _ := mul_le_mul_of_nonneg_left hg (by positivity)
    have hm' : ((2 : ℝ) ^ p + 1) ≤ 2 * m := by
      have : (2 : ℤ) ^ p + 1 ≤ 2 * m := by omega
      exact_mod_cast this
    have hm2 : (2 : ℝ) ^ p + 2 ≤ 2 * m := by
      obtain ⟨q, rfl⟩ : ∃ q, p = q + 1 := ⟨p - 1, by omega⟩
      have : (2 : ℤ) ^ (q + 1) + 2 ≤ 2 * m := by
        rw [pow_succ] at h1 ⊢
        omega
      exact_mod_cast this
    have := abs_lt.1 hdist
    nlinarith

/-- There is a rounding to nearest. -/
theorem exists_rounding (p : ℕ) (hp : 0 < p) : ∃ f, RoundsToNearest p f := by
  suffices h : ∀ x : ℝ, ∃ z, IsFloat p z ∧ ∀ y, IsFloat p y → |z - x| ≤ |y - x| by
    choose f hf using h
    exact ⟨f, hf⟩
  intro x
  rcases eq_or_ne x 0 with rfl | hx
  · exact ⟨0, ⟨0, 0, by simp, by simp⟩, fun y _ => by simp⟩
  · have hx' : 0 < |x| := abs_pos.2 hx
    obtain ⟨e, he1, he2⟩ := exists_mem_Ico_zpow hx' (by norm_num : (1 : ℝ) < 2)
    set g : ℤ := e + 1 - p with hg
    have hgp : (0 : ℝ) < 2 ^ g := by positivity
    have hmul : (2 : ℝ) ^ (e + 1) = 2 ^ p * 2 ^ g := by
      rw [hg, ← zpow_natCast, ← zpow_add₀ (by norm_num)]
      congr 1; ring
    have hlt : |x / 2 ^ g| < 2 ^ p := by
      rw [abs_div, abs_of_pos hgp, div_lt_iff₀ hgp, ← hmul]; exact he2
    have hm : |round (x / 2 ^ g)| ≤ 2 ^ p := by
      have h1 : |(round (x / 2 ^ g) : ℝ)| < 2 ^ p + 1 := by
        have := abs_sub_abs_le_abs_sub ((round (x / 2 ^ g) : ℝ)) (x / 2 ^ g)
        have hr := abs_sub_round (x / 2 ^ g)
        rw [abs_sub_comm] at this
        linarith
      have h2 : |round (x / 2 ^ g)| < 2 ^ p + 1 := by exact_mod_cast h1
      omega
    have hmult : ∀ k : ℤ, |(round (x / 2 ^ g) : ℝ) * 2 ^ g - x| ≤ |(k : ℝ) * 2 ^ g - x| := by
      intro k
      have h := round_le (x / 2 ^ g) k
      have e1 : ∀ a : ℝ, |a * 2 ^ g - x| = |x / 2 ^ g - a| * 2 ^ g := by
        intro a
        rw [← abs_of_pos hgp, ← abs_mul, abs_of_pos hgp, abs_sub_comm]
        congr 1
        field_simp
      rw [e1, e1]
      exact mul_le_mul_of_nonneg_right h hgp.le
    refine ⟨round (x / 2 ^ g) * 2 ^ g, ⟨_, g, hm, rfl⟩, ?_⟩
    rintro y ⟨k, h, hk, rfl⟩
    rcases le_or_gt g h with hgh | hgh
    · obtain ⟨n, hn⟩ := Int.eq_ofNat_of_zero_le (sub_nonneg.2 hgh)
      have hh : (2 : ℝ) ^ h = ((2 ^ n : ℤ) : ℝ) * 2 ^ g := by
        push_cast
        rw [← zpow_natCast, ← zpow_add₀ (by norm_num)]
        congr 1; omega
      rw [hh, ← mul_assoc, ← Int.cast_mul]
      exact hmult _
    · have he : (2 : ℝ) ^ e = ((2 ^ (p - 1) : ℤ) : ℝ) * 2 ^ g := by
        push_cast
        rw [← zpow_natCast, ← zpow_add₀ (by norm_num)]
        congr 1; omega
      have hy : |(k : ℝ) * 2 ^ h| ≤ 2 ^ e := by
        have h1 : |(k : ℝ)| ≤ 2 ^ p := by exact_mod_cast hk
        have h2 : (2 : ℝ) ^ h ≤ 2 ^ (g - 1) := zpow_le_zpow_right₀ (by norm_num) (by omega)
        have h3 : (2 : ℝ) ^ e = 2 ^ p * 2 ^ (g - 1) := by
          rw [← zpow_natCast, ← zpow_add₀ (by norm_num)]
          congr 1; omega
        rw [abs_mul, abs_of_pos (by positivity : (0 : ℝ) < 2 ^ h), h3]
        exact mul_le_mul h1 h2 (by positivity) (by positivity)
      have hd : |x| - 2 ^ e ≤ |(k : ℝ) * 2 ^ h - x| := by
        have := abs_sub_abs_le_abs_sub x ((k : ℝ) * 2 ^ h)
        rw [abs_sub_comm] at this
        linarith
      refine le_trans ?_ hd
      rcases le_or_gt 0 x with h0 | h0
      · refine (hmult (2 ^ (p - 1))).trans ?_
        rw [← he, abs_of_nonneg h0, abs_sub_comm, abs_of_nonneg]
        rw [abs_of_nonneg h0] at he1
        linarith
      · refine (hmult (-2 ^ (p - 1))).trans ?_
        rw [Int.cast_neg, neg_mul, ← he, abs_of_neg h0, abs_of_nonneg]
        · linarith
        · rw [abs_of_neg h0] at he1
          linarith

/-- There is a correct arithmetic. -/
theorem exists_correct : ∃ A : Arith, A.Correct := by
  obtain ⟨d, hd⟩ := exists_rounding 53 (by norm_num)
  obtain ⟨s, hs⟩ := exists_rounding 24 (by norm_num)
  exact ⟨⟨d, s, Real.arccos⟩, hd, hs, fun x _ _ => by simp⟩

end Verif.Extraction
