/-
C05: floating-point rounding cannot break the blocks.
-/
import Verif.Props.C03
import Mathlib.Algebra.Order.Round
import Mathlib.Tactic.NormNum

set_option autoImplicit false

namespace Verif.Extraction

/-- What is assumed of `double` arithmetic: integers of magnitude up to `2^53` are exact, and any
other result of magnitude within `[2^-100, 2^100]` has relative error at most `2^-53`. IEEE 754
binary64 with rounding to nearest satisfies this. -/
structure IsDoubleRounding (rnd : ℚ → ℚ) : Prop where
  int : ∀ k : ℤ, |k| ≤ 2 ^ 53 → rnd k = k
  rel : ∀ x : ℚ, 1 / 2 ^ 100 ≤ |x| → |x| ≤ 2 ^ 100 → |rnd x - x| ≤ 1 / 2 ^ 53 * |x|

theorem IsDoubleRounding.zero {rnd : ℚ → ℚ} (h : IsDoubleRounding rnd) : rnd 0 = 0 := by
  have := h.int 0 (by norm_num); simpa using this

theorem IsDoubleRounding.one {rnd : ℚ → ℚ} (h : IsDoubleRounding rnd) : rnd 1 = 1 := by
  have := h.int 1 (by norm_num); simpa using this

theorem IsDoubleRounding.rel' {rnd : ℚ → ℚ} (h : IsDoubleRounding rnd) (x : ℚ) (h0 : 0 ≤ x)
    (h1 : x = 0 ∨ 1 / 2 ^ 100 ≤ x) (h2 : x ≤ 2 ^ 100) : |rnd x - x| ≤ 1 / 2 ^ 53 * x := by
  rcases h1 with h1 | h1
  · subst h1; rw [h.zero]; simp
  · have := h.rel x (by rwa [abs_of_nonneg h0]) (by rwa [abs_of_nonneg h0])
    rwa [abs_of_nonneg h0] at this

/-- The exact (real) position of boundary `j`. -/
def exactPos (s e n j : ℤ) : ℚ := s + (e - s) * j / n

theorem truncToInt_mono {x y : ℚ} (h : x ≤ y) : truncToInt x ≤ truncToInt y := by
  unfold truncToInt
  split_ifs with h1 h2 h2
  · exact Int.floor_le_floor h
  · linarith
  · have : ⌈x⌉ ≤ 0 := Int.ceil_le.2 (by push_cast; linarith)
    exact this.trans (Int.floor_nonneg.2 h2)
  · exact Int.ceil_le_ceil h

theorem truncToInt_int (k : ℤ) : truncToInt k = k := by
  unfold truncToInt; split_ifs <;> simp

/-- The total rounding error of one boundary. -/
theorem boundary_error_le {rnd : ℚ → ℚ} (h : IsDoubleRounding rnd) (s e n j : ℤ)
    (hs : 0 ≤ s) (hn : 0 < n) (hne : n ≤ e - s) (he : e ≤ 2 ^ 31) (hen : e * n ≤ 2 ^ 53)
    (hj : 0 ≤ j) (hjn : j ≤ n) :
    ∃ v : ℚ, IndexRange.boundaryWith rnd ⟨s, e, n⟩ j = truncToInt v ∧
      |v - exactPos s e n j| ≤ 12 * e / 2 ^ 53 := by
  refine ⟨_, rfl, ?_⟩
  simp only
  have hsQ : (0 : ℚ) ≤ s := by exact_mod_cast hs
  have hnQ : (1 : ℚ) ≤ n := by exact_mod_cast hn
  have hn0 : (0 : ℚ) < n := by linarith
  have heQ : (e : ℚ) ≤ 2 ^ 31 := by exact_mod_cast he
  have hneQ : (n : ℚ) ≤ e - s := by exact_mod_cast hne
  have hjQ : (0 : ℚ) ≤ j := by exact_mod_cast hj
  have hjnQ : (j : ℚ) ≤ n := by exact_mod_cast hjn
  have hnB : (n : ℚ) ≤ 2 ^ 31 := by linarith
  have hsB : (s : ℚ) ≤ 2 ^ 31 := by linarith
  have he0 : (0 : ℚ) ≤ e := by linarith
  have hsz : (s : ℚ) = 0 ∨ (1 : ℚ) ≤ s := by
    rcases (by omega : s = 0 ∨ 1 ≤ s) with h | h
    · left; exact_mod_cast h
    · right; exact_mod_cast h
  have hjz : (j : ℚ) = 0 ∨ (1 : ℚ) ≤ j := by
    rcases (by omega : j = 0 ∨ 1 ≤ j) with h | h
    · left; exact_mod_cast h
    · right; exact_mod_cast h
  have he1 : (1 : ℚ) ≤ e := by linarith
  have hjne : (j : ℚ) = n ∨ (j : ℚ) ≤ n - 1 := by
    rcases (by omega : j = n ∨ j ≤ n - 1) with h | h
    · left; exact_mod_cast h
    · right; exact_mod_cast h
  -- q = j / n
  obtain ⟨q, hq⟩ : ∃ q : ℚ, q = (j : ℚ) / n := ⟨_, rfl⟩
  have hq0 : 0 ≤ q := by rw [hq]; positivity
  have hq1 : q ≤ 1 := by rw [hq, div_le_one hn0]; exact hjnQ
  have hqz : q = 0 ∨ 1 / 2 ^ 31 ≤ q := by
    rcases hjz with hz | hz
    · left; rw [hq, hz]; simp
    · right; rw [hq, div_le_div_iff₀ (by norm_num) hn0]; nlinarith
  have hqn : q = 1 ∨ q ≤ 1 - 1 / 2 ^ 31 := by
    rcases hjne with hz | hz
    · left; rw [hq, hz]; exact div_self (by linarith)
    · right
      have h1 : q ≤ 1 - 1 / n := by
        rw [hq, div_le_iff₀ hn0, sub_mul, one_mul, div_mul_cancel₀ _ (by linarith)]; exact hz
      have h2 : (1 : ℚ) / 2 ^ 31 ≤ 1 / n := by
        apply one_div_le_one_div_of_le hn0 hnB
      linarith
  -- exact integer product
  have hej : rnd ((e : ℚ) * j) = e * j := by
    have := h.int (e * j) (by
      have h1 : 0 ≤ e * j := by
        have : 0 ≤ e := by omega
        positivity
      rw [abs_of_nonneg h1]
      have : e * j ≤ e * n := by
        apply mul_le_mul_of_nonneg_left hjn; omega
      omega)
    push_cast at this; exact this
  have hx : exactPos s e n j = s * (1 - q) + e * q := by
    rw [exactPos, hq]; field_simp; ring
  have hfe : (e : ℚ) * j / n = e * q := by rw [hq]; ring
  rw [hej, hfe, ← hq, hx]
  -- a = rnd q
  have ea : |rnd q - q| ≤ 1 / 2 ^ 53 * q :=
    h.rel' q hq0 (by rcases hqz with hz | hz
                     · left; exact hz
                     · right; exact le_trans (by norm_num) hz) (by linarith [show (1:ℚ) ≤ 2^100 by norm_num])
  have ha1 : rnd q = 1 ∨ rnd q ≤ 1 - 1 / 2 ^ 32 := by
    rcases hqn with hz | hz
    · left; rw [hz, h.one]
    · right
      have := (abs_le.1 ea).2
      have h2 : (1 : ℚ) / 2 ^ 53 * q ≤ 1 / 2 ^ 53 := by
        have : (0 : ℚ) ≤ 1 / 2 ^ 53 := by norm_num
        nlinarith
      norm_num at *
      linarith
  obtain ⟨a, haeq⟩ : ∃ a, a = rnd q := ⟨_, rfl⟩
  rw [← haeq] at ea ha1 ⊢
  have ea' := abs_le.1 ea
  have hb : |rnd (1 - a) - (1 - a)| ≤ 1 / 2 ^ 53 * (1 - a) := by
    apply h.rel'
    · rcases ha1 with hz | hz
      · rw [hz]; simp
      · norm_num at hz ⊢; linarith
    · rcases ha1 with hz | hz
      · left; rw [hz]; simp
      · right; norm_num at hz ⊢; linarith
    · norm_num at ea' ⊢; linarith
  have hbz : rnd (1 - a) = 0 ∨ 1 / 2 ^ 33 ≤ rnd (1 - a) := by
    rcases ha1 with hz | hz
    · left; rw [hz, sub_self, h.zero]
    · right
      have := (abs_le.1 hb).1
      norm_num at hz this ⊢
      linarith
  obtain ⟨b, hbeq⟩ : ∃ b, b = rnd (1 - a) := ⟨_, rfl⟩
  rw [← hbeq] at hb hbz ⊢
  have hb' := abs_le.1 hb
  have hb0 : 0 ≤ b := by
    rcases hbz with hz | hz
    · linarith
    · exact le_trans (by norm_num) hz
  have hb2 : b ≤ 2 := by norm_num at hb' ea' ⊢; linarith
  have hbe : |b - (1 - q)| ≤ 3 / 2 ^ 53 := by
    rw [abs_le]; norm_num at hb' ea' ⊢; constructor <;> linarith
  have hsb0 : 0 ≤ (s : ℚ) * b := mul_nonneg hsQ hb0
  have hsb2 : (s : ℚ) * b ≤ 2 ^ 32 := by
    have : (s : ℚ) * b ≤ 2 ^ 31 * 2 := mul_le_mul hsB hb2 hb0 (by norm_num)
    linarith
  have hc : |rnd (s * b) - s * b| ≤ 1 / 2 ^ 53 * (s * b) := by
    apply h.rel' _ hsb0
    · rcases hsz with hz | hz
      · left; rw [hz, zero_mul]
      · rcases hbz with hz' | hz'
        · left; rw [hz', mul_zero]
        · right
          have : 1 * (1 / 2 ^ 33) ≤ (s : ℚ) * b :=
            mul_le_mul hz hz' (by norm_num) hsQ
          exact le_trans (by norm_num) this
    · exact hsb2.trans (by norm_num)
  have heq0 : 0 ≤ (e : ℚ) * q := mul_nonneg he0 hq0
  have heq2 : (e : ℚ) * q ≤ 2 ^ 31 := by
    have : (e : ℚ) * q ≤ 2 ^ 31 * 1 := mul_le_mul heQ hq1 hq0 (by norm_num)
    linarith
  have heqz : (e : ℚ) * q = 0 ∨ 1 / 2 ^ 31 ≤ (e : ℚ) * q := by
    rcases hqz with hz | hz
    · left; rw [hz, mul_zero]
    · right
      have : 1 * (1 / 2 ^ 31) ≤ (e : ℚ) * q := mul_le_mul he1 hz (by norm_num) he0
      linarith
  have hf : |rnd (e * q) - e * q| ≤ 1 / 2 ^ 53 * (e * q) := by
    apply h.rel' _ heq0
    · rcases heqz with hz | hz
      · left; exact hz
      · right; exact le_trans (by norm_num) hz
    · exact heq2.trans (by norm_num)
  have hcz : rnd (s * b) = 0 ∨ 1 / 2 ^ 34 ≤ rnd (s * b) := by
    have hc' := (abs_le.1 hc).1
    rcases hsz with hz | hz
    · left; rw [hz, zero_mul, h.zero]
    · rcases hbz with hz' | hz'
      · left; rw [hz', mul_zero, h.zero]
      · right
        have : 1 * (1 / 2 ^ 33) ≤ (s : ℚ) * b := mul_le_mul hz hz' (by norm_num) hsQ
        norm_num at this hc' ⊢; linarith
  have hfz : rnd (e * q) = 0 ∨ 1 / 2 ^ 34 ≤ rnd (e * q) := by
    have hf' := (abs_le.1 hf).1
    rcases heqz with hz | hz
    · left; rw [hz, h.zero]
    · right; norm_num at hz hf' ⊢; linarith
  have hse : (s : ℚ) ≤ e := by linarith
  have hsbe : |s * b - s * (1 - q)| ≤ e * (3 / 2 ^ 53) := by
    rw [← mul_sub, abs_mul, abs_of_nonneg hsQ]
    exact mul_le_mul hse hbe (abs_nonneg _) he0
  have hsbE : (s : ℚ) * b ≤ e * 2 := mul_le_mul hse hb2 hb0 he0
  have heqE : (e : ℚ) * q ≤ e * 1 := mul_le_mul_of_nonneg_left hq1 he0
  obtain ⟨c, hceq⟩ : ∃ c, c = rnd (s * b) := ⟨_, rfl⟩
  obtain ⟨f, hfeq⟩ : ∃ f, f = rnd (e * q) := ⟨_, rfl⟩
  rw [← hceq] at hc hcz ⊢
  rw [← hfeq] at hf hfz ⊢
  have hc' := abs_le.1 hc
  have hf' := abs_le.1 hf
  have hsbe' := abs_le.1 hsbe
  have hc0 : 0 ≤ c := by
    rcases hcz with hz | hz
    · linarith
    · exact le_trans (by norm_num) hz
  have hf0 : 0 ≤ f := by
    rcases hfz with hz | hz
    · linarith
    · exact le_trans (by norm_num) hz
  have hcB : c ≤ 2 ^ 33 := by norm_num at hc' hsb2 ⊢; linarith
  have hfB : f ≤ 2 ^ 33 := by norm_num at hf' heq2 ⊢; linarith
  have hv : |rnd (c + f) - (c + f)| ≤ 1 / 2 ^ 53 * (c + f) := by
    apply h.rel' _ (by linarith)
    · rcases hcz with hz | hz
      · rcases hfz with hz' | hz'
        · left; linarith
        · right; norm_num at hz' ⊢; linarith
      · right; norm_num at hz ⊢; linarith
    · norm_num at hcB hfB ⊢; linarith
  have hv' := abs_le.1 hv
  rw [abs_le]
  norm_num at hv' hc' hf' hsbe' hsbE heqE ⊢
  constructor <;> linarith

/-- The total rounding error of one boundary is below 1/4. -/
theorem boundary_error {rnd : ℚ → ℚ} (h : IsDoubleRounding rnd) (s e n j : ℤ)
    (hs : 0 ≤ s) (hn : 0 < n) (hne : n ≤ e - s) (he : e ≤ 2 ^ 31) (hen : e * n ≤ 2 ^ 53)
    (hj : 0 ≤ j) (hjn : j ≤ n) :
    ∃ v : ℚ, IndexRange.boundaryWith rnd ⟨s, e, n⟩ j = truncToInt v ∧
      |v - exactPos s e n j| < 1 / 4 := by
  obtain ⟨v, h1, h2⟩ := boundary_error_le h s e n j hs hn hne he hen hj hjn
  refine ⟨v, h1, h2.trans_lt ?_⟩
  have heQ : (e : ℚ) ≤ 2 ^ 31 := by exact_mod_cast he
  norm_num at heQ ⊢
  linarith

/-- C05: under any rounding satisfying `IsDoubleRounding`, the computed boundaries start exactly at
the start and end exactly at the end, never decrease, and are within one of the exact ones. -/
theorem C05_rounding_safe {rnd : ℚ → ℚ} (h : IsDoubleRounding rnd) (s e n : ℤ)
    (hs : 0 ≤ s) (hn : 0 < n) (hne : n ≤ e - s) (he : e ≤ 2 ^ 31) (hen : e * n ≤ 2 ^ 53) :
    (IndexRange.mk s e n).beginWith rnd 0 = .ok s ∧
    (IndexRange.mk s e n).endWith rnd (n - 1) = .ok e ∧
    (∀ j, 0 ≤ j → j + 1 < n →
      (IndexRange.mk s e n).endWith rnd j = (IndexRange.mk s e n).beginWith rnd (j + 1)) ∧
    (∀ j, 0 ≤ j → j < n → ∃ b e', (IndexRange.mk s e n).beginWith rnd j = .ok b ∧
      (IndexRange.mk s e n).endWith rnd j = .ok e' ∧ b ≤ e' ∧
      |b - (s + (e - s) * j / n)| ≤ 1 ∧ |e' - (s + (e - s) * (j + 1) / n)| ≤ 1) := by
  have hnQ : (0 : ℚ) < n := by exact_mod_cast hn
  have hB0 : IndexRange.boundaryWith rnd ⟨s, e, n⟩ 0 = s := by
    have h1 : rnd (s : ℚ) = s := h.int s (by rw [abs_of_nonneg hs]; omega)
    simp only [IndexRange.boundaryWith]
    simp [h.zero, h.one, h1, truncToInt_int]
  have hBn : IndexRange.boundaryWith rnd ⟨s, e, n⟩ n = e := by
    have h1 : rnd (e : ℚ) = e := h.int e (by rw [abs_of_nonneg (by omega)]; omega)
    have h2 : rnd ((e : ℚ) * n) = e * n := by
      have := h.int (e * n) (by
        rw [abs_of_nonneg (mul_nonneg (by omega) hn.le)]; exact hen)
      push_cast at this; exact this
    simp only [IndexRange.boundaryWith]
    rw [div_self (ne_of_gt hnQ), h.one, sub_self, h.zero, mul_zero, h.zero, h2,
      mul_div_cancel_right₀ _ (ne_of_gt hnQ), h1, zero_add, h1, truncToInt_int]
  have herr := boundary_error h s e n
  have hmono : ∀ j, 0 ≤ j → j < n → IndexRange.boundaryWith rnd ⟨s, e, n⟩ j ≤
      IndexRange.boundaryWith rnd ⟨s, e, n⟩ (j + 1) := by
    intro j h0 h1
    obtain ⟨v, hv, ev⟩ := herr j hs hn hne he hen h0 h1.le
    obtain ⟨w, hw, ew⟩ := herr (j + 1) hs hn hne he hen (by omega) (by omega)
    rw [hv, hw]
    apply truncToInt_mono
    have hd : exactPos s e n (j + 1) - exactPos s e n j = (e - s) / n := by
      simp only [exactPos]; push_cast; field_simp; ring
    have hge : (1 : ℚ) ≤ (e - s) / n := by
      rw [le_div_iff₀ hnQ, one_mul]; exact_mod_cast hne
    have := abs_lt.1 ev
    have := abs_lt.1 ew
    linarith
  have hnear : ∀ j, 0 ≤ j → j ≤ n →
      |IndexRange.boundaryWith rnd ⟨s, e, n⟩ j - (s + (e - s) * j / n)| ≤ 1 := by
    intro j h0 h1
    obtain ⟨v, hv, ev⟩ := herr j hs hn hne he hen h0 h1
    rw [← boundary_exact ⟨s, e, n⟩ j hs (by simp; omega) hn h0]
    have hex : IndexRange.boundaryWith id ⟨s, e, n⟩ j = truncToInt (exactPos s e n j) := by
      simp only [IndexRange.boundaryWith, id, exactPos]
      congr 1
      field_simp; ring
    rw [hv, hex]
    have hev := abs_lt.1 ev
    have u : truncToInt v ≤ truncToInt (exactPos s e n j) + 1 := by
      have hx0 : 0 ≤ exactPos s e n j := by
        have : (0 : ℚ) ≤ s := by exact_mod_cast hs
        have : (0 : ℚ) ≤ (e : ℚ) - s := by
          have : (0 : ℤ) ≤ e - s := by omega
          exact_mod_cast this
        have : (0 : ℚ) ≤ j := by exact_mod_cast h0
        simp only [exactPos]; positivity
      have h2 : truncToInt v ≤ truncToInt (exactPos s e n j + 1) := truncToInt_mono (by linarith)
      have h3 : truncToInt (exactPos s e n j + 1) = truncToInt (exactPos s e n j) + 1 := by
        simp only [truncToInt]
        rw [if_pos (by linarith), if_pos hx0, Int.floor_add_one]
      omega
    have l : truncToInt (exactPos s e n j) ≤ truncToInt v + 1 := by
      have hx0 : 0 ≤ exactPos s e n j := by
        have : (0 : ℚ) ≤ s := by exact_mod_cast hs
        have : (0 : ℚ) ≤ (e : ℚ) - s := by
          have : (0 : ℤ) ≤ e - s := by omega
          exact_mod_cast this
        have : (0 : ℚ) ≤ j := by exact_mod_cast h0
        simp only [exactPos]; positivity
      by_cases hv0 : 0 ≤ v
      · have h2 : truncToInt (exactPos s e n j) ≤ truncToInt (v + 1) :=
          truncToInt_mono (by linarith)
        have h3 : truncToInt (v + 1) = truncToInt v + 1 := by
          simp only [truncToInt]
          rw [if_pos (by linarith), if_pos hv0, Int.floor_add_one]
        omega
      · have h2 : truncToInt (exactPos s e n j) ≤ truncToInt ((0 : ℤ) : ℚ) + 1 := by
          have : truncToInt (exactPos s e n j) ≤ truncToInt ((1 : ℤ) : ℚ) :=
            truncToInt_mono (by push_cast; push Not at hv0; linarith)
          rw [truncToInt_int] at this ⊢; omega
        have h4 : 0 ≤ truncToInt v := by
          simp only [truncToInt, if_neg hv0]
          have : (-1 : ℤ) < ⌈v⌉ := Int.lt_ceil.2 (by push_cast; linarith)
          omega
        rw [truncToInt_int] at h2; omega
    rw [abs_le]; omega
  refine ⟨?_, ?_, ?_, ?_⟩
  · rw [begin_ok le_rfl hn, hB0]
  · rw [end_ok (by omega) (by simp), sub_add_cancel, hBn]
  · intro j h0 h1
    rw [end_ok h0 (by simp; omega), begin_ok (by omega) h1]
  · intro j h0 h1
    exact ⟨_, _, begin_ok h0 h1, end_ok h0 h1, hmono j h0 h1, hnear j h0 h1.le,
      hnear (j + 1) (by omega) (by omega)⟩

/-- Non-vacuity: exact arithmetic is such a rounding, and so is the arithmetic which returns every
non-integer `2^-60` (relatively) too large; 20 points, padding 2, 6 blocks meet the bounds. -/
example : IsDoubleRounding id := ⟨fun _ _ => rfl, fun x _ _ => by simp⟩
example : IsDoubleRounding (fun x : ℚ => if x.den = 1 then x else x * (1 + 1 / 2 ^ 60)) := by
  refine ⟨fun k _ => by simp, fun x _ _ => ?_⟩
  split_ifs with h
  · simp
  · have : x * (1 + 1 / 2 ^ 60) - x = 1 / 2 ^ 60 * x := by ring
    rw [this, abs_mul]
    exact mul_le_mul_of_nonneg_right (by norm_num) (abs_nonneg x)
example : (0 : ℤ) ≤ 2 ∧ (0 : ℤ) < 6 ∧ (6 : ℤ) ≤ 18 - 2 ∧ (18 : ℤ) ≤ 2 ^ 31 ∧
    (18 : ℤ) * 6 ≤ 2 ^ 53 := by decide

end Verif.Extraction
