/-
C03 and C04 with the rounding of the code: where blocks are empty, and by how much they differ in length.
-/
import Verif.Props.C05
import Verif.Lemmas.Rounding

set_option autoImplicit false

namespace Verif.Extraction

/-- Rounding moves a boundary only if it is a whole number, and then down by one at most. -/
theorem boundary_rounded {rnd : ℚ → ℚ} (h : IsDoubleRounding rnd) (s e n j : ℤ)
    (hs : 0 ≤ s) (hn : 0 < n) (hne : n ≤ e - s) (he : e ≤ 2 ^ 31) (hen : e * n ≤ 2 ^ 49)
    (hj : 0 ≤ j) (hjn : j ≤ n) :
    IndexRange.boundaryWith rnd ⟨s, e, n⟩ j = s + (e - s) * j / n ∨
      n ∣ (e - s) * j ∧ IndexRange.boundaryWith rnd ⟨s, e, n⟩ j = s + (e - s) * j / n - 1 := by
  obtain ⟨v, hv, herr⟩ := boundary_error_le h s e n j hs hn hne he (hen.trans (by norm_num)) hj hjn
  rw [hv]
  have hnQ : (0 : ℚ) < n := by exact_mod_cast hn
  have hlt : 12 * (e : ℚ) / 2 ^ 53 < 1 / n := by
    rw [div_lt_div_iff₀ (by norm_num) hnQ]
    have h1 : (e : ℚ) * n ≤ 2 ^ 49 := by exact_mod_cast hen
    norm_num at h1 ⊢
    linarith
  have hlt' := abs_lt.1 (herr.trans_lt hlt)
  have hdm := Int.emod_add_mul_ediv ((e - s) * j) n
  have hr0 := Int.emod_nonneg ((e - s) * j) (by omega : n ≠ 0)
  have hr1 := Int.emod_lt_of_pos ((e - s) * j) hn
  generalize hq : (e - s) * j / n = q at *
  generalize hr : (e - s) * j % n = r at *
  have hq0 : 0 ≤ q := by
    rw [← hq]
    exact Int.ediv_nonneg (mul_nonneg (by omega) hj) hn.le
  have hx : exactPos s e n j = s + q + r / n := by
    unfold exactPos
    have : ((e : ℚ) - s) * j = r + n * q := by exact_mod_cast hdm.symm
    rw [this]
    field_simp
    ring
  have h1n : (1 : ℚ) / n ≤ 1 := by
    rw [div_le_one hnQ]
    exact_mod_cast hn
  have hsq : (0 : ℚ) ≤ s + q := by
    have : (0 : ℤ) ≤ s + q := by omega
    exact_mod_cast this
  rw [hx] at hlt'
  by_cases hrz : r = 0
  · subst hrz
    simp only [Int.cast_zero, zero_div, add_zero] at hlt'
    by_cases hvx : ((s + q : ℤ) : ℚ) ≤ v
    · left
      have : ⌊v⌋ = s + q := by
        rw [Int.floor_eq_iff]
        push_cast at hvx ⊢
        constructor <;> linarith
      unfold truncToInt
      rw [if_pos (le_trans (by push_cast; exact hsq) hvx), this]
    · push Not at hvx
      push_cast at hvx
      by_cases hv0 : 0 ≤ v
      · right
        refine ⟨Int.dvd_of_emod_eq_zero hr, ?_⟩
        have : ⌊v⌋ = s + q - 1 := by
          rw [Int.floor_eq_iff]
          push_cast
          constructor <;> linarith
        unfold truncToInt
        rw [if_pos hv0, this]
      · left
        push Not at hv0
        have hz : s + q = 0 := by
          have : ((s + q : ℤ) : ℚ) < 1 := by push_cast; linarith
          have : s + q < 1 := by exact_mod_cast this
          omega
        unfold truncToInt
        rw [if_neg (not_le.2 hv0), hz, Int.ceil_eq_iff]
        push_cast
        constructor
        · have : (s : ℚ) + q = 0 := by exact_mod_cast hz
          linarith
        · exact hv0.le
  · left
    have hr1' : (1 : ℚ) / n ≤ r / n := by
      refine div_le_div_of_nonneg_right ?_ hnQ.le
      have : 1 ≤ r := by omega
      exact_mod_cast this
    have hr2' : (r : ℚ) / n ≤ 1 - 1 / n := by
      rw [div_le_iff₀ hnQ, sub_mul, one_mul, div_mul_cancel₀ _ hnQ.ne']
      have : r ≤ n - 1 := by omega
      exact_mod_cast this
    have : ⌊v⌋ = s + q := by
      rw [Int.floor_eq_iff]
      push_cast
      constructor <;> linarith
    unfold truncToInt
    rw [if_pos (by linarith), this]

/-- The lengths of the blocks, with rounding. -/
theorem block_length_rounded {rnd : ℚ → ℚ} (h : IsDoubleRounding rnd) (s e n j : ℤ)
    (hs : 0 ≤ s) (hn : 0 < n) (hne : n ≤ e - s) (he : e ≤ 2 ^ 31) (hen : e * n ≤ 2 ^ 49)
    (hj : 0 ≤ j) (hjn : j < n) :
    let len := IndexRange.boundaryWith rnd ⟨s, e, n⟩ (j + 1) - IndexRange.boundaryWith rnd ⟨s, e, n⟩ j
    (¬ n ∣ e - s → (e - s) / n ≤ len ∧ len ≤ (e - s) / n + 1) ∧
    (n ∣ e - s → (e - s) / n - 1 ≤ len ∧ len ≤ (e - s) / n + 1) := by
  intro len
  have h0 := boundary_rounded h s e n j hs hn hne he hen hj hjn.le
  have h1 := boundary_rounded h s e n (j + 1) hs hn hne he hen (by omega) (by omega)
  have hL : (e - s) * (j + 1) = (e - s) * j + (e - s) := by ring
  rw [hL] at h1
  generalize (e - s) * j = a at *
  generalize e - s = L at *
  have hlo : a / n + L / n ≤ (a + L) / n := by
    rw [Int.le_ediv_iff_mul_le hn]
    have e1 := Int.ediv_mul_le a hn.ne'
    have e2 := Int.ediv_mul_le L hn.ne'
    linarith
  have hhi : (a + L) / n ≤ a / n + L / n + 1 := by
    have e1 := Int.lt_ediv_add_one_mul_self a hn
    have e2 := Int.lt_ediv_add_one_mul_self L hn
    have : (a + L) / n < a / n + L / n + 2 := by
      rw [Int.ediv_lt_iff_lt_mul hn]
      linarith
    omega
  -- a boundary that is a whole number
  have hleft : n ∣ a → (a + L) / n = a / n + L / n := fun hd => Int.add_ediv_of_dvd_left hd
  have hright : n ∣ a + L → ¬ n ∣ L → (a + L) / n = a / n + L / n + 1 := by
    rintro ⟨k, hk⟩ hnd
    rw [hk, Int.mul_ediv_cancel_left _ hn.ne']
    have e0 : a = n * k - L := by omega
    have e1 := Int.emod_add_mul_ediv L n
    have e2 := Int.emod_nonneg L hn.ne'
    have e3 := Int.emod_lt_of_pos L hn
    have e4 : L % n ≠ 0 := fun hz => hnd (Int.dvd_of_emod_eq_zero hz)
    have e5 : 0 < L % n := by omega
    have : a / n = k - L / n - 1 := by
      rw [Int.ediv_eq_iff_of_pos hn]
      constructor
      · rw [e0]
        have : n * (k - L / n - 1) = n * k - n * (L / n) - n := by ring
        nlinarith
      · rw [e0]
        have : n * (k - L / n - 1 + 1) = n * k - n * (L / n) := by ring
        nlinarith
    omega
  refine ⟨fun hnd => ?_, fun hd => ?_⟩
  · have hboth : ¬ (n ∣ a ∧ n ∣ a + L) := fun ⟨x, y⟩ => hnd ((Int.dvd_add_right x).1 y)
    rcases h0 with h0 | ⟨d0, h0⟩ <;> rcases h1 with h1 | ⟨d1, h1⟩
    · simp only [len]; omega
    · have := hright d1 hnd; simp only [len]; omega
    · have := hleft d0; simp only [len]; omega
    · exact absurd ⟨d0, d1⟩ hboth
  · have hall : (a + L) / n = a / n + L / n := Int.add_ediv_of_dvd_right hd
    rcases h0 with h0 | ⟨d0, h0⟩ <;> rcases h1 with h1 | ⟨d1, h1⟩ <;> simp only [len] <;> omega

/-- C03 with the rounding of the code: the blocks are a partition into non-empty blocks if there are more
points than blocks. Missing: if there are exactly as many points as blocks, blocks may be empty
(`C03_rounded_violated`). -/
theorem C03_rounded_partial {rnd : ℚ → ℚ} (h : IsDoubleRounding rnd) (size nBlocks padding : ℤ) (hp : 0 ≤ padding)
    (hn : 0 < nBlocks) (hlt : nBlocks < size - padding - padding) (he : size ≤ 2 ^ 31)
    (hen : size * nBlocks ≤ 2 ^ 49) :
    ∃ r, PaddedIndexRange.make size nBlocks padding = .ok r ∧ r.nBlocks = nBlocks ∧
      IsPartition padding (size - padding) nBlocks (r.beginWith rnd) (r.endWith rnd) := by
  have hen' : (size - padding) * nBlocks ≤ 2 ^ 49 := by nlinarith
  obtain ⟨h1, h2, h3, h4⟩ := C05_rounding_safe h padding (size - padding) nBlocks hp hn (by omega) (by omega)
    (hen'.trans (by norm_num))
  refine ⟨⟨padding, size - padding, nBlocks⟩, ?_, rfl, h1, h2, ?_, h3, ?_⟩
  · simp only [PaddedIndexRange.make, IndexRange.make]
    rw [if_neg (by omega)]
  · intro j hj0 hj1
    refine ⟨_, _, begin_ok hj0 hj1, end_ok hj0 hj1, ?_⟩
    obtain ⟨a, b⟩ := block_length_rounded h padding (size - padding) nBlocks j hp hn (by omega) (by omega) hen'
      hj0 hj1
    generalize hL : size - padding - padding = L at *
    by_cases hd : nBlocks ∣ L
    · obtain ⟨k, hk⟩ := hd
      have hk2 : 2 ≤ k := by
        by_contra hc
        have : k ≤ 1 := by omega
        nlinarith
      have hq : L / nBlocks = k := by rw [hk, Int.mul_ediv_cancel_left _ hn.ne']
      have := (b ⟨k, hk⟩).1
      omega
    · have := (a hd).1
      have hq : 1 ≤ L / nBlocks := by
        rw [Int.le_ediv_iff_mul_le hn]
        omega
      omega
  · intro i hi0 hi1
    have hB0 : IndexRange.boundaryWith rnd ⟨padding, size - padding, nBlocks⟩ 0 = padding := by
      rw [begin_ok le_rfl hn] at h1
      exact Except.ok.inj h1
    have hBn : IndexRange.boundaryWith rnd ⟨padding, size - padding, nBlocks⟩ nBlocks = size - padding := by
      rw [end_ok (by omega) (by simp), sub_add_cancel] at h2
      exact Except.ok.inj h2
    obtain ⟨j, ⟨hj, hb⟩, huniq⟩ := existsUnique_block
      (fun j => IndexRange.boundaryWith rnd ⟨padding, size - padding, nBlocks⟩ j) nBlocks i hn (fun j hj0 hj1 => by
        obtain ⟨b, e', hb, he', hle, -⟩ := h4 j hj0 hj1
        rw [begin_ok hj0 hj1] at hb
        rw [end_ok hj0 hj1] at he'
        have := Except.ok.inj hb
        have := Except.ok.inj he'
        omega) (by omega) (by omega)
    refine ⟨j, ⟨hj, _, _, begin_ok hj.1 hj.2, end_ok hj.1 hj.2, hb⟩, ?_⟩
    rintro k ⟨hk, b, e', hb', he', hle⟩
    rw [begin_ok hk.1 hk.2] at hb'
    rw [end_ok hk.1 hk.2] at he'
    have e1 := Except.ok.inj hb'
    have e2 := Except.ok.inj he'
    refine huniq k ⟨hk, ?_⟩
    omega

/-- C04 with the rounding of the code: two blocks differ in length by at most one if the number of points is
no multiple of the number of blocks, and by at most two if it is. Missing: one in the latter case, which
is false (`C04_rounded_violated`). -/
theorem C04_rounded_partial {rnd : ℚ → ℚ} (h : IsDoubleRounding rnd) (size nBlocks padding : ℤ) (hp : 0 ≤ padding)
    (hn : 0 < nBlocks) (he : size ≤ 2 ^ 31) (hen : size * nBlocks ≤ 2 ^ 49)
    (r : IndexRange) (hr : PaddedIndexRange.make size nBlocks padding = .ok r) (j k bj ej bk ek : ℤ)
    (hbj : r.beginWith rnd j = .ok bj) (hej : r.endWith rnd j = .ok ej)
    (hbk : r.beginWith rnd k = .ok bk) (hek : r.endWith rnd k = .ok ek) :
    (¬ nBlocks ∣ size - padding - padding → ej - bj ≤ ek - bk + 1) ∧ ej - bj ≤ ek - bk + 2 := by
  simp only [PaddedIndexRange.make, IndexRange.make] at hr
  split_ifs at hr with hlt
  injection hr with hr
  have inb : ∀ i b, r.beginWith rnd i = .ok b → 0 ≤ i ∧ i < r.nBlocks := by
    intro i b hb
    by_contra hc
    rw [((C03_block_number_checked rnd r i .outOfRange).1).2 ⟨rfl, hc⟩] at hb
    cases hb
  obtain ⟨hj0, hj1⟩ := inb j bj hbj
  obtain ⟨hk0, hk1⟩ := inb k bk hbk
  rw [begin_ok hj0 hj1] at hbj
  rw [end_ok hj0 hj1] at hej
  rw [begin_ok hk0 hk1] at hbk
  rw [end_ok hk0 hk1] at hek
  have e1 := Except.ok.inj hbj
  have e2 := Except.ok.inj hej
  have e3 := Except.ok.inj hbk
  have e4 := Except.ok.inj hek
  subst hr
  simp only at hj1 hk1
  have hen' : (size - padding) * nBlocks ≤ 2 ^ 49 := by nlinarith
  obtain ⟨a1, a2⟩ := block_length_rounded h padding (size - padding) nBlocks j hp hn (by omega) (by omega) hen'
    hj0 hj1
  obtain ⟨b1, b2⟩ := block_length_rounded h padding (size - padding) nBlocks k hp hn (by omega) (by omega) hen'
    hk0 hk1
  rw [e1, e2] at a1 a2
  rw [e3, e4] at b1 b2
  by_cases hd : nBlocks ∣ size - padding - padding
  · have := a2 hd
    have := b2 hd
    exact ⟨fun hnd => absurd hd hnd, by omega⟩
  · have := a1 hd
    have := b1 hd
    exact ⟨fun _ => by omega, by omega⟩

/-- Specification: the arithmetic of `double`, rounding to nearest, ties in any way. -/
def IsDouble (rnd : ℚ → ℚ) : Prop := ∃ f, RoundsToNearest 53 f ∧ ∀ q : ℚ, f q = rnd q

theorem IsDouble.isDoubleRounding {rnd : ℚ → ℚ} (h : IsDouble rnd) : IsDoubleRounding rnd := by
  obtain ⟨f, hf, hq⟩ := h
  refine ⟨fun k hk => ?_, fun x _ _ => ?_⟩
  · have : f ((k : ℚ) : ℝ) = (k : ℚ) := by
      refine hf.exact ⟨k, 0, hk, by simp⟩
    rw [hq] at this
    exact_mod_cast this
  · have := hf.error x
    rw [hq] at this
    have e : |((rnd x : ℚ) : ℝ) - x| = ((|rnd x - x| : ℚ) : ℝ) := by push_cast; rfl
    rw [e, show (1 / 2 ^ 53 * |(x : ℝ)|) = ((1 / 2 ^ 53 * |x| : ℚ) : ℝ) by push_cast; rfl] at this
    exact_mod_cast this

theorem IsDouble.eq_of {rnd : ℚ → ℚ} (h : IsDouble rnd) {x : ℚ} (m e : ℤ) (h1 : 2 ^ 53 < 2 * m) (h2 : m ≤ 2 ^ 53)
    (hx : |x - m * 2 ^ e| < 2 ^ e / 2) : rnd x = m * 2 ^ e := by
  obtain ⟨f, hf, hq⟩ := h
  have := hf.eq_of (by norm_num) (x := x) m e h1 h2 (by
    have e' : |(x : ℝ) - m * 2 ^ e| = ((|x - m * 2 ^ e| : ℚ) : ℝ) := by push_cast; rfl
    rw [e', show ((2 : ℝ) ^ e / 2) = (((2 : ℚ) ^ e / 2 : ℚ) : ℝ) by push_cast; rfl]
    exact_mod_cast hx)
  rw [hq] at this
  have e' : ((rnd x : ℚ) : ℝ) = ((m * 2 ^ e : ℚ) : ℝ) := by push_cast; exact this
  exact Rat.cast_injective e'

theorem boundary_double_3 {rnd : ℚ → ℚ} (h : IsDouble rnd) : IndexRange.boundaryWith rnd ⟨9, 14, 5⟩ 3 = 12 := by
  have a : rnd (3 / 5) = (5404319552844595 * 2 ^ (-53 : ℤ) : ℚ) := by
    simpa using h.eq_of (x := 3 / 5) 5404319552844595 (-53) (by norm_num) (by norm_num) (by norm_num [abs_lt])
  have b : rnd (1 - (5404319552844595 * 2 ^ (-53 : ℤ) : ℚ)) = (7205759403792794 * 2 ^ (-54 : ℤ) : ℚ) := by
    simpa using h.eq_of (x := 1 - (5404319552844595 * 2 ^ (-53 : ℤ) : ℚ)) 7205759403792794 (-54) (by norm_num) (by norm_num) (by norm_num [abs_lt])
  have c : rnd (9 * (7205759403792794 * 2 ^ (-54 : ℤ) : ℚ)) = (8106479329266893 * 2 ^ (-51 : ℤ) : ℚ) := by
    simpa using h.eq_of (x := 9 * (7205759403792794 * 2 ^ (-54 : ℤ) : ℚ)) 8106479329266893 (-51) (by norm_num) (by norm_num) (by norm_num [abs_lt])
  have g : rnd (14 * 3) = 42 := by
    have := h.isDoubleRounding.int 42 (by norm_num)
    norm_num at this ⊢
    exact this
  have f : rnd (42 / 5) = (4728779608739021 * 2 ^ (-49 : ℤ) : ℚ) := by
    simpa using h.eq_of (x := 42 / 5) 4728779608739021 (-49) (by norm_num) (by norm_num) (by norm_num [abs_lt])
  have v : rnd ((8106479329266893 * 2 ^ (-51 : ℤ) : ℚ) + (4728779608739021 * 2 ^ (-49 : ℤ) : ℚ)) = (6755399441055744 * 2 ^ (-49 : ℤ) : ℚ) := by
    simpa using h.eq_of (x := (8106479329266893 * 2 ^ (-51 : ℤ) : ℚ) + (4728779608739021 * 2 ^ (-49 : ℤ) : ℚ)) 6755399441055744 (-49) (by norm_num) (by norm_num) (by norm_num [abs_lt])
  simp only [IndexRange.boundaryWith]
  push_cast
  rw [a, b, c, g, f, v]
  unfold truncToInt
  rw [if_pos (by positivity), Int.floor_eq_iff]
  norm_num

theorem boundary_double_4 {rnd : ℚ → ℚ} (h : IsDouble rnd) : IndexRange.boundaryWith rnd ⟨9, 14, 5⟩ 4 = 12 := by
  have a : rnd (4 / 5) = (7205759403792794 * 2 ^ (-53 : ℤ) : ℚ) := by
    simpa using h.eq_of (x := 4 / 5) 7205759403792794 (-53) (by norm_num) (by norm_num) (by norm_num [abs_lt])
  have b : rnd (1 - (7205759403792794 * 2 ^ (-53 : ℤ) : ℚ)) = (7205759403792792 * 2 ^ (-55 : ℤ) : ℚ) := by
    simpa using h.eq_of (x := 1 - (7205759403792794 * 2 ^ (-53 : ℤ) : ℚ)) 7205759403792792 (-55) (by norm_num) (by norm_num) (by norm_num [abs_lt])
  have c : rnd (9 * (7205759403792792 * 2 ^ (-55 : ℤ) : ℚ)) = (8106479329266891 * 2 ^ (-52 : ℤ) : ℚ) := by
    simpa using h.eq_of (x := 9 * (7205759403792792 * 2 ^ (-55 : ℤ) : ℚ)) 8106479329266891 (-52) (by norm_num) (by norm_num) (by norm_num [abs_lt])
  have g : rnd (14 * 4) = 56 := by
    have := h.isDoubleRounding.int 56 (by norm_num)
    norm_num at this ⊢
    exact this
  have f : rnd (56 / 5) = (6305039478318694 * 2 ^ (-49 : ℤ) : ℚ) := by
    simpa using h.eq_of (x := 56 / 5) 6305039478318694 (-49) (by norm_num) (by norm_num) (by norm_num [abs_lt])
  have v : rnd ((8106479329266891 * 2 ^ (-52 : ℤ) : ℚ) + (6305039478318694 * 2 ^ (-49 : ℤ) : ℚ)) = (7318349394477055 * 2 ^ (-49 : ℤ) : ℚ) := by
    simpa using h.eq_of (x := (8106479329266891 * 2 ^ (-52 : ℤ) : ℚ) + (6305039478318694 * 2 ^ (-49 : ℤ) : ℚ)) 7318349394477055 (-49) (by norm_num) (by norm_num) (by norm_num [abs_lt])
  simp only [IndexRange.boundaryWith]
  push_cast
  rw [a, b, c, g, f, v]
  unfold truncToInt
  rw [if_pos (by positivity), Int.floor_eq_iff]
  norm_num

/-- C03 is false with the rounding of the code where there are as many points as blocks: of a ring of 23
points with padding 9, the fourth of five blocks has no points. -/
theorem C03_rounded_violated {rnd : ℚ → ℚ} (h : IsDouble rnd) :
    ∃ r, PaddedIndexRange.make 23 5 9 = .ok r ∧ r.beginWith rnd 3 = .ok 12 ∧ r.endWith rnd 3 = .ok 12 ∧
      ¬ IsPartition 9 14 5 (r.beginWith rnd) (r.endWith rnd) := by
  have hb : (IndexRange.mk 9 14 5).beginWith rnd 3 = .ok 12 := by
    rw [begin_ok (by norm_num) (by norm_num), boundary_double_3 h]
  have he : (IndexRange.mk 9 14 5).endWith rnd 3 = .ok 12 := by
    rw [end_ok (by norm_num) (by norm_num)]
    norm_num
    exact boundary_double_4 h
  refine ⟨⟨9, 14, 5⟩, rfl, hb, he, fun hp => ?_⟩
  obtain ⟨b, e, h1, h2, h3⟩ := hp.nonempty 3 (by norm_num) (by norm_num)
  rw [hb] at h1
  rw [he] at h2
  have := Except.ok.inj h1
  have := Except.ok.inj h2
  omega

/-- C04 is false with the rounding of the code where the number of points is a multiple of the number of
blocks: in the same ring the fifth block has two points more than the fourth. -/
theorem C04_rounded_violated {rnd : ℚ → ℚ} (h : IsDouble rnd) :
    ∃ r, PaddedIndexRange.make 23 5 9 = .ok r ∧ r.beginWith rnd 3 = .ok 12 ∧ r.endWith rnd 3 = .ok 12 ∧
      r.beginWith rnd 4 = .ok 12 ∧ r.endWith rnd 4 = .ok 14 := by
  obtain ⟨r, hr, h1, h2, -⟩ := C03_rounded_violated h
  cases hr
  refine ⟨⟨9, 14, 5⟩, rfl, h1, h2, ?_, ?_⟩
  · rw [begin_ok (by norm_num) (by norm_num), boundary_double_4 h]
  · have := (C05_rounding_safe h.isDoubleRounding 9 14 5 (by norm_num) (by norm_num) (by norm_num) (by norm_num)
      (by norm_num)).2.1
    exact this

/-- The arithmetic exists. -/
theorem exists_isDouble : ∃ rnd, IsDouble rnd := by
  obtain ⟨f, hf⟩ := exists_rounding 53 (by norm_num)
  have : ∀ q : ℚ, ∃ y : ℚ, f q = y := by
    intro q
    obtain ⟨m, e, -, hx⟩ := (hf q).1
    exact ⟨m * 2 ^ e, by rw [hx]; push_cast; rfl⟩
  choose rnd hr using this
  exact ⟨rnd, f, hf, hr⟩

example : ∃ rnd, IsDouble rnd := exists_isDouble

/-- A ring of 1800 points with padding 2 and 6 blocks meets the conditions of the other theorems. -/
example : (0 : ℤ) ≤ 2 ∧ (0 : ℤ) < 6 ∧ (6 : ℤ) < 1800 - 2 - 2 ∧ (1800 : ℤ) ≤ 2 ^ 31 ∧
    (1800 : ℤ) * 6 ≤ 2 ^ 49 := by norm_num

end Verif.Extraction
