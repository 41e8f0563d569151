/-
C03, C04: the blocks of a ring form a balanced partition of the padded ring.
-/
import Verif.Model.IndexRange
import Mathlib.Tactic.Linarith
import Mathlib.Tactic.FieldSimp
import Mathlib.Tactic.Ring
import Mathlib.Tactic.Positivity

set_option autoImplicit false

namespace Verif.Extraction

/-- In exact arithmetic, for a non-negative start, the boundary is the integer interpolation. -/
theorem boundary_exact (r : IndexRange) (j : ℤ) (hs : 0 ≤ r.start) (hse : r.start ≤ r.stop)
    (hn : 0 < r.nBlocks) (hj : 0 ≤ j) :
    r.boundaryWith id j = r.start + ((r.stop - r.start) * j) / r.nBlocks := by
  have hn' : (0 : ℚ) < r.nBlocks := by exact_mod_cast hn
  have hs' : (0 : ℚ) ≤ r.start := by exact_mod_cast hs
  have hj' : (0 : ℚ) ≤ j := by exact_mod_cast hj
  have hse' : (0 : ℚ) ≤ (r.stop : ℚ) - r.start := by
    have : (r.start : ℚ) ≤ r.stop := by exact_mod_cast hse
    linarith
  have hx : (r.start : ℚ) * (1 - j / r.nBlocks) + r.stop * j / r.nBlocks =
      (r.start : ℚ) + (((r.stop - r.start) * j : ℤ) : ℚ) / (r.nBlocks : ℚ) := by
    push_cast; field_simp; ring
  have hpos : (0 : ℚ) ≤ (r.start : ℚ) + (((r.stop - r.start) * j : ℤ) : ℚ) / (r.nBlocks : ℚ) := by
    push_cast; positivity
  simp only [IndexRange.boundaryWith, id, hx, truncToInt, hpos, if_true]
  rw [Int.floor_intCast_add]
  congr 1
  rw [Int.floor_eq_iff]
  have h1 := Int.emod_add_mul_ediv ((r.stop - r.start) * j) r.nBlocks
  have h2 := Int.emod_nonneg ((r.stop - r.start) * j) (by omega : r.nBlocks ≠ 0)
  have h3 := Int.emod_lt_of_pos ((r.stop - r.start) * j) hn
  constructor
  · rw [le_div_iff₀ hn']
    have : (r.stop - r.start) * j / r.nBlocks * r.nBlocks ≤ (r.stop - r.start) * j := by linarith
    exact_mod_cast this
  · rw [div_lt_iff₀ hn']
    have : (r.stop - r.start) * j < ((r.stop - r.start) * j / r.nBlocks + 1) * r.nBlocks := by
      linarith
    exact_mod_cast this

theorem check_ok {r : IndexRange} {j : ℤ} (h0 : 0 ≤ j) (h1 : j < r.nBlocks) :
    r.check j = .ok () := by
  simp only [IndexRange.check]
  rw [if_neg (by omega), if_neg (by omega)]

theorem begin_ok {rnd : ℚ → ℚ} {r : IndexRange} {j : ℤ} (h0 : 0 ≤ j) (h1 : j < r.nBlocks) :
    r.beginWith rnd j = .ok (r.boundaryWith rnd j) := by
  simp only [IndexRange.beginWith, check_ok h0 h1]; rfl

theorem end_ok {rnd : ℚ → ℚ} {r : IndexRange} {j : ℤ} (h0 : 0 ≤ j) (h1 : j < r.nBlocks) :
    r.endWith rnd j = .ok (r.boundaryWith rnd (j + 1)) := by
  simp only [IndexRange.endWith, check_ok h0 h1]; rfl

/-- Specification: `Begin`/`End` (two families of integers indexed by the block number) cut the
interval `[lo, hi)` into `n` consecutive blocks. -/
structure IsPartition (lo hi n : ℤ) (Begin End : ℤ → Res ℤ) : Prop where
  first : Begin 0 = .ok lo
  last : End (n - 1) = .ok hi
  nonempty : ∀ j, 0 ≤ j → j < n → ∃ b e, Begin j = .ok b ∧ End j = .ok e ∧ b < e
  contiguous : ∀ j, 0 ≤ j → j + 1 < n → End j = Begin (j + 1)
  exactlyOne : ∀ i, lo ≤ i → i < hi →
    ∃! j, (0 ≤ j ∧ j < n) ∧ ∃ b e, Begin j = .ok b ∧ End j = .ok e ∧ b ≤ i ∧ i < e

/-- A non-decreasing boundary function hits every value in exactly one block. -/
theorem existsUnique_block (f : ℤ → ℤ) (n i : ℤ) (hn : 0 < n)
    (hmono : ∀ j, 0 ≤ j → j < n → f j ≤ f (j + 1)) (h0 : f 0 ≤ i) (h1 : i < f n) :
    ∃! j, (0 ≤ j ∧ j < n) ∧ f j ≤ i ∧ i < f (j + 1) := by
  have mono : ∀ (a : ℤ) (k : ℕ), 0 ≤ a → a + k ≤ n → f a ≤ f (a + k) := by
    intro a k ha
    induction k with
    | zero => intro _; simp
    | succ k ih =>
      intro hk
      have := ih (by push_cast at hk; omega)
      have h2 := hmono (a + k) (by omega) (by push_cast at hk; omega)
      push_cast
      rw [← add_assoc]
      exact this.trans h2
  have mono' : ∀ a b : ℤ, 0 ≤ a → a ≤ b → b ≤ n → f a ≤ f b := by
    intro a b ha hab hb
    have := mono a (b - a).toNat ha (by omega)
    have e : a + ((b - a).toNat : ℤ) = b := by omega
    rwa [e] at this
  -- existence
  have hex : ∃ k : ℕ, i < f (k + 1) := ⟨(n - 1).toNat, by
    have : ((n - 1).toNat : ℤ) + 1 = n := by omega
    rw [this]; exact h1⟩
  classical
  let k := Nat.find hex
  have hk : i < f ((k : ℤ) + 1) := Nat.find_spec hex
  have hkn : (k : ℤ) < n := by
    have : k ≤ (n - 1).toNat := Nat.find_min' hex (by
      have : ((n - 1).toNat : ℤ) + 1 = n := by omega
      rw [this]; exact h1)
    omega
  have hkl : f (k : ℤ) ≤ i := by
    rcases Nat.eq_zero_or_pos k with h | h
    · rw [h]; exact h0
    · have := Nat.find_min hex (m := k - 1) (by omega)
      have e : ((k - 1 : ℕ) : ℤ) + 1 = k := by omega
      rw [e] at this
      omega
  refine ⟨k, ⟨⟨by omega, hkn⟩, hkl, hk⟩, ?_⟩
  rintro j ⟨⟨hj0, hjn⟩, hjl, hju⟩
  rcases lt_trichotomy j k with h | h | h
  · have := mono' (j + 1) k (by omega) (by omega) (by omega); omega
  · exact h
  · have := mono' (k + 1) j (by omega) (by omega) (by omega); omega

/-- C03: for every ring size, padding `≥ 0` and block count `> 0` such that there are at least as
many padded indices as blocks, the blocks partition `[padding, size - padding)`, in exact arithmetic. For
the rounding of the code see `C03_rounded_partial` and `C03_rounded_violated`. -/
theorem C03_blocks_partition (size nBlocks padding : ℤ) (hp : 0 ≤ padding) (hn : 0 < nBlocks)
    (h : nBlocks ≤ size - padding - padding) :
    ∃ r, PaddedIndexRange.make size nBlocks padding = .ok r ∧ r.nBlocks = nBlocks ∧
      IsPartition padding (size - padding) nBlocks r.begin' r.end' := by
  set r : IndexRange := ⟨padding, size - padding, nBlocks⟩ with hr
  have hb : ∀ j, 0 ≤ j → r.boundaryWith id j =
      padding + ((size - padding - padding) * j) / nBlocks := fun j hj =>
    boundary_exact r j hp (by simp [hr]; omega) hn hj
  have hb0 : r.boundaryWith id 0 = padding := by rw [hb 0 le_rfl]; simp
  have hbn : r.boundaryWith id nBlocks = size - padding := by
    rw [hb _ hn.le, Int.mul_ediv_cancel _ (by omega)]; ring
  have hstep : ∀ j, 0 ≤ j → r.boundaryWith id j + 1 ≤ r.boundaryWith id (j + 1) := by
    intro j hj
    rw [hb j hj, hb (j + 1) (by omega)]
    have : (size - padding - padding) * (j + 1) =
        (size - padding - padding) * j + (size - padding - padding) := by ring
    rw [this]
    have h1 : (size - padding - padding) * j / nBlocks + 1 =
        ((size - padding - padding) * j + 1 * nBlocks) / nBlocks := by
      rw [Int.add_mul_ediv_right _ _ (by omega)]
    have h2 : ((size - padding - padding) * j + 1 * nBlocks) / nBlocks ≤
        ((size - padding - padding) * j + (size - padding - padding)) / nBlocks :=
      Int.ediv_le_ediv hn (by omega)
    omega
  refine ⟨r, ?_, rfl, ?_⟩
  · simp only [PaddedIndexRange.make, IndexRange.make]
    rw [if_neg (by omega)]
  · constructor
    · rw [IndexRange.begin', begin_ok le_rfl hn, hb0]
    · rw [IndexRange.end', end_ok (by omega) (by simp [hr]), sub_add_cancel, hbn]
    · intro j h0 h1
      exact ⟨_, _, begin_ok h0 h1, end_ok h0 h1, hstep j h0⟩
    · intro j h0 h1
      rw [IndexRange.end', IndexRange.begin', end_ok h0 (by simp [hr]; omega),
        begin_ok (by omega) h1]
    · intro i hi0 hi1
      obtain ⟨j, ⟨⟨hj0, hj1⟩, hl, hu⟩, huniq⟩ := existsUnique_block (r.boundaryWith id) nBlocks i hn
        (fun j hj _ => by have := hstep j hj; omega) (by omega) (by omega)
      refine ⟨j, ⟨⟨hj0, hj1⟩, _, _, begin_ok hj0 hj1, end_ok hj0 hj1, hl, hu⟩, ?_⟩
      rintro k ⟨⟨hk0, hk1⟩, b, e, hB, hE, hkl, hku⟩
      rw [IndexRange.begin', begin_ok hk0 hk1] at hB
      rw [IndexRange.end', end_ok hk0 hk1] at hE
      injection hB with hB; injection hE with hE
      exact huniq k ⟨⟨hk0, hk1⟩, by omega, by omega⟩

/-- C03, rejection: construction fails exactly when there are fewer indices than blocks, and then
with `invalid_argument`. -/
theorem C03_construction_rejects (size nBlocks padding : ℤ) (e : Err) :
    PaddedIndexRange.make size nBlocks padding = .error e ↔
      e = .invalidArgument ∧ size - padding - padding < nBlocks := by
  simp only [PaddedIndexRange.make, IndexRange.make]
  split_ifs with h <;> simp [h, eq_comm]

/-- C03, block numbers: asking for a block outside `[0, n)` throws `out_of_range`; inside it never
fails, whatever the arithmetic. -/
theorem C03_block_number_checked (rnd : ℚ → ℚ) (r : IndexRange) (j : ℤ) (e : Err) :
    (r.beginWith rnd j = .error e ↔ e = .outOfRange ∧ ¬ (0 ≤ j ∧ j < r.nBlocks)) ∧
    (r.endWith rnd j = .error e ↔ e = .outOfRange ∧ ¬ (0 ≤ j ∧ j < r.nBlocks)) := by
  by_cases h : 0 ≤ j ∧ j < r.nBlocks
  · rw [begin_ok h.1 h.2, end_ok h.1 h.2]; simp [h]
  · have hc : r.check j = .error .outOfRange := by
      simp only [IndexRange.check]; split_ifs <;> first | rfl | omega
    simp only [IndexRange.beginWith, IndexRange.endWith, hc]
    constructor <;> simp [bind, Except.bind, eq_comm, h]

/-- C04: any two blocks differ in length by at most one, in exact arithmetic. For the rounding of the code
see `C04_rounded_partial` and `C04_rounded_violated`. -/
theorem C04_blocks_balanced (size nBlocks padding : ℤ) (hp : 0 ≤ padding)
    (r : IndexRange) (hr : PaddedIndexRange.make size nBlocks padding = .ok r)
    (j k bj ej bk ek : ℤ)
    (hbj : r.begin' j = .ok bj) (hej : r.end' j = .ok ej)
    (hbk : r.begin' k = .ok bk) (hek : r.end' k = .ok ek) :
    ej - bj ≤ ek - bk + 1 := by
  simp only [PaddedIndexRange.make, IndexRange.make] at hr
  split_ifs at hr with hlt
  injection hr with hr
  have inb : ∀ i b, r.begin' i = .ok b → 0 ≤ i ∧ i < r.nBlocks := by
    intro i b hb
    by_contra hc
    rw [IndexRange.begin', ((C03_block_number_checked id r i .outOfRange).1).2 ⟨rfl, hc⟩] at hb
    cases hb
  obtain ⟨hj0, hj1⟩ := inb j bj hbj
  obtain ⟨hk0, hk1⟩ := inb k bk hbk
  rw [IndexRange.begin', begin_ok hj0 hj1] at hbj
  rw [IndexRange.end', end_ok hj0 hj1] at hej
  rw [IndexRange.begin', begin_ok hk0 hk1] at hbk
  rw [IndexRange.end', end_ok hk0 hk1] at hek
  injection hbj with hbj; injection hej with hej
  injection hbk with hbk; injection hek with hek
  subst hr
  simp only at hj1 hk1
  have hn : 0 < nBlocks := by omega
  have hb : ∀ i, 0 ≤ i → IndexRange.boundaryWith id ⟨padding, size - padding, nBlocks⟩ i =
      padding + ((size - padding - padding) * i) / nBlocks := fun i hi =>
    boundary_exact _ i hp (by simp; omega) hn hi
  rw [hb _ hj0] at hbj
  rw [hb _ (by omega)] at hej
  rw [hb _ hk0] at hbk
  rw [hb _ (by omega)] at hek
  generalize size - padding - padding = L at *
  have key : ∀ i, L * i / nBlocks + L / nBlocks ≤ L * (i + 1) / nBlocks ∧
      L * (i + 1) / nBlocks ≤ L * i / nBlocks + L / nBlocks + 1 := by
    intro i
    have e1 := Int.emod_add_mul_ediv (L * i) nBlocks
    have e2 := Int.emod_add_mul_ediv L nBlocks
    have e3 := Int.emod_add_mul_ediv (L * (i + 1)) nBlocks
    have p1 := Int.emod_nonneg (L * i) (by omega : nBlocks ≠ 0)
    have p2 := Int.emod_nonneg L (by omega : nBlocks ≠ 0)
    have p3 := Int.emod_nonneg (L * (i + 1)) (by omega : nBlocks ≠ 0)
    have q1 := Int.emod_lt_of_pos (L * i) hn
    have q2 := Int.emod_lt_of_pos L hn
    have q3 := Int.emod_lt_of_pos (L * (i + 1)) hn
    have e4 : L * (i + 1) = L * i + L := by ring
    constructor
    · by_contra hc
      have : L * (i + 1) / nBlocks + 1 ≤ L * i / nBlocks + L / nBlocks := by omega
      have := mul_le_mul_of_nonneg_left this hn.le
      have : nBlocks * (L * (i + 1) / nBlocks) + nBlocks ≤
        nBlocks * (L * i / nBlocks) + nBlocks * (L / nBlocks) := by linarith
      linarith
    · by_contra hc
      have : L * i / nBlocks + L / nBlocks + 2 ≤ L * (i + 1) / nBlocks := by omega
      have := mul_le_mul_of_nonneg_left this hn.le
      have : nBlocks * (L * i / nBlocks) + nBlocks * (L / nBlocks) + 2 * nBlocks ≤
        nBlocks * (L * (i + 1) / nBlocks) := by linarith
      linarith
  have k1 := key j
  have k2 := key k
  omega

/-- Non-vacuity: 20 points, padding 2, 6 blocks. -/
example : (PaddedIndexRange.make 20 6 2 >>= fun r =>
    [0, 1, 2, 3, 4, 5].mapM fun j => do pure ((← r.begin' j), (← r.end' j))) =
    .ok [(2, 4), (4, 7), (7, 10), (10, 12), (12, 15), (15, 18)] := by decide +kernel
example : (0 : ℤ) ≤ 2 ∧ (0 : ℤ) < 6 ∧ (6 : ℤ) ≤ 20 - 2 - 2 := by decide
example : PaddedIndexRange.make 9 6 2 = .error .invalidArgument := by decide +kernel

end Verif.Extraction
