/-
Slices of a neighbour test.
-/
import Verif.Lemmas.Assign

set_option autoImplicit false

namespace Verif.Extraction

variable {P : Type}

theorem atI_error_of_ge {α : Type} {l : List α} {i : ℤ} (h : i < 0 ∨ (l.length : ℤ) ≤ i) :
    atI l i = .error .outOfRange := by
  simp only [atI]
  by_cases h0 : i < 0
  · rw [if_pos h0]
  · rw [if_neg h0]
    have : l[i.toNat]? = none := List.getElem?_eq_none (by omega)
    rw [this]

theorem call_error_of_out {n : NeighborCheckXY P} {i j : ℤ}
    (h : (i < 0 ∨ n.size ≤ i) ∨ (j < 0 ∨ n.size ≤ j)) : n.call i j = .error .outOfRange := by
  simp only [NeighborCheckXY.call, NeighborCheckXY.checkIndex]
  by_cases h1 : i < 0
  · simp [h1, bind, Except.bind]
  · by_cases h2 : i ≥ n.size
    · simp [h1, h2, bind, Except.bind]
    · by_cases h3 : j < 0
      · simp [h1, h2, h3, bind, Except.bind]
      · have h4 : j ≥ n.size := by omega
        simp [h1, h2, h3, h4, bind, Except.bind]

/-- Inside the bounds the test is the pairwise test of the two mapped points. -/
theorem call_eq {n : NeighborCheckXY P} {i j : ℕ} (hi : i < n.ref.indices.length)
    (hj : j < n.ref.indices.length) :
    n.call i j = (do
      let p1 ← n.ref.at i
      let p2 ← n.ref.at j
      n.isNb p1 p2) := by
  have h1 : ¬ ((i : ℤ) < 0) := by omega
  have h2 : ¬ ((i : ℤ) ≥ n.size) := by simp only [NeighborCheckXY.size, MappedPoints.size]; omega
  have h3 : ¬ ((j : ℤ) < 0) := by omega
  have h4 : ¬ ((j : ℤ) ≥ n.size) := by simp only [NeighborCheckXY.size, MappedPoints.size]; omega
  simp [NeighborCheckXY.call, NeighborCheckXY.checkIndex, h1, h2, h3, h4, bind, Except.bind]

theorem slice_eq {n : NeighborCheckXY P} {b e : ℕ} (hbe : b ≤ e)
    (he : e ≤ n.ref.indices.length) :
    n.slice b e = if e < b + 2 then .error .invalidArgument else
      .ok ⟨⟨n.ref.cloud, slice n.ref.indices b e⟩, n.isNb⟩ := by
  have hc : (0 : ℤ) ≤ b ∧ (b : ℤ) ≤ e ∧ (e : ℤ) ≤ n.ref.size := by
    simp only [MappedPoints.size]; omega
  have e1 : ((e : ℤ) - b).toNat = e - b := by omega
  have hl := slice_length n.ref.indices b e he
  simp only [slice] at hl
  simp only [NeighborCheckXY.slice, MappedPoints.slice, if_pos hc, bind, Except.bind,
    Int.toNat_natCast, e1, NeighborCheckXY.make, slice]
  by_cases h2 : e < b + 2
  · rw [if_pos h2, if_pos (by simp only [MappedPoints.size, hl]; omega)]
  · rw [if_neg h2, if_neg (by simp only [MappedPoints.size, hl]; omega)]

theorem slice_ok_iff {n s : NeighborCheckXY P} {b e : ℕ} :
    n.slice b e = .ok s ↔ b + 2 ≤ e ∧ e ≤ n.ref.indices.length ∧
      s = ⟨⟨n.ref.cloud, slice n.ref.indices b e⟩, n.isNb⟩ := by
  by_cases hc : b ≤ e ∧ e ≤ n.ref.indices.length
  · rw [slice_eq hc.1 hc.2]
    split_ifs with h2
    · constructor
      · intro h; cases h
      · rintro ⟨h3, -⟩; omega
    · constructor
      · intro h; injection h with h; exact ⟨by omega, hc.2, h.symm⟩
      · rintro ⟨-, -, rfl⟩; rfl
  · have hc' : ¬ ((0 : ℤ) ≤ b ∧ (b : ℤ) ≤ e ∧ (e : ℤ) ≤ n.ref.size) := by
      simp only [MappedPoints.size]; omega
    simp only [NeighborCheckXY.slice, MappedPoints.slice, if_neg hc', bind, Except.bind]
    constructor
    · intro h; cases h
    · rintro ⟨h1, h2, -⟩; omega

theorem slice_error {n : NeighborCheckXY P} {b e : ℕ} (hbe : b ≤ e)
    (he : e ≤ n.ref.indices.length) (x : Err) :
    n.slice b e = .error x ↔ x = .invalidArgument ∧ e < b + 2 := by
  rw [slice_eq hbe he]
  split_ifs with h2 <;> simp [h2, eq_comm]

/-- The test of a slice is the test of the ring, shifted. -/
theorem slice_call {n s : NeighborCheckXY P} {b e : ℕ} (h : n.slice b e = .ok s) (i j : ℕ)
    (hi : i < e - b) (hj : j < e - b) :
    s.call i j = n.call ((b + i : ℕ) : ℤ) ((b + j : ℕ) : ℤ) := by
  obtain ⟨h1, h2, rfl⟩ := slice_ok_iff.1 h
  have hl := slice_length n.ref.indices b e h2
  rw [call_eq (by simpa [hl] using hi) (by simpa [hl] using hj),
    call_eq (by omega) (by omega)]
  have hat : ∀ k, k < e - b → MappedPoints.at ⟨n.ref.cloud, slice n.ref.indices b e⟩ (k : ℤ) =
      n.ref.at ((b + k : ℕ) : ℤ) := by
    intro k hk
    simp only [MappedPoints.at]
    have h0 : ¬ ((k : ℤ) < 0) := by omega
    have h0' : ¬ (((b + k : ℕ) : ℤ) < 0) := by omega
    have : atI (slice n.ref.indices b e) (k : ℤ) = atI n.ref.indices ((b + k : ℕ) : ℤ) := by
      simp only [atI, h0, h0', if_false, Int.toNat_natCast, slice_getElem?, hk, if_true]
    rw [this]
  rw [hat i hi, hat j hj]

theorem slice_size {n s : NeighborCheckXY P} {b e : ℕ} (h : n.slice b e = .ok s) :
    s.size = ((e - b : ℕ) : ℤ) := by
  obtain ⟨h1, h2, rfl⟩ := slice_ok_iff.1 h
  simp only [NeighborCheckXY.size, MappedPoints.size, slice_length n.ref.indices b e h2]

/-- Two rings whose tests agree inside `[b, e)` have equal slices. -/
theorem slice_base_congr {n n' s s' : NeighborCheckXY P} {b e : ℕ} (h : n.slice b e = .ok s)
    (h' : n'.slice b e = .ok s')
    (hag : ∀ i j : ℕ, b ≤ i → i < e → b ≤ j → j < e → n.call i j = n'.call i j) :
    s.base = s'.base := by
  simp only [NeighborCheckXY.base, slice_size h, slice_size h']
  congr 1
  funext i j
  by_cases hi : 0 ≤ i ∧ i < ((e - b : ℕ) : ℤ)
  · by_cases hj : 0 ≤ j ∧ j < ((e - b : ℕ) : ℤ)
    · obtain ⟨i, rfl⟩ := Int.eq_ofNat_of_zero_le hi.1
      obtain ⟨j, rfl⟩ := Int.eq_ofNat_of_zero_le hj.1
      rw [slice_call h i j (by omega) (by omega), slice_call h' i j (by omega) (by omega)]
      exact hag _ _ (by omega) (by omega) (by omega) (by omega)
    · rw [call_error_of_out (by rw [slice_size h]; omega),
        call_error_of_out (by rw [slice_size h']; omega)]
  · rw [call_error_of_out (by rw [slice_size h]; omega),
      call_error_of_out (by rw [slice_size h']; omega)]

end Verif.Extraction
