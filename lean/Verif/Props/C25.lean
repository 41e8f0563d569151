/-
C25: three-value sort; C26: median; C27: covariance arrays.
-/
import Verif.Model.Lib
import Mathlib.Algebra.Order.Field.Basic
import Mathlib.Data.List.Count
import Mathlib.Data.Rat.Defs
import Mathlib.Algebra.Order.Ring.Rat
import Mathlib.Tactic.Linarith
import Mathlib.Tactic.FinCases
import Mathlib.Tactic.Ring

set_option autoImplicit false

namespace Verif.Lib

variable {K : Type}

/-- C25: the result is an ascending permutation of the argument, for all triples. -/
theorem C25_sort_three [LinearOrder K] (a b c : K) :
    ∃ x y z, sortThreeValues (a, b, c) = (x, y, z) ∧ x ≤ y ∧ y ≤ z ∧
      [x, y, z].Perm [a, b, c] := by
  have swap : ∀ p q r : K, [q, p, r].Perm [p, q, r] := fun p q r => List.Perm.swap p q [r]
  have swap' : ∀ p q r : K, [p, r, q].Perm [p, q, r] := fun p q r =>
    (List.Perm.swap q r []).cons p
  by_cases h1 : a > b
  · by_cases h2 : a > c
    · by_cases h3 : b > c
      · exact ⟨c, b, a, by simp [sortThreeValues, h1, h2, h3], h3.le, h1.le,
          ((swap b c a).trans (swap' b a c)).trans (swap a b c)⟩
      · exact ⟨b, c, a, by simp [sortThreeValues, h1, h2, h3], not_lt.1 h3, h2.le,
          (swap' b a c).trans (swap a b c)⟩
    · exact ⟨b, a, c, by simp [sortThreeValues, h1, h2, not_lt.2 h1.le], h1.le, not_lt.1 h2,
        swap a b c⟩
  · by_cases h2 : b > c
    · by_cases h3 : a > c
      · exact ⟨c, a, b, by simp [sortThreeValues, h1, h2, h3], h3.le, not_lt.1 h1,
          (swap a c b).trans (swap' a b c)⟩
      · exact ⟨a, c, b, by simp [sortThreeValues, h1, h2, h3], not_lt.1 h3, h2.le, swap' a b c⟩
    · exact ⟨a, b, c, by simp [sortThreeValues, h1, h2], not_lt.1 h1, not_lt.1 h2, List.Perm.refl _⟩

example : sortThreeValues ((3 : ℚ), 1, 2) = (1, 2, 3) := by decide +kernel
example : sortThreeValues ((3 : ℚ), 3, 2) = (2, 3, 3) := by decide +kernel

/-! ### C26 -/

/-- What the standard promises of `std::nth_element(begin, begin + n, end)` for a position inside
the vector: a permutation with nothing greater before position `n` and nothing smaller after it. -/
def IsNthElement [LinearOrder K] (nth : List K → ℕ → List K) : Prop :=
  ∀ l n, n < l.length → (nth l n).Perm l ∧
    ∀ (i : ℕ) v x, (nth l n)[n]? = some v → (nth l n)[i]? = some x →
      (i < n → x ≤ v) ∧ (n < i → v ≤ x)

/-- Specification: `v` is the `k`-th smallest element of `l` (counting from zero). -/
def OrderStat [LinearOrder K] (l : List K) (k : ℕ) (v : K) : Prop :=
  v ∈ l ∧ l.countP (· < v) ≤ k ∧ k < l.countP (· ≤ v)

/-- Specification: the median as the mean of the one or two middle order statistics. -/
def IsMedian [LinearOrder K] [Field K] (l : List K) (m : K) : Prop :=
  ∃ a b, OrderStat l ((l.length - 1) / 2) a ∧ OrderStat l (l.length / 2) b ∧ m = (a + b) / 2

section
variable [LinearOrder K]

theorem OrderStat.unique {l : List K} {k : ℕ} {v w : K} (hv : OrderStat l k v)
    (hw : OrderStat l k w) : v = w := by
  have key : ∀ {v w : K}, OrderStat l k v → OrderStat l k w → ¬ v < w := by
    intro v w hv hw hlt
    have : l.countP (· ≤ v) ≤ l.countP (· < w) := List.countP_mono_left (by
      intro x _ hx
      simp only [decide_eq_true_eq] at hx ⊢
      exact lt_of_le_of_lt hx hlt)
    have := hv.2.2
    have := hw.2.1
    omega
  exact le_antisymm (not_lt.1 (key hw hv)) (not_lt.1 (key hv hw))

theorem OrderStat.perm {l l' : List K} (h : l.Perm l') {k : ℕ} {v : K} (hv : OrderStat l k v) :
    OrderStat l' k v := by
  obtain ⟨h1, h2, h3⟩ := hv
  exact ⟨h.mem_iff.1 h1, by rw [← h.countP_eq]; exact h2, by rw [← h.countP_eq]; exact h3⟩

theorem OrderStat.le {l : List K} {k k' : ℕ} (hk : k ≤ k') {v w : K} (hv : OrderStat l k v)
    (hw : OrderStat l k' w) : v ≤ w := by
  by_contra hlt
  have : l.countP (· ≤ w) ≤ l.countP (· < v) := List.countP_mono_left (by
    intro x _ hx
    simp only [decide_eq_true_eq] at hx ⊢
    exact lt_of_le_of_lt hx (not_le.1 hlt))
  have := hv.2.1
  have := hw.2.2
  omega

/-- A pivot element is an order statistic. -/
theorem orderStat_of_pivot {r : List K} {n : ℕ} {v : K} (hv : r[n]? = some v)
    (hp : ∀ (i : ℕ) x, r[i]? = some x → (i < n → x ≤ v) ∧ (n < i → v ≤ x)) :
    OrderStat r n v := by
  obtain ⟨hn, hv'⟩ := List.getElem?_eq_some_iff.1 hv
  refine ⟨List.mem_of_getElem? hv, ?_, ?_⟩
  · have : r = r.take n ++ r.drop n := (List.take_append_drop n r).symm
    rw [this, List.countP_append]
    have h0 : (r.drop n).countP (· < v) = 0 := by
      rw [List.countP_eq_zero]
      intro x hx
      obtain ⟨i, hi⟩ := List.mem_iff_getElem?.1 hx
      rw [List.getElem?_drop] at hi
      simp only [decide_eq_true_eq, not_lt]
      rcases Nat.eq_zero_or_pos i with rfl | hpos
      · rw [Nat.add_zero, hv] at hi
        exact (Option.some.inj hi).le
      · exact (hp _ _ hi).2 (by omega)
    rw [h0, Nat.add_zero]
    refine le_trans List.countP_le_length ?_
    rw [List.length_take]; omega
  · have : r = r.take (n + 1) ++ r.drop (n + 1) := (List.take_append_drop _ r).symm
    rw [this, List.countP_append]
    have h1 : (r.take (n + 1)).countP (· ≤ v) = (r.take (n + 1)).length := by
      rw [List.countP_eq_length]
      intro x hx
      obtain ⟨i, hi⟩ := List.mem_iff_getElem?.1 hx
      rw [List.getElem?_take] at hi
      split_ifs at hi with hlt
      simp only [decide_eq_true_eq]
      rcases Nat.lt_or_ge i n with h | h
      · exact (hp _ _ hi).1 h
      · obtain rfl : i = n := by omega
        rw [hv] at hi
        exact (Option.some.inj hi).ge
    rw [h1, List.length_take]
    omega

theorem OrderStat.exists_nth {nth : List K → ℕ → List K} (hn : IsNthElement nth) {l : List K}
    {n : ℕ} (h : n < l.length) : ∃ v, atI (nth l n) (n : ℤ) = .ok v ∧ OrderStat l n v := by
  obtain ⟨h1, h2⟩ := hn l n h
  have hlen : n < (nth l n).length := by rw [h1.length_eq]; exact h
  refine ⟨(nth l n)[n], atI_ok hlen, ?_⟩
  refine OrderStat.perm h1 (orderStat_of_pivot (List.getElem?_eq_getElem hlen) ?_)
  intro i x hx
  exact h2 i _ x (List.getElem?_eq_getElem hlen) hx

end

section
variable [LinearOrder K] [Field K] [IsStrictOrderedRing K]

omit [IsStrictOrderedRing K] in
theorem IsMedian.unique {l : List K} {m m' : K} (h : IsMedian l m) (h' : IsMedian l m') : m = m' := by
  obtain ⟨a, b, ha, hb, rfl⟩ := h
  obtain ⟨a', b', ha', hb', rfl⟩ := h'
  rw [ha.unique ha', hb.unique hb']

/-- C26: for every non-empty vector and every admissible `nth_element` the function returns the
median. -/
theorem C26_median_is_median {nth : List K → ℕ → List K} (hn : IsNthElement nth) (v : List K)
    (hv : v ≠ []) : ∃ m, median nth v = .ok m ∧ IsMedian v m := by
  have hlen : 0 < v.length := List.length_pos_of_ne_nil hv
  simp only [median]
  rw [if_neg (by omega)]
  split_ifs with hodd
  · obtain ⟨m, h1, h2⟩ := OrderStat.exists_nth hn (l := v) (n := (v.length - 1) / 2) (by omega)
    refine ⟨m, h1, m, m, h2, ?_, by ring⟩
    have : v.length / 2 = (v.length - 1) / 2 := by omega
    rw [this]; exact h2
  · have hp := (hn v (v.length / 2) (by omega)).1
    obtain ⟨e0, h1, h2⟩ := OrderStat.exists_nth hn (l := v) (n := v.length / 2) (by omega)
    obtain ⟨e1, h3, h4⟩ := OrderStat.exists_nth hn (l := nth v (v.length / 2))
      (n := v.length / 2 - 1) (by rw [hp.length_eq]; omega)
    have hcast : ((v.length / 2 - 1 : ℕ) : ℤ) = ((v.length / 2 : ℕ) : ℤ) - 1 := by omega
    rw [hcast] at h3
    refine ⟨(e0 + e1) / 2, ?_, e1, e0, ?_, h2, by ring⟩
    · simp only [h1, bind, Except.bind, h3, pure, Except.pure]
    · have : (v.length - 1) / 2 = v.length / 2 - 1 := by omega
      rw [this]; exact h4.perm hp

omit [LinearOrder K] [IsStrictOrderedRing K] in
/-- C26: the empty vector is rejected. -/
theorem C26_median_empty (nth : List K → ℕ → List K) :
    median nth [] = .error .invalidArgument := rfl

/-- C26: the result depends neither on the order of the elements nor on how `nth_element` permutes
them. -/
theorem C26_median_order_independent {nth nth' : List K → ℕ → List K} (hn : IsNthElement nth)
    (hn' : IsNthElement nth') (v w : List K) (h : v.Perm w) : median nth v = median nth' w := by
  by_cases hv : v = []
  · subst hv
    rw [List.nil_perm.1 h]; rfl
  · have hw : w ≠ [] := by
      rintro rfl; exact hv (List.perm_nil.1 h)
    obtain ⟨m, h1, a, b, h2, h3, rfl⟩ := C26_median_is_median hn v hv
    obtain ⟨m', h1', h2'⟩ := C26_median_is_median hn' w hw
    rw [h1, h1']
    congr 1
    exact IsMedian.unique ⟨a, b, h.length_eq ▸ h2.perm h, h.length_eq ▸ h3.perm h, rfl⟩ h2'

/-- C26: at least half of the values are on either side of the median. -/
theorem C26_median_halves {nth : List K → ℕ → List K} (hn : IsNthElement nth) (v : List K) (m : K)
    (h : median nth v = .ok m) :
    v.length ≤ 2 * v.countP (· ≤ m) ∧ v.length ≤ 2 * v.countP (m ≤ ·) := by
  have hv : v ≠ [] := by rintro rfl; cases h
  have hlen : 0 < v.length := List.length_pos_of_ne_nil hv
  obtain ⟨m', h1, a, b, ha, hb, hm⟩ := C26_median_is_median hn v hv
  rw [h] at h1
  obtain rfl : m = m' := Except.ok.inj h1
  have hab : a ≤ b := ha.le (by omega) hb
  have ham : a ≤ m := by rw [hm]; linarith
  have hmb : m ≤ b := by rw [hm]; linarith
  constructor
  · have : v.countP (· ≤ a) ≤ v.countP (· ≤ m) := List.countP_mono_left (by
      intro x _ hx
      simp only [decide_eq_true_eq] at hx ⊢
      exact hx.trans ham)
    have := ha.2.2
    omega
  · have h2 : v.countP (b ≤ ·) ≤ v.countP (m ≤ ·) := List.countP_mono_left (by
      intro x _ hx
      simp only [decide_eq_true_eq] at hx ⊢
      exact hmb.trans hx)
    have h3 := List.length_eq_countP_add_countP (fun x => decide (x < b)) (l := v)
    have h4 : v.countP (fun x => !decide (x < b)) = v.countP (b ≤ ·) := by
      apply List.countP_congr
      intro x _
      simp
    have := hb.2.1
    simp only [Bool.not_eq_true, decide_eq_false_iff_not, not_lt] at h3
    omega

/-- C26: the median lies between any lower and any upper bound of the values. -/
theorem C26_median_between {nth : List K → ℕ → List K} (hn : IsNthElement nth) (v : List K)
    (m lo hi : K) (h : median nth v = .ok m) (hb : ∀ x ∈ v, lo ≤ x ∧ x ≤ hi) : lo ≤ m ∧ m ≤ hi := by
  have hv : v ≠ [] := by rintro rfl; cases h
  obtain ⟨m', h1, a, b, ha, hb', hm⟩ := C26_median_is_median hn v hv
  rw [h] at h1
  obtain rfl : m = m' := Except.ok.inj h1
  have h1 := hb a ha.1
  have h2 := hb b hb'.1
  rw [hm]
  constructor <;> linarith

theorem OrderStat.map_pos {l : List K} {k : ℕ} {v : K} (h : OrderStat l k v) {c : K} (hc : 0 < c)
    (d : K) : OrderStat (l.map fun x => c * x + d) k (c * v + d) := by
  obtain ⟨h1, h2, h3⟩ := h
  refine ⟨List.mem_map.2 ⟨v, h1, rfl⟩, ?_, ?_⟩
  · rw [List.countP_map]
    convert h2 using 1
    apply List.countP_congr
    intro x _
    simp [hc]
  · rw [List.countP_map]
    convert h3 using 1
    apply List.countP_congr
    intro x _
    simp [hc]

theorem OrderStat.map_neg {l : List K} {k k' : ℕ} {v : K} (h : OrderStat l k v)
    (hk : k + k' + 1 = l.length) {c : K} (hc : c < 0) (d : K) :
    OrderStat (l.map fun x => c * x + d) k' (c * v + d) := by
  obtain ⟨h1, h2, h3⟩ := h
  have e1 := List.length_eq_countP_add_countP (fun x => decide (x < v)) (l := l)
  have e2 := List.length_eq_countP_add_countP (fun x => decide (x ≤ v)) (l := l)
  refine ⟨List.mem_map.2 ⟨v, h1, rfl⟩, ?_, ?_⟩
  · rw [List.countP_map]
    have : l.countP ((fun x => decide (x < c * v + d)) ∘ fun x => c * x + d) =
        l.countP (fun x => decide ¬ (decide (x ≤ v) = true)) := by
      apply List.countP_congr
      intro x _
      simp [hc, mul_lt_mul_left_of_neg]
    rw [this]; omega
  · rw [List.countP_map]
    have : l.countP ((fun x => decide (x ≤ c * v + d)) ∘ fun x => c * x + d) =
        l.countP (fun x => decide ¬ (decide (x < v) = true)) := by
      apply List.countP_congr
      intro x _
      simp [hc, mul_le_mul_left_of_neg]
    rw [this]; omega

/-- C26: shifting and scaling (by any factor, also negative or zero) the values shifts and scales
the median. -/
theorem C26_median_affine {nth : List K → ℕ → List K} (hn : IsNthElement nth) (v : List K)
    (m c d : K) (h : median nth v = .ok m) :
    median nth (v.map fun x => c * x + d) = .ok (c * m + d) := by
  have hv : v ≠ [] := by rintro rfl; cases h
  have hlen : 0 < v.length := List.length_pos_of_ne_nil hv
  obtain ⟨m', h1, a, b, ha, hb, hm⟩ := C26_median_is_median hn v hv
  rw [h] at h1
  obtain rfl : m = m' := Except.ok.inj h1
  obtain ⟨m', h1', h2'⟩ := C26_median_is_median hn (v.map fun x => c * x + d) (by simpa using hv)
  rw [h1']
  congr 1
  refine h2'.unique ?_
  rcases lt_trichotomy c 0 with hc | rfl | hc
  · refine ⟨c * b + d, c * a + d, ?_, ?_, by rw [hm]; ring⟩
    · exact hb.map_neg (by rw [List.length_map]; omega) hc d
    · exact ha.map_neg (by rw [List.length_map]; omega) hc d
  · refine ⟨d, d, ?_, ?_, by ring⟩ <;>
    · refine ⟨?_, ?_, ?_⟩
      · obtain ⟨x, hx⟩ := List.exists_mem_of_ne_nil v hv
        exact List.mem_map.2 ⟨x, hx, by simp⟩
      · rw [List.countP_map]
        simp [Function.comp_def]
      · rw [List.countP_map]
        simp [Function.comp_def]
        omega
  · refine ⟨c * a + d, c * b + d, ?_, ?_, by rw [hm]; ring⟩
    · rw [List.length_map]; exact ha.map_pos hc d
    · rw [List.length_map]; exact hb.map_pos hc d

end

/-! Non-vacuity: sorting the whole vector is an admissible `nth_element`. -/

theorem isNthElement_mergeSort :
    IsNthElement (fun (l : List ℚ) (_ : ℕ) => l.mergeSort (fun a b => decide (a ≤ b))) := by
  intro l n _
  refine ⟨List.mergeSort_perm _ _, ?_⟩
  have hs := List.pairwise_mergeSort (le := fun a b : ℚ => decide (a ≤ b))
    (fun a b c h1 h2 => by simp only [decide_eq_true_eq] at *; exact le_trans h1 h2)
    (fun a b => by simp only [Bool.or_eq_true, decide_eq_true_eq]; exact le_total _ _) l
  intro i v x hv hx
  obtain ⟨hn', rfl⟩ := List.getElem?_eq_some_iff.1 hv
  obtain ⟨hi', rfl⟩ := List.getElem?_eq_some_iff.1 hx
  constructor
  · intro hlt
    simpa using List.pairwise_iff_getElem.1 hs i n hi' hn' hlt
  · intro hlt
    simpa using List.pairwise_iff_getElem.1 hs n i hn' hi' hlt

example : IsMedian [(5 : ℚ), 1, 4, 2] 3 :=
  ⟨2, 4, ⟨by simp, by decide +kernel, by decide +kernel⟩,
    ⟨by simp, by decide +kernel, by decide +kernel⟩, by norm_num⟩
example : ∃ m, median (fun (l : List ℚ) (_ : ℕ) => l.mergeSort (fun a b => decide (a ≤ b)))
    [5, 1, 4, 2] = .ok m ∧ IsMedian [5, 1, 4, 2] m :=
  C26_median_is_median isNthElement_mergeSort _ (by simp)

/-! ### C27 -/

/-- C27: entry `(i, j)` of the matrix is array entry `6 i + j`. -/
theorem C27_matrix_entry (a : Fin 36 → K) (i j : Fin 6) (k : Fin 36) (hk : k.val = 6 * i.val + j.val) :
    getEigenCovariance a i j = a k := by
  have : k = ⟨i.val * 6 + j.val, by omega⟩ := Fin.ext (by simp only; omega)
  rw [this]; rfl

/-- C27: array entry `6 i + j` is entry `(i, j)` of the matrix, whatever the array held before. -/
theorem C27_array_entry (init : Fin 36 → K) (c : Fin 6 → Fin 6 → K) (i j : Fin 6) (k : Fin 36)
    (hk : k.val = 6 * i.val + j.val) : fromEigenCovariance init c k = c i j := by
  -- inner loop
  have inner : ∀ (l : List (Fin 6)), l.Nodup → ∀ (r : Fin 6) (a : Fin 36 → K) (k : Fin 36),
      l.foldl (fun array j => Function.update array ⟨r.val * 6 + j.val, by omega⟩ (c r j)) a k =
        if k.val / 6 = r.val ∧ (⟨k.val % 6, by omega⟩ : Fin 6) ∈ l
          then c r ⟨k.val % 6, by omega⟩ else a k := by
    intro l
    induction l with
    | nil => intro _ r a k; simp
    | cons j l ih =>
      intro hl r a k
      rw [List.foldl_cons, ih (List.nodup_cons.1 hl).2]
      have hj := (List.nodup_cons.1 hl).1
      by_cases h1 : k.val / 6 = r.val ∧ (⟨k.val % 6, by omega⟩ : Fin 6) ∈ l
      · rw [if_pos h1, if_pos ⟨h1.1, List.mem_cons_of_mem _ h1.2⟩]
      · rw [if_neg h1]
        by_cases h2 : k.val / 6 = r.val ∧ (⟨k.val % 6, by omega⟩ : Fin 6) = j
        · rw [if_pos ⟨h2.1, by rw [h2.2]; exact List.mem_cons_self⟩, h2.2]
          have : k = ⟨r.val * 6 + j.val, by omega⟩ := by
            apply Fin.ext
            have := congrArg Fin.val h2.2
            simp only at this ⊢
            omega
          rw [this, Function.update_self]
        · rw [if_neg, Function.update_of_ne]
          · rintro rfl
            apply h2
            simp only
            refine ⟨by omega, Fin.ext ?_⟩
            simp only; omega
          · rintro ⟨h3, h4⟩
            rcases List.mem_cons.1 h4 with h4 | h4
            · exact h2 ⟨h3, h4⟩
            · exact h1 ⟨h3, h4⟩
  have outer : ∀ (l : List (Fin 6)), l.Nodup → ∀ (a : Fin 36 → K) (k : Fin 36),
      l.foldl (fun array i => (List.finRange 6).foldl (fun array j =>
        Function.update array ⟨i.val * 6 + j.val, by omega⟩ (c i j)) array) a k =
        if (⟨k.val / 6, by omega⟩ : Fin 6) ∈ l
          then c ⟨k.val / 6, by omega⟩ ⟨k.val % 6, by omega⟩ else a k := by
    intro l
    induction l with
    | nil => intro _ a k; simp
    | cons i l ih =>
      intro hl a k
      rw [List.foldl_cons, ih (List.nodup_cons.1 hl).2, inner _ (List.nodup_finRange 6)]
      have hi := (List.nodup_cons.1 hl).1
      simp only [List.mem_finRange, and_true, List.mem_cons]
      by_cases h1 : (⟨k.val / 6, by omega⟩ : Fin 6) ∈ l
      · rw [if_pos h1, if_pos (Or.inr h1)]
      · rw [if_neg h1]
        by_cases h2 : (⟨k.val / 6, by omega⟩ : Fin 6) = i
        · rw [if_pos (congrArg Fin.val h2), if_pos (Or.inl h2), h2]
        · rw [if_neg (fun h => h2 (Fin.ext h)), if_neg (by tauto)]
  rw [fromEigenCovariance, outer _ (List.nodup_finRange 6), if_pos (List.mem_finRange _)]
  congr 1 <;> (apply Fin.ext; simp only; omega)

/-- C27: both round trips are the identity. -/
theorem C27_round_trip (init a : Fin 36 → K) (c : Fin 6 → Fin 6 → K) :
    fromEigenCovariance init (getEigenCovariance a) = a ∧
    getEigenCovariance (fromEigenCovariance init c) = c := by
  constructor
  · funext k
    rw [C27_array_entry init _ ⟨k.val / 6, by omega⟩ ⟨k.val % 6, by omega⟩ k (by simp only; omega)]
    exact C27_matrix_entry a _ _ k (by simp only; omega)
  · funext i j
    exact C27_array_entry init c i j _ (by simp only; omega)

example : getEigenCovariance (fun k : Fin 36 => (k.val : ℚ)) 2 3 = 15 := by decide +kernel
example : fromEigenCovariance (fun _ => (7 : ℚ)) (fun i j => 10 * i.val + j.val) 15 = 23 := by
  decide +kernel

end Verif.Lib
