/-
C14, C15, C16: occlusion, out-of-range and parallel-beam marking.
-/
import Verif.Model.Filters
import Verif.Lemmas.Overwrite
import Verif.Lemmas.Slice
import Mathlib.Tactic.IntervalCases

set_option autoImplicit false

namespace Verif.Extraction

variable {P K : Type} [Field K] [LinearOrder K]

/-- Specification of one ring: `n` points, `adj m` says whether points `m` and `m+1` are
neighbours (the test is defined and symmetric on them), `rg m` is the range of point `m`. -/
structure RingInput (nb : NeighborCheckXY P) (range : Range P K) (n : ℕ) (adj : ℕ → Bool)
    (rg : ℕ → K) : Prop where
  nb_size : nb.size = n
  range_size : range.size = n
  nb_test : ∀ m : ℕ, m + 1 < n →
    nb.call m (m + 1) = .ok (adj m) ∧ nb.call ((m : ℤ) + 1) m = .ok (adj m)
  range_val : ∀ m : ℕ, m < n → range.call m = .ok (rg m)

/-- Specification: between the adjacent points `near` and `far` the range jumps by more than the
threshold. -/
def Jump (adj : ℕ → Bool) (rg : ℕ → K) (threshold : K) (near far : ℕ) : Prop :=
  (far = near + 1 ∧ adj near = true ∨ near = far + 1 ∧ adj far = true) ∧
  rg near + threshold < rg far

/-- Specification: `k` lies beyond the jump from `near` to `far`, at most `padding` behind the far
point, on an unbroken chain from it. -/
def InShadow (adj : ℕ → Bool) (padding near far k : ℕ) : Prop :=
  (near < far ∧ far ≤ k ∧ k ≤ far + padding ∨ far < near ∧ k ≤ far ∧ far ≤ k + padding) ∧
  Chain adj far k

/-- Specification: the whole window behind the jump lies in the ring. -/
def WindowFits (n padding near far : ℕ) : Prop :=
  near < far ∧ far + padding < n ∨ far < near ∧ padding ≤ far ∧ near < n

/-- C14, exactness: for every ring with more than `padding` points (and a size that fits in 64
bits), occlusion marking never fails and marks exactly the points in the shadow of a jump whose
window lies in the ring. -/
theorem C14_occlusion_exact (labels : List PointLabel) (nb : NeighborCheckXY P) (range : Range P K)
    (padding : ℕ) (threshold : K) (adj : ℕ → Bool) (rg : ℕ → K)
    (hin : RingInput nb range labels.length adj rg)
    (hsize : padding < labels.length) (h64 : labels.length < 2 ^ 64) :
    ∃ r, labelOccludedPoints labels nb range padding threshold = .ok r ∧
      Overwritten labels r (fun k => ∃ near far, Jump adj rg threshold near far ∧
        WindowFits labels.length padding near far ∧ InShadow adj padding near far k)
        .occluded := by
  obtain ⟨n, hn⟩ : ∃ n, n = labels.length := ⟨_, rfl⟩
  rw [← hn] at hin hsize h64 ⊢
  have hlim : min (fromLeftLimit n padding) (n + 1) = n - padding - 1 := by
    have : fromLeftLimit n padding = n - padding - 1 := by
      simp only [fromLeftLimit]
      rw [Int.emod_eq_of_lt (by omega) (by omega)]; omega
    omega
  -- one iteration from the left
  have hL : ∀ i ∈ List.range (n - padding - 1), ∀ l : List PointLabel, l.length = n →
      ∃ r, fromLeftStep nb range padding threshold l i = .ok r ∧
        Overwritten l r (fun k => adj i = true ∧ rg i + threshold < rg (i + 1) ∧ i + 1 ≤ k ∧
          k ≤ i + 1 + padding ∧ Chain adj (i + 1) k) .occluded := by
    intro i hi l hl
    rw [List.mem_range] at hi
    have ht := (hin.nb_test i (by omega)).1
    have hr0 := hin.range_val i (by omega)
    have hr1 := hin.range_val (i + 1) (by omega)
    push_cast at hr1
    simp only [fromLeftStep, ht, hr0, hr1, bind, Except.bind]
    by_cases ha : adj i = true
    · by_cases hj : rg i + threshold < rg (i + 1)
      · obtain ⟨r, hr, ho⟩ := C06_fill_from_left l nb.base adj (i + 1) (i + padding + 2) .occluded
          (by simp only [NeighborCheckXY.base]; rw [hin.nb_size, hl]) (by omega) (by omega)
          (fun m h1 h2 => (hin.nb_test m (by omega)).1)
        refine ⟨r, ?_, ho.congr (fun k _ => ?_)⟩
        · push_cast at hr
          simp only [ha, hj, Bool.not_true, if_true]
          exact hr
        · constructor
          · rintro ⟨h1, h2, h3⟩; exact ⟨ha, hj, h1, by omega, h3⟩
          · rintro ⟨-, -, h1, h2, h3⟩; exact ⟨h1, by omega, h3⟩
      · refine ⟨l, by simp [ha, hj, pure, Except.pure], (Overwritten.refl l _).congr ?_⟩
        intro k _; simp [hj]
    · refine ⟨l, by simp [ha, pure, Except.pure], (Overwritten.refl l _).congr ?_⟩
      intro k _; simp [ha]
  -- one iteration from the right
  have hR : ∀ i ∈ List.range (n - 1 - padding), ∀ l : List PointLabel, l.length = n →
      ∃ r, fromRightStep nb range padding threshold l (n - 1 - i) = .ok r ∧
        Overwritten l r (fun k => adj (n - 2 - i) = true ∧
          rg (n - 2 - i + 1) + threshold < rg (n - 2 - i) ∧ k ≤ n - 2 - i ∧
          n - 2 - i ≤ k + padding ∧ Chain adj (n - 2 - i) k) .occluded := by
    intro i hi l hl
    rw [List.mem_range] at hi
    obtain ⟨m, hm⟩ : ∃ m, m = n - 2 - i := ⟨_, rfl⟩
    have hm1 : n - 1 - i = m + 1 := by omega
    rw [← hm, hm1]
    have ht := (hin.nb_test m (by omega)).2
    have hr0 := hin.range_val (m + 1) (by omega)
    have hr1 := hin.range_val m (by omega)
    have e1 : ((m + 1 : ℕ) : ℤ) - 1 = m := by push_cast; ring
    simp only [fromRightStep, e1]
    rw [hr0, hr1]
    have ht' : nb.call ((m + 1 : ℕ) : ℤ) m = .ok (adj m) := by push_cast; exact ht
    simp only [ht', bind, Except.bind]
    by_cases ha : adj m = true
    · by_cases hj : rg (m + 1) + threshold < rg m
      · obtain ⟨r, hr, ho⟩ := C07_fill_from_right l nb.base adj
          (((m + 1 : ℕ) : ℤ) - padding - 2) m .occluded
          (by simp only [NeighborCheckXY.base]; rw [hin.nb_size, hl]) (by omega) (by omega)
          (by omega) (fun m' h1 h2 => (hin.nb_test m' (by omega)).2)
        refine ⟨r, ?_, ho.congr (fun k _ => ?_)⟩
        · simp only [ha, hj, Bool.not_true, if_true]
          exact hr
        · have hcomm : Chain adj k m ↔ Chain adj m k := by
            simp only [Chain, min_comm, max_comm]
          constructor
          · rintro ⟨h1, h2, h3⟩; exact ⟨ha, hj, h2, by omega, hcomm.1 h3⟩
          · rintro ⟨-, -, h1, h2, h3⟩; exact ⟨by omega, h1, hcomm.2 h3⟩
      · refine ⟨l, by simp [ha, hj, pure, Except.pure], (Overwritten.refl l _).congr ?_⟩
        intro k _; simp [hj]
    · refine ⟨l, by simp [ha, pure, Except.pure], (Overwritten.refl l _).congr ?_⟩
      intro k _; simp [ha]
  obtain ⟨r₁, hr₁, ho₁⟩ := fold_overwritten n .occluded _ _ _ hL labels hn.symm
  have hl₁ : r₁.length = n := by rw [ho₁.1, hn]
  obtain ⟨r₂, hr₂, ho₂⟩ := fold_overwritten n .occluded _ _ _ hR r₁ hl₁
  refine ⟨r₂, ?_, (ho₁.trans ho₂).congr (fun k hk => ?_)⟩
  · simp only [labelOccludedPoints, fromLeft, ← hn, hlim, hr₁, bind, Except.bind, fromRight, hl₁]
    rw [if_neg (by omega)]
    exact hr₂
  · rw [← hn] at hk
    constructor
    · rintro (⟨i, hi, h1, h2, h3, h4, h5⟩ | ⟨i, hi, h1, h2, h3, h4, h5⟩)
      · rw [List.mem_range] at hi
        exact ⟨i, i + 1, ⟨Or.inl ⟨rfl, h1⟩, h2⟩, Or.inl ⟨by omega, by omega⟩,
          Or.inl ⟨by omega, h3, h4⟩, h5⟩
      · rw [List.mem_range] at hi
        exact ⟨n - 2 - i + 1, n - 2 - i, ⟨Or.inr ⟨rfl, h1⟩, h2⟩,
          Or.inr ⟨by omega, by omega, by omega⟩, Or.inr ⟨by omega, h3, h4⟩, h5⟩
    · rintro ⟨near, far, ⟨h1, h2⟩, h3, h4, h5⟩
      rcases h1 with ⟨rfl, ha⟩ | ⟨rfl, ha⟩
      · left
        exact ⟨near, List.mem_range.2 (by rcases h3 with h3 | h3 <;> omega), ha, h2,
          by rcases h4 with h4 | h4 <;> omega, by rcases h4 with h4 | h4 <;> omega, h5⟩
      · right
        have hf : n - 2 - (n - 2 - far) = far := by rcases h3 with h3 | h3 <;> omega
        refine ⟨n - 2 - far, List.mem_range.2 (by rcases h3 with h3 | h3 <;> omega), ?_⟩
        rw [hf]
        exact ⟨ha, h2, by rcases h4 with h4 | h4 <;> omega, by rcases h4 with h4 | h4 <;> omega, h5⟩

/-- C14, interior: a point at least `padding` away from both ends is marked exactly when it is in
the shadow of any jump of the ring. -/
theorem C14_occlusion_interior (labels : List PointLabel) (nb : NeighborCheckXY P)
    (range : Range P K) (padding : ℕ) (threshold : K) (adj : ℕ → Bool) (rg : ℕ → K)
    (hin : RingInput nb range labels.length adj rg)
    (hsize : padding < labels.length) (h64 : labels.length < 2 ^ 64)
    (k : ℕ) (hk1 : padding ≤ k) (hk2 : k + padding < labels.length)
    (hk : labels[k]? ≠ some .occluded) :
    ∃ r, labelOccludedPoints labels nb range padding threshold = .ok r ∧
      (r[k]? = some .occluded ↔ ∃ near far, near < labels.length ∧ far < labels.length ∧
        Jump adj rg threshold near far ∧ InShadow adj padding near far k) := by
  obtain ⟨r, hr, ho⟩ := C14_occlusion_exact labels nb range padding threshold adj rg hin hsize h64
  refine ⟨r, hr, ?_, ?_⟩
  · intro h
    by_contra hc
    rw [(ho.2 k (by omega)).2] at h
    · exact hk h
    · rintro ⟨near, far, h1, h2, h3⟩
      refine hc ⟨near, far, ?_, ?_, h1, h3⟩
      · rcases h2 with h2 | h2 <;> omega
      · rcases h2 with h2 | h2 <;> omega
  · rintro ⟨near, far, hn, hf, h1, h2⟩
    refine (ho.2 k (by omega)).1 ⟨near, far, h1, ?_, h2⟩
    rcases h2.1 with h3 | h3
    · exact Or.inl ⟨h3.1, by omega⟩
    · exact Or.inr ⟨h3.1, by omega, hn⟩

/-- C15: out-of-range marking never fails and marks exactly the points outside
`[minRange, maxRange]`. -/
theorem C15_out_of_range_exact (labels : List PointLabel) (nb : NeighborCheckXY P)
    (range : Range P K) (minRange maxRange : K) (adj : ℕ → Bool) (rg : ℕ → K)
    (hin : RingInput nb range labels.length adj rg) :
    ∃ r, labelOutOfRange labels range minRange maxRange = .ok r ∧
      Overwritten labels r (fun k => rg k < minRange ∨ maxRange < rg k) .outOfRange := by
  obtain ⟨n, hn⟩ : ∃ n, n = labels.length := ⟨_, rfl⟩
  rw [← hn] at hin
  simp only [labelOutOfRange, hin.range_size, Int.toNat_natCast]
  obtain ⟨r, hr, ho⟩ := fold_overwritten n .outOfRange (fun labels (i : ℕ) => do
      let v ← range.call i
      if !isInInclusiveRange v minRange maxRange then
        setI labels i .outOfRange
      else
        pure labels)
    (fun i k => k = i ∧ (rg i < minRange ∨ maxRange < rg i)) (List.range n) (by
      intro i hi l hl
      rw [List.mem_range] at hi
      simp only [hin.range_val i hi, bind, Except.bind]
      by_cases hc : minRange ≤ rg i ∧ rg i ≤ maxRange
      · refine ⟨l, by simp [isInInclusiveRange, hc, pure, Except.pure],
          (Overwritten.refl l _).congr ?_⟩
        intro k _
        simp only [false_iff, not_and, not_or, not_lt]
        exact fun _ => hc
      · refine ⟨l.set i .outOfRange, ?_, by simp, fun k hk => ?_⟩
        · rw [if_pos]
          · exact setI_ok (by omega) _
          · rw [Bool.not_eq_true']
            by_contra hcc
            rw [Bool.not_eq_false, isInInclusiveRange, Bool.and_eq_true, decide_eq_true_eq,
              decide_eq_true_eq] at hcc
            exact hc hcc
        · have hc' : rg i < minRange ∨ maxRange < rg i := by
            by_contra hcc
            push Not at hcc
            exact hc hcc
          rw [List.getElem?_set]
          by_cases hik : i = k
          · subst hik; simp [hc', hk]
          · rw [if_neg hik]
            exact ⟨fun h => absurd h.1.symm hik, fun _ => rfl⟩) labels hn.symm
  refine ⟨r, hr, ho.congr (fun k hk => ⟨?_, fun h => ⟨k, List.mem_range.2 (by omega), rfl, h⟩⟩)⟩
  rintro ⟨i, -, rfl, h⟩; exact h

theorem ratioGreater_iff [IsStrictOrderedRing K] {d r threshold : K} (hr : 0 ≤ r) :
    ratioGreater d r threshold = true ↔ (r = 0 ∧ d ≠ 0) ∨ (r ≠ 0 ∧ threshold * r < |d|) := by
  unfold ratioGreater
  by_cases h : r = 0
  · simp [h]
  · have hpos : 0 < r := lt_of_le_of_ne hr (Ne.symm h)
    simp [h, lt_div_iff₀ hpos]

omit [Field K] [LinearOrder K] in
theorem mapM_range_ok {K : Type} {f : ℕ → Res K} {g : ℕ → K} :
    ∀ n : ℕ, (∀ i, i < n → f i = .ok (g i)) →
      (List.range n).mapM f = .ok ((List.range n).map g)
  | 0, _ => rfl
  | n + 1, h => by
    rw [List.range_succ, List.mapM_append, mapM_range_ok n (fun i hi => h i (by omega))]
    simp [h n (by omega), bind, Except.bind, pure, Except.pure]

/-- The ranges of the whole ring. -/
theorem interval_whole {nb : NeighborCheckXY P} {range : Range P K} {n : ℕ} {adj : ℕ → Bool}
    {rg : ℕ → K} (hin : RingInput nb range n adj rg) :
    range.interval 0 n = .ok ((List.range n).map rg) := by
  simp only [Range.interval]
  rw [if_neg (by omega)]
  have : ((n : ℤ) - 0).toNat = n := by omega
  rw [this]
  exact mapM_range_ok n (fun i hi => hin.range_val i hi)

/-- C16: parallel-beam marking of a non-empty ring never fails and marks exactly the interior
points whose range differs from both adjacent ranges by more than the given ratio of its own range
(ranges are non-negative, the ratio is non-negative; at range zero any difference counts). -/
theorem C16_parallel_beam_exact [IsStrictOrderedRing K] (labels : List PointLabel)
    (nb : NeighborCheckXY P) (range : Range P K) (threshold : K) (adj : ℕ → Bool) (rg : ℕ → K)
    (hin : RingInput nb range labels.length adj rg) (hne : labels ≠ [])
    (hrg : ∀ k, k < labels.length → 0 ≤ rg k) :
    ∃ r, labelParallelBeamPoints labels range threshold = .ok r ∧
      Overwritten labels r (fun k => 1 ≤ k ∧ k + 1 < labels.length ∧
        threshold * rg k < |rg (k - 1) - rg k| ∧ threshold * rg k < |rg (k + 1) - rg k|)
        .parallelBeam := by
  obtain ⟨n, hn⟩ : ∃ n, n = labels.length := ⟨_, rfl⟩
  rw [← hn] at hin hrg
  have hpos : 0 < n := by rw [hn]; exact List.length_pos_iff.2 hne
  simp only [labelParallelBeamPoints, ← hn, interval_whole hin, bind, Except.bind]
  rw [if_neg (by omega)]
  have hat : ∀ (k : ℕ), k < n → atI ((List.range n).map rg) (k : ℤ) = .ok (rg k) := by
    intro k hk
    rw [atI_ok (by simpa using hk)]; simp
  obtain ⟨r, hr, ho⟩ := fold_overwritten n .parallelBeam (fun labels (k : ℕ) => do
      let i : ℤ := k + 1
      let r0 ← atI ((List.range n).map rg) (i - 1)
      let r1 ← atI ((List.range n).map rg) i
      let r2 ← atI ((List.range n).map rg) (i + 1)
      if ratioGreater (r0 - r1) r1 threshold && ratioGreater (r2 - r1) r1 threshold then
        setI labels i .parallelBeam
      else
        pure labels)
    (fun i k => k = i + 1 ∧ (threshold * rg k < |rg (k - 1) - rg k| ∧
      threshold * rg k < |rg (k + 1) - rg k|)) (List.range (n - 2)) (by
      intro i hi l hl
      rw [List.mem_range] at hi
      have e0 : ((i : ℤ) + 1 - 1) = ((i : ℕ) : ℤ) := by ring
      have e1 : ((i : ℤ) + 1) = ((i + 1 : ℕ) : ℤ) := by push_cast; ring
      have e2 : ((i : ℤ) + 1 + 1) = ((i + 2 : ℕ) : ℤ) := by push_cast; ring
      simp only [e0, e2, hat i (by omega), hat (i + 2) (by omega)]
      simp only [e1, hat (i + 1) (by omega), bind, Except.bind]
      have hq : ∀ d : K, ratioGreater d (rg (i + 1)) threshold = true ↔
          threshold * rg (i + 1) < |d| := by
        intro d
        rw [ratioGreater_iff (hrg _ (by omega))]
        by_cases h0 : rg (i + 1) = 0
        · simp [h0]
        · simp [h0]
      by_cases hc : threshold * rg (i + 1) < |rg i - rg (i + 1)| ∧
          threshold * rg (i + 1) < |rg (i + 2) - rg (i + 1)|
      · refine ⟨l.set (i + 1) .parallelBeam, ?_, by simp, fun k hk => ?_⟩
        · rw [if_pos (by rw [Bool.and_eq_true, hq, hq]; exact hc)]
          exact setI_ok (by omega) _
        · rw [List.getElem?_set]
          by_cases hik : i + 1 = k
          · subst hik
            refine ⟨fun _ => by simp [hk], fun h => absurd ⟨rfl, ?_⟩ h⟩
            simpa using hc
          · rw [if_neg hik]
            exact ⟨fun h => absurd h.1.symm hik, fun _ => rfl⟩
      · refine ⟨l, ?_, (Overwritten.refl l _).congr ?_⟩
        · rw [if_neg (by rw [Bool.and_eq_true, hq, hq]; exact hc)]; rfl
        · intro k _
          simp only [false_iff]
          rintro ⟨rfl, h⟩
          exact hc (by simpa using h)) labels hn.symm
  refine ⟨r, hr, ho.congr (fun k hk => ⟨?_, ?_⟩)⟩
  · rintro ⟨i, hi, rfl, h⟩
    rw [List.mem_range] at hi
    exact ⟨by omega, by omega, h⟩
  · rintro ⟨h1, h2, h3⟩
    exact ⟨k - 1, List.mem_range.2 (by omega), by omega, h3⟩

/-! Non-vacuity: eight points at angles 0..7 with a range jump; points carry (angle, range). -/

/-- Example: neighbours when their angles differ by less than 2. -/
def exIsNb2 (p q : ℚ × ℚ) : Res Bool := .ok (decide (|p.1 - q.1| < 2))

/-- Example ring: range 1 up to angle 2, then 5; a gap in the angles after 5. -/
def exRef : MappedPoints (ℚ × ℚ) :=
  ⟨[(0, 1), (1, 1), (2, 1), (3, 5), (4, 5), (50, 5), (51, 9), (52, 5)], List.range 8⟩

/-- The example ring meets the hypotheses of C14-C16. -/
example : RingInput ⟨exRef, exIsNb2⟩ ⟨exRef, Prod.snd⟩ (initLabels 8).length
    (fun m => decide (m ≠ 4)) (fun m => [1, 1, 1, 5, 5, 5, 9, 5].getD m 0) where
  nb_size := rfl
  range_size := rfl
  nb_test m hm := by
    have hm' : m + 1 < 8 := by simpa [initLabels] using hm
    have : m < 7 := by omega
    interval_cases m <;> decide +kernel
  range_val m hm := by
    have : m < 8 := by simpa [initLabels] using hm
    interval_cases m <;> decide +kernel
example : labelOccludedPoints (initLabels 8) ⟨exRef, exIsNb2⟩ ⟨exRef, Prod.snd⟩ 2 1 =
    .ok [.default, .default, .default, .occluded, .occluded, .occluded, .occluded, .default] := by
  decide +kernel
example : labelOutOfRange (initLabels 8) ⟨exRef, Prod.snd⟩ 2 8 =
    .ok [.outOfRange, .outOfRange, .outOfRange, .default, .default, .default, .outOfRange,
      .default] := by decide +kernel
example : labelParallelBeamPoints (initLabels 8) ⟨exRef, Prod.snd⟩ (1 / 3) =
    .ok [.default, .default, .default, .default, .default, .default, .parallelBeam, .default] := by
  decide +kernel
/-- A ring with at most `padding` points: the unsigned bound wraps and an exception results. -/
example : labelOccludedPoints (initLabels 2) ⟨⟨[(0, 1), (1, 1)], [0, 1]⟩, exIsNb2⟩
    ⟨⟨[(0, 1), (1, 1)], [0, 1]⟩, Prod.snd⟩ 2 (1 : ℚ) = .error .outOfRange := by decide +kernel

end Verif.Extraction
