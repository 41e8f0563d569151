/-
C06, C07, C08: the fill functions write exactly the connected run.
-/
import Verif.Lemmas.Fill

set_option autoImplicit false

namespace Verif.Extraction

/-- Specification: positions `i ≤ j` are joined by an unbroken chain when every consecutive pair
`(m, m+1)` between them is a neighbour pair (`adj m`). -/
def Chain (adj : ℕ → Bool) (i j : ℕ) : Prop := ∀ m, min i j ≤ m → m < max i j → adj m = true

/-- Specification: `new` is `old` with `label` written exactly on the positions in `S`. -/
def Overwritten (old new : List PointLabel) (S : ℕ → Prop) (label : PointLabel) : Prop :=
  new.length = old.length ∧
  ∀ n, n < old.length → (S n → new[n]? = some label) ∧ (¬ S n → new[n]? = old[n]?)

/-- C06: filling the non-empty interval `[b, e)` from the left writes the label exactly on the
positions of the interval chained to `b`. -/
theorem C06_fill_from_left (labels : List PointLabel) (nb : NeighborCheck) (adj : ℕ → Bool)
    (b e : ℕ) (label : PointLabel) (hsize : nb.size = labels.length)
    (hbe : b < e) (he : e ≤ labels.length)
    (hnb : ∀ m : ℕ, b ≤ m → m + 1 < e → nb.test m (m + 1) = .ok (adj m)) :
    ∃ r, fillFromLeft labels nb b e label = .ok r ∧
      Overwritten labels r (fun n => b ≤ n ∧ n < e ∧ Chain adj b n) label := by
  obtain ⟨k, rfl⟩ : ∃ k, e = b + k + 1 := ⟨e - b - 1, by omega⟩
  obtain ⟨r, hr, hl, hv⟩ := fillLeftLoop_spec nb label adj k b labels he
    (fun m h1 h2 => hnb m h1 (by omega))
  refine ⟨r, ?_, hl, fun n hn => ?_⟩
  · simp only [fillFromLeft]
    rw [if_neg (by rw [hsize]; simp), if_neg (by omega), if_neg (by omega)]
    have : (((b + k + 1 : ℕ) : ℤ) - 1 - b).toNat = k := by push_cast; omega
    rw [this]; exact hr
  · have hc : b ≤ n → (Chain adj b n ↔ ∀ m, b ≤ m → m < n → adj m = true) := by
      intro h; simp only [Chain, min_eq_left h, max_eq_right h]
    rw [hv n]
    constructor
    · rintro ⟨h1, h2, h3⟩
      rw [if_pos ⟨h1, h2, (hc h1).1 h3⟩]
    · intro h
      rw [if_neg]
      rintro ⟨h1, h2, h3⟩
      exact h ⟨h1, h2, (hc h1).2 h3⟩

/-- C06, rejection: with a neighbour test that does not throw on the interval, the left fill of a
non-empty interval fails exactly when the end exceeds the size or the begin is negative, and then
with `invalid_argument`. -/
theorem C06_fill_from_left_rejects (labels : List PointLabel) (nb : NeighborCheck) (b e : ℤ)
    (label : PointLabel) (hsize : nb.size = labels.length) (hbe : b < e)
    (hnb : ∀ m : ℤ, 0 ≤ m → b ≤ m → m + 1 < e → m + 1 < labels.length →
      ∃ v, nb.test m (m + 1) = .ok v) (x : Err) :
    fillFromLeft labels nb b e label = .error x ↔
      x = .invalidArgument ∧ (e > labels.length ∨ b < 0) := by
  by_cases h1 : e > labels.length
  · simp [fillFromLeft, hsize, h1, eq_comm]
  by_cases h2 : b < 0
  · simp [fillFromLeft, hsize, h1, h2, eq_comm]
  simp only [h1, h2, or_self, and_false, iff_false]
  intro h
  obtain ⟨b', rfl⟩ := Int.eq_ofNat_of_zero_le (by omega : 0 ≤ b)
  obtain ⟨k, hk⟩ := Int.eq_ofNat_of_zero_le (by omega : 0 ≤ e - 1 - b')
  have he : e = ((b' + k + 1 : ℕ) : ℤ) := by push_cast; omega
  simp only [fillFromLeft] at h
  rw [if_neg (by rw [hsize]; simp), if_neg h1, if_neg h2, hk] at h
  subst he
  exact fillLeftLoop_err nb label (fun _ => False) k b' labels (by omega)
    (fun m e' hm1 hm2 ht => by
      obtain ⟨v, hv⟩ := hnb m (by omega) (by omega) (by omega) (by omega)
      rw [hv] at ht; cases ht) x (by simpa using h)

/-- C07: filling the non-empty interval `(b, e]` from the right (`lo = b + 1`) writes the label
exactly on the positions of the interval chained to `e`. -/
theorem C07_fill_from_right (labels : List PointLabel) (nb : NeighborCheck) (adj : ℕ → Bool)
    (b : ℤ) (e : ℕ) (label : PointLabel) (hsize : nb.size = labels.length)
    (hb : -1 ≤ b) (hbe : b < e) (he : e < labels.length)
    (hnb : ∀ m : ℕ, b < m → m < e → nb.test ((m : ℤ) + 1) m = .ok (adj m)) :
    ∃ r, fillFromRight labels nb b e label = .ok r ∧
      Overwritten labels r (fun n => b < n ∧ n ≤ e ∧ Chain adj n e) label := by
  obtain ⟨lo, hlo⟩ := Int.eq_ofNat_of_zero_le (by omega : 0 ≤ b + 1)
  obtain ⟨k, rfl⟩ : ∃ k, e = lo + k := ⟨e - lo, by omega⟩
  have hb' : b = (lo : ℤ) - 1 := by omega
  subst hb'
  obtain ⟨r, hr, hl, hv⟩ := fillRightLoop_spec nb label adj k lo labels he
    (fun m h1 h2 => hnb m (by omega) (by omega))
  refine ⟨r, ?_, hl, fun n hn => ?_⟩
  · simp only [fillFromRight]
    rw [if_neg (by rw [hsize]; simp), if_neg (by omega), if_neg (by omega)]
    have : (((lo + k : ℕ) : ℤ) - ((lo : ℤ) - 1 + 1)).toNat = k := by push_cast; omega
    rw [this]; exact hr
  · have hc : n ≤ lo + k → (Chain adj n (lo + k) ↔ ∀ m, n ≤ m → m < lo + k → adj m = true) := by
      intro h; simp only [Chain, min_eq_left h, max_eq_right h]
    rw [hv n]
    constructor
    · rintro ⟨h1, h2, h3⟩
      rw [if_pos ⟨by omega, h2, (hc h2).1 h3⟩]
    · intro h
      rw [if_neg]
      rintro ⟨h1, h2, h3⟩
      exact h ⟨by omega, h2, (hc h2).2 h3⟩

/-- C07, rejection. -/
theorem C07_fill_from_right_rejects (labels : List PointLabel) (nb : NeighborCheck) (b e : ℤ)
    (label : PointLabel) (hsize : nb.size = labels.length) (hbe : b < e)
    (hnb : ∀ m : ℤ, 0 ≤ m → b < m → m < e → m + 1 < labels.length →
      ∃ v, nb.test (m + 1) m = .ok v) (x : Err) :
    fillFromRight labels nb b e label = .error x ↔
      x = .invalidArgument ∧ (e ≥ labels.length ∨ b < -1) := by
  by_cases h1 : e ≥ labels.length
  · simp [fillFromRight, hsize, h1, eq_comm]
  by_cases h2 : b < -1
  · simp only [fillFromRight]
    rw [if_neg (by rw [hsize]; simp), if_neg h1, if_pos h2]
    simp [h2, eq_comm]
  simp only [h1, h2, or_self, and_false, iff_false]
  intro h
  obtain ⟨lo, hlo⟩ := Int.eq_ofNat_of_zero_le (by omega : 0 ≤ b + 1)
  obtain ⟨k, hk⟩ := Int.eq_ofNat_of_zero_le (by omega : 0 ≤ e - (b + 1))
  have he : e = ((lo + k : ℕ) : ℤ) := by push_cast; omega
  have hb' : b = (lo : ℤ) - 1 := by omega
  simp only [fillFromRight] at h
  rw [if_neg (by rw [hsize]; simp), if_neg h1, if_neg h2, hk] at h
  subst he hb'
  exact fillRightLoop_err nb label (fun _ => False) k lo labels (by omega)
    (fun m e' hm1 hm2 ht => by
      obtain ⟨v, hv⟩ := hnb m (by omega) (by omega) (by omega) (by omega)
      rw [hv] at ht; cases ht) x (by simpa using h)

/-- Specification: one position written, nothing else changed. -/
theorem overwritten_set (labels : List PointLabel) (m : ℕ) (label : PointLabel) :
    Overwritten labels (labels.set m label) (· = m) label := by
  refine ⟨List.length_set, fun n hn => ⟨?_, fun h => ?_⟩⟩
  · rintro rfl
    simp [hn]
  · rw [List.getElem?_set_ne (Ne.symm h)]

/-- C06: an empty interval `[b, e)` is not a no-op. The label is written just before `e`, which is
outside of the interval; only if there is nothing before `e` this fails. -/
theorem C06_empty_interval_writes_outside (labels : List PointLabel) (nb : NeighborCheck) (b e : ℤ)
    (label : PointLabel) (hsize : nb.size = labels.length) (hb : 0 ≤ b) (hbe : e ≤ b)
    (he : e ≤ labels.length) :
    (e ≤ 0 → fillFromLeft labels nb b e label = .error .outOfRange) ∧
    (0 < e → ∃ r, fillFromLeft labels nb b e label = .ok r ∧
      Overwritten labels r (fun n => (n : ℤ) = e - 1) label) := by
  have h0 : (e - 1 - b).toNat = 0 := by omega
  have heq : fillFromLeft labels nb b e label = setI labels (e - 1) label := by
    simp only [fillFromLeft, h0, fillLeftLoop]
    rw [if_neg (by omega), if_neg (by omega), if_neg (by omega)]
  rw [heq]
  refine ⟨fun h => if_neg (by omega), fun h => ⟨_, if_pos (by omega), ?_⟩⟩
  have : (fun n : ℕ => (n : ℤ) = e - 1) = (· = (e - 1).toNat) := by
    funext n
    exact propext ⟨fun h => by omega, fun h => by omega⟩
  rw [this]
  exact overwritten_set _ _ _

/-- C07: an empty interval `(b, e]` is not a no-op. The label is written just after `b`, which is
outside of the interval; only if there is nothing after `b` this fails. -/
theorem C07_empty_interval_writes_outside (labels : List PointLabel) (nb : NeighborCheck) (b e : ℤ)
    (label : PointLabel) (hsize : nb.size = labels.length) (hb : -1 ≤ b) (hbe : e ≤ b)
    (he : e < labels.length) :
    ((labels.length : ℤ) ≤ b + 1 → fillFromRight labels nb b e label = .error .outOfRange) ∧
    (b + 1 < labels.length → ∃ r, fillFromRight labels nb b e label = .ok r ∧
      Overwritten labels r (fun n => (n : ℤ) = b + 1) label) := by
  have h0 : (e - (b + 1)).toNat = 0 := by omega
  have heq : fillFromRight labels nb b e label = setI labels (b + 1) label := by
    simp only [fillFromRight, h0, fillRightLoop]
    rw [if_neg (by omega), if_neg (by omega), if_neg (by omega)]
  rw [heq]
  refine ⟨fun h => if_neg (by omega), fun h => ⟨_, if_pos (by omega), ?_⟩⟩
  have : (fun n : ℕ => (n : ℤ) = b + 1) = (· = (b + 1).toNat) := by
    funext n
    exact propext ⟨fun h => by omega, fun h => by omega⟩
  rw [this]
  exact overwritten_set _ _ _

example : fillFromLeft [.default, .default, .default] ⟨3, fun _ _ => .ok true⟩ 2 2 .edge =
    .ok [.default, .edge, .default] := by decide

example : fillFromRight [.default, .default, .default] ⟨3, fun _ _ => .ok true⟩ 1 1 .edge =
    .ok [.default, .default, .edge] := by decide

/-- Specification: `k` is at distance at most `padding` from `i` and chained to it. -/
def Linked (adj : ℕ → Bool) (padding i k : ℕ) : Prop :=
  i ≤ k + padding ∧ k ≤ i + padding ∧ Chain adj i k

/-- C08: for an index inside the ring and a neighbour test defined on consecutive points, marking
the neighbourhood never fails and relabels exactly the points linked to the index. -/
theorem C08_fill_neighbors (labels : List PointLabel) (nb : NeighborCheck) (adj : ℕ → Bool)
    (index padding : ℕ) (label : PointLabel) (hsize : nb.size = labels.length)
    (hi : index < labels.length)
    (hnb : ∀ m : ℕ, m + 1 < labels.length →
      nb.test m (m + 1) = .ok (adj m) ∧ nb.test ((m : ℤ) + 1) m = .ok (adj m)) :
    ∃ r, fillNeighbors labels nb index padding label = .ok r ∧
      Overwritten labels r (Linked adj padding index) label := by
  obtain ⟨r, hr, hl, hv⟩ := C07_fill_from_right labels nb adj
    (max (-1) ((index : ℤ) - padding - 1)) index label hsize (by omega) (by omega) hi
    (fun m h1 h2 => (hnb m (by omega)).2)
  obtain ⟨r', hr', hl', hv'⟩ := C06_fill_from_left r nb adj index
    (min (index + 1 + padding) labels.length) label (by rw [hsize, hl]) (by omega) (by omega)
    (fun m h1 h2 => (hnb m (by omega)).1)
  refine ⟨r', ?_, by omega, fun n hn => ?_⟩
  · simp only [fillNeighbors]
    rw [if_neg (by rw [hsize]; simp), hr]
    have : (min ((index : ℤ) + 1 + padding) (labels.length : ℤ)) =
      ((min (index + 1 + padding) labels.length : ℕ) : ℤ) := by push_cast; rfl
    simp only [bind, Except.bind, this]
    exact hr'
  · have hcomm : Chain adj n index ↔ Chain adj index n := by
      simp only [Chain, min_comm, max_comm]
    constructor
    · rintro ⟨h1, h2, h3⟩
      rcases Nat.le_total index n with h | h
      · exact (hv' n (by omega)).1 ⟨h, by omega, h3⟩
      · by_cases hin : index = n
        · exact (hv' n (by omega)).1 ⟨by omega, by omega, h3⟩
        · rw [(hv' n (by omega)).2 (by rintro ⟨h4, -⟩; omega)]
          exact (hv n hn).1 ⟨by omega, h, hcomm.2 h3⟩
    · intro h
      rw [(hv' n (by omega)).2 (fun h1 => h ⟨by omega, by omega, h1.2.2⟩),
        (hv n hn).2 (fun h1 => h ⟨by omega, by omega, hcomm.1 h1.2.2⟩)]

/-- C06–C08: a neighbour test for a ring of another size stops the program at the assertion, before
any label is written. -/
theorem C08_sizes_checked (labels : List PointLabel) (nb : NeighborCheck) (label : PointLabel)
    (hsize : nb.size ≠ labels.length) (b e index padding : ℤ) :
    fillFromLeft labels nb b e label = .error .assertFail ∧
    fillFromRight labels nb b e label = .error .assertFail ∧
    fillNeighbors labels nb index padding label = .error .assertFail := by
  have h : (labels.length : ℤ) ≠ nb.size := fun h => hsize h.symm
  simp only [fillFromLeft, fillFromRight, fillNeighbors, if_pos h, and_self]

/-! Non-vacuity: six points, the chain broken between positions 3 and 4. -/

/-- The example neighbour test: neighbours unless the pair is (3,4). -/
def exNb : NeighborCheck := ⟨6, fun i j => .ok (decide (min i j ≠ 3))⟩

example : fillFromLeft (List.replicate 6 .default) exNb 1 6 .occluded =
    .ok [.default, .occluded, .occluded, .occluded, .default, .default] := by decide
example : fillFromRight (List.replicate 6 .default) exNb 1 5 .occluded =
    .ok [.default, .default, .default, .default, .occluded, .occluded] := by decide
example : fillNeighbors (List.replicate 6 .default) exNb 2 2 .edgeNeighbor =
    .ok [.edgeNeighbor, .edgeNeighbor, .edgeNeighbor, .edgeNeighbor, .default, .default] := by
  decide
example : ∀ m : ℕ, m + 1 < 6 → exNb.test m (m + 1) = .ok (decide (m ≠ 3)) ∧
    exNb.test ((m : ℤ) + 1) m = .ok (decide (m ≠ 3)) := by
  intro m _
  have e1 : min (m : ℤ) (m + 1) = m := by omega
  have e2 : min ((m : ℤ) + 1) m = m := by omega
  simp only [exNb, e1, e2]
  constructor <;> congr 1 <;> simp <;> omega

end Verif.Extraction
