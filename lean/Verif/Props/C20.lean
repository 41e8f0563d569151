/-
C20: rings partition the cloud and are sorted by angle.
-/
import Verif.Lemmas.Ring
import Verif.Props.C21
import Mathlib.Data.List.Sort

set_option autoImplicit false

namespace Verif.Extraction

variable {P : Type}

/-- What the standard promises of `std::sort` when the comparator is a strict weak order on the
elements: a permutation without inversions, equivalent elements in any order. -/
def IsSort (sort : (ℕ → ℕ → Bool) → List ℕ → List ℕ) : Prop :=
  ∀ lt l, StrictWeakOn lt l → (sort lt l).Perm l ∧ (sort lt l).Pairwise fun a b => lt b a = false

/-- Specification: the rings split the cloud. Ring numbers are distinct, no ring is empty or has a
repeated index, ring `r` holds exactly the indices of the points with ring field `r`, and every
point of the cloud is in some ring. -/
structure PartitionsCloud (ringOf : P → ℤ) (cloud : List P) (rings : Rings) : Prop where
  keys : (rings.map Prod.fst).Nodup
  nonempty : ∀ r idx, (r, idx) ∈ rings → idx ≠ []
  nodup : ∀ r idx, (r, idx) ∈ rings → idx.Nodup
  mem : ∀ r idx, (r, idx) ∈ rings → ∀ i : ℕ, i ∈ idx ↔ ∃ p, cloud[i]? = some p ∧ ringOf p = r
  cover : ∀ (i : ℕ) p, cloud[i]? = some p → ∃ idx, (ringOf p, idx) ∈ rings

theorem RingsInv.partitions {ringOf : P → ℤ} {cloud : List P} {rings : Rings}
    (h : RingsInv ringOf cloud rings) : PartitionsCloud ringOf cloud rings where
  keys := h.keys
  nonempty r idx hm := ((h.mem r idx).1 hm).1
  nodup r idx hm := by
    rw [((h.mem r idx).1 hm).2]; exact List.nodup_range.filter _
  mem r idx hm i := by rw [((h.mem r idx).1 hm).2]; exact mem_ringIndices
  cover i p hp := ⟨ringIndices ringOf cloud (ringOf p), (h.mem _ _).2
    ⟨List.ne_nil_of_mem (mem_ringIndices.2 ⟨p, hp, rfl⟩), rfl⟩⟩

/-- C20, splitting: before sorting, the rings partition the cloud, for all clouds. -/
theorem C20_split_partitions (ringOf : P → ℤ) (cloud : List P) :
    PartitionsCloud ringOf cloud (makePointIndices ringOf cloud) :=
  (makePointIndices_inv ringOf cloud).partitions

/-- C20, splitting and sorting, for every comparator: if the result is defined, the rings partition
the cloud and each is without inversions. -/
theorem C20_rings_sorted {sort : (ℕ → ℕ → Bool) → List ℕ → List ℕ} (hs : IsSort sort)
    (less : P → P → Bool) (ringOf : P → ℤ) (cloud : List P) (rings : Rings)
    (h : extractAngleSortedRings sort less ringOf cloud = .ok rings) :
    PartitionsCloud ringOf cloud rings ∧
    ∀ r idx, (r, idx) ∈ rings → idx.Pairwise fun i j =>
      ∀ a b, cloud[i]? = some a → cloud[j]? = some b → less b a = false := by
  obtain ⟨rfl, h2⟩ := sortEach_ok h
  have hp := C20_split_partitions ringOf cloud
  have hmem : ∀ r idx, (r, idx) ∈ (makePointIndices ringOf cloud).map
      (fun ri => (ri.1, sort (lessIndex less cloud) ri.2)) → ∃ idx0,
      (r, idx0) ∈ makePointIndices ringOf cloud ∧ idx.Perm idx0 ∧
      idx.Pairwise fun i j => lessIndex less cloud j i = false := by
    intro r idx hm
    obtain ⟨⟨r', idx0⟩, h3, h4⟩ := List.mem_map.1 hm
    simp only [Prod.mk.injEq] at h4
    obtain ⟨rfl, rfl⟩ := h4
    obtain ⟨h5, h6⟩ := hs _ _ (h2 _ h3).1
    exact ⟨idx0, h3, h5, h6⟩
  refine ⟨⟨?_, ?_, ?_, ?_, ?_⟩, ?_⟩
  · rw [List.map_map]; exact hp.keys
  · intro r idx hm hnil
    obtain ⟨idx0, h3, h4, -⟩ := hmem r idx hm
    subst hnil
    exact hp.nonempty r idx0 h3 (List.nil_perm.1 h4)
  · intro r idx hm
    obtain ⟨idx0, h3, h4, -⟩ := hmem r idx hm
    exact h4.nodup_iff.2 (hp.nodup r idx0 h3)
  · intro r idx hm i
    obtain ⟨idx0, h3, h4, -⟩ := hmem r idx hm
    rw [h4.mem_iff]; exact hp.mem r idx0 h3 i
  · intro i p hi
    obtain ⟨idx0, h3⟩ := hp.cover i p hi
    exact ⟨_, List.mem_map.2 ⟨_, h3, rfl⟩⟩
  · intro r idx hm
    obtain ⟨idx0, h3, h4, h5⟩ := hmem r idx hm
    refine h5.imp ?_
    intro i j hij a b ha hb
    simpa [lessIndex, ha, hb] using hij

/-- C20, domain: with the comparator of the code, splitting and sorting is defined exactly for the
clouds no ring of which has two different points on the positive x half-axis; on all others the
behaviour is undefined. -/
theorem C20_rings_defined_partial {sort : (ℕ → ℕ → Bool) → List ℕ → List ℕ}
    (cloud : List (PointXYZIR ℝ)) :
    ((∃ rings, extractAngleSortedRings sort lessAngle PointXYZIR.ring cloud = .ok rings) ↔
      ∀ a ∈ cloud, ∀ b ∈ cloud, a.ring = b.ring → ¬ SamePositiveAxis a b) ∧
    ∀ e, extractAngleSortedRings sort lessAngle PointXYZIR.ring cloud = .error e →
      e = .undefinedBehaviour := by
  have hp := C20_split_partitions PointXYZIR.ring cloud
  have hlt : ∀ ri ∈ makePointIndices PointXYZIR.ring cloud, ∀ i ∈ ri.2, i < cloud.length := by
    intro ri hri i hi
    obtain ⟨p, h1, -⟩ := (hp.mem ri.1 ri.2 hri i).1 hi
    exact (List.getElem?_eq_some_iff.1 h1).1
  have hiff : (∀ ri ∈ makePointIndices PointXYZIR.ring cloud,
      StrictWeakOn (lessIndex lessAngle cloud) ri.2) ↔
      ∀ a ∈ cloud, ∀ b ∈ cloud, a.ring = b.ring → ¬ SamePositiveAxis a b := by
    constructor
    · intro h a ha b hb hab
      obtain ⟨i, hi⟩ := List.mem_iff_getElem?.1 ha
      obtain ⟨j, hj⟩ := List.mem_iff_getElem?.1 hb
      obtain ⟨idx, hidx⟩ := hp.cover i a hi
      exact (C21_strict_weak_partial cloud idx (hlt _ hidx)).1 (h _ hidx) i
        ((hp.mem _ _ hidx i).2 ⟨a, hi, rfl⟩) j ((hp.mem _ _ hidx j).2 ⟨b, hj, hab.symm⟩) a b hi hj
    · intro h ri hri
      rw [C21_strict_weak_partial cloud ri.2 (hlt _ hri)]
      intro i hi j hj a b ha hb
      obtain ⟨a', h1, h2⟩ := (hp.mem ri.1 ri.2 hri i).1 hi
      obtain ⟨b', h3, h4⟩ := (hp.mem ri.1 ri.2 hri j).1 hj
      rw [ha] at h1; injection h1 with h1; subst h1
      rw [hb] at h3; injection h3 with h3; subst h3
      exact h a (List.mem_of_getElem? ha) b (List.mem_of_getElem? hb) (h2.trans h4.symm)
  constructor
  · rw [← hiff]
    constructor
    · rintro ⟨rings, h⟩ ri hri
      exact ((sortEach_ok h).2 ri hri).1
    · intro h
      exact sortEach_total (fun ri hri => ⟨h ri hri, hlt ri hri⟩)
  · intro e he
    have : ∀ (rings : Rings), (∀ ri ∈ rings, ∀ i ∈ ri.2, i < cloud.length) →
        sortEachRingByAngle sort lessAngle cloud rings = .error e → e = .undefinedBehaviour := by
      intro rings
      induction rings with
      | nil => intro _ h; cases h
      | cons ri rings ih =>
        intro hl h
        simp only [sortEachRingByAngle, List.mapM_cons, sortByAtan2,
          if_neg (not_not.2 (hl ri List.mem_cons_self)), bind, Except.bind, pure, Except.pure] at h
        have ih' := ih (fun x hx => hl x (List.mem_cons_of_mem _ hx))
        simp only [sortEachRingByAngle, sortByAtan2, bind, Except.bind, pure, Except.pure] at ih'
        by_cases hsw : StrictWeakOn (lessIndex lessAngle cloud) ri.2
        · simp only [if_pos hsw] at h
          split at h
          · rename_i heq; exact ih' (by rw [heq]; exact h)
          · cases h
        · simp only [if_neg hsw] at h
          injection h with h; exact h.symm
    exact this _ hlt he

/-- C20, violation: there are clouds for which splitting and sorting has undefined behaviour,
whatever `std::sort` does. -/
theorem C20_rings_defined_violated (sort : (ℕ → ℕ → Bool) → List ℕ → List ℕ) :
    extractAngleSortedRings sort lessAngle PointXYZIR.ring
      [(⟨1, 0, 0, 7⟩ : PointXYZIR ℝ), ⟨2, 0, 0, 7⟩] = .error .undefinedBehaviour := by
  obtain ⟨h1, h2⟩ := C20_rings_defined_partial (sort := sort)
    [(⟨1, 0, 0, 7⟩ : PointXYZIR ℝ), ⟨2, 0, 0, 7⟩]
  cases h : extractAngleSortedRings sort lessAngle PointXYZIR.ring
      [(⟨1, 0, 0, 7⟩ : PointXYZIR ℝ), ⟨2, 0, 0, 7⟩] with
  | error e => rw [h2 e h]
  | ok r =>
    exact absurd ⟨rfl, rfl, by norm_num, by norm_num, by norm_num⟩
      (h1.1 ⟨r, h⟩ ⟨1, 0, 0, 7⟩ (by simp) ⟨2, 0, 0, 7⟩ (by simp) rfl)

/-- C20, angle: in each ring the polar angles `atan2(y, x)` do not decrease. -/
theorem C20_angles_nondecreasing_partial {sort : (ℕ → ℕ → Bool) → List ℕ → List ℕ}
    (hs : IsSort sort) (cloud : List (PointXYZIR ℝ)) (rings : Rings)
    (h : extractAngleSortedRings sort lessAngle PointXYZIR.ring cloud = .ok rings) :
    PartitionsCloud PointXYZIR.ring cloud rings ∧
    ∀ r idx, (r, idx) ∈ rings → idx.Pairwise fun i j =>
      ∀ a b, cloud[i]? = some a → cloud[j]? = some b → atan2 a ≤ atan2 b := by
  obtain ⟨h1, h2⟩ := C20_rings_sorted hs lessAngle PointXYZIR.ring cloud rings h
  refine ⟨h1, fun r idx hm => (List.Pairwise.imp_of_mem ?_ (h2 r idx hm))⟩
  intro i j hi hj hij a b ha hb
  have hax := (C20_rings_defined_partial (sort := sort) cloud).1.1 ⟨rings, h⟩
  obtain ⟨a', ha1, ha2⟩ := (h1.mem r idx hm i).1 hi
  obtain ⟨b', hb1, hb2⟩ := (h1.mem r idx hm j).1 hj
  rw [ha] at ha1; injection ha1 with ha1; subst ha1
  rw [hb] at hb1; injection hb1 with hb1; subst hb1
  have hns := hax b (List.mem_of_getElem? hb) a (List.mem_of_getElem? ha) (hb2.trans ha2.symm)
  have := hij a b ha hb
  rw [← Bool.not_eq_true, C21_comparator_partial b a hns, not_lt] at this
  exact this

/-- C20, sparse rings: exactly the rings with at least `n` points stay, unchanged and in order. -/
theorem C20_remove_sparse (rings : Rings) (n : ℤ) :
    (removeSparseRings rings n).Sublist rings ∧
    ∀ r idx, (r, idx) ∈ removeSparseRings rings n ↔ (r, idx) ∈ rings ∧ n ≤ idx.length := by
  refine ⟨List.filter_sublist, fun r idx => ?_⟩
  simp [removeSparseRings, List.mem_filter]

/-! Non-vacuity: a concrete `std::sort` and a concrete cloud. -/

/-- Insertion sort on the elements of the list. -/
def exSort (lt : ℕ → ℕ → Bool) (l : List ℕ) : List ℕ :=
  (l.attach.insertionSort fun a b => lt b.1 a.1 = false).map Subtype.val

theorem exSort_isSort : IsSort exSort := by
  intro lt l ⟨h1, h2, h3⟩
  constructor
  · have := (List.perm_insertionSort (fun a b : {x // x ∈ l} => lt b.1 a.1 = false) l.attach).map Subtype.val
    rwa [List.attach_map_subtype_val] at this
  · have hasym : ∀ a ∈ l, ∀ b ∈ l, lt a b = true → lt b a = false := by
      intro a ha b hb hab
      by_contra hc
      rw [Bool.not_eq_false] at hc
      have := h2 a ha b hb a ha hab hc
      rw [h1 a ha] at this; cases this
    have : IsTrans {x // x ∈ l} (fun a b => lt b.1 a.1 = false) := ⟨by
      rintro ⟨a, ha⟩ ⟨b, hb⟩ ⟨c, hc⟩ hab hbc
      simp only at hab hbc ⊢
      by_contra hca
      rw [Bool.not_eq_false] at hca
      -- c < a, not b < a, not c < b
      by_cases hab' : lt a b = true
      · have := h2 c hc a ha b hb hca hab'
        rw [hbc] at this; cases this
      · rw [Bool.not_eq_true] at hab'
        by_cases hbc' : lt b c = true
        · have := h2 b hb c hc a ha hbc' hca
          rw [hab] at this; cases this
        · rw [Bool.not_eq_true] at hbc'
          have := (h3 a ha b hb c hc hab' hab hbc' hbc).2
          rw [hca] at this; cases this⟩
    have : Std.Total (fun a b : {x // x ∈ l} => lt b.1 a.1 = false) := ⟨by
      rintro ⟨a, ha⟩ ⟨b, hb⟩
      by_cases hba : lt b a = true
      · exact Or.inr (hasym b hb a ha hba)
      · rw [Bool.not_eq_true] at hba; exact Or.inl hba⟩
    rw [exSort, List.pairwise_map]
    exact List.pairwise_insertionSort _ _

/-- Example cloud over ℚ: two rings, interleaved, unsorted. -/
def exCloud20 : List (PointXYZIR ℚ) :=
  [⟨0, 1, 0, 3⟩, ⟨0, -1, 0, 5⟩, ⟨1, 0, 0, 3⟩, ⟨-1, 0, 0, 5⟩, ⟨0, -2, 0, 3⟩]

example : makePointIndices PointXYZIR.ring exCloud20 = [(3, [0, 2, 4]), (5, [1, 3])] := by
  decide +kernel
example : (makePointIndices PointXYZIR.ring exCloud20).all (fun ri =>
    decide (StrictWeakOn (lessIndex lessAngle exCloud20) ri.2)) = true := by decide +kernel
example : removeSparseRings [(3, [4, 2, 0]), (5, [1, 3])] 3 = [(3, [4, 2, 0])] := by decide

end Verif.Extraction
