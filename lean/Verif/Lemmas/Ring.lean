/-
Lemmas on splitting a cloud into rings.
-/
import Mathlib.Data.List.Induction
import Verif.Model.Ring
import Mathlib.Data.List.Perm.Basic
import Mathlib.Data.List.Nodup

set_option autoImplicit false

namespace Verif.Extraction

variable {P : Type}

/-- The indices of the points of ring `r`, in input order. -/
def ringIndices (ringOf : P → ℤ) (cloud : List P) (r : ℤ) : List ℕ :=
  (List.range cloud.length).filter fun k => decide (cloud[k]?.map ringOf = some r)

theorem mem_ringIndices {ringOf : P → ℤ} {cloud : List P} {r : ℤ} {k : ℕ} :
    k ∈ ringIndices ringOf cloud r ↔ ∃ p, cloud[k]? = some p ∧ ringOf p = r := by
  simp only [ringIndices, List.mem_filter, List.mem_range, decide_eq_true_eq]
  constructor
  · rintro ⟨h1, h2⟩
    obtain ⟨p, hp, hr⟩ := Option.map_eq_some_iff.1 h2
    exact ⟨p, hp, hr⟩
  · rintro ⟨p, hp, hr⟩
    exact ⟨(List.getElem?_eq_some_iff.1 hp).1, by simp [hp, hr]⟩

theorem ringIndices_snoc (ringOf : P → ℤ) (pre : List P) (p : P) (r : ℤ) :
    ringIndices ringOf (pre ++ [p]) r =
      ringIndices ringOf pre r ++ (if ringOf p = r then [pre.length] else []) := by
  simp only [ringIndices, List.length_append, List.length_singleton, List.range_succ,
    List.filter_append]
  congr 1
  · apply List.filter_congr
    intro k hk
    rw [List.mem_range] at hk
    rw [List.getElem?_append_left hk]
  · simp [List.filter_cons]

theorem ringIndices_length (ringOf : P → ℤ) (cloud : List P) (r : ℤ) :
    (ringIndices ringOf cloud r).length = (cloud.filter fun q => ringOf q = r).length := by
  induction cloud using List.reverseRecOn with
  | nil => rfl
  | append_singleton pre p ih =>
    rw [ringIndices_snoc, List.length_append, ih, List.filter_append, List.length_append]
    congr 1
    by_cases h : ringOf p = r <;> simp [h]

theorem mem_keys_pushIndex {ring : ℤ} {i : ℕ} {k : ℤ} : ∀ {rings : Rings},
    k ∈ (pushIndex ring i rings).map Prod.fst ↔ k ∈ rings.map Prod.fst ∨ k = ring
  | [] => by simp [pushIndex]
  | (r, is) :: rest => by
    simp only [pushIndex]
    split_ifs with h
    · simp only [List.map_cons, List.mem_cons]
      constructor
      · rintro (h1 | h1)
        · exact Or.inl (Or.inl h1)
        · exact Or.inl (Or.inr h1)
      · rintro ((h1 | h1) | h1)
        · exact Or.inl h1
        · exact Or.inr h1
        · exact Or.inl (h1.trans h.symm)
    · simp only [List.map_cons, List.mem_cons, mem_keys_pushIndex (rings := rest), or_assoc]

theorem nodup_keys_pushIndex {ring : ℤ} {i : ℕ} : ∀ {rings : Rings},
    (rings.map Prod.fst).Nodup → ((pushIndex ring i rings).map Prod.fst).Nodup
  | [], _ => by simp [pushIndex]
  | (r, is) :: rest, h => by
    simp only [List.map_cons, List.nodup_cons] at h
    simp only [pushIndex]
    split_ifs with hr
    · simp only [List.map_cons, List.nodup_cons]; exact h
    · simp only [List.map_cons, List.nodup_cons, mem_keys_pushIndex, not_or]
      exact ⟨⟨h.1, hr⟩, nodup_keys_pushIndex h.2⟩

theorem mem_pushIndex {ring : ℤ} {i : ℕ} {r : ℤ} {is : List ℕ} : ∀ {rings : Rings},
    (rings.map Prod.fst).Nodup →
    ((r, is) ∈ pushIndex ring i rings ↔ (r ≠ ring ∧ (r, is) ∈ rings) ∨
      (r = ring ∧ ((∃ is0, (ring, is0) ∈ rings ∧ is = is0 ++ [i]) ∨
        (ring ∉ rings.map Prod.fst ∧ is = [i]))))
  | [], _ => by simp [pushIndex]
  | (r', is') :: rest, h => by
    simp only [List.map_cons, List.nodup_cons] at h
    have hnot : ∀ x, (r', x) ∉ rest := fun x hx =>
      h.1 (List.mem_map.2 ⟨_, hx, rfl⟩)
    simp only [pushIndex]
    split_ifs with hr
    · subst hr
      simp only [List.mem_cons, Prod.mk.injEq, List.map_cons, true_or, not_true_eq_false,
        false_and, or_false]
      constructor
      · rintro (⟨h1, h2⟩ | h1)
        · exact Or.inr ⟨h1, is', Or.inl ⟨trivial, rfl⟩, h2⟩
        · have hne : r ≠ r' := by rintro rfl; exact hnot _ h1
          exact Or.inl ⟨hne, Or.inr h1⟩
      · rintro (⟨h1, ⟨h2, -⟩ | h2⟩ | ⟨h1, is0, ⟨-, h2⟩ | h2, h3⟩)
        · exact absurd h2 h1
        · exact Or.inr h2
        · exact Or.inl ⟨h1, by rw [h3, h2]⟩
        · exact absurd h2 (hnot _)
    · simp only [List.mem_cons, mem_pushIndex h.2, Prod.mk.injEq, List.map_cons, not_or]
      constructor
      · rintro (⟨h1, h2⟩ | ⟨h1, h2⟩ | ⟨h1, ⟨is0, h2, h3⟩ | ⟨h2, h3⟩⟩)
        · exact Or.inl ⟨by rw [h1]; exact hr, Or.inl ⟨h1, h2⟩⟩
        · exact Or.inl ⟨h1, Or.inr h2⟩
        · exact Or.inr ⟨h1, Or.inl ⟨is0, Or.inr h2, h3⟩⟩
        · exact Or.inr ⟨h1, Or.inr ⟨⟨Ne.symm hr, h2⟩, h3⟩⟩
      · rintro (⟨h1, ⟨h2, h3⟩ | h2⟩ | ⟨h1, ⟨is0, ⟨h2, -⟩ | h2, h3⟩ | ⟨⟨h2, h3⟩, h4⟩⟩)
        · exact Or.inl ⟨h2, h3⟩
        · exact Or.inr (Or.inl ⟨h1, h2⟩)
        · exact absurd h2.symm hr
        · exact Or.inr (Or.inr ⟨h1, Or.inl ⟨is0, h2, h3⟩⟩)
        · exact Or.inr (Or.inr ⟨h1, Or.inr ⟨h3, h4⟩⟩)

/-- The rings of the part of the cloud seen so far. -/
structure RingsInv (ringOf : P → ℤ) (pre : List P) (rings : Rings) : Prop where
  keys : (rings.map Prod.fst).Nodup
  mem : ∀ r is, (r, is) ∈ rings ↔ is ≠ [] ∧ is = ringIndices ringOf pre r

theorem RingsInv.step {ringOf : P → ℤ} {pre : List P} {rings : Rings}
    (h : RingsInv ringOf pre rings) (p : P) :
    RingsInv ringOf (pre ++ [p]) (pushIndex (ringOf p) pre.length rings) := by
  refine ⟨nodup_keys_pushIndex h.keys, fun r is => ?_⟩
  have hkey : ringOf p ∉ rings.map Prod.fst ↔ ringIndices ringOf pre (ringOf p) = [] := by
    constructor
    · intro hn
      by_contra hc
      exact hn (List.mem_map.2 ⟨(ringOf p, _), (h.mem _ _).2 ⟨hc, rfl⟩, rfl⟩)
    · intro he hm
      obtain ⟨⟨r', is'⟩, h1, h2⟩ := List.mem_map.1 hm
      simp only at h2
      subst h2
      obtain ⟨h3, h4⟩ := (h.mem _ _).1 h1
      exact h3 (h4.trans he)
  rw [mem_pushIndex h.keys, hkey, ringIndices_snoc]
  by_cases hr : ringOf p = r
  · subst hr
    simp only [ne_eq, not_true_eq_false, false_and, true_and, false_or, if_true, h.mem]
    constructor
    · rintro (⟨is0, ⟨h1, h2⟩, h3⟩ | ⟨h1, h2⟩)
      · exact ⟨by simp [h3], by rw [h3, h2]⟩
      · exact ⟨by simp [h2], by rw [h2, h1]; rfl⟩
    · rintro ⟨h1, h2⟩
      by_cases he : ringIndices ringOf pre (ringOf p) = []
      · exact Or.inr ⟨he, by rw [h2, he]; rfl⟩
      · exact Or.inl ⟨_, ⟨he, rfl⟩, h2⟩
  · have hr' : r ≠ ringOf p := fun hc => hr hc.symm
    simp [hr, hr', h.mem]

theorem makePointIndicesLoop_inv {ringOf : P → ℤ} : ∀ (ps pre : List P) (rings : Rings),
    RingsInv ringOf pre rings →
    RingsInv ringOf (pre ++ ps) (makePointIndicesLoop ringOf ps pre.length rings)
  | [], pre, rings, h => by simpa [makePointIndicesLoop] using h
  | p :: ps, pre, rings, h => by
    have := makePointIndicesLoop_inv ps (pre ++ [p]) _ (h.step p)
    simpa [makePointIndicesLoop] using this

theorem makePointIndices_inv (ringOf : P → ℤ) (cloud : List P) :
    RingsInv ringOf cloud (makePointIndices ringOf cloud) := by
  have := makePointIndicesLoop_inv (ringOf := ringOf) cloud [] [] ⟨by simp, fun r is => by
    simp [ringIndices]⟩
  simpa [makePointIndices] using this

/-- Success of `sortEachRingByAngle`, ring by ring. -/
theorem sortEach_ok {sort : (ℕ → ℕ → Bool) → List ℕ → List ℕ} {less : P → P → Bool}
    {cloud : List P} : ∀ {rings out : Rings}, sortEachRingByAngle sort less cloud rings = .ok out →
    out = rings.map (fun ri => (ri.1, sort (lessIndex less cloud) ri.2)) ∧
    ∀ ri ∈ rings, StrictWeakOn (lessIndex less cloud) ri.2 ∧ ∀ i ∈ ri.2, i < cloud.length
  | [], out, h => by
    simp only [sortEachRingByAngle, List.mapM_nil, pure, Except.pure] at h
    injection h with h; subst h; simp
  | ri :: rings, out, h => by
    simp only [sortEachRingByAngle, List.mapM_cons, bind, Except.bind, sortByAtan2] at h
    by_cases h1 : ∀ i ∈ ri.2, i < cloud.length
    · by_cases h2 : StrictWeakOn (lessIndex less cloud) ri.2
      · simp only [if_neg (not_not.2 h1), if_pos h2, pure, Except.pure] at h
        cases h3 : sortEachRingByAngle sort less cloud rings with
        | error e =>
          simp only [sortEachRingByAngle, sortByAtan2, bind, Except.bind, pure, Except.pure] at h3
          rw [h3] at h; cases h
        | ok o =>
          have hh := h3
          simp only [sortEachRingByAngle, sortByAtan2, bind, Except.bind, pure, Except.pure] at hh
          rw [hh] at h
          injection h with h
          subst h
          obtain ⟨h4, h5⟩ := sortEach_ok h3
          refine ⟨by rw [h4]; rfl, ?_⟩
          intro x hx
          rcases List.mem_cons.1 hx with rfl | hx
          · exact ⟨h2, h1⟩
          · exact h5 x hx
      · simp only [if_neg (not_not.2 h1), if_neg h2] at h; cases h
    · simp only [if_pos h1] at h; cases h

theorem sortEach_total {sort : (ℕ → ℕ → Bool) → List ℕ → List ℕ} {less : P → P → Bool}
    {cloud : List P} : ∀ {rings : Rings},
    (∀ ri ∈ rings, StrictWeakOn (lessIndex less cloud) ri.2 ∧ ∀ i ∈ ri.2, i < cloud.length) →
    ∃ out, sortEachRingByAngle sort less cloud rings = .ok out
  | [], _ => ⟨[], rfl⟩
  | ri :: rings, h => by
    obtain ⟨o, ho⟩ := sortEach_total (sort := sort) (fun x hx => h x (List.mem_cons_of_mem _ hx))
    obtain ⟨h1, h2⟩ := h ri List.mem_cons_self
    refine ⟨(ri.1, sort (lessIndex less cloud) ri.2) :: o, ?_⟩
    simp only [sortEachRingByAngle, sortByAtan2, bind, Except.bind, pure, Except.pure] at ho
    simp only [sortEachRingByAngle, List.mapM_cons, sortByAtan2, if_neg (not_not.2 h2), if_pos h1,
      bind, Except.bind, pure, Except.pure, ho]

end Verif.Extraction
