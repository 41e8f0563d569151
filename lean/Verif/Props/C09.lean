/-
C09, C10, C11, C12: edge and surface labelling.
-/
import Verif.Lemmas.Label
import Mathlib.Order.Defs.LinearOrder
import Mathlib.Data.Rat.Defs
import Mathlib.Algebra.Order.Ring.Rat

set_option autoImplicit false

namespace Verif.Extraction

open PointLabel

variable {K : Type} [LinearOrder K]

/-- What the standard promises of `std::sort` on the indices, compared by value: a permutation of
all indices in non-decreasing order of value, ties in any order. -/
def IsArgsort (argsort : List K → List ℕ) : Prop :=
  ∀ l, (argsort l).Perm (List.range l.length) ∧
    (argsort l).Pairwise fun i j => ∀ a b, l[i]? = some a → l[j]? = some b → a ≤ b

/-- Specification of the data a labelling pass works on: `n` points with curvature, and the
symmetric relation `adj m` "point `m` and point `m+1` are neighbours". -/
structure PassInput (labels : List PointLabel) (curvature : List K) (nb : NeighborCheck)
    (adj : ℕ → Bool) : Prop where
  curvature_length : curvature.length = labels.length
  nb_size : nb.size = labels.length
  nb_test : ∀ m : ℕ, m + 1 < labels.length →
    nb.test m (m + 1) = .ok (adj m) ∧ nb.test ((m : ℤ) + 1) m = .ok (adj m)

/-- The selection of the edge pass. -/
def edgeSel (threshold : K) (curvature : List K) (i : ℕ) : Bool :=
  match curvature[i]? with
  | some c => decide (threshold ≤ c)
  | none => false

/-- The selection of the surface pass. -/
def surfaceSel (threshold : K) (curvature : List K) (i : ℕ) : Bool :=
  match curvature[i]? with
  | some c => decide (c ≤ threshold)
  | none => false

theorem edgeSel_iff {threshold : K} {curvature : List K} {i : ℕ} :
    edgeSel threshold curvature i = true ↔ ∃ c, curvature[i]? = some c ∧ threshold ≤ c := by
  unfold edgeSel
  cases h : curvature[i]? <;> simp

theorem surfaceSel_iff {threshold : K} {curvature : List K} {i : ℕ} :
    surfaceSel threshold curvature i = true ↔ ∃ c, curvature[i]? = some c ∧ c ≤ threshold := by
  unfold surfaceSel
  cases h : curvature[i]? <;> simp

theorem edgeStep_eq {padding : ℤ} {threshold : K} {curvature : List K} {nb : NeighborCheck}
    {labels : List PointLabel} {i : ℕ} (hi : i < curvature.length) :
    edgeStep padding threshold curvature nb labels i =
      passStep .edge .edgeNeighbor (edgeSel threshold curvature) padding nb labels i := by
  simp only [edgeStep, passStep, atI_ok hi, edgeSel, List.getElem?_eq_getElem hi]
  congr 1; funext l
  by_cases h : threshold ≤ curvature[i] <;> simp [h, bind, Except.bind]

theorem surfaceStep_eq {padding : ℤ} {threshold : K} {curvature : List K} {nb : NeighborCheck}
    {labels : List PointLabel} {i : ℕ} (hi : i < curvature.length) :
    surfaceStep padding threshold curvature nb labels i =
      passStep .surface .surfaceNeighbor (surfaceSel threshold curvature) padding nb labels i := by
  simp only [surfaceStep, passStep, atI_ok hi, surfaceSel, List.getElem?_eq_getElem hi]
  congr 1; funext l
  by_cases h : curvature[i] ≤ threshold <;> simp [h, bind, Except.bind]

theorem foldlM_congr {α β : Type} {f g : β → α → Res β} :
    ∀ (l : List α) (b : β), (∀ x ∈ l, ∀ b, f b x = g b x) → l.foldlM f b = l.foldlM g b
  | [], _, _ => rfl
  | x :: l, b, h => by
    rw [List.foldlM_cons, List.foldlM_cons, h x (by simp)]
    congr 1; funext b'
    exact foldlM_congr l b' (fun y hy => h y (by simp [hy]))

/-- Everything the edge pass guarantees. -/
theorem edgeAssign_inv {argsort : List K → List ℕ} (hs : IsArgsort argsort) (padding : ℕ)
    (threshold : K) {labels : List PointLabel} {curvature : List K} {nb : NeighborCheck}
    {adj : ℕ → Bool} (hin : PassInput labels curvature nb adj)
    (h0 : ∀ k : ℕ, labels[k]? ≠ some .edge) :
    ∃ r, edgeAssign argsort padding threshold labels curvature nb = .ok r ∧
      PassInv .edge .edgeNeighbor (edgeSel threshold curvature) adj padding
        (fun i j => ∀ a b, curvature[i]? = some a → curvature[j]? = some b → b ≤ a)
        labels (argsort curvature).reverse r := by
  obtain ⟨hperm, hpw⟩ := hs curvature
  have hmem : ∀ i ∈ (argsort curvature).reverse, i < labels.length := by
    intro i hi
    rw [List.mem_reverse, hperm.mem_iff, List.mem_range, hin.curvature_length] at hi
    exact hi
  simp only [edgeAssign]
  rw [if_neg (by simp [hin.curvature_length]), if_neg (by simp [hin.nb_size]),
    foldlM_congr _ _ (fun i hi b => edgeStep_eq (by rw [hin.curvature_length]; exact hmem i hi))]
  apply pass_spec (by decide) (by decide) (by decide) h0 ⟨hin.nb_size, hin.nb_test⟩ hmem
  rw [List.pairwise_reverse]
  exact hpw.imp (fun {i j} h a b ha hb => h b a hb ha)

/-- Everything the surface pass guarantees. -/
theorem surfaceAssign_inv {argsort : List K → List ℕ} (hs : IsArgsort argsort) (padding : ℕ)
    (threshold : K) {labels : List PointLabel} {curvature : List K} {nb : NeighborCheck}
    {adj : ℕ → Bool} (hin : PassInput labels curvature nb adj) (hne : labels ≠ [])
    (h0 : ∀ k : ℕ, labels[k]? ≠ some .surface) :
    ∃ r, surfaceAssign argsort padding threshold labels curvature nb = .ok r ∧
      PassInv .surface .surfaceNeighbor (surfaceSel threshold curvature) adj padding
        (fun i j => ∀ a b, curvature[i]? = some a → curvature[j]? = some b → a ≤ b)
        labels (argsort curvature) r := by
  obtain ⟨hperm, hpw⟩ := hs curvature
  have hmem : ∀ i ∈ argsort curvature, i < labels.length := by
    intro i hi
    rw [hperm.mem_iff, List.mem_range, hin.curvature_length] at hi
    exact hi
  simp only [surfaceAssign]
  rw [if_neg (by rw [hin.nb_size]; simpa using hne),
    foldlM_congr _ _ (fun i hi b => surfaceStep_eq (by rw [hin.curvature_length]; exact hmem i hi))]
  exact pass_spec (by decide) (by decide) (by decide) h0 ⟨hin.nb_size, hin.nb_test⟩ hmem hpw

/-- C09: after edge labelling of a ring without `Edge` labels, every `Edge` point was unlabelled
and has curvature at least the threshold, and no two `Edge` points are linked. The pass never
fails. -/
theorem C09_edges_strong_and_separated {argsort : List K → List ℕ} (hs : IsArgsort argsort)
    (padding : ℕ) (threshold : K) (labels : List PointLabel) (curvature : List K)
    (nb : NeighborCheck) (adj : ℕ → Bool) (hin : PassInput labels curvature nb adj)
    (h0 : ∀ k : ℕ, labels[k]? ≠ some .edge) :
    ∃ r, edgeAssign argsort padding threshold labels curvature nb = .ok r ∧
      r.length = labels.length ∧
      (∀ k : ℕ, r[k]? = some .edge → labels[k]? = some .default ∧
        ∃ c, curvature[k]? = some c ∧ threshold ≤ c) ∧
      (∀ i j : ℕ, r[i]? = some .edge → r[j]? = some .edge → i ≠ j →
        ¬ Linked adj padding i j) := by
  obtain ⟨r, hr, hinv⟩ := edgeAssign_inv hs padding threshold hin h0
  refine ⟨r, hr, hinv.len, fun k hk => ?_, fun i j hi hj hij hl => ?_⟩
  · obtain ⟨h1, h2, -⟩ := hinv.marked k hk
    exact ⟨h1, edgeSel_iff.1 h2⟩
  · have hjl : j < r.length := by
      by_contra hge
      rw [List.getElem?_eq_none (by omega)] at hj; cases hj
    have := hinv.around i j hi hl (fun h => hij h.symm) hjl
    rw [hj] at this; cases this

/-- C10: suppression is justified. A strong unlabelled point becomes `Edge` or is linked to an
`Edge` point at least as strong; every new `EdgeNeighbor` is linked to an `Edge` point; all other
labels are kept. -/
theorem C10_suppression_justified {argsort : List K → List ℕ} (hs : IsArgsort argsort)
    (padding : ℕ) (threshold : K) (labels : List PointLabel) (curvature : List K)
    (nb : NeighborCheck) (adj : ℕ → Bool) (hin : PassInput labels curvature nb adj)
    (h0 : ∀ k : ℕ, labels[k]? ≠ some .edge) :
    ∃ r, edgeAssign argsort padding threshold labels curvature nb = .ok r ∧
      (∀ (k : ℕ) (c : K), labels[k]? = some .default → curvature[k]? = some c → threshold ≤ c →
        r[k]? = some .edge ∨
        ∃ (m : ℕ) (c' : K), r[m]? = some .edge ∧ Linked adj padding m k ∧
          curvature[m]? = some c' ∧ c ≤ c') ∧
      (∀ k : ℕ, r[k]? = some .edgeNeighbor → labels[k]? ≠ some .edgeNeighbor →
        ∃ m : ℕ, r[m]? = some .edge ∧ Linked adj padding m k) ∧
      (∀ k : ℕ, r[k]? ≠ some .edge → r[k]? ≠ some .edgeNeighbor → r[k]? = labels[k]?) := by
  obtain ⟨r, hr, hinv⟩ := edgeAssign_inv hs padding threshold hin h0
  refine ⟨r, hr, fun k c hk hc ht => ?_, fun k hk hne => ?_, hinv.frame⟩
  · have hmem : k ∈ (argsort curvature).reverse := by
      rw [List.mem_reverse, (hs curvature).1.mem_iff, List.mem_range]
      by_contra hge
      rw [List.getElem?_eq_none (by omega)] at hc; cases hc
    rcases hinv.complete k hmem hk (edgeSel_iff.2 ⟨c, hc, ht⟩) with h | ⟨m, h1, h2, h3⟩
    · exact Or.inl h
    · obtain ⟨c', hc', -⟩ := edgeSel_iff.1 (hinv.marked m h1).2.1
      exact Or.inr ⟨m, c', h1, h2, hc', h3 c' c hc' hc⟩
  · rcases hinv.nmarked k hk with h | h
    · exact absurd h hne
    · exact h

/-- C11: after surface labelling, every `Surface` point was unlabelled and is flat, no two are
linked, every flat unlabelled point becomes `Surface` or is linked to a `Surface` point at least as
flat, and every point still unlabelled has curvature above the threshold. -/
theorem C11_surfaces_flat_separated_complete {argsort : List K → List ℕ} (hs : IsArgsort argsort)
    (padding : ℕ) (threshold : K) (labels : List PointLabel) (curvature : List K)
    (nb : NeighborCheck) (adj : ℕ → Bool) (hin : PassInput labels curvature nb adj)
    (hne : labels ≠ []) (h0 : ∀ k : ℕ, labels[k]? ≠ some .surface) :
    ∃ r, surfaceAssign argsort padding threshold labels curvature nb = .ok r ∧
      r.length = labels.length ∧
      (∀ k : ℕ, r[k]? = some .surface → labels[k]? = some .default ∧
        ∃ c, curvature[k]? = some c ∧ c ≤ threshold) ∧
      (∀ i j : ℕ, r[i]? = some .surface → r[j]? = some .surface → i ≠ j →
        ¬ Linked adj padding i j) ∧
      (∀ (k : ℕ) (c : K), labels[k]? = some .default → curvature[k]? = some c → c ≤ threshold →
        r[k]? = some .surface ∨
        ∃ (m : ℕ) (c' : K), r[m]? = some .surface ∧ Linked adj padding m k ∧
          curvature[m]? = some c' ∧ c' ≤ c) ∧
      (∀ (k : ℕ) (c : K), r[k]? = some .default → curvature[k]? = some c → threshold < c) ∧
      (∀ k : ℕ, r[k]? = some .surfaceNeighbor → labels[k]? ≠ some .surfaceNeighbor →
        ∃ m : ℕ, r[m]? = some .surface ∧ Linked adj padding m k) ∧
      (∀ k : ℕ, r[k]? ≠ some .surface → r[k]? ≠ some .surfaceNeighbor → r[k]? = labels[k]?) := by
  obtain ⟨r, hr, hinv⟩ := surfaceAssign_inv hs padding threshold hin hne h0
  have hmem : ∀ (k : ℕ) (c : K), curvature[k]? = some c → k ∈ argsort curvature := by
    intro k c hc
    rw [(hs curvature).1.mem_iff, List.mem_range]
    by_contra hge
    rw [List.getElem?_eq_none (by omega)] at hc; cases hc
  refine ⟨r, hr, hinv.len, fun k hk => ?_, fun i j hi hj hij hl => ?_, fun k c hk hc ht => ?_,
    fun k c hk hc => ?_, fun k hk hne => ?_, hinv.frame⟩
  · obtain ⟨h1, h2, -⟩ := hinv.marked k hk
    exact ⟨h1, surfaceSel_iff.1 h2⟩
  · have hjl : j < r.length := by
      by_contra hge
      rw [List.getElem?_eq_none (by omega)] at hj; cases hj
    have := hinv.around i j hi hl (fun h => hij h.symm) hjl
    rw [hj] at this; cases this
  · rcases hinv.complete k (hmem k c hc) hk (surfaceSel_iff.2 ⟨c, hc, ht⟩) with h | ⟨m, h1, h2, h3⟩
    · exact Or.inl h
    · obtain ⟨c', hc', -⟩ := surfaceSel_iff.1 (hinv.marked m h1).2.1
      exact Or.inr ⟨m, c', h1, h2, hc', h3 c' c hc' hc⟩
  · have := hinv.rest k (hmem k c hc) hk
    by_contra hle
    have h2 : surfaceSel threshold curvature k = true := surfaceSel_iff.2 ⟨c, hc, not_lt.1 hle⟩
    rw [this] at h2; cases h2
  · rcases hinv.nmarked k hk with h | h
    · exact absurd h hne
    · exact h

/-- C12: the surface pass run after the edge pass (same padding, as in the node) keeps every `Edge`
label, and creates none. -/
theorem C12_surface_keeps_edges {argsort : List K → List ℕ} (hs : IsArgsort argsort)
    (padding : ℕ) (edgeThreshold surfaceThreshold : K) (labels : List PointLabel)
    (curvature : List K) (nb : NeighborCheck) (adj : ℕ → Bool)
    (hin : PassInput labels curvature nb adj) (hne : labels ≠ [])
    (h0 : ∀ k : ℕ, labels[k]? ≠ some .edge ∧ labels[k]? ≠ some .surface) :
    ∃ r₁ r₂, edgeAssign argsort padding edgeThreshold labels curvature nb = .ok r₁ ∧
      surfaceAssign argsort padding surfaceThreshold r₁ curvature nb = .ok r₂ ∧
      ∀ k : ℕ, r₂[k]? = some .edge ↔ r₁[k]? = some .edge := by
  obtain ⟨r₁, hr₁, h₁⟩ := edgeAssign_inv hs padding edgeThreshold hin (fun k => (h0 k).1)
  have hlen := h₁.len
  have hin' : PassInput r₁ curvature nb adj :=
    ⟨by rw [hlen]; exact hin.1, by rw [hlen]; exact hin.2, by rw [hlen]; exact hin.3⟩
  have hs₁ : ∀ k : ℕ, r₁[k]? ≠ some .surface := by
    intro k hk
    have := h₁.frame k (by rw [hk]; simp) (by rw [hk]; simp)
    rw [hk] at this
    exact (h0 k).2 this.symm
  obtain ⟨r₂, hr₂, h₂⟩ := surfaceAssign_inv hs padding surfaceThreshold hin'
    (by intro h; rw [h] at hlen; simp at hlen; exact hne (List.eq_nil_of_length_eq_zero hlen.symm))
    hs₁
  refine ⟨r₁, r₂, hr₁, hr₂, fun k => ⟨fun hk => ?_, fun hk => ?_⟩⟩
  · rw [← h₂.frame k (by rw [hk]; simp) (by rw [hk]; simp)]; exact hk
  · rw [h₂.far k, hk]
    intro i hi _ hl
    have hil : i < r₁.length := by
      by_contra hge
      rw [List.getElem?_eq_none (by omega)] at hi; cases hi
    have hik : i ≠ k := by rintro rfl; rw [hk] at hi; cases hi
    have := h₁.around k i hk (Linked.comm.1 hl) hik hil
    rw [hi] at this; cases this

/-! Non-vacuity: seven points, chain broken between 3 and 4, insertion sort as `argsort`. -/

/-- Insertion into an index list ordered by value. -/
def insertIdx (l : List ℚ) (i : ℕ) : List ℕ → List ℕ
  | [] => [i]
  | j :: rest => if l.getD i 0 ≤ l.getD j 0 then i :: j :: rest else j :: insertIdx l i rest

/-- A concrete `argsort`. -/
def exArgsort (l : List ℚ) : List ℕ := (List.range l.length).foldr (insertIdx l) []

theorem insertIdx_perm (l : List ℚ) (i : ℕ) (r : List ℕ) : (insertIdx l i r).Perm (i :: r) := by
  induction r with
  | nil => exact List.Perm.refl _
  | cons j r ih =>
    simp only [insertIdx]
    split_ifs
    · exact List.Perm.refl _
    · exact (List.Perm.cons j ih).trans (List.Perm.swap i j r)

theorem exArgsort_isArgsort : IsArgsort exArgsort := by
  intro l
  have hperm : ∀ idx : List ℕ, (idx.foldr (insertIdx l) []).Perm idx := by
    intro idx
    induction idx with
    | nil => exact List.Perm.refl _
    | cons i idx ih => exact (insertIdx_perm l i _).trans (List.Perm.cons i ih)
  have hins : ∀ (i : ℕ) (r : List ℕ), r.Pairwise (fun a b => l.getD a 0 ≤ l.getD b 0) →
      (insertIdx l i r).Pairwise (fun a b => l.getD a 0 ≤ l.getD b 0) := by
    intro i r
    induction r with
    | nil => intro _; simp [insertIdx]
    | cons j r ih =>
      intro h
      simp only [insertIdx]
      rw [List.pairwise_cons] at h
      split_ifs with hij
      · rw [List.pairwise_cons, List.pairwise_cons]
        refine ⟨fun a ha => ?_, h.1, h.2⟩
        rcases List.mem_cons.1 ha with rfl | ha
        · exact hij
        · exact hij.trans (h.1 a ha)
      · rw [List.pairwise_cons]
        refine ⟨fun a ha => ?_, ih h.2⟩
        have ha' := (insertIdx_perm l i r).mem_iff.1 ha
        rcases List.mem_cons.1 ha' with rfl | ha'
        · exact (not_le.1 hij).le
        · exact h.1 a ha'
  have hsorted : (exArgsort l).Pairwise (fun a b => l.getD a 0 ≤ l.getD b 0) := by
    simp only [exArgsort]
    induction List.range l.length with
    | nil => simp
    | cons i idx ih => exact hins i _ ih
  refine ⟨hperm _, hsorted.imp ?_⟩
  intro i j h a b ha hb
  simpa [List.getD, ha, hb] using h

/-- Seven points, neighbours except across (3,4). -/
def exNb7 : NeighborCheck := ⟨7, fun i j => .ok (decide (min i j ≠ 3))⟩

/-- Example curvature with a tie. -/
def exCurv : List ℚ := [5, 9, 1, 9, 7, 0, 0]

theorem exInput : PassInput (List.replicate 7 .default) exCurv exNb7 (fun m => decide (m ≠ 3)) where
  curvature_length := rfl
  nb_size := rfl
  nb_test m _ := by
    have e1 : min (m : ℤ) (m + 1) = m := by omega
    have e2 : min ((m : ℤ) + 1) m = m := by omega
    simp only [exNb7, e1, e2]
    constructor <;> congr 1 <;> simp <;> omega

example : edgeAssign exArgsort 1 4 (List.replicate 7 .default) exCurv exNb7 =
    .ok [.edgeNeighbor, .edge, .edgeNeighbor, .edge, .edge, .edgeNeighbor, .default] := by
  decide +kernel
example : edgeAssign exArgsort 1 4 (List.replicate 7 .default) exCurv exNb7 >>=
      (surfaceAssign exArgsort 1 0 · exCurv exNb7) =
    .ok [.edgeNeighbor, .edge, .edgeNeighbor, .edge, .edge, .surfaceNeighbor, .surface] := by
  decide +kernel
example : ∀ k : ℕ, (List.replicate 7 PointLabel.default)[k]? ≠ some .edge ∧
    (List.replicate 7 PointLabel.default)[k]? ≠ some .surface := by
  intro k
  rw [List.getElem?_replicate]
  split_ifs <;> simp

end Verif.Extraction
