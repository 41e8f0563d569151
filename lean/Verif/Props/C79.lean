/-
C79: labelling a ring is complete: edges first, then surfaces, block by block.
-/
import Verif.Lemmas.RingLabels

set_option autoImplicit false

namespace Verif.Extraction

variable {P K : Type} [LinearOrder K]

/-- Specification: what the labels `r` of a fresh ring must satisfy inside the block `[b, e)`, for
the curvature `curvature` and the relation `adj` "a point and the next are neighbours". -/
structure BlockLabelled (te ts : K) (p : ℕ) (curvature : List K) (adj : ℕ → Bool)
    (r : List PointLabel) (b e : ℕ) : Prop where
  /-- A strong point is an edge, or linked to an edge of the block that is at least as strong. -/
  strong : ∀ (k : ℕ) (c : K), b ≤ k → k < e → curvature[k]? = some c → te ≤ c →
    r[k]? = some .edge ∨ ∃ (m : ℕ) (c' : K), b ≤ m ∧ m < e ∧ r[m]? = some .edge ∧
      Linked adj p m k ∧ curvature[m]? = some c' ∧ c ≤ c'
  /-- A flat point is a surface, or linked to a surface of the block that is at least as flat, or an
  edge, or linked to an edge of the block. -/
  flat : ∀ (k : ℕ) (c : K), b ≤ k → k < e → curvature[k]? = some c → c ≤ ts →
    r[k]? = some .surface ∨
    (∃ (m : ℕ) (c' : K), b ≤ m ∧ m < e ∧ r[m]? = some .surface ∧ Linked adj p m k ∧
      curvature[m]? = some c' ∧ c' ≤ c) ∨
    r[k]? = some .edge ∨
    ∃ m : ℕ, b ≤ m ∧ m < e ∧ r[m]? = some .edge ∧ Linked adj p m k
  /-- No two features of the block are linked. -/
  apart : ∀ i k : ℕ, b ≤ i → i < e → b ≤ k → k < e → i ≠ k →
    r[i]? = some .edge ∨ r[i]? = some .surface → r[k]? = some .edge ∨ r[k]? = some .surface →
    ¬ Linked adj p i k

theorem linked_shift (adj : ℕ → Bool) (p b i k : ℕ) :
    Linked (fun m => adj (b + m)) p i k ↔ Linked adj p (b + i) (b + k) := by
  simp only [Linked, Chain]
  refine and_congr (by omega) (and_congr (by omega) ⟨fun h m h1 h2 => ?_, fun h m h1 h2 => ?_⟩)
  · have := h (m - b) (by omega) (by omega)
    rwa [show b + (m - b) = m by omega] at this
  · exact h (b + m) (by omega) (by omega)

/-- Both passes on a fresh block. -/
theorem passes_labelled {argsort : List K → List ℕ} (ha : IsArgsort argsort) (p : ℕ) (te ts : K)
    {labels : List PointLabel} {curvature : List K} {nb : NeighborCheck} {adj : ℕ → Bool}
    (hin : PassInput labels curvature nb adj) (hne : labels ≠ [])
    (h0 : ∀ k : ℕ, k < labels.length → labels[k]? = some .default) :
    ∃ r₁ r₂, edgeAssign argsort p te labels curvature nb = .ok r₁ ∧
      surfaceAssign argsort p ts r₁ curvature nb = .ok r₂ ∧ r₂.length = labels.length ∧
      BlockLabelled te ts p curvature adj r₂ 0 labels.length := by
  have hinit : ∀ k : ℕ, labels[k]? ≠ some .edge ∧ labels[k]? ≠ some .surface := by
    intro k
    rcases Nat.lt_or_ge k labels.length with hk | hk
    · rw [h0 k hk]; simp
    · rw [List.getElem?_eq_none hk]; simp
  obtain ⟨r₁, r₂, h1, h2, h3⟩ := C12_surface_keeps_edges ha p te ts _ _ _ _ hin hne hinit
  obtain ⟨_, h1', hl1, -, hsep⟩ := C09_edges_strong_and_separated ha p te _ _ _ _ hin
    (fun k => (hinit k).1)
  rw [h1] at h1'; injection h1' with h1'; subst h1'
  obtain ⟨_, h1', hcomp, hnbr, hfr⟩ := C10_suppression_justified ha p te _ _ _ _ hin
    (fun k => (hinit k).1)
  rw [h1] at h1'; injection h1' with h1'; subst h1'
  obtain ⟨_, h1', hinv⟩ := edgeAssign_inv ha p te hin (fun k => (hinit k).1)
  rw [h1] at h1'; injection h1' with h1'; subst h1'
  have hs1 : ∀ k : ℕ, r₁[k]? ≠ some .surface := by
    intro k hk
    have := hfr k (by rw [hk]; simp) (by rw [hk]; simp)
    rw [hk] at this
    exact (hinit k).2 this.symm
  have hin2 : PassInput r₁ curvature nb adj :=
    ⟨by rw [hl1]; exact hin.1, by rw [hl1]; exact hin.2, by rw [hl1]; exact hin.3⟩
  obtain ⟨_, h2', hl2, hsf, hssep, hscomp, -, -, -⟩ :=
    C11_surfaces_flat_separated_complete ha p ts r₁ _ _ _ hin2
      (by intro hc; rw [hc] at hl1; simp at hl1
          exact hne (List.eq_nil_of_length_eq_zero hl1.symm)) hs1
  rw [h2] at h2'; injection h2' with h2'; subst h2'
  have hlt : ∀ (l : List PointLabel) (m : ℕ) (L : PointLabel), l.length = labels.length →
      l[m]? = some L → m < labels.length := by
    intro l m L hl hm
    by_contra hge
    rw [List.getElem?_eq_none (by omega)] at hm; cases hm
  have hes : ∀ i k : ℕ, r₂[i]? = some .edge → r₂[k]? = some .surface → ¬ Linked adj p i k := by
    intro i k hi hk hl
    have hd := (hsf k hk).1
    have hk' := hlt _ _ _ (hl2.trans hl1) hk
    have hik : k ≠ i := by rintro rfl; rw [hi] at hk; cases hk
    have := hinv.around i k ((h3 i).1 hi) hl hik (by omega)
    rw [hd] at this; cases this
  refine ⟨r₁, r₂, h1, h2, hl2.trans hl1, ⟨?_, ?_, ?_⟩⟩
  · intro k c _ hk hc ht
    rcases hcomp k c (h0 k hk) hc ht with h | ⟨m, c', h4, h5, h6, h7⟩
    · exact Or.inl ((h3 k).2 h)
    · exact Or.inr ⟨m, c', by omega, hlt _ _ _ hl1 h4, (h3 m).2 h4, h5, h6, h7⟩
  · intro k c _ hk hc ht
    by_cases he : r₁[k]? = some .edge
    · exact Or.inr (Or.inr (Or.inl ((h3 k).2 he)))
    by_cases hn : r₁[k]? = some .edgeNeighbor
    · obtain ⟨m, h4, h5⟩ := hnbr k hn (by rw [h0 k hk]; simp)
      exact Or.inr (Or.inr (Or.inr ⟨m, by omega, hlt _ _ _ hl1 h4, (h3 m).2 h4, h5⟩))
    have hd : r₁[k]? = some .default := by rw [hfr k he hn]; exact h0 k hk
    rcases hscomp k c hd hc ht with h | ⟨m, c', h4, h5, h6, h7⟩
    · exact Or.inl h
    · exact Or.inr (Or.inl ⟨m, c', by omega, hlt _ _ _ (hl2.trans hl1) h4, h4, h5, h6, h7⟩)
  · rintro i k - - - - hik (hi | hi) (hk | hk) hl
    · exact hsep i k ((h3 i).1 hi) ((h3 k).1 hk) hik hl
    · exact hes i k hi hk hl
    · exact hes k i hk hi (Linked.comm.1 hl)
    · exact hssep i k hi hk hik hl

/-- C79: after labelling a fresh ring, in every block every strong point is an edge or suppressed by
a linked edge at least as strong, every flat point is a surface or suppressed by a linked surface at
least as flat or by an edge (edges come first), and no two features are linked. For all curvatures,
thresholds, sizes, tie orders of the sort and neighbour relations, in exact and in rounded
block arithmetic. -/
theorem C79_ring_labelling_complete {rnd : ℚ → ℚ} {argsort : List K → List ℕ}
    (ha : IsArgsort argsort) (p : ℕ) (te ts : K) (n : ℕ) (r : List PointLabel)
    (curvature : List K) (nb : NeighborCheckXY P) (adj : ℕ → Bool) (nBlocks : ℤ)
    (range : IndexRange) (hn : 0 < nBlocks) (harith : ArithOK rnd n nBlocks)
    (hrange : PaddedIndexRange.make n nBlocks p = .ok range)
    (hadj : ∀ m : ℕ, m + 1 < n →
      nb.call m (m + 1) = .ok (adj m) ∧ nb.call ((m : ℤ) + 1) m = .ok (adj m))
    (h : assignLabel rnd argsort p te p ts (initLabels n) curvature nb range = .ok r) :
    ∀ (j : ℕ) (b e : ℕ), range.beginWith rnd j = .ok (b : ℤ) → range.endWith rnd j = .ok (e : ℤ) →
      BlockLabelled te ts p curvature adj r b e := by
  intro j b e hb he
  have hlen : (initLabels n).length = n := by simp [initLabels]
  obtain ⟨hB, hst, hsp, hnb⟩ := padded_blocksOK (by omega) hn harith hrange
  obtain ⟨hcl, hns, hl, -, hblk⟩ := assignLabel_blocks hB (by rw [hlen]; omega) h
  rw [hlen] at hcl hns hl
  have hj : (j : ℤ) < range.nBlocks := by
    by_contra hge
    simp only [IndexRange.beginWith, IndexRange.check, bind, Except.bind] at hb
    rw [if_pos (by omega)] at hb
    cases hb
  rw [begin_ok (by omega) hj] at hb
  rw [end_ok (by omega) hj] at he
  injection hb with hb
  injection he with he
  have hbe := hB.bnd_mono (i := j) (j := j + 1) (by omega) (by push_cast; omega)
  have hbb := hB.bnd_eq j (by omega)
  have hee := hB.bnd_eq (j + 1) (by push_cast; omega)
  push_cast at hee
  have eb : range.bnd rnd j = b := by omega
  have ee : range.bnd rnd (j + 1) = e := by omega
  have hres := hblk j hj
  have hen : e ≤ n := by
    have h1 := hB.bnd_mono (i := j + 1) (j := range.nBlocks.toNat) (by omega) (by omega)
    have h2 := hB.bnd_eq range.nBlocks.toNat (by omega)
    rw [Int.toNat_of_nonneg (by omega), hB.last] at h2
    omega
  rw [eb, ee] at hres hbe
  by_cases hlt : b < e
  swap
  · exact ⟨fun k c h1 h2 => by omega, fun k c h1 h2 => by omega, fun i k h1 h2 => by omega⟩
  have hll := slice_length (initLabels n) b e (by omega)
  have hlc := slice_length curvature b e (by omega)
  cases hsl : nb.slice b e with
  | error x => rw [hsl] at hres; cases hres
  | ok s =>
    rw [hsl] at hres
    have hin1 : PassInput (slice (initLabels n) b e) (slice curvature b e) s.base
        (fun m => adj (b + m)) := by
      refine ⟨by omega, by rw [hll]; exact slice_size hsl, fun m hm => ?_⟩
      have h1 := slice_call hsl m (m + 1) (by omega) (by omega)
      have h2 := slice_call hsl (m + 1) m (by omega) (by omega)
      have h3 := hadj (b + m) (by omega)
      push_cast at h1 h2 h3 ⊢
      simp only [NeighborCheckXY.base]
      rw [h1, h2, ← add_assoc]
      exact h3
    obtain ⟨r₁, r₂, h1, h2, h3, hlab⟩ := passes_labelled ha p te ts hin1
      (by intro hc; rw [hc] at hll; simp at hll; omega) (by
        intro k hk
        rw [slice_getElem?, if_pos (by omega)]
        simp only [initLabels, List.getElem?_replicate]
        rw [if_pos (by omega)])
    simp only [blockResult, bind, Except.bind, h1, h2] at hres
    injection hres with hres
    rw [hres, hll] at hlab
    have hr : ∀ k, b ≤ k → k < e → (slice r b e)[k - b]? = r[k]? := by
      intro k hk1 hk2
      rw [slice_getElem?, if_pos (by omega)]; congr 1; omega
    have hr' : ∀ k, k < e - b → (slice r b e)[k]? = r[b + k]? := by
      intro k hk; rw [slice_getElem?, if_pos hk]
    have hc : ∀ k, b ≤ k → k < e → (slice curvature b e)[k - b]? = curvature[k]? := by
      intro k hk1 hk2
      rw [slice_getElem?, if_pos (by omega)]; congr 1; omega
    have hc' : ∀ k, k < e - b → (slice curvature b e)[k]? = curvature[b + k]? := by
      intro k hk; rw [slice_getElem?, if_pos hk]
    have hlk : ∀ m k, b ≤ k → Linked (fun m => adj (b + m)) p m (k - b) →
        Linked adj p (b + m) k := by
      intro m k hk hx
      have := (linked_shift adj p b m (k - b)).1 hx
      rwa [show b + (k - b) = k by omega] at this
    refine ⟨fun k c hk1 hk2 hck ht => ?_, fun k c hk1 hk2 hck ht => ?_,
      fun i k hi1 hi2 hk1 hk2 hik hi hk hx => ?_⟩
    · rcases hlab.strong (k - b) c (by omega) (by omega) (by rw [hc k hk1 hk2]; exact hck) ht with
        h4 | ⟨m, c', -, h5, h6, h7, h8, h9⟩
      · exact Or.inl (by rw [← hr k hk1 hk2]; exact h4)
      · exact Or.inr ⟨b + m, c', by omega, by omega, by rw [← hr' m h5]; exact h6, hlk m k hk1 h7,
          by rw [← hc' m h5]; exact h8, h9⟩
    · rcases hlab.flat (k - b) c (by omega) (by omega) (by rw [hc k hk1 hk2]; exact hck) ht with
        h4 | ⟨m, c', -, h5, h6, h7, h8, h9⟩ | h4 | ⟨m, -, h5, h6, h7⟩
      · exact Or.inl (by rw [← hr k hk1 hk2]; exact h4)
      · exact Or.inr (Or.inl ⟨b + m, c', by omega, by omega, by rw [← hr' m h5]; exact h6,
          hlk m k hk1 h7, by rw [← hc' m h5]; exact h8, h9⟩)
      · exact Or.inr (Or.inr (Or.inl (by rw [← hr k hk1 hk2]; exact h4)))
      · exact Or.inr (Or.inr (Or.inr ⟨b + m, by omega, by omega, by rw [← hr' m h5]; exact h6,
          hlk m k hk1 h7⟩))
    · refine hlab.apart (i - b) (k - b) (by omega) (by omega) (by omega) (by omega) (by omega)
        (by rw [hr i hi1 hi2]; exact hi) (by rw [hr k hk1 hk2]; exact hk) ?_
      rw [linked_shift, show b + (i - b) = i by omega, show b + (k - b) = k by omega]
      exact hx

/-! Non-vacuity: the ring of C13 with ten points; in the first block `[1, 5)` point 2 is the edge,
point 3 is flat but next to the flatter point 4. -/

example : ∀ m : ℕ, m + 1 < 10 → exRing.call m (m + 1) = .ok true ∧
    exRing.call ((m : ℤ) + 1) m = .ok true := by
  intro m hm
  have : m < 9 := by omega
  interval_cases m <;> decide +kernel
example : IsArgsort exArgsort ∧ PaddedIndexRange.make (10 : ℕ) 2 (1 : ℕ) = .ok ⟨1, 9, 2⟩ ∧
    IndexRange.beginWith id ⟨1, 9, 2⟩ (0 : ℕ) = .ok (1 : ℕ) ∧
    IndexRange.endWith id ⟨1, 9, 2⟩ (0 : ℕ) = .ok (5 : ℕ) :=
  ⟨exArgsort_isArgsort, by decide +kernel, by decide +kernel, by decide +kernel⟩
example : assignLabel id exArgsort (1 : ℕ) 5 (1 : ℕ) 1 (initLabels 10)
    [0, 1, 9, 1, 0, 7, 8, 9, 0, 0] exRing ⟨1, 9, 2⟩ =
    .ok [.default, .edgeNeighbor, .edge, .surfaceNeighbor, .surface, .edge,
      .edgeNeighbor, .edge, .edgeNeighbor, .default] := by decide +kernel

end Verif.Extraction
