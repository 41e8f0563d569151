/-
C13: labelling is local to a block and leaves the ends of the ring unlabelled.
-/
import Verif.Lemmas.Slice

set_option autoImplicit false

namespace Verif.Extraction

variable {P K : Type} [LinearOrder K]

/-- The arithmetic of the block boundaries: exact, or rounded as `double` does within the bounds
of C05. -/
def ArithOK (rnd : ℚ → ℚ) (size nBlocks : ℤ) : Prop :=
  rnd = id ∨ (IsDoubleRounding rnd ∧ size ≤ 2 ^ 31 ∧ size * nBlocks ≤ 2 ^ 53)

theorem padded_blocksOK {rnd : ℚ → ℚ} {size nBlocks padding : ℤ} {range : IndexRange}
    (hp : 0 ≤ padding) (hn : 0 < nBlocks) (ha : ArithOK rnd size nBlocks)
    (h : PaddedIndexRange.make size nBlocks padding = .ok range) :
    BlocksOK rnd range ∧ range.start = padding ∧ range.stop = size - padding ∧
      range.nBlocks = nBlocks := by
  simp only [PaddedIndexRange.make, IndexRange.make] at h
  split_ifs at h with hlt
  injection h with h
  subst h
  refine ⟨?_, rfl, rfl, rfl⟩
  rcases ha with rfl | ⟨hr, h1, h2⟩
  · exact blocksOK_exact hp hn (by simp only; omega)
  · exact blocksOK_rounded hr hp hn (by simp only; omega) (by simp only; omega) (by
      simp only
      have : (size - padding) * nBlocks ≤ size * nBlocks :=
        mul_le_mul_of_nonneg_right (by omega) hn.le
      omega)

/-- C13, borders: labelling a ring keeps the number of labels and leaves its first and last
`padding` labels as they were. -/
theorem C13_ends_untouched {rnd : ℚ → ℚ} (argsort : List K → List ℕ) (pe ps : ℤ) (te ts : K)
    (labels r : List PointLabel) (curvature : List K) (nb : NeighborCheckXY P)
    (nBlocks : ℤ) (padding : ℕ) (range : IndexRange) (hn : 0 < nBlocks)
    (ha : ArithOK rnd labels.length nBlocks)
    (hrange : PaddedIndexRange.make labels.length nBlocks padding = .ok range)
    (h : assignLabel rnd argsort pe te ps ts labels curvature nb range = .ok r) :
    r.length = labels.length ∧
    ∀ k : ℕ, k < padding ∨ labels.length ≤ k + padding → r[k]? = labels[k]? := by
  obtain ⟨hb, h1, h2, -⟩ := padded_blocksOK (by omega) hn ha hrange
  obtain ⟨-, -, hl, hk, -⟩ := assignLabel_blocks hb (by omega) h
  exact ⟨hl, fun k hk' => hk k (by omega)⟩

/-- C13, locality: two rings of the same size labelled with the same blocks, whose initial labels,
curvature and neighbour relation agree inside block `j` (and may differ arbitrarily elsewhere), get
the same labels in block `j`. -/
theorem C13_block_local {rnd : ℚ → ℚ} (argsort : List K → List ℕ) (pe ps : ℤ) (te ts : K)
    (labels labels' r r' : List PointLabel) (curvature curvature' : List K)
    (nb nb' : NeighborCheckXY P) (nBlocks : ℤ) (padding : ℕ) (range : IndexRange)
    (hn : 0 < nBlocks) (hsize : labels'.length = labels.length)
    (ha : ArithOK rnd labels.length nBlocks)
    (hrange : PaddedIndexRange.make labels.length nBlocks padding = .ok range)
    (h : assignLabel rnd argsort pe te ps ts labels curvature nb range = .ok r)
    (h' : assignLabel rnd argsort pe te ps ts labels' curvature' nb' range = .ok r')
    (j b e : ℕ) (hb : range.beginWith rnd j = .ok (b : ℤ)) (he : range.endWith rnd j = .ok (e : ℤ))
    (hlab : ∀ k, b ≤ k → k < e → labels[k]? = labels'[k]?)
    (hcurv : ∀ k, b ≤ k → k < e → curvature[k]? = curvature'[k]?)
    (hnb : ∀ i k : ℕ, b ≤ i → i < e → b ≤ k → k < e → nb.call i k = nb'.call i k) :
    ∀ k, b ≤ k → k < e → r[k]? = r'[k]? := by
  obtain ⟨hB, h1, h2, -⟩ := padded_blocksOK (by omega) hn ha hrange
  obtain ⟨-, -, hl, -, hblk⟩ := assignLabel_blocks hB (by omega) h
  obtain ⟨-, -, hl', -, hblk'⟩ := assignLabel_blocks hB (by omega) h'
  have hj : (j : ℤ) < range.nBlocks := by
    by_contra hc
    rw [((C03_block_number_checked rnd range j .outOfRange).1).2 ⟨rfl, by omega⟩] at hb
    cases hb
  rw [begin_ok (by omega) hj, hB.bnd_eq j (by omega)] at hb
  rw [end_ok (by omega) hj] at he
  have hE := hB.bnd_eq (j + 1) (by push_cast; omega)
  push_cast at hE
  rw [hE] at he
  injection hb with hb; injection he with he
  have hb' : range.bnd rnd j = b := by omega
  have he' : range.bnd rnd (j + 1) = e := by omega
  have hr := hblk j hj
  have hr' := hblk' j hj
  rw [hb', he'] at hr hr'
  rw [slice_congr hlab, slice_congr hcurv] at hr
  have heq : slice r b e = slice r' b e := by
    cases hs : nb.slice b e with
    | error x => rw [hs] at hr; cases hr
    | ok s =>
      cases hs' : nb'.slice b e with
      | error x => rw [hs'] at hr'; cases hr'
      | ok s' =>
        rw [hs] at hr
        rw [hs'] at hr'
        simp only [blockResult, bind, Except.bind] at hr hr'
        rw [slice_base_congr hs hs' hnb] at hr
        rw [hr] at hr'
        injection hr'
  intro k hk1 hk2
  have := congrArg (fun l => l[k - b]?) heq
  simp only [slice_getElem?] at this
  rw [if_pos (by omega), if_pos (by omega)] at this
  have e1 : b + (k - b) = k := by omega
  rwa [e1] at this

/-! Non-vacuity: a ring of ten points (positions on a line, neighbours when closer than 2), padding
1, two blocks; the second ring differs only in the second block. -/

/-- Example neighbour test on positions. -/
def exIsNb (p q : ℚ) : Res Bool := .ok (decide (|p - q| < 2))

/-- Ten points at positions 0..9. -/
def exRing : NeighborCheckXY ℚ := ⟨⟨[0, 1, 2, 3, 4, 5, 6, 7, 8, 9], List.range 10⟩, exIsNb⟩

/-- The same with a gap in the second block. -/
def exRing' : NeighborCheckXY ℚ := ⟨⟨[0, 1, 2, 3, 4, 5, 60, 70, 80, 90], List.range 10⟩, exIsNb⟩

example : PaddedIndexRange.make 10 2 1 = .ok ⟨1, 9, 2⟩ := by decide +kernel
example : assignLabel id exArgsort 1 5 1 0 (initLabels 10) [0, 1, 9, 1, 0, 7, 8, 9, 0, 0] exRing
    ⟨1, 9, 2⟩ = .ok [.default, .edgeNeighbor, .edge, .surfaceNeighbor, .surface, .edge,
      .edgeNeighbor, .edge, .edgeNeighbor, .default] := by decide +kernel
example : assignLabel id exArgsort 1 5 1 0 (initLabels 10) [7, 1, 9, 1, 0, 0, 0, 0, 0, 6] exRing'
    ⟨1, 9, 2⟩ = .ok [.default, .edgeNeighbor, .edge, .surfaceNeighbor, .surface, .surface,
      .surface, .surface, .surface, .default] := by decide +kernel

end Verif.Extraction
