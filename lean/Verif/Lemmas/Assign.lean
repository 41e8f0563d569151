/-
`AssignLabel` works block by block.
-/
import Verif.Model.Label
import Verif.Props.C05
import Verif.Props.C09

set_option autoImplicit false

namespace Verif.Extraction

/-- The sub-list `[b, e)`. -/
def slice {α : Type} (l : List α) (b e : ℕ) : List α := (l.drop b).take (e - b)

theorem slice_getElem? {α : Type} (l : List α) (b e k : ℕ) :
    (slice l b e)[k]? = if k < e - b then l[b + k]? else none := by
  simp only [slice, List.getElem?_take, List.getElem?_drop]

theorem slice_length {α : Type} (l : List α) (b e : ℕ) (he : e ≤ l.length) :
    (slice l b e).length = e - b := by
  simp only [slice, List.length_take, List.length_drop]; omega

theorem slice_congr {α : Type} {l l' : List α} {b e : ℕ}
    (h : ∀ k, b ≤ k → k < e → l[k]? = l'[k]?) : slice l b e = slice l' b e := by
  apply List.ext_getElem?
  intro k
  rw [slice_getElem?, slice_getElem?]
  split_ifs with hk
  · exact h _ (by omega) (by omega)
  · rfl

/-- The block boundaries are in order: what C03 (exact arithmetic) and C05 (rounded arithmetic)
establish. -/
structure BlocksOK (rnd : ℚ → ℚ) (r : IndexRange) : Prop where
  start_nonneg : 0 ≤ r.start
  first : r.boundaryWith rnd 0 = r.start
  last : r.boundaryWith rnd r.nBlocks = r.stop
  mono : ∀ j, 0 ≤ j → j < r.nBlocks → r.boundaryWith rnd j ≤ r.boundaryWith rnd (j + 1)

theorem blocksOK_exact {r : IndexRange} (hs : 0 ≤ r.start) (hn : 0 < r.nBlocks)
    (h : r.nBlocks ≤ r.stop - r.start) : BlocksOK id r := by
  have hb := fun j hj => boundary_exact r j hs (by omega) hn hj
  refine ⟨hs, ?_, ?_, fun j h0 h1 => ?_⟩
  · rw [hb 0 le_rfl]; simp
  · rw [hb _ hn.le, Int.mul_ediv_cancel _ (by omega)]; ring
  · rw [hb j h0, hb (j + 1) (by omega)]
    have : (r.stop - r.start) * j / r.nBlocks ≤ (r.stop - r.start) * (j + 1) / r.nBlocks :=
      Int.ediv_le_ediv hn (by nlinarith)
    omega

theorem blocksOK_rounded {rnd : ℚ → ℚ} (hr : IsDoubleRounding rnd) {r : IndexRange}
    (hs : 0 ≤ r.start) (hn : 0 < r.nBlocks) (h : r.nBlocks ≤ r.stop - r.start)
    (he : r.stop ≤ 2 ^ 31) (hen : r.stop * r.nBlocks ≤ 2 ^ 53) : BlocksOK rnd r := by
  obtain ⟨h1, h2, h3, h4⟩ := C05_rounding_safe hr r.start r.stop r.nBlocks hs hn h he hen
  change r.beginWith rnd 0 = _ at h1
  change r.endWith rnd _ = _ at h2
  rw [begin_ok le_rfl hn] at h1
  rw [end_ok (by omega) (by omega), sub_add_cancel] at h2
  injection h1 with h1; injection h2 with h2
  refine ⟨hs, h1, h2, fun j h0 hj => ?_⟩
  obtain ⟨b, e, hb, he', hle, -⟩ := h4 j h0 hj
  change r.beginWith rnd j = _ at hb
  change r.endWith rnd j = _ at he'
  rw [begin_ok h0 hj] at hb
  rw [end_ok h0 hj] at he'
  injection hb with hb; injection he' with he'
  omega

/-- Boundary `j` as a natural number. -/
def IndexRange.bnd (rnd : ℚ → ℚ) (r : IndexRange) (j : ℕ) : ℕ := (r.boundaryWith rnd j).toNat

theorem BlocksOK.ge {rnd : ℚ → ℚ} {r : IndexRange} (h : BlocksOK rnd r) (j : ℕ)
    (hj : (j : ℤ) ≤ r.nBlocks) : r.start ≤ r.boundaryWith rnd j := by
  induction j with
  | zero => simpa using h.first.ge
  | succ j ih =>
    have := ih (by push_cast at hj; omega)
    have h2 := h.mono j (by omega) (by push_cast at hj; omega)
    push_cast; omega

theorem BlocksOK.bnd_eq {rnd : ℚ → ℚ} {r : IndexRange} (h : BlocksOK rnd r) (j : ℕ)
    (hj : (j : ℤ) ≤ r.nBlocks) : r.boundaryWith rnd j = (r.bnd rnd j : ℤ) := by
  have := h.ge j hj
  have := h.start_nonneg
  simp only [IndexRange.bnd]; omega

theorem BlocksOK.bnd_mono {rnd : ℚ → ℚ} {r : IndexRange} (h : BlocksOK rnd r) {i j : ℕ}
    (hij : i ≤ j) (hj : (j : ℤ) ≤ r.nBlocks) : r.bnd rnd i ≤ r.bnd rnd j := by
  induction j with
  | zero => rw [Nat.le_zero.1 hij]
  | succ j ih =>
    rcases Nat.lt_or_ge i (j + 1) with hlt | hge
    · have h1 := ih (by omega) (by push_cast at hj; omega)
      have h2 := h.mono j (by omega) (by push_cast at hj; omega)
      have h3 := h.bnd_eq j (by push_cast at hj; omega)
      have h4 := h.bnd_eq (j + 1) hj
      push_cast at h4; omega
    · rw [Nat.le_antisymm hij hge]

section
variable {P K : Type} [LinearOrder K]

/-- What happens to the labels of one block. -/
def blockResult (argsort : List K → List ℕ) (pe : ℤ) (te : K) (ps : ℤ) (ts : K)
    (view : List PointLabel) (cview : List K) (sliced : Res (NeighborCheckXY P)) :
    Res (List PointLabel) := do
  let sliced ← sliced
  let view ← edgeAssign argsort pe te view cview sliced.base
  surfaceAssign argsort ps ts view cview sliced.base

theorem assignBlock_eq (argsort : List K → List ℕ) (pe : ℤ) (te : K) (ps : ℤ) (ts : K)
    (labels : List PointLabel) (curvature : List K) (nb : NeighborCheckXY P) (b e : ℕ)
    (hbe : b ≤ e) (hl : e ≤ labels.length) (hc : e ≤ curvature.length) :
    assignBlock argsort pe te ps ts labels curvature nb b e =
      (blockResult argsort pe te ps ts (slice labels b e) (slice curvature b e)
        (nb.slice b e)).map (fun v => labels.take b ++ v ++ labels.drop e) := by
  have hcond : (0 : ℤ) ≤ b ∧ (b : ℤ) ≤ e ∧ (e : ℤ) ≤ labels.length ∧
      (e : ℤ) ≤ curvature.length := by omega
  have e1 : ((e : ℤ) - b).toNat = e - b := by omega
  simp only [assignBlock, hcond, and_self, if_true, Int.toNat_natCast, e1, blockResult]
  cases nb.slice b e with
  | error x => rfl
  | ok s =>
    simp only [bind, Except.bind, slice]
    cases edgeAssign argsort pe te ((labels.drop b).take (e - b)) ((curvature.drop b).take (e - b))
      s.base with
    | error x => rfl
    | ok v =>
      simp only []
      cases surfaceAssign argsort ps ts v ((curvature.drop b).take (e - b)) s.base <;> rfl

/-- Both passes keep the number of labels whenever they succeed. -/
theorem setI_length {α : Type} {l r : List α} {i : ℤ} {a : α} (h : setI l i a = .ok r) :
    r.length = l.length := by
  simp only [setI] at h
  split_ifs at h
  injection h with h; subst h; simp

theorem fillLeftLoop_length {nb : NeighborCheck} {label : PointLabel} {k : ℕ} :
    ∀ {i e : ℤ} {l r : List PointLabel}, fillLeftLoop nb label k i e l = .ok r →
      r.length = l.length := by
  induction k with
  | zero => intro i e l r h; exact setI_length h
  | succ k ih =>
    intro i e l r h
    simp only [fillLeftLoop, bind, Except.bind] at h
    cases h1 : setI l i label with
    | error x => rw [h1] at h; cases h
    | ok l' =>
      rw [h1] at h
      simp only [] at h
      cases h2 : nb.test i (i + 1) with
      | error x => rw [h2] at h; cases h
      | ok v =>
        rw [h2] at h
        cases v with
        | false =>
          simp only [pure, Except.pure] at h
          injection h with h; subst h; exact setI_length h1
        | true =>
          rw [ih (by simpa using h)]; exact setI_length h1

theorem fillRightLoop_length {nb : NeighborCheck} {label : PointLabel} {k : ℕ} :
    ∀ {i e : ℤ} {l r : List PointLabel}, fillRightLoop nb label k i e l = .ok r →
      r.length = l.length := by
  induction k with
  | zero => intro i e l r h; exact setI_length h
  | succ k ih =>
    intro i e l r h
    simp only [fillRightLoop, bind, Except.bind] at h
    cases h1 : setI l i label with
    | error x => rw [h1] at h; cases h
    | ok l' =>
      rw [h1] at h
      simp only [] at h
      cases h2 : nb.test i (i - 1) with
      | error x => rw [h2] at h; cases h
      | ok v =>
        rw [h2] at h
        cases v with
        | false =>
          simp only [pure, Except.pure] at h
          injection h with h; subst h; exact setI_length h1
        | true =>
          rw [ih (by simpa using h)]; exact setI_length h1

theorem fillFromLeft_length {nb : NeighborCheck} {label : PointLabel} {b e : ℤ}
    {l r : List PointLabel} (h : fillFromLeft l nb b e label = .ok r) : r.length = l.length := by
  simp only [fillFromLeft] at h
  split_ifs at h
  exact fillLeftLoop_length h

theorem fillFromRight_length {nb : NeighborCheck} {label : PointLabel} {b e : ℤ}
    {l r : List PointLabel} (h : fillFromRight l nb b e label = .ok r) : r.length = l.length := by
  simp only [fillFromRight] at h
  split_ifs at h
  exact fillRightLoop_length h

theorem fillNeighbors_length {nb : NeighborCheck} {label : PointLabel} {i p : ℤ}
    {l r : List PointLabel} (h : fillNeighbors l nb i p label = .ok r) : r.length = l.length := by
  simp only [fillNeighbors] at h
  split_ifs at h
  cases h1 : fillFromRight l nb (max (-1) (i - p - 1)) i label with
  | error x => rw [h1] at h; cases h
  | ok l' =>
    rw [h1] at h
    rw [fillFromLeft_length h, fillFromRight_length h1]

theorem foldlM_length {α : Type} {f : List PointLabel → α → Res (List PointLabel)}
    (hf : ∀ l x r, f l x = .ok r → r.length = l.length) :
    ∀ (xs : List α) (l r : List PointLabel), xs.foldlM f l = .ok r → r.length = l.length
  | [], l, r, h => by injection h with h; rw [h]
  | x :: xs, l, r, h => by
    rw [List.foldlM_cons] at h
    cases h1 : f l x with
    | error e => rw [h1] at h; cases h
    | ok l' =>
      rw [h1] at h
      rw [foldlM_length hf xs l' r h, hf l x l' h1]

theorem edgeStep_length {p : ℤ} {t : K} {c : List K} {nb : NeighborCheck} {l r : List PointLabel}
    {i : ℕ} (h : edgeStep p t c nb l i = .ok r) : r.length = l.length := by
  simp only [edgeStep, bind, Except.bind] at h
  cases h1 : atI l (i : ℤ) with
  | error x => rw [h1] at h; cases h
  | ok a =>
    rw [h1] at h
    simp only [] at h
    split_ifs at h
    · injection h with h; rw [h]
    · cases h2 : atI c (i : ℤ) with
      | error x => rw [h2] at h; cases h
      | ok b =>
        rw [h2] at h
        simp only [] at h
        split_ifs at h
        · cases h3 : fillNeighbors l nb i p .edgeNeighbor with
          | error x => rw [h3] at h; cases h
          | ok l' =>
            rw [h3] at h
            rw [setI_length h, fillNeighbors_length h3]
        · injection h with h; rw [h]

theorem surfaceStep_length {p : ℤ} {t : K} {c : List K} {nb : NeighborCheck}
    {l r : List PointLabel} {i : ℕ} (h : surfaceStep p t c nb l i = .ok r) :
    r.length = l.length := by
  simp only [surfaceStep, bind, Except.bind] at h
  cases h1 : atI l (i : ℤ) with
  | error x => rw [h1] at h; cases h
  | ok a =>
    rw [h1] at h
    simp only [] at h
    split_ifs at h
    · injection h with h; rw [h]
    · cases h2 : atI c (i : ℤ) with
      | error x => rw [h2] at h; cases h
      | ok b =>
        rw [h2] at h
        simp only [] at h
        split_ifs at h
        · cases h3 : fillNeighbors l nb i p .surfaceNeighbor with
          | error x => rw [h3] at h; cases h
          | ok l' =>
            rw [h3] at h
            rw [setI_length h, fillNeighbors_length h3]
        · injection h with h; rw [h]

theorem blockResult_length {argsort : List K → List ℕ} {pe ps : ℤ} {te ts : K}
    {view r : List PointLabel} {cview : List K} {sliced : Res (NeighborCheckXY P)}
    (h : blockResult argsort pe te ps ts view cview sliced = .ok r) : r.length = view.length := by
  simp only [blockResult, bind, Except.bind] at h
  cases sliced with
  | error x => cases h
  | ok s =>
    simp only [] at h
    cases h1 : edgeAssign argsort pe te view cview s.base with
    | error x => rw [h1] at h; cases h
    | ok v =>
      rw [h1] at h
      simp only [] at h
      have l1 : v.length = view.length := by
        simp only [edgeAssign] at h1
        split_ifs at h1
        exact foldlM_length (fun _ _ _ => edgeStep_length) _ _ _ h1
      have l2 : r.length = v.length := by
        simp only [surfaceAssign] at h
        split_ifs at h
        exact foldlM_length (fun _ _ _ => surfaceStep_length) _ _ _ h
      rw [l2, l1]

/-- Replacing the labels of `[b, e)`. -/
theorem splice_getElem? {α : Type} (l v : List α) (b e : ℕ) (hbe : b ≤ e) (he : e ≤ l.length)
    (hv : v.length = e - b) (k : ℕ) :
    (l.take b ++ v ++ l.drop e)[k]? =
      if b ≤ k ∧ k < e then v[k - b]? else l[k]? := by
  have hb : (l.take b).length = b := by simp; omega
  by_cases h1 : k < b
  · rw [if_neg (by omega), List.append_assoc, List.getElem?_append_left (by omega),
      List.getElem?_take, if_pos h1]
  · by_cases h2 : k < e
    · rw [if_pos (by omega), List.append_assoc, List.getElem?_append_right (by omega), hb,
        List.getElem?_append_left (by omega)]
    · rw [if_neg (by omega), List.getElem?_append_right (by simp; omega)]
      simp only [List.length_append, hb, hv, List.getElem?_drop]
      congr 1; omega

/-- Result of a successful `AssignLabel`, block by block. -/
theorem assignLabel_blocks {rnd : ℚ → ℚ} {argsort : List K → List ℕ} {pe ps : ℤ} {te ts : K}
    {labels r : List PointLabel} {curvature : List K} {nb : NeighborCheckXY P} {range : IndexRange}
    (hb : BlocksOK rnd range) (hstop : range.stop ≤ labels.length)
    (h : assignLabel rnd argsort pe te ps ts labels curvature nb range = .ok r) :
    curvature.length = labels.length ∧ nb.size = labels.length ∧
    r.length = labels.length ∧
    (∀ k : ℕ, (k : ℤ) < range.start ∨ range.stop ≤ k → r[k]? = labels[k]?) ∧
    ∀ j : ℕ, (j : ℤ) < range.nBlocks →
      blockResult argsort pe te ps ts (slice labels (range.bnd rnd j) (range.bnd rnd (j + 1)))
        (slice curvature (range.bnd rnd j) (range.bnd rnd (j + 1)))
        (nb.slice (range.bnd rnd j) (range.bnd rnd (j + 1))) =
      .ok (slice r (range.bnd rnd j) (range.bnd rnd (j + 1))) := by
  simp only [assignLabel] at h
  split_ifs at h with hcl hns
  push Not at hcl hns
  refine ⟨hcl, hns, ?_⟩
  have hstopn : ∀ j : ℕ, (j : ℤ) ≤ range.nBlocks → range.bnd rnd j ≤ labels.length := by
    intro j hj
    have h1 := hb.bnd_mono (i := j) (j := range.nBlocks.toNat) (by omega) (by omega)
    have h2 := hb.bnd_eq range.nBlocks.toNat (by omega)
    rw [Int.toNat_of_nonneg (by omega), hb.last] at h2
    omega
  -- invariant over the number of processed blocks
  have key : ∀ (m : ℕ), (m : ℤ) ≤ max range.nBlocks 0 → ∀ l : List PointLabel,
      (List.range m).foldlM (fun labels (j : ℕ) => do
        let b ← range.beginWith rnd j
        let e ← range.endWith rnd j
        assignBlock argsort pe te ps ts labels curvature nb b e) labels = .ok l →
      l.length = labels.length ∧
      (∀ k : ℕ, k < range.bnd rnd 0 ∨ range.bnd rnd m ≤ k → l[k]? = labels[k]?) ∧
      ∀ j : ℕ, j < m →
        blockResult argsort pe te ps ts (slice labels (range.bnd rnd j) (range.bnd rnd (j + 1)))
          (slice curvature (range.bnd rnd j) (range.bnd rnd (j + 1)))
          (nb.slice (range.bnd rnd j) (range.bnd rnd (j + 1))) =
        .ok (slice l (range.bnd rnd j) (range.bnd rnd (j + 1))) := by
    intro m
    induction m with
    | zero =>
      intro _ l hl
      injection hl with hl
      subst hl
      exact ⟨rfl, fun _ _ => rfl, fun j hj => by omega⟩
    | succ m ih =>
      intro hm l hl
      have hmn : ((m : ℕ) : ℤ) < range.nBlocks := by push_cast at hm; omega
      rw [List.range_succ, List.foldlM_append] at hl
      cases hf : (List.range m).foldlM (fun labels (j : ℕ) => do
        let b ← range.beginWith rnd j
        let e ← range.endWith rnd j
        assignBlock argsort pe te ps ts labels curvature nb b e) labels with
      | error x => rw [hf] at hl; cases hl
      | ok l₀ =>
        obtain ⟨i1, i2, i3⟩ := ih (by omega) l₀ hf
        rw [hf] at hl
        have hB := hb.bnd_eq m (by omega)
        have hE := hb.bnd_eq (m + 1) (by push_cast; omega)
        have hle : range.bnd rnd m ≤ range.bnd rnd (m + 1) :=
          hb.bnd_mono (by omega) (by push_cast; omega)
        have hEl := hstopn (m + 1) (by push_cast; omega)
        push_cast at hE
        simp only [bind, Except.bind, List.foldlM_cons, List.foldlM_nil,
          begin_ok (rnd := rnd) (by omega : (0 : ℤ) ≤ (m : ℤ)) hmn,
          end_ok (rnd := rnd) (by omega : (0 : ℤ) ≤ (m : ℤ)) hmn, hB, hE] at hl
        rw [assignBlock_eq _ _ _ _ _ _ _ _ _ _ hle (by omega) (by omega)] at hl
        have hview : slice l₀ (range.bnd rnd m) (range.bnd rnd (m + 1)) =
            slice labels (range.bnd rnd m) (range.bnd rnd (m + 1)) :=
          slice_congr (fun k h1 _ => i2 k (Or.inr h1))
        rw [hview] at hl
        cases hres : blockResult argsort pe te ps ts
            (slice labels (range.bnd rnd m) (range.bnd rnd (m + 1)))
            (slice curvature (range.bnd rnd m) (range.bnd rnd (m + 1)))
            (nb.slice (range.bnd rnd m) (range.bnd rnd (m + 1))) with
        | error x => rw [hres] at hl; cases hl
        | ok v =>
          rw [hres] at hl
          simp only [Except.map, pure, Except.pure] at hl
          injection hl with hl
          have hvl := blockResult_length hres
          rw [slice_length _ _ _ hEl] at hvl
          have hget := splice_getElem? l₀ v (range.bnd rnd m) (range.bnd rnd (m + 1)) hle
            (by omega) hvl
          rw [hl] at hget
          have hll : l.length = labels.length := by
            rw [← hl]
            simp only [List.length_append, List.length_take, List.length_drop, hvl]; omega
          refine ⟨hll, fun k hk => ?_, fun j hj => ?_⟩
          · have h0m : range.bnd rnd 0 ≤ range.bnd rnd m := hb.bnd_mono (by omega) (by omega)
            rw [hget k, if_neg (by omega)]
            exact i2 k (by omega)
          · rcases Nat.lt_or_ge j m with hjm | hjm
            · rw [i3 j hjm]
              congr 1
              apply slice_congr
              intro k h1 h2
              have := hb.bnd_mono (i := j + 1) (j := m) (by omega) (by omega)
              rw [hget k, if_neg (by omega)]
            · have : j = m := by omega
              subst this
              rw [hres]
              congr 1
              apply List.ext_getElem?
              intro k
              rw [slice_getElem?]
              split_ifs with hk
              · rw [hget, if_pos (by omega)]; congr 1; omega
              · rw [List.getElem?_eq_none (by omega)]
  obtain ⟨k1, k2, k3⟩ := key range.nBlocks.toNat (by omega) r h
  refine ⟨k1, fun k hk => ?_, fun j hj => k3 j (by omega)⟩
  by_cases hn : 0 ≤ range.nBlocks
  · apply k2
    have h0 := hb.bnd_eq 0 (by simpa using hn)
    have hN := hb.bnd_eq range.nBlocks.toNat (by omega)
    rw [Int.toNat_of_nonneg hn, hb.last] at hN
    have h0' : range.start = (range.bnd rnd 0 : ℤ) := by rw [← h0, ← hb.first]; simp
    omega
  · have : range.nBlocks.toNat = 0 := by omega
    rw [this] at h
    injection h with h; rw [h]

end

end Verif.Extraction
