/-
The labels of a ring as a function of the thresholds.
-/
import Verif.Lemmas.RingLabels
import Verif.Props.C79

set_option autoImplicit false

namespace Verif.Extraction

section Greedy

/-- The order in which a pass visits the points. -/
def earlier (order : List ℕ) (i j : ℕ) : Prop := order.idxOf i < order.idxOf j

theorem earlier_pairwise {order : List ℕ} (h : order.Nodup) : order.Pairwise (earlier order) := by
  rw [List.pairwise_iff_getElem]
  intro i j hi hj hij
  simp only [earlier]
  rw [h.idxOf_getElem i hi, h.idxOf_getElem j hj]
  exact hij

theorem earlier_rel {order : List ℕ} {R : ℕ → ℕ → Prop} (hpw : order.Pairwise R) {i j : ℕ}
    (hi : i ∈ order) (hj : j ∈ order) (h : earlier order i j) : R i j := by
  have h1 := List.idxOf_lt_length_of_mem hi
  have h2 := List.idxOf_lt_length_of_mem hj
  have := List.pairwise_iff_getElem.1 hpw (order.idxOf i) (order.idxOf j) h1 h2 h
  simpa using this

/-- A pass marks a point if it is unlabelled, selected and not linked to a point marked earlier. -/
theorem PassInv.greedy {mark nmark : PointLabel} {sel adj : ℕ → Bool} {p : ℕ}
    {init l : List PointLabel} {order : List ℕ} (hmn : mark ≠ nmark)
    (h : PassInv mark nmark sel adj p (earlier order) init order l) (k : ℕ) :
    l[k]? = some mark ↔ k ∈ order ∧ init[k]? = some .default ∧ sel k = true ∧
      ∀ m, l[m]? = some mark → earlier order m k → ¬ Linked adj p m k := by
  constructor
  · intro hk
    obtain ⟨h1, h2, h3⟩ := h.marked k hk
    refine ⟨h3, h1, h2, fun m hm hb hl => ?_⟩
    have hkm : k ≠ m := by rintro rfl; simp [earlier] at hb
    have hkl : k < l.length := (List.getElem?_eq_some_iff.1 hk).1
    have := h.around m k hm hl hkm hkl
    rw [hk] at this
    exact hmn (Option.some.inj this)
  · rintro ⟨h1, h2, h3, h4⟩
    rcases h.complete k h1 h2 h3 with h5 | ⟨m, h5, h6, h7⟩
    · exact h5
    · exact absurd h6 (h4 m h5 h7)

/-- A pass with a narrower selection that keeps a point whenever it keeps a later one marks exactly
the marked points of the wider selection that it keeps. -/
theorem greedy_narrow {mark nmark : PointLabel} {sel sel' adj : ℕ → Bool} {p : ℕ}
    {init l l' : List PointLabel} {order : List ℕ} (hmn : mark ≠ nmark)
    (h : PassInv mark nmark sel adj p (earlier order) init order l)
    (h' : PassInv mark nmark sel' adj p (earlier order) init order l')
    (hsub : ∀ k, sel' k = true → sel k = true)
    (hcl : ∀ m ∈ order, ∀ k ∈ order, earlier order m k → sel' k = true → sel' m = true) (k : ℕ) :
    l'[k]? = some mark ↔ l[k]? = some mark ∧ sel' k = true := by
  induction hn : order.idxOf k using Nat.strong_induction_on generalizing k with
  | _ n ih =>
    subst hn
    rw [h.greedy hmn k, h'.greedy hmn k]
    constructor
    · rintro ⟨h1, h2, h3, h4⟩
      refine ⟨⟨h1, h2, hsub k h3, fun m hm hb hl => h4 m ?_ hb hl⟩, h3⟩
      exact (ih _ hb m rfl).2 ⟨hm, hcl m (h.marked m hm).2.2 k h1 hb h3⟩
    · rintro ⟨⟨h1, h2, h3, h4⟩, h5⟩
      exact ⟨h1, h2, h5, fun m hm hb hl => h4 m ((ih _ hb m rfl).1 hm).1 hb hl⟩

end Greedy

section Passes
variable {P K : Type} [LinearOrder K]

theorem argsort_nodup {argsort : List K → List ℕ} (hs : IsArgsort argsort) (c : List K) :
    (argsort c).Nodup := (hs c).1.nodup_iff.2 List.nodup_range

theorem edgeAssign_order {argsort : List K → List ℕ} (hs : IsArgsort argsort) (padding : ℕ)
    (threshold : K) {labels : List PointLabel} {curvature : List K} {nb : NeighborCheck}
    {adj : ℕ → Bool} (hin : PassInput labels curvature nb adj)
    (h0 : ∀ k : ℕ, labels[k]? ≠ some .edge) :
    ∃ r, edgeAssign argsort padding threshold labels curvature nb = .ok r ∧
      PassInv .edge .edgeNeighbor (edgeSel threshold curvature) adj padding
        (earlier (argsort curvature).reverse) labels (argsort curvature).reverse r := by
  obtain ⟨hperm, hpw⟩ := hs curvature
  have hmem : ∀ i ∈ (argsort curvature).reverse, i < labels.length := by
    intro i hi
    rw [List.mem_reverse, hperm.mem_iff, List.mem_range, hin.curvature_length] at hi
    exact hi
  obtain ⟨r, hr, hinv⟩ := pass_spec (mark := .edge) (nmark := .edgeNeighbor)
    (sel := edgeSel threshold curvature) (p := padding) (nb := nb) (adj := adj)
    (before := earlier (argsort curvature).reverse) (init := labels)
    (order := (argsort curvature).reverse) (by decide) (by decide) (by decide) h0
    ⟨hin.nb_size, hin.nb_test⟩ hmem
    (earlier_pairwise (List.nodup_reverse.2 (argsort_nodup hs curvature)))
  refine ⟨r, ?_, hinv⟩
  simp only [edgeAssign]
  rw [if_neg (by simpa using hin.curvature_length), if_neg (by simpa using hin.nb_size), ← hr]
  exact foldlM_congr _ _ (fun i hi b => edgeStep_eq (by rw [hin.curvature_length]; exact hmem i hi))

theorem surfaceAssign_order {argsort : List K → List ℕ} (hs : IsArgsort argsort) (padding : ℕ)
    (threshold : K) {labels : List PointLabel} {curvature : List K} {nb : NeighborCheck}
    {adj : ℕ → Bool} (hin : PassInput labels curvature nb adj) (hne : labels ≠ [])
    (h0 : ∀ k : ℕ, labels[k]? ≠ some .surface) :
    ∃ r, surfaceAssign argsort padding threshold labels curvature nb = .ok r ∧
      PassInv .surface .surfaceNeighbor (surfaceSel threshold curvature) adj padding
        (earlier (argsort curvature)) labels (argsort curvature) r := by
  obtain ⟨hperm, hpw⟩ := hs curvature
  have hmem : ∀ i ∈ argsort curvature, i < labels.length := by
    intro i hi
    rw [hperm.mem_iff, List.mem_range, hin.curvature_length] at hi
    exact hi
  obtain ⟨r, hr, hinv⟩ := pass_spec (mark := .surface) (nmark := .surfaceNeighbor)
    (sel := surfaceSel threshold curvature) (p := padding) (nb := nb) (adj := adj)
    (before := earlier (argsort curvature)) (init := labels)
    (order := argsort curvature) (by decide) (by decide) (by decide) h0
    ⟨hin.nb_size, hin.nb_test⟩ hmem (earlier_pairwise (argsort_nodup hs curvature))
  refine ⟨r, ?_, hinv⟩
  have hpos : 0 < labels.length := List.length_pos_iff.2 hne
  simp only [surfaceAssign]
  rw [if_neg (by rw [hin.nb_size]; omega), ← hr]
  exact foldlM_congr _ _ (fun i hi b => surfaceStep_eq (by rw [hin.curvature_length]; exact hmem i hi))

/-- Raising the threshold of the edge pass keeps exactly the edges that reach the new threshold. -/
theorem edgeAssign_raise {argsort : List K → List ℕ} (hs : IsArgsort argsort) {padding : ℕ}
    {te te' : K} (ht : te ≤ te') {labels r r' : List PointLabel} {curvature : List K}
    {nb : NeighborCheck} {adj : ℕ → Bool} (hin : PassInput labels curvature nb adj)
    (h0 : ∀ k : ℕ, labels[k]? ≠ some .edge)
    (h : edgeAssign argsort padding te labels curvature nb = .ok r)
    (h' : edgeAssign argsort padding te' labels curvature nb = .ok r') (k : ℕ) :
    r'[k]? = some .edge ↔ r[k]? = some .edge ∧ ∃ c, curvature[k]? = some c ∧ te' ≤ c := by
  obtain ⟨_, e1, i1⟩ := edgeAssign_order hs padding te hin h0
  obtain ⟨_, e2, i2⟩ := edgeAssign_order hs padding te' hin h0
  rw [h] at e1; injection e1 with e1; subst e1
  rw [h'] at e2; injection e2 with e2; subst e2
  rw [← edgeSel_iff]
  refine greedy_narrow (by decide) i1 i2 (fun k hk => ?_) (fun m hm k hk hb hsk => ?_) k
  · rw [edgeSel_iff] at hk ⊢
    obtain ⟨c, h1, h2⟩ := hk
    exact ⟨c, h1, ht.trans h2⟩
  · rw [edgeSel_iff] at hsk ⊢
    obtain ⟨c, h1, h2⟩ := hsk
    have hml : m < curvature.length := by
      rw [List.mem_reverse, (hs curvature).1.mem_iff, List.mem_range] at hm; exact hm
    have := earlier_rel (List.pairwise_reverse.2 (hs curvature).2) hm hk hb c curvature[m] h1
      (List.getElem?_eq_getElem hml)
    exact ⟨_, List.getElem?_eq_getElem hml, h2.trans this⟩

/-- Lowering the threshold of the surface pass keeps exactly the surface points that reach it. -/
theorem surfaceAssign_lower {argsort : List K → List ℕ} (hs : IsArgsort argsort) {padding : ℕ}
    {ts ts' : K} (ht : ts' ≤ ts) {labels r r' : List PointLabel} {curvature : List K}
    {nb : NeighborCheck} {adj : ℕ → Bool} (hin : PassInput labels curvature nb adj)
    (hne : labels ≠ []) (h0 : ∀ k : ℕ, labels[k]? ≠ some .surface)
    (h : surfaceAssign argsort padding ts labels curvature nb = .ok r)
    (h' : surfaceAssign argsort padding ts' labels curvature nb = .ok r') (k : ℕ) :
    r'[k]? = some .surface ↔
      r[k]? = some .surface ∧ ∃ c, curvature[k]? = some c ∧ c ≤ ts' := by
  obtain ⟨_, e1, i1⟩ := surfaceAssign_order hs padding ts hin hne h0
  obtain ⟨_, e2, i2⟩ := surfaceAssign_order hs padding ts' hin hne h0
  rw [h] at e1; injection e1 with e1; subst e1
  rw [h'] at e2; injection e2 with e2; subst e2
  rw [← surfaceSel_iff]
  refine greedy_narrow (by decide) i1 i2 (fun k hk => ?_) (fun m hm k hk hb hsk => ?_) k
  · rw [surfaceSel_iff] at hk ⊢
    obtain ⟨c, h1, h2⟩ := hk
    exact ⟨c, h1, h2.trans ht⟩
  · rw [surfaceSel_iff] at hsk ⊢
    obtain ⟨c, h1, h2⟩ := hsk
    have hml : m < curvature.length := by
      rw [(hs curvature).1.mem_iff, List.mem_range] at hm; exact hm
    have := earlier_rel (hs curvature).2 hm hk hb curvature[m] c
      (List.getElem?_eq_getElem hml) h1
    exact ⟨_, List.getElem?_eq_getElem hml, this.trans h2⟩

/-- Both passes on one fresh block, with two pairs of thresholds. -/
theorem blockResult_thresholds {argsort : List K → List ℕ} (hs : IsArgsort argsort) {p : ℕ}
    {te te' ts ts' : K} {labels r r' : List PointLabel} {curvature : List K}
    {s : NeighborCheckXY P} {adj : ℕ → Bool} (hin : PassInput labels curvature s.base adj)
    (hne : labels ≠ []) (h0 : ∀ k : ℕ, labels[k]? ≠ some .edge ∧ labels[k]? ≠ some .surface)
    (h : blockResult argsort p te p ts labels curvature (.ok s) = .ok r)
    (h' : blockResult argsort p te' p ts' labels curvature (.ok s) = .ok r') (k : ℕ) :
    (te ≤ te' → (r'[k]? = some .edge ↔
      r[k]? = some .edge ∧ ∃ c, curvature[k]? = some c ∧ te' ≤ c)) ∧
    (te = te' → ts' ≤ ts → (r'[k]? = some .surface ↔
      r[k]? = some .surface ∧ ∃ c, curvature[k]? = some c ∧ c ≤ ts')) := by
  obtain ⟨a₁, a₂, h1, h2, h3⟩ := C12_surface_keeps_edges hs p te ts _ _ _ _ hin hne h0
  obtain ⟨b₁, b₂, h1', h2', h3'⟩ := C12_surface_keeps_edges hs p te' ts' _ _ _ _ hin hne h0
  simp only [blockResult, bind, Except.bind, h1, h2] at h
  simp only [blockResult, bind, Except.bind, h1', h2'] at h'
  injection h with h; injection h' with h'
  subst h; subst h'
  constructor
  · intro ht
    rw [h3, h3']
    exact edgeAssign_raise hs ht hin (fun k => (h0 k).1) h1 h1' k
  · rintro rfl ht
    rw [h1] at h1'; injection h1' with h1'; subst h1'
    obtain ⟨_, e1, i1⟩ := edgeAssign_order hs p te hin (fun k => (h0 k).1)
    rw [h1] at e1; injection e1 with e1; subst e1
    have hl := i1.len
    refine surfaceAssign_lower hs ht ⟨by rw [hl]; exact hin.1, by rw [hl]; exact hin.2,
      by rw [hl]; exact hin.3⟩ ?_ ?_ h2 h2' k
    · intro hc; rw [hc] at hl; exact hne (List.eq_nil_of_length_eq_zero (by simpa using hl.symm))
    · intro k hk
      have := i1.frame k (by rw [hk]; simp) (by rw [hk]; simp)
      rw [hk] at this
      exact (h0 k).2 this.symm

/-- Labelling a fresh ring with two pairs of thresholds. -/
theorem assignLabel_thresholds {rnd : ℚ → ℚ} {argsort : List K → List ℕ} (hs : IsArgsort argsort)
    {p : ℕ} {te te' ts ts' : K} {n : ℕ} {r r' : List PointLabel} {curvature : List K}
    {nb : NeighborCheckXY P} {range : IndexRange} {adj : ℕ → Bool} (hb : BlocksOK rnd range)
    (hn : 0 ≤ range.nBlocks) (hstop : range.stop ≤ n)
    (hadj : ∀ m : ℕ, m + 1 < n →
      nb.call m (m + 1) = .ok (adj m) ∧ nb.call ((m : ℤ) + 1) m = .ok (adj m))
    (h : assignLabel rnd argsort p te p ts (initLabels n) curvature nb range = .ok r)
    (h' : assignLabel rnd argsort p te' p ts' (initLabels n) curvature nb range = .ok r') (k : ℕ) :
    (te ≤ te' → (r'[k]? = some .edge ↔
      r[k]? = some .edge ∧ ∃ c, curvature[k]? = some c ∧ te' ≤ c)) ∧
    (te = te' → ts' ≤ ts → (r'[k]? = some .surface ↔
      r[k]? = some .surface ∧ ∃ c, curvature[k]? = some c ∧ c ≤ ts')) := by
  have hlen : (initLabels n).length = n := by simp [initLabels]
  obtain ⟨hcl, hns, hl, hout, hblk⟩ := assignLabel_blocks hb (by rw [hlen]; exact hstop) h
  obtain ⟨-, -, hl', hout', hblk'⟩ := assignLabel_blocks hb (by rw [hlen]; exact hstop) h'
  rw [hlen] at hcl hns hl hl'
  have hinit : ∀ k : ℕ, (initLabels n)[k]? ≠ some .edge ∧ (initLabels n)[k]? ≠ some .surface := by
    intro k
    simp only [initLabels, List.getElem?_replicate]
    split_ifs <;> simp
  by_cases hin : range.start ≤ k ∧ (k : ℤ) < range.stop
  swap
  · rw [hout k (by omega), hout' k (by omega)]
    simp [(hinit k).1, (hinit k).2]
  obtain ⟨j, hj, hjk, hkj⟩ := exists_block hb hin.1 hin.2 hn
  have hres := hblk j hj
  have hres' := hblk' j hj
  generalize hbb : range.bnd rnd j = b at *
  generalize hee : range.bnd rnd (j + 1) = e at *
  have hen : e ≤ n := by
    have h1 := hb.bnd_mono (i := j + 1) (j := range.nBlocks.toNat) (by omega) (by omega)
    have h2 := hb.bnd_eq range.nBlocks.toNat (by omega)
    rw [Int.toNat_of_nonneg hn, hb.last] at h2
    omega
  have hll := slice_length (initLabels n) b e (by omega)
  have hlc := slice_length curvature b e (by omega)
  cases hsl : nb.slice b e with
  | error x => rw [hsl] at hres; cases hres
  | ok s =>
    rw [hsl] at hres hres'
    have hin1 : PassInput (slice (initLabels n) b e) (slice curvature b e) s.base
        (fun m => adj (b + m)) := by
      refine ⟨by omega, by rw [hll]; exact slice_size hsl, fun m hm => ?_⟩
      have h1 := slice_call hsl m (m + 1) (by omega) (by omega)
      have h2 := slice_call hsl (m + 1) m (by omega) (by omega)
      have h3 := hadj (b + m) (by omega)
      push_cast at h1 h2 h3 ⊢
      simp only [NeighborCheckXY.base]
      rw [h1, h2, ← add_assoc]
      exact h3
    have hne : slice (initLabels n) b e ≠ [] := by
      intro hc; rw [hc] at hll; simp at hll; omega
    have h0 : ∀ k : ℕ, (slice (initLabels n) b e)[k]? ≠ some .edge ∧
        (slice (initLabels n) b e)[k]? ≠ some .surface := by
      intro k
      rw [slice_getElem?]
      split_ifs
      · exact hinit _
      · simp
    have key := blockResult_thresholds hs hin1 hne h0 hres hres' (k - b)
    have hg : ∀ {α : Type} (l : List α), (slice l b e)[k - b]? = l[k]? := by
      intro α l
      rw [slice_getElem?, if_pos (by omega)]
      congr 1; omega
    rw [hg, hg, hg] at key
    exact key

theorem foldlM_succeeds {α β : Type} {f : β → α → Res β} {I : β → Prop} :
    ∀ (xs : List α) (b : β), (∀ x ∈ xs, ∀ b, I b → ∃ r, f b x = .ok r ∧ I r) → I b →
      ∃ r, xs.foldlM f b = .ok r ∧ I r
  | [], b, _, hb => ⟨b, rfl, hb⟩
  | x :: xs, b, h, hb => by
    obtain ⟨r, hr, hI⟩ := h x (by simp) b hb
    rw [List.foldlM_cons, hr]
    exact foldlM_succeeds xs r (fun y hy => h y (by simp [hy])) hI

/-- Whether the labelling succeeds does not depend on the thresholds, nor on the labels. -/
theorem blockResult_succeeds {argsort : List K → List ℕ} (hs : IsArgsort argsort) {p : ℕ}
    {te ts : K} {labels : List PointLabel} {curvature : List K}
    {s : NeighborCheckXY P} {adj : ℕ → Bool} (hin : PassInput labels curvature s.base adj)
    (hne : labels ≠ []) : ∃ r, blockResult argsort p te p ts labels curvature (.ok s) = .ok r ∧
      r.length = labels.length := by
  have hmem : ∀ i ∈ argsort curvature, i < labels.length := by
    intro i hi
    rw [(hs curvature).1.mem_iff, List.mem_range, hin.curvature_length] at hi
    exact hi
  have step : ∀ (mark nmark : PointLabel) (sel : ℕ → Bool), ∀ i ∈ argsort curvature,
      ∀ l : List PointLabel, l.length = labels.length →
      ∃ r, passStep mark nmark sel p s.base l i = .ok r ∧ r.length = labels.length := by
    intro mark nmark sel i hi l hl
    obtain ⟨r, hr, hrl, -⟩ := passStep_spec (mark := mark) (nmark := nmark) (sel := sel) (p := p)
      (nb := s.base) (adj := adj) (labels := l) (i := i)
      ⟨by rw [hl]; exact hin.nb_size, by rw [hl]; exact hin.nb_test⟩ (by rw [hl]; exact hmem i hi)
    exact ⟨r, hr, hrl.trans hl⟩
  obtain ⟨r₁, h1, l1⟩ := foldlM_succeeds (I := fun l => l.length = labels.length)
    (argsort curvature).reverse labels
    (fun i hi l hl => step .edge .edgeNeighbor (edgeSel te curvature) i (List.mem_reverse.1 hi) l hl)
    rfl
  obtain ⟨r₂, h2, l2⟩ := foldlM_succeeds (I := fun l => l.length = labels.length)
    (argsort curvature) r₁
    (fun i hi l hl => step .surface .surfaceNeighbor (surfaceSel ts curvature) i hi l hl) l1
  refine ⟨r₂, ?_, l2⟩
  have hpos : 0 < labels.length := List.length_pos_iff.2 hne
  have e1 : edgeAssign argsort p te labels curvature s.base = .ok r₁ := by
    simp only [edgeAssign]
    rw [if_neg (by simpa using hin.curvature_length), if_neg (by simpa using hin.nb_size), ← h1]
    exact foldlM_congr _ _ (fun i hi b => edgeStep_eq (by
      rw [hin.curvature_length]; exact hmem i (List.mem_reverse.1 hi)))
  have e2 : surfaceAssign argsort p ts r₁ curvature s.base = .ok r₂ := by
    simp only [surfaceAssign]
    rw [if_neg (by rw [hin.nb_size]; omega), ← h2]
    exact foldlM_congr _ _ (fun i hi b => surfaceStep_eq (by
      rw [hin.curvature_length]; exact hmem i hi))
  simp only [blockResult, bind, Except.bind, e1, e2]

/-- If a fresh ring is labelled with one pair of thresholds, so it is with every other. -/
theorem assignLabel_transfer {rnd : ℚ → ℚ} {argsort : List K → List ℕ} (hs : IsArgsort argsort)
    {p : ℕ} {te ts : K} (te' ts' : K) {n : ℕ} {r : List PointLabel} {curvature : List K}
    {nb : NeighborCheckXY P} {range : IndexRange} {adj : ℕ → Bool} (hb : BlocksOK rnd range)
    (hn : 0 ≤ range.nBlocks) (hstop : range.stop ≤ n)
    (hadj : ∀ m : ℕ, m + 1 < n →
      nb.call m (m + 1) = .ok (adj m) ∧ nb.call ((m : ℤ) + 1) m = .ok (adj m))
    (h : assignLabel rnd argsort p te p ts (initLabels n) curvature nb range = .ok r) :
    ∃ r', assignLabel rnd argsort p te' p ts' (initLabels n) curvature nb range = .ok r' ∧
      r'.length = n := by
  have hlen : (initLabels n).length = n := by simp [initLabels]
  obtain ⟨hcl, hns, hl, hout, hblk⟩ := assignLabel_blocks hb (by rw [hlen]; exact hstop) h
  rw [hlen] at hcl hns hl
  simp only [assignLabel]
  rw [if_neg (by rw [hlen]; simpa using hcl), if_neg (by rw [hlen]; simpa using hns)]
  refine foldlM_succeeds (I := fun l : List PointLabel => l.length = n) _ _ (fun j hj l hll => ?_) hlen
  rw [List.mem_range] at hj
  have hj' : (j : ℤ) < range.nBlocks := by omega
  have hres := hblk j hj'
  have hbe := hb.bnd_mono (i := j) (j := j + 1) (by omega) (by push_cast; omega)
  have hen : range.bnd rnd (j + 1) ≤ n := by
    have h1 := hb.bnd_mono (i := j + 1) (j := range.nBlocks.toNat) (by omega) (by omega)
    have h2 := hb.bnd_eq range.nBlocks.toNat (by omega)
    rw [Int.toNat_of_nonneg hn, hb.last] at h2
    omega
  rw [begin_ok (by omega) hj', end_ok (by omega) hj', hb.bnd_eq j (by omega)]
  have hE := hb.bnd_eq (j + 1) (by push_cast; omega)
  push_cast at hE
  rw [hE]
  simp only [bind, Except.bind]
  rw [assignBlock_eq _ _ _ _ _ _ _ _ _ _ hbe (by omega) (by omega)]
  generalize hbb : range.bnd rnd j = b at *
  generalize hee : range.bnd rnd (j + 1) = e at *
  have hlv := slice_length l b e (by omega)
  have hlc := slice_length curvature b e (by omega)
  cases hsl : nb.slice b e with
  | error x => rw [hsl] at hres; cases hres
  | ok s =>
    obtain ⟨hs2, -, -⟩ := slice_ok_iff.1 hsl
    have hin1 : PassInput (slice l b e) (slice curvature b e) s.base (fun m => adj (b + m)) := by
      refine ⟨by omega, by rw [hlv]; exact slice_size hsl, fun m hm => ?_⟩
      have h1 := slice_call hsl m (m + 1) (by omega) (by omega)
      have h2 := slice_call hsl (m + 1) m (by omega) (by omega)
      have h3 := hadj (b + m) (by omega)
      push_cast at h1 h2 h3 ⊢
      simp only [NeighborCheckXY.base]
      rw [h1, h2, ← add_assoc]
      exact h3
    obtain ⟨v, hv, hvl⟩ := blockResult_succeeds hs (p := p) (te := te') (ts := ts') hin1
      (by intro hc; rw [hc] at hlv; simp at hlv; omega)
    refine ⟨l.take b ++ v ++ l.drop e, by rw [hv]; rfl, ?_⟩
    simp only [List.length_append, List.length_take, List.length_drop]
    omega

end Passes

section Ring
variable {P K : Type} [Field K] [LinearOrder K]

/-- The point `k` of a ring keeps its label in the three filters. -/
structure Kept (hp : HyperParameters K) (p n : ℕ) (adj : ℕ → Bool) (rg : ℕ → K) (k : ℕ) : Prop where
  parallel : ¬ (1 ≤ k ∧ k + 1 < n ∧ hp.parallelBeamMinRangeRatio * rg k < |rg (k - 1) - rg k| ∧
    hp.parallelBeamMinRangeRatio * rg k < |rg (k + 1) - rg k|)
  range : ¬ (rg k < hp.minRange ∨ hp.maxRange < rg k)
  occluded : ¬ ∃ near far, Jump adj rg hp.distanceDiffThreshold near far ∧
    WindowFits n p near far ∧ InShadow adj p near far k

/-- A ring all of whose neighbour tests are defined: the labels follow from the labelling. -/
theorem ringLabels_of [IsStrictOrderedRing K] {plat : Platform K} {hp : HyperParameters K}
    {nb : NeighborCheckXY P} {range : Range P K} {n p : ℕ} {adj : ℕ → Bool} {rg : ℕ → K}
    {ir : IndexRange} {l₁ : List PointLabel} (hpp : hp.padding = p) (hp0 : 0 < p)
    (hri : RingInput nb range n adj rg) (hidx : nb.ref.indices.length = n)
    (hnn : ∀ k, k < n → 0 ≤ rg k) (hsz : 2 * p + 1 ≤ n) (h64 : n < 2 ^ 64)
    (hmk : PaddedIndexRange.make (n : ℤ) hp.nBlocks p = .ok ir)
    (hA : assignLabel plat.rnd plat.argsort p hp.edgeThreshold p hp.surfaceThreshold
      (initLabels n) ((List.range n).map fun i =>
        if p ≤ i ∧ i + p < n then smoothness rg p i else 0) nb ir = .ok l₁)
    (hl₁ : l₁.length = n) :
    ∃ l, ringLabels plat hp nb range = .ok (l, (List.range n).map fun i =>
        if p ≤ i ∧ i + p < n then smoothness rg p i else 0) ∧ l.length = n ∧
      ∀ (k : ℕ) (L : PointLabel), L ≠ .occluded → L ≠ .outOfRange → L ≠ .parallelBeam →
        (l[k]? = some L ↔ l₁[k]? = some L ∧ Kept hp p n adj rg k) := by
  have hint : range.interval 0 n = .ok ((List.range n).map rg) := by
    simp only [Range.interval]
    rw [if_neg (by omega)]
    have : ((n : ℤ) - 0).toNat = n := by omega
    rw [this]
    exact mapM_range_ok n (fun i hi => hri.range_val i hi)
  obtain ⟨l₂, hO, ho₂⟩ := C14_occlusion_exact l₁ nb range p hp.distanceDiffThreshold adj rg
    (by rw [hl₁]; exact hri) (by omega) (by omega)
  have hl₂ : l₂.length = n := by rw [ho₂.1, hl₁]
  obtain ⟨l₃, hR, ho₃⟩ := C15_out_of_range_exact l₂ nb range hp.minRange hp.maxRange adj rg
    (by rw [hl₂]; exact hri)
  have hl₃ : l₃.length = n := by rw [ho₃.1, hl₂]
  obtain ⟨l₄, hB, ho₄⟩ := C16_parallel_beam_exact l₃ nb range hp.parallelBeamMinRangeRatio
    adj rg (by rw [hl₃]; exact hri) (by intro hc; rw [hc] at hl₃; simp at hl₃; omega)
    (by rw [hl₃]; exact hnn)
  have hl₄ : l₄.length = n := by rw [ho₄.1, hl₃]
  refine ⟨l₄, ?_, hl₄, fun k L n1 n2 n3 => ?_⟩
  · simp only [ringLabels, hri.range_size, hint, bind, Except.bind, hpp]
    rw [calcCurvature_eq rg n p hp0, if_neg (by omega)]
    simp only [hmk, hidx, hA, Int.toNat_natCast, hO, hR, hB]
    rw [if_neg (by simp [MappedPoints.size, hidx])]
    rfl
  · by_cases hkn : k < n
    swap
    · rw [List.getElem?_eq_none (by omega), List.getElem?_eq_none (by omega)]; simp
    have s4 := ho₄.2 k (by omega)
    have s3 := ho₃.2 k (by omega)
    have s2 := ho₂.2 k (by omega)
    rw [hl₃] at s4
    rw [hl₁] at s2
    constructor
    · intro hk
      have q4 : ¬ (1 ≤ k ∧ k + 1 < n ∧
          hp.parallelBeamMinRangeRatio * rg k < |rg (k - 1) - rg k| ∧
          hp.parallelBeamMinRangeRatio * rg k < |rg (k + 1) - rg k|) := by
        intro hc
        have := s4.1 hc
        rw [hk] at this; injection this with this; exact n3 this
      have k3 : l₃[k]? = some L := by rw [← s4.2 q4]; exact hk
      have q3 : ¬ (rg k < hp.minRange ∨ hp.maxRange < rg k) := by
        intro hc
        have := s3.1 hc
        rw [k3] at this; injection this with this; exact n2 this
      have k2 : l₂[k]? = some L := by rw [← s3.2 q3]; exact k3
      have q2 : ¬ ∃ near far, Jump adj rg hp.distanceDiffThreshold near far ∧
          WindowFits n p near far ∧ InShadow adj p near far k := by
        intro hc
        have := s2.1 hc
        rw [k2] at this; injection this with this; exact n1 this
      exact ⟨by rw [← s2.2 q2]; exact k2, q4, q3, q2⟩
    · rintro ⟨k1, q⟩
      rw [s4.2 q.parallel, s3.2 q.range, s2.2 q.occluded, k1]

/-- A ring that is labelled: all its neighbour tests are defined and the labels follow from the
labelling. -/
theorem ringLabels_defined [IsStrictOrderedRing K] {plat : Platform K} {hp : HyperParameters K}
    {geo : Geometry P K} {cloud : List P} {indices : List ℕ} {lc : List PointLabel × List K}
    (hgeo : GeometryOK geo) (hv : hp.Valid) (harg : IsArgsort plat.argsort)
    (harith : ArithOK plat.rnd indices.length hp.nBlocks)
    (hin : ∀ i ∈ indices, i < cloud.length) (h64 : indices.length < 2 ^ 64)
    (h : ringLabels plat hp ⟨⟨cloud, indices⟩, geo.isNb⟩ ⟨⟨cloud, indices⟩, geo.norm⟩ = .ok lc) :
    ∃ (p : ℕ) (ir : IndexRange) (l₁ : List PointLabel), hp.padding = p ∧ 0 < p ∧
      2 * p + 1 ≤ indices.length ∧
      PaddedIndexRange.make (indices.length : ℤ) hp.nBlocks p = .ok ir ∧
      RingInput ⟨⟨cloud, indices⟩, geo.isNb⟩ ⟨⟨cloud, indices⟩, geo.norm⟩ indices.length
        (adjacentAt geo.isNb (ringPoints cloud indices))
        (rangeAt geo.norm (ringPoints cloud indices)) ∧
      (∀ k, k < indices.length → 0 ≤ rangeAt geo.norm (ringPoints cloud indices) k) ∧
      assignLabel plat.rnd plat.argsort p hp.edgeThreshold p hp.surfaceThreshold
        (initLabels indices.length) ((List.range indices.length).map fun i =>
          if p ≤ i ∧ i + p < indices.length then
            smoothness (rangeAt geo.norm (ringPoints cloud indices)) p i else 0)
        ⟨⟨cloud, indices⟩, geo.isNb⟩ ir = .ok l₁ ∧ l₁.length = indices.length := by
  obtain ⟨hp0, -, -, -, -, -, -, hnb0⟩ := hv
  obtain ⟨p, hpp⟩ := Int.eq_ofNat_of_zero_le hp0.le
  obtain ⟨hlp, hpts⟩ := ringPoints_getElem? hin
  set pts := ringPoints cloud indices with hptsdef
  set n := indices.length with hn
  set nb : NeighborCheckXY P := ⟨⟨cloud, indices⟩, geo.isNb⟩ with hnbdef
  set range : Range P K := ⟨⟨cloud, indices⟩, geo.norm⟩ with hrdef
  set rg := rangeAt geo.norm pts with hrg
  set adj := adjacentAt geo.isNb pts with hadj
  have hnbs : nb.size = n := rfl
  have hrs : range.size = n := rfl
  have hcall : ∀ i j : ℕ, (hi : i < n) → (hj : j < n) →
      nb.call i j = geo.isNb (pts[i]'(by omega)) (pts[j]'(by omega)) := by
    intro i j hi hj
    rw [call_eq hi hj]
    simp only [hnbdef, ref_at hin hi, ref_at hin hj, bind, Except.bind, hptsdef]
  have hsafe : SafeNb nb.base n := by
    intro i j hi hj
    refine Safe.of_err (fun e he => ?_) (fun _ _ => trivial)
    change nb.call i j = _ at he
    rw [hcall i j hi hj] at he
    exact hgeo.nb_err _ _ e he
  have hrange : ∀ m : ℕ, m < n → range.call m = .ok (rg m) := by
    intro m hm
    simp only [Range.call, hrdef, ref_at hin hm, bind, Except.bind, pure, Except.pure, hrg]
    rw [rangeAt_eq _ (by omega)]
  have hnn : ∀ k, k < n → 0 ≤ rg k := by
    intro k hk; rw [hrg, rangeAt_eq _ (by omega)]; exact hgeo.norm_nonneg _
  have hint : range.interval 0 n = .ok ((List.range n).map rg) := by
    simp only [Range.interval]
    rw [if_neg (by omega)]
    have : ((n : ℤ) - 0).toNat = n := by omega
    rw [this]
    exact mapM_range_ok n (fun i hi => hrange i hi)
  simp only [ringLabels, hrs] at h
  rw [hint] at h
  simp only [bind, Except.bind, hpp] at h
  have hp' : 0 < p := by omega
  rw [calcCurvature_eq rg n p hp'] at h
  by_cases hsz : n < 2 * p + 1
  · rw [if_pos hsz] at h; cases h
  rw [if_neg hsz] at h
  simp only [] at h
  cases hmk : PaddedIndexRange.make (n : ℤ) hp.nBlocks p with
  | error e => rw [hmk] at h; cases h
  | ok ir =>
    rw [hmk] at h
    simp only [] at h
    have hil : (initLabels n).length = n := by simp [initLabels]
    obtain ⟨hblk, hst, hsp, hnbk⟩ := padded_blocksOK (by omega) hnb0 harith hmk
    have hbaseidx : nb.ref.indices.length = n := rfl
    rw [hbaseidx] at h
    have h1 := assignLabel_safe harg (pe := p) (ps := p) (te := hp.edgeThreshold)
      (ts := hp.surfaceThreshold) (labels := initLabels n)
      (curvature := (List.range n).map fun i =>
        if p ≤ i ∧ i + p < n then smoothness rg p i else 0) (nb := nb) hblk
      (by rw [hil]; omega) (by rw [hil]; simp) (by rw [hil]) (by rw [hil]; exact hsafe)
    cases hA : assignLabel plat.rnd plat.argsort p hp.edgeThreshold p hp.surfaceThreshold
        (initLabels n) ((List.range n).map fun i =>
          if p ≤ i ∧ i + p < n then smoothness rg p i else 0) nb ir with
    | error e => rw [hA] at h; cases h
    | ok l₁ =>
      rw [hA] at h1 h
      have hl₁ : l₁.length = n := by simpa [Safe, hil] using h1
      simp only [Int.toNat_natCast] at h
      cases hO : labelOccludedPoints l₁ nb range p hp.distanceDiffThreshold with
      | error e => rw [hO] at h; cases h
      | ok l₂ =>
        have htests := labelOccludedPoints_tests (by omega) (by omega) hO
        rw [hl₁] at htests
        have hadjok : ∀ m : ℕ, m + 1 < n →
            nb.call m (m + 1) = .ok (adj m) ∧ nb.call ((m : ℤ) + 1) m = .ok (adj m) := by
          intro m hm
          have c1 := hcall m (m + 1) (by omega) hm
          have c2 := hcall (m + 1) m hm (by omega)
          push_cast at c1 c2
          have hok : ∃ a, geo.isNb (pts[m]'(by omega)) (pts[m + 1]'(by omega)) = .ok a := by
            rcases htests m hm with ⟨a, ha⟩ | ⟨a, ha⟩
            · exact ⟨a, c1.symm.trans ha⟩
            · rw [c2, hgeo.nb_symm] at ha; exact ⟨a, ha⟩
          obtain ⟨a, ha⟩ := hok
          have hadja : adj m = a := by
            have e1 : pts[m]? = some (pts[m]'(by omega)) := by
              rw [List.getElem?_eq_getElem]
            have e2 : pts[m + 1]? = some (pts[m + 1]'(by omega)) := by
              rw [List.getElem?_eq_getElem]
            simp only [hadj, adjacentAt, e1, e2, ha]
          rw [c1, c2, hgeo.nb_symm (pts[m + 1]'(by omega)), ha, hadja]
          exact ⟨rfl, rfl⟩
        exact ⟨p, ir, l₁, hpp, hp', by omega, hmk, ⟨hnbs, hrs, hadjok, hrange⟩, hnn, hA, hl₁⟩

end Ring

end Verif.Extraction
