/-
If every comparison comes out as in exact arithmetic, the extraction in floating-point arithmetic
publishes the same.
-/
import Verif.Model.Rounded
import Verif.Lemmas.Message
import Verif.Props.C111

set_option autoImplicit false

namespace Verif.Extraction

variable {P : Type}

/-- Two points that follow each other in a list, in either order. -/
def Adjacent (pts : List P) (p q : P) : Prop :=
  ∃ k : ℕ, pts[k]? = some p ∧ pts[k + 1]? = some q ∨ pts[k]? = some q ∧ pts[k + 1]? = some p

theorem Adjacent.symm {pts : List P} {p q : P} (h : Adjacent pts p q) : Adjacent pts q p := by
  obtain ⟨k, h | h⟩ := h
  · exact ⟨k, Or.inr h⟩
  · exact ⟨k, Or.inl h⟩

section Fill

/-- Two neighbour tests agree on consecutive indices. -/
def SameTest (nb nb' : NeighborCheck) : Prop :=
  nb.size = nb'.size ∧ (∀ i, nb.test i (i + 1) = nb'.test i (i + 1)) ∧
    ∀ i, nb.test i (i - 1) = nb'.test i (i - 1)

theorem SameTest.fillFromLeft {nb nb' : NeighborCheck} (h : SameTest nb nb') :
    ∀ labels b e label, Verif.Extraction.fillFromLeft labels nb b e label =
      Verif.Extraction.fillFromLeft labels nb' b e label := by
  have hl : ∀ (label : PointLabel) (k : ℕ) (i e : ℤ) (labels : List PointLabel),
      fillLeftLoop nb label k i e labels = fillLeftLoop nb' label k i e labels := by
    intro label k
    induction k with
    | zero => intros; rfl
    | succ k ih =>
      intro i e labels
      simp only [fillLeftLoop, h.2.1, ih]
  intro labels b e label
  simp only [Verif.Extraction.fillFromLeft, h.1, hl]

theorem SameTest.fillFromRight {nb nb' : NeighborCheck} (h : SameTest nb nb') :
    ∀ labels b e label, Verif.Extraction.fillFromRight labels nb b e label =
      Verif.Extraction.fillFromRight labels nb' b e label := by
  have hl : ∀ (label : PointLabel) (k : ℕ) (i e : ℤ) (labels : List PointLabel),
      fillRightLoop nb label k i e labels = fillRightLoop nb' label k i e labels := by
    intro label k
    induction k with
    | zero => intros; rfl
    | succ k ih =>
      intro i e labels
      simp only [fillRightLoop, h.2.2, ih]
  intro labels b e label
  simp only [Verif.Extraction.fillFromRight, h.1, hl]

theorem SameTest.fillNeighbors {nb nb' : NeighborCheck} (h : SameTest nb nb') :
    ∀ labels index padding label, Verif.Extraction.fillNeighbors labels nb index padding label =
      Verif.Extraction.fillNeighbors labels nb' index padding label := by
  intro labels index padding label
  simp only [Verif.Extraction.fillNeighbors, h.1, h.fillFromLeft, h.fillFromRight]

end Fill

section Label

/-- Two lists of values compare alike among themselves and to the two thresholds. -/
structure SameOrder (te ts : ℝ) (c c' : List ℝ) : Prop where
  len : c.length = c'.length
  lt : ∀ (i j : ℕ) (a b a' b' : ℝ), c[i]? = some a → c[j]? = some b → c'[i]? = some a' →
    c'[j]? = some b' → (a < b ↔ a' < b')
  edge : ∀ (i : ℕ) (a a' : ℝ), c[i]? = some a → c'[i]? = some a' → (te ≤ a ↔ te ≤ a')
  surface : ∀ (i : ℕ) (a a' : ℝ), c[i]? = some a → c'[i]? = some a' → (a ≤ ts ↔ a' ≤ ts)

theorem atI_pair {α β : Type} {l : List α} {l' : List β} (h : l.length = l'.length) (i : ℤ) :
    (atI l i = .error .outOfRange ∧ atI l' i = .error .outOfRange) ∨
    ∃ (k : ℕ) (a : α) (a' : β), i = k ∧ l[k]? = some a ∧ l'[k]? = some a' ∧ atI l i = .ok a ∧
      atI l' i = .ok a' := by
  by_cases hi : i < 0 ∨ (l.length : ℤ) ≤ i
  · exact Or.inl ⟨atI_error_of_ge hi, atI_error_of_ge (by rw [← h]; exact hi)⟩
  · right
    obtain ⟨k, rfl⟩ := Int.eq_ofNat_of_zero_le (by omega : 0 ≤ i)
    have h1 : k < l.length := by omega
    have h2 : k < l'.length := by omega
    exact ⟨k, l[k], l'[k], rfl, by simp, by simp, atI_ok h1, atI_ok h2⟩

theorem edgeAssign_same {argsort : List ℝ → List ℕ} (ha : ComparesOnly argsort) {te ts : ℝ}
    {c c' : List ℝ} (hc : SameOrder te ts c c') {nb nb' : NeighborCheck} (hn : SameTest nb nb')
    (padding : ℤ) (labels : List PointLabel) :
    edgeAssign argsort padding te labels c' nb' = edgeAssign argsort padding te labels c nb := by
  have hs : edgeStep padding te c' nb' = edgeStep padding te c nb := by
    funext labels i
    simp only [edgeStep, hn.fillNeighbors]
    rcases atI_pair hc.len (i : ℤ) with ⟨h1, h2⟩ | ⟨k, a, a', hk, h1, h2, h3, h4⟩
    · rw [h1, h2]
    · rw [h3, h4]
      simp only [bind, Except.bind, hc.edge k a a' h1 h2]
  simp only [edgeAssign, ha c c' hc.len hc.lt, hs, hc.len, hn.1]

theorem surfaceAssign_same {argsort : List ℝ → List ℕ} (ha : ComparesOnly argsort) {te ts : ℝ}
    {c c' : List ℝ} (hc : SameOrder te ts c c') {nb nb' : NeighborCheck} (hn : SameTest nb nb')
    (padding : ℤ) (labels : List PointLabel) :
    surfaceAssign argsort padding ts labels c' nb' =
      surfaceAssign argsort padding ts labels c nb := by
  have hs : surfaceStep padding ts c' nb' = surfaceStep padding ts c nb := by
    funext labels i
    simp only [surfaceStep, hn.fillNeighbors]
    rcases atI_pair hc.len (i : ℤ) with ⟨h1, h2⟩ | ⟨k, a, a', hk, h1, h2, h3, h4⟩
    · rw [h1, h2]
    · rw [h3, h4]
      simp only [bind, Except.bind, hc.surface k a a' h1 h2]
  simp only [surfaceAssign, ha c c' hc.len hc.lt, hs, hn.1]

/-- Two tests of points agree on consecutive points of a ring. -/
def SameNb (isNb isNb' : P → P → Res Bool) (pts : List P) : Prop :=
  ∀ p q, Adjacent pts p q → isNb p q = isNb' p q

theorem at_ok {m : MappedPoints P} (hb : ∀ i ∈ m.indices, i < m.cloud.length) {i : ℤ} {p : P}
    (h : m.at i = .ok p) : ∃ k : ℕ, i = k ∧ (ringPoints m.cloud m.indices)[k]? = some p := by
  by_cases hi : i < 0 ∨ (m.indices.length : ℤ) ≤ i
  · simp only [MappedPoints.at, atI_error_of_ge hi, bind, Except.bind, reduceCtorEq] at h
  · obtain ⟨k, rfl⟩ := Int.eq_ofNat_of_zero_le (by omega : 0 ≤ i)
    have hk : k < m.indices.length := by omega
    have h1 := ref_at hb hk
    rw [show (⟨m.cloud, m.indices⟩ : MappedPoints P) = m from rfl] at h1
    refine ⟨k, rfl, ?_⟩
    have h2 := h1.symm.trans h
    rw [← Except.ok.inj h2]
    simp

theorem at_adjacent {m : MappedPoints P} (hb : ∀ i ∈ m.indices, i < m.cloud.length) {i j : ℤ}
    {p q : P} (hij : j = i + 1 ∨ j = i - 1) (hp : m.at i = .ok p) (hq : m.at j = .ok q) :
    Adjacent (ringPoints m.cloud m.indices) p q := by
  obtain ⟨k, rfl, hk⟩ := at_ok hb hp
  obtain ⟨l, rfl, hl⟩ := at_ok hb hq
  rcases hij with h | h
  · obtain rfl : l = k + 1 := by omega
    exact ⟨k, Or.inl ⟨hk, hl⟩⟩
  · obtain rfl : k = l + 1 := by omega
    exact ⟨l, Or.inr ⟨hl, hk⟩⟩

theorem call_same {m : MappedPoints P} (hb : ∀ i ∈ m.indices, i < m.cloud.length)
    {isNb isNb' : P → P → Res Bool} (h : SameNb isNb isNb' (ringPoints m.cloud m.indices)) {i j : ℤ}
    (hij : j = i + 1 ∨ j = i - 1) :
    (⟨m, isNb⟩ : NeighborCheckXY P).call i j = (⟨m, isNb'⟩ : NeighborCheckXY P).call i j := by
  have hc : ∀ i, (⟨m, isNb⟩ : NeighborCheckXY P).checkIndex i =
      (⟨m, isNb'⟩ : NeighborCheckXY P).checkIndex i := fun _ => rfl
  simp only [NeighborCheckXY.call, hc, bind, Except.bind]
  cases (⟨m, isNb'⟩ : NeighborCheckXY P).checkIndex i with
  | error e => rfl
  | ok _ =>
    cases (⟨m, isNb'⟩ : NeighborCheckXY P).checkIndex j with
    | error e => rfl
    | ok _ =>
      simp only
      cases h1 : m.at i with
      | error e => rfl
      | ok p =>
        simp only
        cases h2 : m.at j with
        | error e => rfl
        | ok q => exact h p q (at_adjacent hb hij h1 h2)

theorem base_same {m : MappedPoints P} (hb : ∀ i ∈ m.indices, i < m.cloud.length)
    {isNb isNb' : P → P → Res Bool} (h : SameNb isNb isNb' (ringPoints m.cloud m.indices)) :
    SameTest (⟨m, isNb⟩ : NeighborCheckXY P).base (⟨m, isNb'⟩ : NeighborCheckXY P).base :=
  ⟨rfl, fun _ => call_same hb h (Or.inl rfl), fun _ => call_same hb h (Or.inr rfl)⟩

theorem SameNb.slice {isNb isNb' : P → P → Res Bool} {pts : List P} (h : SameNb isNb isNb' pts)
    (a n : ℕ) : SameNb isNb isNb' ((pts.drop a).take n) := by
  intro p q hpq
  refine h p q ?_
  have hget : ∀ (k : ℕ) (x : P), ((pts.drop a).take n)[k]? = some x → pts[a + k]? = some x := by
    intro k x hx
    rw [List.getElem?_take] at hx
    split_ifs at hx
    rwa [List.getElem?_drop] at hx
  obtain ⟨k, ⟨h1, h2⟩ | ⟨h1, h2⟩⟩ := hpq
  · exact ⟨a + k, Or.inl ⟨hget _ _ h1, hget _ _ h2⟩⟩
  · exact ⟨a + k, Or.inr ⟨hget _ _ h1, hget _ _ h2⟩⟩

theorem assignBlock_same {argsort : List ℝ → List ℕ} (ha : ComparesOnly argsort) {te ts : ℝ}
    {c c' : List ℝ} {m : MappedPoints P} (hb : ∀ i ∈ m.indices, i < m.cloud.length)
    {isNb isNb' : P → P → Res Bool} (h : SameNb isNb isNb' (ringPoints m.cloud m.indices))
    (hlen : c.length = c'.length) (b e : ℤ)
    (hc : SameOrder te ts ((c.drop b.toNat).take (e - b).toNat) ((c'.drop b.toNat).take (e - b).toNat))
    (pe ps : ℤ) (labels : List PointLabel) :
    assignBlock argsort pe te ps ts labels c' ⟨m, isNb'⟩ b e =
      assignBlock argsort pe te ps ts labels c ⟨m, isNb⟩ b e := by
  simp only [assignBlock, hlen, NeighborCheckXY.slice, MappedPoints.slice, NeighborCheckXY.make]
  split_ifs with h1 h2
  · simp only [bind, Except.bind]
    split_ifs with h3
    · rfl
    · have hs : SameTest
          (⟨⟨m.cloud, (m.indices.drop b.toNat).take (e - b).toNat⟩, isNb⟩ : NeighborCheckXY P).base
          (⟨⟨m.cloud, (m.indices.drop b.toNat).take (e - b).toNat⟩, isNb'⟩ :
            NeighborCheckXY P).base := by
        refine base_same (m := ⟨m.cloud, (m.indices.drop b.toNat).take (e - b).toNat⟩)
          (fun i hi => hb i (List.mem_of_mem_drop (List.mem_of_mem_take hi))) ?_
        show SameNb isNb isNb' (ringPoints m.cloud ((m.indices.drop b.toNat).take (e - b).toNat))
        rw [ringPoints_slice hb]
        exact h.slice _ _
      simp only [edgeAssign_same ha hc hs, surfaceAssign_same ha hc hs]
  · rfl
  · rfl

theorem assignLabel_same {rnd : ℚ → ℚ} {argsort : List ℝ → List ℕ} (ha : ComparesOnly argsort)
    {te ts : ℝ} {c c' : List ℝ} {m : MappedPoints P} (hb : ∀ i ∈ m.indices, i < m.cloud.length)
    {isNb isNb' : P → P → Res Bool} (h : SameNb isNb isNb' (ringPoints m.cloud m.indices))
    (hlen : c.length = c'.length) {range : IndexRange} (hr : BlocksOK rnd range)
    (hc : ∀ b e : ℕ, range.start ≤ b → (e : ℤ) ≤ range.stop →
      SameOrder te ts ((c.drop b).take (e - b)) ((c'.drop b).take (e - b)))
    (pe ps : ℤ) (labels : List PointLabel) :
    assignLabel rnd argsort pe te ps ts labels c' ⟨m, isNb'⟩ range =
      assignLabel rnd argsort pe te ps ts labels c ⟨m, isNb⟩ range := by
  have hsz : (⟨m, isNb'⟩ : NeighborCheckXY P).size = (⟨m, isNb⟩ : NeighborCheckXY P).size := rfl
  simp only [assignLabel, hlen]
  rw [hsz]
  split_ifs with h1 h2
  · rfl
  · rfl
  · refine foldlM_congr _ _ ?_
    intro j hj labels
    have hj' : (j : ℤ) < range.nBlocks := by
      have := List.mem_range.1 hj
      omega
    have hB := hr.bnd_eq j (by omega)
    have hE := hr.bnd_eq (j + 1) (by push_cast; omega)
    have hmono := hr.bnd_mono (i := j) (j := j + 1) (by omega) (by push_cast; omega)
    push_cast at hE
    have hlo := hr.ge j (by omega)
    have hN := hr.bnd_eq range.nBlocks.toNat (by omega)
    rw [Int.toNat_of_nonneg (by omega), hr.last] at hN
    have hhi := hr.bnd_mono (i := j + 1) (j := range.nBlocks.toNat) (by omega) (by omega)
    simp only [begin_ok (rnd := rnd) (by omega : (0 : ℤ) ≤ (j : ℤ)) hj',
      end_ok (rnd := rnd) (by omega : (0 : ℤ) ≤ (j : ℤ)) hj', bind, Except.bind, hB, hE]
    refine assignBlock_same ha hb h hlen _ _ ?_ _ _ _
    have := hc (range.bnd rnd j) (range.bnd rnd (j + 1)) (by omega) (by omega)
    have e1 : ((range.bnd rnd (j + 1) : ℤ) - (range.bnd rnd j : ℤ)).toNat =
      range.bnd rnd (j + 1) - range.bnd rnd j := by omega
    rw [e1, Int.toNat_natCast]
    exact this

end Label

/-- Every comparison on the points of a ring comes out alike; `c` and `c'` are the curvatures. -/
structure SameDecisions (A : Arith) (hp : HyperParameters ℝ) (norm norm' : P → ℝ)
    (isNb isNb' : P → P → Res Bool) (pts : List P) : Prop where
  nb : SameNb isNb isNb' pts
  jump : ∀ p q, Adjacent pts p q →
    (norm' q > A.dbl (norm' p + hp.distanceDiffThreshold) ↔
      norm q > norm p + hp.distanceDiffThreshold)
  range : ∀ p ∈ pts, isInInclusiveRange (norm' p) hp.minRange hp.maxRange =
    isInInclusiveRange (norm p) hp.minRange hp.maxRange
  ratio : ∀ p q, Adjacent pts p q →
    Rounded.ratioGreater A (norm' p) (norm' q) hp.parallelBeamMinRangeRatio =
      ratioGreater (norm p - norm q) (norm q) hp.parallelBeamMinRangeRatio
  curvature : (∃ e, calcCurvature (pts.map norm) hp.padding = .error e ∧
      Rounded.calcCurvature A (pts.map norm') hp.padding = .error e) ∨
    ∃ c c', calcCurvature (pts.map norm) hp.padding = .ok c ∧
      Rounded.calcCurvature A (pts.map norm') hp.padding = .ok c' ∧ c.length = c'.length ∧
      ∀ b e : ℕ, hp.padding ≤ b → (e : ℤ) ≤ pts.length - hp.padding →
        SameOrder hp.edgeThreshold hp.surfaceThreshold ((c.drop b).take (e - b))
          ((c'.drop b).take (e - b))

section Filters

variable {A : Arith} {hp : HyperParameters ℝ} {norm norm' : P → ℝ} {isNb isNb' : P → P → Res Bool}
  {m : MappedPoints P}

theorem labelOccludedPoints_same (hb : ∀ i ∈ m.indices, i < m.cloud.length)
    (h : SameDecisions A hp norm norm' isNb isNb' (ringPoints m.cloud m.indices))
    (labels : List PointLabel) (padding : ℕ) :
    Rounded.labelOccludedPoints A labels ⟨m, isNb'⟩ ⟨m, norm'⟩ padding hp.distanceDiffThreshold =
      labelOccludedPoints labels ⟨m, isNb⟩ ⟨m, norm⟩ padding hp.distanceDiffThreshold := by
  have hbase := base_same hb h.nb
  have hfl := hbase.fillFromLeft
  have hfr := hbase.fillFromRight
  have hl : Rounded.fromLeftStep A ⟨m, isNb'⟩ ⟨m, norm'⟩ padding hp.distanceDiffThreshold =
      fromLeftStep ⟨m, isNb⟩ ⟨m, norm⟩ padding hp.distanceDiffThreshold := by
    funext labels i
    simp only [Rounded.fromLeftStep, fromLeftStep, ← call_same hb h.nb (Or.inl rfl), Range.call, ← hfl,
      bind, Except.bind]
    cases (⟨m, isNb⟩ : NeighborCheckXY P).call (i : ℤ) (i + 1) with
    | error e => rfl
    | ok ok =>
      simp only
      split_ifs with hok
      · rfl
      · cases h1 : m.at (i : ℤ) with
        | error e => rfl
        | ok p =>
          simp only [pure, Except.pure]
          cases h2 : m.at ((i : ℤ) + 1) with
          | error e => rfl
          | ok q =>
            simp only [h.jump p q (at_adjacent hb (Or.inl rfl) h1 h2)]
  have hr : Rounded.fromRightStep A ⟨m, isNb'⟩ ⟨m, norm'⟩ padding hp.distanceDiffThreshold =
      fromRightStep ⟨m, isNb⟩ ⟨m, norm⟩ padding hp.distanceDiffThreshold := by
    funext labels i
    simp only [Rounded.fromRightStep, fromRightStep, ← call_same hb h.nb (Or.inr rfl), Range.call, ← hfr,
      bind, Except.bind]
    cases (⟨m, isNb⟩ : NeighborCheckXY P).call (i : ℤ) (i - 1) with
    | error e => rfl
    | ok ok =>
      simp only
      split_ifs with hok
      · rfl
      · cases h1 : m.at ((i : ℤ) - 1) with
        | error e => rfl
        | ok q =>
          simp only [pure, Except.pure]
          cases h2 : m.at (i : ℤ) with
          | error e => rfl
          | ok p =>
            simp only [h.jump p q (at_adjacent hb (Or.inr rfl) h2 h1)]
  simp only [Rounded.labelOccludedPoints, labelOccludedPoints, Rounded.fromLeft, fromLeft,
    Rounded.fromRight, fromRight, hl, hr]

theorem labelOutOfRange_same (hb : ∀ i ∈ m.indices, i < m.cloud.length)
    (h : SameDecisions A hp norm norm' isNb isNb' (ringPoints m.cloud m.indices))
    (labels : List PointLabel) :
    labelOutOfRange labels (⟨m, norm'⟩ : Range P ℝ) hp.minRange hp.maxRange =
      labelOutOfRange labels ⟨m, norm⟩ hp.minRange hp.maxRange := by
  have hz : (⟨m, norm'⟩ : Range P ℝ).size = (⟨m, norm⟩ : Range P ℝ).size := rfl
  simp only [labelOutOfRange, hz, Range.call]
  congr 1
  funext labels i
  simp only [bind, Except.bind]
  cases h1 : m.at (i : ℤ) with
  | error e => rfl
  | ok p =>
    obtain ⟨k, -, hk⟩ := at_ok hb h1
    simp only [pure, Except.pure, h.range p (List.mem_of_getElem? hk)]

theorem interval_map (hb : ∀ i ∈ m.indices, i < m.cloud.length) (norm : P → ℝ) {n : ℕ}
    (hn : n = m.indices.length) :
    (⟨m, norm⟩ : Range P ℝ).interval 0 n = .ok ((ringPoints m.cloud m.indices).map norm) := by
  subst hn
  have hlen := (ringPoints_getElem? hb).1
  simp only [Range.interval]
  rw [if_neg (by omega)]
  have h1 : ∀ (j : ℕ), j < m.indices.length → (⟨m, norm⟩ : Range P ℝ).call (j : ℤ) =
      .ok (rangeAt norm (ringPoints m.cloud m.indices) j) := by
    intro j hj
    have h2 := ref_at hb hj
    rw [show (⟨m.cloud, m.indices⟩ : MappedPoints P) = m from rfl] at h2
    simp only [Range.call, h2, bind, Except.bind, pure, Except.pure]
    rw [rangeAt_eq norm (by omega)]
  have h3 : ∀ l : List ℕ, (∀ j ∈ l, j < m.indices.length) →
      l.mapM (fun i : ℕ => (⟨m, norm⟩ : Range P ℝ).call i) =
        .ok (l.map (rangeAt norm (ringPoints m.cloud m.indices))) := by
    intro l
    induction l with
    | nil => intro _; rfl
    | cons j l ih =>
      intro hl
      rw [List.mapM_cons, h1 j (hl j List.mem_cons_self),
        ih (fun x hx => hl x (List.mem_cons_of_mem _ hx))]
      rfl
  rw [h3 _ (by intro j hj; have := List.mem_range.1 hj; omega)]
  congr 1
  apply List.ext_getElem
  · simp [hlen]
  · intro i h4 h5
    simp at h4 h5
    simp [rangeAt, h5]

theorem labelParallelBeamPoints_same (hb : ∀ i ∈ m.indices, i < m.cloud.length)
    (h : SameDecisions A hp norm norm' isNb isNb' (ringPoints m.cloud m.indices))
    (labels : List PointLabel) (hlen : labels.length = m.indices.length) :
    Rounded.labelParallelBeamPoints A labels ⟨m, norm'⟩ hp.parallelBeamMinRangeRatio =
      labelParallelBeamPoints labels ⟨m, norm⟩ hp.parallelBeamMinRangeRatio := by
  simp only [Rounded.labelParallelBeamPoints, labelParallelBeamPoints, interval_map hb norm hlen,
    interval_map hb norm' hlen, bind, Except.bind]
  split_ifs
  · rfl
  · congr 1
    funext labels k
    simp only [atI_map]
    have hat : ∀ i : ℤ, ∀ p, atI (ringPoints m.cloud m.indices) i = .ok p →
        ∃ j : ℕ, i = j ∧ (ringPoints m.cloud m.indices)[j]? = some p := by
      intro i p hi
      by_cases hc : i < 0 ∨ ((ringPoints m.cloud m.indices).length : ℤ) ≤ i
      · rw [atI_error_of_ge hc] at hi; cases hi
      · obtain ⟨j, rfl⟩ := Int.eq_ofNat_of_zero_le (by omega : 0 ≤ i)
        rw [atI_ok (by omega)] at hi
        refine ⟨j, rfl, ?_⟩
        rw [← Except.ok.inj hi]; simp
    cases h0 : atI (ringPoints m.cloud m.indices) ((k : ℤ) + 1 - 1) with
    | error e => rfl
    | ok p0 =>
      simp only [Except.map]
      cases h1 : atI (ringPoints m.cloud m.indices) ((k : ℤ) + 1) with
      | error e => rfl
      | ok p1 =>
        simp only
        cases h2 : atI (ringPoints m.cloud m.indices) ((k : ℤ) + 1 + 1) with
        | error e => rfl
        | ok p2 =>
          simp only
          obtain ⟨j0, e0, g0⟩ := hat _ _ h0
          obtain ⟨j1, e1, g1⟩ := hat _ _ h1
          obtain ⟨j2, e2, g2⟩ := hat _ _ h2
          obtain rfl : j1 = j0 + 1 := by omega
          obtain rfl : j2 = j0 + 1 + 1 := by omega
          rw [h.ratio p0 p1 ⟨j0, Or.inl ⟨g0, g1⟩⟩, h.ratio p2 p1 ⟨j0 + 1, Or.inr ⟨g1, g2⟩⟩]

end Filters

/-- Both fail in the same way, or both succeed with related results. -/
def RelRes {α β : Type} (R : α → β → Prop) (r : Res α) (r' : Res β) : Prop :=
  (∃ e, r = .error e ∧ r' = .error e) ∨ ∃ a b, r = .ok a ∧ r' = .ok b ∧ R a b

theorem RelRes.foldlM {α β γ : Type} {R : α → β → Prop} {f : α → γ → Res α} {g : β → γ → Res β} :
    ∀ (l : List γ) {a : α} {b : β}, R a b →
      (∀ x ∈ l, ∀ a b, R a b → RelRes R (f a x) (g b x)) →
      RelRes R (l.foldlM f a) (l.foldlM g b)
  | [], a, b, hab, _ => Or.inr ⟨a, b, rfl, rfl, hab⟩
  | x :: l, a, b, hab, h => by
    simp only [List.foldlM_cons]
    rcases h x List.mem_cons_self a b hab with ⟨e, h1, h2⟩ | ⟨a', b', h1, h2, h3⟩
    · rw [h1, h2]; exact Or.inl ⟨e, rfl, rfl⟩
    · rw [h1, h2]
      exact RelRes.foldlM l h3 (fun y hy => h y (List.mem_cons_of_mem _ hy))

theorem labelOccludedPoints_length {nb : NeighborCheckXY P} {range : Range P ℝ} {p : ℕ} {t : ℝ}
    {l r : List PointLabel} (h : labelOccludedPoints l nb range p t = .ok r) :
    r.length = l.length := by
  simp only [labelOccludedPoints, bind, Except.bind] at h
  cases h1 : fromLeft l nb range p t with
  | error e => rw [h1] at h; simp only [reduceCtorEq] at h
  | ok l1 =>
    rw [h1] at h
    simp only [fromLeft] at h1
    have e1 := foldlM_length (fun _ _ _ hs => fromLeftStep_length hs) _ _ _ h1
    simp only [fromRight] at h
    split_ifs at h
    have e2 := foldlM_length (fun _ _ _ hs => fromRightStep_length hs) _ _ _ h
    omega

theorem labelOutOfRange_length {range : Range P ℝ} {a b : ℝ} {l r : List PointLabel}
    (h : labelOutOfRange l range a b = .ok r) : r.length = l.length := by
  simp only [labelOutOfRange] at h
  refine foldlM_length (fun l1 i l2 hs => ?_) _ _ _ h
  simp only [bind, Except.bind] at hs
  cases h1 : range.call (i : ℤ) with
  | error e => rw [h1] at hs; simp only [reduceCtorEq] at hs
  | ok v =>
    rw [h1] at hs
    simp only [pure, Except.pure] at hs
    split_ifs at hs
    · exact setI_length hs
    · rw [Except.ok.inj hs]

section Ring

variable {A : Arith} {hp : HyperParameters ℝ} {norm norm' : P → ℝ} {isNb isNb' : P → P → Res Bool}
  {m : MappedPoints P}

theorem ringLabels_same {plat : Platform ℝ} (ha : ComparesOnly plat.argsort) (hv : hp.Valid)
    (hb : ∀ i ∈ m.indices, i < m.cloud.length)
    (harith : ArithOK plat.rnd m.indices.length hp.nBlocks)
    (h : SameDecisions A hp norm norm' isNb isNb' (ringPoints m.cloud m.indices)) :
    RelRes (fun lc lc' => lc.1 = lc'.1 ∧ lc.2.length = lc'.2.length)
      (ringLabels plat hp ⟨m, isNb⟩ ⟨m, norm⟩) (Rounded.ringLabels A plat hp ⟨m, isNb'⟩ ⟨m, norm'⟩) := by
  have hlen := (ringPoints_getElem? hb).1
  have hz : (⟨m, norm⟩ : Range P ℝ).size = m.indices.length := rfl
  have hz' : (⟨m, norm'⟩ : Range P ℝ).size = m.indices.length := rfl
  simp only [ringLabels, Rounded.ringLabels, hz, hz', interval_map hb norm rfl,
    interval_map hb norm' rfl, bind, Except.bind]
  rcases h.curvature with ⟨e, h1, h2⟩ | ⟨c, c', h1, h2, h3, h4⟩
  · rw [h1, h2]; exact Or.inl ⟨e, rfl, rfl⟩
  · rw [h1, h2]
    simp only
    cases h5 : PaddedIndexRange.make m.indices.length hp.nBlocks hp.padding with
    | error e => exact Or.inl ⟨e, rfl, rfl⟩
    | ok ir =>
      simp only
      obtain ⟨hB, hs, ht, -⟩ := padded_blocksOK hv.1.le hv.2.2.2.2.2.2.2 harith h5
      rw [assignLabel_same ha hb h.nb h3 hB (by
        intro b e hb' he'
        exact h4 b e (by omega) (by omega))]
      cases h6 : assignLabel plat.rnd plat.argsort hp.padding hp.edgeThreshold hp.padding
          hp.surfaceThreshold (initLabels m.indices.length) c ⟨m, isNb⟩ ir with
      | error e => exact Or.inl ⟨e, rfl, rfl⟩
      | ok l1 =>
        have e0 : (initLabels m.indices.length).length = m.indices.length := by simp [initLabels]
        have e1 : l1.length = m.indices.length := by
          obtain ⟨-, -, hl, -⟩ := assignLabel_blocks hB (by
            rw [e0]; have := hv.1; omega) h6
          omega
        simp only [labelOccludedPoints_same hb h]
        cases h7 : labelOccludedPoints l1 ⟨m, isNb⟩ ⟨m, norm⟩ hp.padding.toNat
            hp.distanceDiffThreshold with
        | error e => exact Or.inl ⟨e, rfl, rfl⟩
        | ok l2 =>
          have e2 := labelOccludedPoints_length h7
          simp only [labelOutOfRange_same hb h]
          cases h8 : labelOutOfRange l2 (⟨m, norm⟩ : Range P ℝ) hp.minRange hp.maxRange with
          | error e => exact Or.inl ⟨e, rfl, rfl⟩
          | ok l3 =>
            have e3 := labelOutOfRange_length h8
            simp only [labelParallelBeamPoints_same hb h l3 (by omega)]
            cases h9 : labelParallelBeamPoints l3 (⟨m, norm⟩ : Range P ℝ)
                hp.parallelBeamMinRangeRatio with
            | error e => exact Or.inl ⟨e, rfl, rfl⟩
            | ok l4 =>
              simp only [h3, pure, Except.pure]
              split_ifs
              · exact Or.inl ⟨_, rfl, rfl⟩
              · exact Or.inr ⟨_, _, rfl, rfl, rfl, h3⟩

/-- Clouds with the same points; the curvatures may differ. -/
def Clouds.Alike (o o' : Clouds P ℝ) : Prop :=
  o.edge.map Prod.fst = o'.edge.map Prod.fst ∧ o.surface.map Prod.fst = o'.surface.map Prod.fst ∧
    o.colored = o'.colored

theorem getByIndices_same {c c' : List ℝ} (h : c.length = c'.length) (idx : List ℕ) :
    RelRes (fun a b => a.length = b.length) (getByIndices idx (atI c)) (getByIndices idx (atI c')) := by
  simp only [getByIndices]
  induction idx with
  | nil => exact Or.inr ⟨[], [], rfl, rfl, rfl⟩
  | cons i idx ih =>
    simp only [List.mapM_cons, bind, Except.bind]
    rcases atI_pair h (i : ℤ) with ⟨h1, h2⟩ | ⟨k, a, a', -, -, -, h3, h4⟩
    · rw [h1, h2]; exact Or.inl ⟨_, rfl, rfl⟩
    · rw [h3, h4]
      simp only
      rcases ih with ⟨e, h5, h6⟩ | ⟨x, y, h5, h6, h7⟩
      · rw [h5, h6]; exact Or.inl ⟨_, rfl, rfl⟩
      · rw [h5, h6]; exact Or.inr ⟨_, _, rfl, rfl, by simp [h7]⟩

theorem appendXYZIR_same {o o' : List (P × ℝ)} (ho : o.map Prod.fst = o'.map Prod.fst) (pts : List P)
    {c c' : List ℝ} (h : c.length = c'.length) :
    RelRes (fun a b => a.map Prod.fst = b.map Prod.fst) (appendXYZIR o pts c)
      (appendXYZIR o' pts c') := by
  simp only [appendXYZIR, h]
  split_ifs with h1
  · exact Or.inl ⟨_, rfl, rfl⟩
  · refine Or.inr ⟨_, _, rfl, rfl, ?_⟩
    simp only [List.map_append, ho]
    rw [List.map_fst_zip (l₁ := pts) (l₂ := c) (by omega),
      List.map_fst_zip (l₁ := pts) (l₂ := c') (by omega)]

theorem ringBody_same {plat : Platform ℝ} (ha : ComparesOnly plat.argsort) (hv : hp.Valid)
    (hb : ∀ i ∈ m.indices, i < m.cloud.length)
    (harith : ArithOK plat.rnd m.indices.length hp.nBlocks)
    (h : SameDecisions A hp norm norm' isNb isNb' (ringPoints m.cloud m.indices))
    {out out' : Clouds P ℝ} (ho : out.Alike out') :
    RelRes Clouds.Alike (ringBody plat hp ⟨m, isNb⟩ ⟨m, norm⟩ out)
      (Rounded.ringBody A plat hp ⟨m, isNb'⟩ ⟨m, norm'⟩ out') := by
  simp only [ringBody, Rounded.ringBody, bind, Except.bind]
  rcases ringLabels_same ha hv hb harith h with ⟨e, h1, h2⟩ | ⟨lc, lc', h1, h2, h3, h4⟩
  · rw [h1, h2]; exact Or.inl ⟨e, rfl, rfl⟩
  · obtain ⟨l, c⟩ := lc
    obtain ⟨l', c'⟩ := lc'
    simp only at h3 h4
    subst h3
    rw [h1, h2]
    simp only
    cases getByIndices (getIndicesByValue l .edge) m.at with
    | error e => exact Or.inl ⟨e, rfl, rfl⟩
    | ok ep =>
      simp only
      rcases getByIndices_same h4 (getIndicesByValue l .edge) with ⟨e, g1, g2⟩ | ⟨ec, ec', g1, g2, g3⟩
      · rw [g1, g2]; exact Or.inl ⟨e, rfl, rfl⟩
      · rw [g1, g2]
        simp only
        cases getByIndices (getIndicesByValue l .surface) m.at with
        | error e => exact Or.inl ⟨e, rfl, rfl⟩
        | ok sp =>
          simp only
          rcases getByIndices_same h4 (getIndicesByValue l .surface) with
            ⟨e, k1, k2⟩ | ⟨sc, sc', k1, k2, k3⟩
          · rw [k1, k2]; exact Or.inl ⟨e, rfl, rfl⟩
          · rw [k1, k2]
            simp only
            rcases appendXYZIR_same ho.1 ep g3 with ⟨e, a1, a2⟩ | ⟨oe, oe', a1, a2, a3⟩
            · rw [a1, a2]; exact Or.inl ⟨e, rfl, rfl⟩
            · rw [a1, a2]
              simp only
              rcases appendXYZIR_same ho.2.1 sp k3 with ⟨e, b1, b2⟩ | ⟨os, os', b1, b2, b3⟩
              · rw [b1, b2]; exact Or.inl ⟨e, rfl, rfl⟩
              · rw [b1, b2]
                simp only
                cases colorPointsByLabel m l with
                | error e => exact Or.inl ⟨e, rfl, rfl⟩
                | ok oc => exact Or.inr ⟨_, _, rfl, rfl, a3, b3, by simp only [ho.2.2]⟩

end Ring

theorem processRing_same {A : Arith} {hp : HyperParameters ℝ} {plat : Platform ℝ}
    {geo geo' : Geometry P ℝ} {cloud : List P} (ha : ComparesOnly plat.argsort) (hv : hp.Valid)
    {ring : ℤ × List ℕ} (hb : ∀ i ∈ ring.2, i < cloud.length)
    (harith : ArithOK plat.rnd ring.2.length hp.nBlocks)
    (h : SameDecisions A hp geo.norm geo'.norm geo.isNb geo'.isNb (ringPoints cloud ring.2))
    {out out' : Clouds P ℝ} (ho : out.Alike out') :
    RelRes Clouds.Alike (processRing plat hp geo cloud out ring)
      (Rounded.processRing A plat hp geo' cloud out' ring) := by
  simp only [processRing, Rounded.processRing, NeighborCheckXY.make, bind, Except.bind]
  split_ifs
  · exact Or.inl ⟨_, rfl, rfl⟩
  · simp only
    rcases ringBody_same (m := ⟨cloud, ring.2⟩) ha hv hb harith h ho with
      ⟨e, h1, h2⟩ | ⟨o, o', h1, h2, h3⟩
    · rw [h1, h2]
      cases e
      all_goals first
        | exact Or.inr ⟨_, _, rfl, rfl, ho⟩
        | exact Or.inl ⟨_, rfl, rfl⟩
    · rw [h1, h2]
      exact Or.inr ⟨_, _, rfl, rfl, h3⟩

/-- A sort that asks for comparisons of elements of the sequence only, as `std::sort` does. -/
def SortLocal (sort : (ℕ → ℕ → Bool) → List ℕ → List ℕ) : Prop :=
  ∀ lt lt' l, (∀ a ∈ l, ∀ b ∈ l, lt a b = lt' a b) → sort lt l = sort lt' l

theorem StrictWeakOn.congr {lt lt' : ℕ → ℕ → Bool} {l : List ℕ}
    (h : ∀ a ∈ l, ∀ b ∈ l, lt a b = lt' a b) (hw : StrictWeakOn lt l) : StrictWeakOn lt' l := by
  obtain ⟨h1, h2, h3⟩ := hw
  refine ⟨fun a ha => ?_, fun a ha b hb c hc => ?_, fun a ha b hb c hc => ?_⟩
  · rw [← h a ha a ha]; exact h1 a ha
  · rw [← h a ha b hb, ← h b hb c hc, ← h a ha c hc]; exact h2 a ha b hb c hc
  · rw [← h a ha b hb, ← h b hb a ha, ← h b hb c hc, ← h c hc b hb, ← h a ha c hc, ← h c hc a ha]
    exact h3 a ha b hb c hc

theorem sortByAtan2_same {sort : (ℕ → ℕ → Bool) → List ℕ → List ℕ} (hs : SortLocal sort)
    {less less' : P → P → Bool} {cloud : List P} {idx : List ℕ}
    (h : ∀ i ∈ idx, ∀ j ∈ idx, ∀ a b, cloud[i]? = some a → cloud[j]? = some b → less a b = less' a b) :
    sortByAtan2 sort less cloud idx = sortByAtan2 sort less' cloud idx := by
  have hl : ∀ i ∈ idx, ∀ j ∈ idx, lessIndex less cloud i j = lessIndex less' cloud i j := by
    intro i hi j hj
    simp only [lessIndex]
    cases h1 : cloud[i]? with
    | none => rfl
    | some a =>
      cases h2 : cloud[j]? with
      | none => rfl
      | some b => exact h i hi j hj a b h1 h2
  have hw : StrictWeakOn (lessIndex less cloud) idx ↔ StrictWeakOn (lessIndex less' cloud) idx :=
    ⟨fun h => h.congr hl, fun h => h.congr fun a ha b hb => (hl a ha b hb).symm⟩
  simp only [sortByAtan2, hw, hs _ _ idx hl]

theorem extractAngleSortedRings_same {sort : (ℕ → ℕ → Bool) → List ℕ → List ℕ} (hs : SortLocal sort)
    {less less' : P → P → Bool} {ringOf : P → ℤ} {cloud : List P}
    (h : ∀ a ∈ cloud, ∀ b ∈ cloud, ringOf a = ringOf b → less a b = less' a b) :
    extractAngleSortedRings sort less ringOf cloud =
      extractAngleSortedRings sort less' ringOf cloud := by
  have hp := C20_split_partitions ringOf cloud
  simp only [extractAngleSortedRings, sortEachRingByAngle]
  have hm : ∀ l : Rings, (∀ x ∈ l, x ∈ makePointIndices ringOf cloud) →
      (l.mapM (fun ri => do
        let indices ← sortByAtan2 sort less cloud ri.2
        pure (ri.1, indices)) : Res Rings) =
      l.mapM (fun ri => do
        let indices ← sortByAtan2 sort less' cloud ri.2
        pure (ri.1, indices)) := by
    intro l
    induction l with
    | nil => intro _; rfl
    | cons x l ih =>
      intro hl
      rw [List.mapM_cons, List.mapM_cons, ih fun y hy => hl y (List.mem_cons_of_mem _ hy)]
      have hx := hl x List.mem_cons_self
      rw [sortByAtan2_same (less := less) (less' := less') hs (by
        intro i hi j hj a b h1 h2
        obtain ⟨a', ha', ha2⟩ := (hp.mem x.1 x.2 hx i).1 hi
        obtain ⟨b', hb', hb2⟩ := (hp.mem x.1 x.2 hx j).1 hj
        obtain rfl : a' = a := Option.some.inj (ha'.symm.trans h1)
        obtain rfl : b' = b := Option.some.inj (hb'.symm.trans h2)
        exact h _ (List.mem_of_getElem? h1) _ (List.mem_of_getElem? h2) (ha2.trans hb2.symm))]
  exact hm _ fun _ hx => hx

theorem extractClouds_same {A : Arith} {hp : HyperParameters ℝ} {plat : Platform ℝ}
    {geo geo' : Geometry P ℝ} {cloud : List P} (hplat : PlatformOK plat hp.nBlocks cloud.length)
    (ha : ComparesOnly plat.argsort) (hloc : SortLocal plat.sort) (hv : hp.Valid)
    (hring : geo'.ringOf = geo.ringOf)
    (hless : ∀ a ∈ cloud, ∀ b ∈ cloud, geo.ringOf a = geo.ringOf b → geo.less a b = geo'.less a b)
    (h : ∀ rings, extractAngleSortedRings plat.sort geo.less geo.ringOf cloud = .ok rings →
      ∀ ring ∈ rings, SameDecisions A hp geo.norm geo'.norm geo.isNb geo'.isNb
        (ringPoints cloud ring.2)) :
    RelRes Clouds.Alike (extractClouds plat hp geo cloud)
      (Rounded.extractClouds A plat hp geo' cloud) := by
  simp only [extractClouds, Rounded.extractClouds, hring,
    ← extractAngleSortedRings_same hloc hless, bind, Except.bind]
  cases h1 : extractAngleSortedRings plat.sort geo.less geo.ringOf cloud with
  | error e => exact Or.inl ⟨e, rfl, rfl⟩
  | ok rings =>
    simp only
    obtain ⟨hpart, -⟩ := C20_rings_sorted hplat.sort geo.less geo.ringOf cloud rings h1
    refine RelRes.foldlM _ ⟨rfl, rfl, rfl⟩ ?_
    intro ring hmem out out' ho
    have hmem' : ring ∈ rings := by
      have := (hplat.order _).subset hmem
      exact List.mem_of_mem_filter this
    have hb : ∀ i ∈ ring.2, i < cloud.length := by
      intro i hi
      obtain ⟨p, hp', -⟩ := (hpart.mem ring.1 ring.2 hmem' i).1 hi
      exact (List.getElem?_eq_some_iff.1 hp').1
    have hlen : ring.2.length ≤ cloud.length :=
      nodup_length_le (hpart.nodup ring.1 ring.2 hmem') hb
    exact processRing_same ha hv hb (hplat.arith.mono hv.2.2.2.2.2.2.2.le (by exact_mod_cast hlen))
      (h rings h1 ring hmem') ho

end Verif.Extraction
