/-
What a ring contributes depends only on its points, in order.
-/
import Verif.Lemmas.Callback

set_option autoImplicit false

namespace Verif.Extraction

variable {P K : Type}

/-- Two views of clouds show the same points. -/
structure SamePoints (m m' : MappedPoints P) : Prop where
  bounds : ∀ i ∈ m.indices, i < m.cloud.length
  bounds' : ∀ i ∈ m'.indices, i < m'.cloud.length
  points : ringPoints m.cloud m.indices = ringPoints m'.cloud m'.indices

theorem SamePoints.length {m m' : MappedPoints P} (h : SamePoints m m') :
    m.indices.length = m'.indices.length := by
  rw [← (ringPoints_getElem? h.bounds).1, ← (ringPoints_getElem? h.bounds').1, h.points]

theorem SamePoints.size {m m' : MappedPoints P} (h : SamePoints m m') : m.size = m'.size := by
  simp only [MappedPoints.size, h.length]

theorem SamePoints.at_eq {m m' : MappedPoints P} (h : SamePoints m m') : m.at = m'.at := by
  funext i
  have hl := h.length
  by_cases hi : i < 0 ∨ (m.indices.length : ℤ) ≤ i
  · simp only [MappedPoints.at, atI_error_of_ge hi, atI_error_of_ge (hl ▸ hi), bind, Except.bind]
  · obtain ⟨k, rfl⟩ := Int.eq_ofNat_of_zero_le (by omega : 0 ≤ i)
    have h1 := ref_at h.bounds (k := k) (by omega)
    have h2 := ref_at h.bounds' (k := k) (by omega)
    have hp := h.points
    rw [show m = ⟨m.cloud, m.indices⟩ from rfl, show m' = ⟨m'.cloud, m'.indices⟩ from rfl, h1, h2]
    simp only [hp]

theorem ringPoints_slice {cloud : List P} {indices : List ℕ}
    (h : ∀ i ∈ indices, i < cloud.length) (a n : ℕ) :
    ringPoints cloud ((indices.drop a).take n) = ((ringPoints cloud indices).drop a).take n := by
  have h' : ∀ i ∈ (indices.drop a).take n, i < cloud.length := fun i hi =>
    h i (List.mem_of_mem_drop (List.mem_of_mem_take hi))
  apply List.ext_getElem?
  intro k
  rw [(ringPoints_getElem? h').2, List.getElem?_take, List.getElem?_take]
  by_cases hk : k < n
  · rw [if_pos hk, if_pos hk, List.getElem?_drop, List.getElem?_drop, (ringPoints_getElem? h).2]
  · rw [if_neg hk, if_neg hk]; rfl

theorem SamePoints.call_eq {m m' : MappedPoints P} (h : SamePoints m m')
    (isNb : P → P → Res Bool) :
    (⟨m, isNb⟩ : NeighborCheckXY P).call = (⟨m', isNb⟩ : NeighborCheckXY P).call := by
  have hs : (⟨m, isNb⟩ : NeighborCheckXY P).size = (⟨m', isNb⟩ : NeighborCheckXY P).size := h.size
  funext i j
  simp only [NeighborCheckXY.call, h.at_eq]
  unfold NeighborCheckXY.checkIndex
  rw [hs]

theorem SamePoints.base_eq {m m' : MappedPoints P} (h : SamePoints m m')
    (isNb : P → P → Res Bool) :
    (⟨m, isNb⟩ : NeighborCheckXY P).base = (⟨m', isNb⟩ : NeighborCheckXY P).base := by
  have hs : (⟨m, isNb⟩ : NeighborCheckXY P).size = (⟨m', isNb⟩ : NeighborCheckXY P).size := h.size
  rw [NeighborCheckXY.base, NeighborCheckXY.base, h.call_eq isNb, hs]

theorem SamePoints.slice {m m' : MappedPoints P} (h : SamePoints m m') (isNb : P → P → Res Bool)
    (b e : ℤ) :
    (∃ err, (⟨m, isNb⟩ : NeighborCheckXY P).slice b e = .error err ∧
      (⟨m', isNb⟩ : NeighborCheckXY P).slice b e = .error err) ∨
    ∃ s s', (⟨m, isNb⟩ : NeighborCheckXY P).slice b e = .ok s ∧
      (⟨m', isNb⟩ : NeighborCheckXY P).slice b e = .ok s' ∧ s.base = s'.base := by
  by_cases hc : 0 ≤ b ∧ b ≤ e ∧ e ≤ m.size
  · have hc' : 0 ≤ b ∧ b ≤ e ∧ e ≤ m'.size := h.size ▸ hc
    have hs : SamePoints (⟨m.cloud, (m.indices.drop b.toNat).take (e - b).toNat⟩ : MappedPoints P)
        ⟨m'.cloud, (m'.indices.drop b.toNat).take (e - b).toNat⟩ := by
      refine ⟨?_, ?_, ?_⟩
      · exact fun i hi => h.bounds i (List.mem_of_mem_drop (List.mem_of_mem_take hi))
      · exact fun i hi => h.bounds' i (List.mem_of_mem_drop (List.mem_of_mem_take hi))
      · rw [ringPoints_slice h.bounds, ringPoints_slice h.bounds', h.points]
    simp only [NeighborCheckXY.slice, MappedPoints.slice, if_pos hc, if_pos hc', bind, Except.bind,
      NeighborCheckXY.make, hs.size]
    split_ifs with h2
    · exact Or.inl ⟨_, rfl, rfl⟩
    · exact Or.inr ⟨_, _, rfl, rfl, hs.base_eq isNb⟩
  · have hc' : ¬ (0 ≤ b ∧ b ≤ e ∧ e ≤ m'.size) := h.size ▸ hc
    left
    refine ⟨.undefinedBehaviour, ?_, ?_⟩
    · simp only [NeighborCheckXY.slice, MappedPoints.slice, if_neg hc, bind, Except.bind]
    · simp only [NeighborCheckXY.slice, MappedPoints.slice, if_neg hc', bind, Except.bind]

variable [Field K] [LinearOrder K]

theorem SamePoints.assignBlock_eq {m m' : MappedPoints P} (h : SamePoints m m')
    (isNb : P → P → Res Bool) (argsort : List K → List ℕ) (ep sp : ℤ) (te ts : K)
    (labels : List PointLabel) (curvature : List K) (b e : ℤ) :
    assignBlock argsort ep te sp ts labels curvature ⟨m, isNb⟩ b e =
    assignBlock argsort ep te sp ts labels curvature ⟨m', isNb⟩ b e := by
  simp only [assignBlock]
  split_ifs with hc
  · rcases h.slice isNb b e with ⟨err, h1, h2⟩ | ⟨s, s', h1, h2, h3⟩
    · rw [h1, h2]
    · rw [h1, h2]
      simp only [bind, Except.bind, h3]
  · rfl

theorem SamePoints.ringLabels_eq {m m' : MappedPoints P} (h : SamePoints m m')
    (plat : Platform K) (hp : HyperParameters K) (geo : Geometry P K) :
    ringLabels plat hp ⟨m, geo.isNb⟩ ⟨m, geo.norm⟩ =
    ringLabels plat hp ⟨m', geo.isNb⟩ ⟨m', geo.norm⟩ := by
  have hr : (⟨m, geo.norm⟩ : Range P K).call = (⟨m', geo.norm⟩ : Range P K).call := by
    funext i; simp only [Range.call, h.at_eq]
  have hi : (⟨m, geo.norm⟩ : Range P K).interval = (⟨m', geo.norm⟩ : Range P K).interval := by
    funext b e; simp only [Range.interval, hr]
  have hb := h.base_eq geo.isNb
  have hcall := h.call_eq geo.isNb
  have hl : fromLeftStep (⟨m, geo.isNb⟩ : NeighborCheckXY P) (⟨m, geo.norm⟩ : Range P K) =
      fromLeftStep ⟨m', geo.isNb⟩ ⟨m', geo.norm⟩ := by
    funext a b c d
    simp only [fromLeftStep, hcall, hb, hr]
  have hsize := h.size
  have e1 : ∀ (l : List PointLabel) (c : List K) (ir : IndexRange),
      assignLabel plat.rnd plat.argsort hp.padding hp.edgeThreshold hp.padding hp.surfaceThreshold
        l c ⟨m, geo.isNb⟩ ir =
      assignLabel plat.rnd plat.argsort hp.padding hp.edgeThreshold hp.padding hp.surfaceThreshold
        l c ⟨m', geo.isNb⟩ ir := by
    intro l c ir
    have hs : (⟨m, geo.isNb⟩ : NeighborCheckXY P).size =
        (⟨m', geo.isNb⟩ : NeighborCheckXY P).size := h.size
    unfold assignLabel
    rw [hs]
    simp only [h.assignBlock_eq geo.isNb]
  have hrs : fromRightStep (⟨m, geo.isNb⟩ : NeighborCheckXY P) (⟨m, geo.norm⟩ : Range P K) =
      fromRightStep ⟨m', geo.isNb⟩ ⟨m', geo.norm⟩ := by
    funext a b c d
    simp only [fromRightStep, hcall, hb, hr]
  have e2 : ∀ (l : List PointLabel) (p : ℕ) (t : K),
      labelOccludedPoints l ⟨m, geo.isNb⟩ ⟨m, geo.norm⟩ p t =
      labelOccludedPoints l ⟨m', geo.isNb⟩ ⟨m', geo.norm⟩ p t := by
    intro l p t
    simp only [labelOccludedPoints, fromLeft, fromRight, hl, hrs]
  have e3 : ∀ (l : List PointLabel) (a b : K),
      labelOutOfRange l ⟨m, geo.norm⟩ a b = labelOutOfRange l ⟨m', geo.norm⟩ a b := by
    intro l a b
    simp only [labelOutOfRange, hr, Range.size]
    rw [hsize]
  have e4 : ∀ (l : List PointLabel) (t : K),
      labelParallelBeamPoints l ⟨m, geo.norm⟩ t = labelParallelBeamPoints l ⟨m', geo.norm⟩ t := by
    intro l t
    simp only [labelParallelBeamPoints, hi]
  simp only [ringLabels, e1, e2, e3, e4, hi, Range.size]
  rw [h.length, hsize]

theorem contribution_congr {cloud cloud' : List P} {indices indices' : List ℕ}
    (h : SamePoints (⟨cloud, indices⟩ : MappedPoints P) ⟨cloud', indices'⟩)
    (plat : Platform K) (hp : HyperParameters K) (geo : Geometry P K) :
    contribution plat hp geo cloud indices = contribution plat hp geo cloud' indices' := by
  have hpts := h.points
  simp only at hpts
  simp only [contribution, h.ringLabels_eq plat hp geo, hpts]

end Verif.Extraction
