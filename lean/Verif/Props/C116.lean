/-
C116: every threshold of the extraction acts in one direction.
-/
import Verif.Lemmas.RingExact
import Verif.Props.C19

set_option autoImplicit false

namespace Verif.Extraction

variable {P K : Type} [Field K] [LinearOrder K]

/-- Specification: the same division of the rings, and every threshold that can remove an edge point
at least as strict. Nothing is said of the surface threshold. -/
structure Stricter (hp hp' : HyperParameters K) : Prop where
  padding : hp'.padding = hp.padding
  nBlocks : hp'.nBlocks = hp.nBlocks
  edge : hp.edgeThreshold ≤ hp'.edgeThreshold
  minRange : hp.minRange ≤ hp'.minRange
  maxRange : hp'.maxRange ≤ hp.maxRange
  distance : hp'.distanceDiffThreshold ≤ hp.distanceDiffThreshold
  parallel : hp'.parallelBeamMinRangeRatio ≤ hp.parallelBeamMinRangeRatio

theorem Kept.of_stricter [IsStrictOrderedRing K] {hp hp' : HyperParameters K} (hs : Stricter hp hp')
    {p n : ℕ} {adj : ℕ → Bool} {rg : ℕ → K} {k : ℕ} (h0 : 0 ≤ rg k)
    (h : Kept hp' p n adj rg k) : Kept hp p n adj rg k where
  parallel := by
    have := mul_le_mul_of_nonneg_right hs.parallel h0
    rintro ⟨h1, h2, h3, h4⟩
    exact h.parallel ⟨h1, h2, this.trans_lt h3, this.trans_lt h4⟩
  range := by
    rintro (h1 | h1)
    · exact h.range (Or.inl (h1.trans_le hs.minRange))
    · exact h.range (Or.inr (hs.maxRange.trans_lt h1))
  occluded := by
    rintro ⟨near, far, ⟨h1, h2⟩, h3, h4⟩
    exact h.occluded ⟨near, far, ⟨h1, lt_of_le_of_lt (add_le_add_right hs.distance _) h2⟩, h3, h4⟩

theorem Kept.of_passes {hp : HyperParameters K} {geo : Geometry P K} {pts : List P} {p k : ℕ}
    (hpp : hp.padding = p) (h : PassesFilters hp geo pts k) :
    Kept hp p pts.length (adjacentAt geo.isNb pts) (rangeAt geo.norm pts) k where
  parallel hc := h.not_parallel ⟨hc.2.2.1, hc.2.2.2⟩
  range hc := by
    rcases hc with hc | hc
    · exact absurd h.in_range.1 (not_le.2 hc)
    · exact absurd h.in_range.2 (not_le.2 hc)
  occluded := by
    rintro ⟨near, far, h1, h2, h3⟩
    refine h.not_occluded near far ?_ ?_ h1 (by rw [hpp]; simpa using h3)
    · rcases h2 with h2 | h2 <;> omega
    · rcases h2 with h2 | h2 <;> omega

/-- C116 for one ring, exactly: a ring that is processed with some thresholds is processed with all.
With stricter thresholds its edge points are the former edge points that reach the new edge threshold
and pass the new filters; with the same edge threshold its surface points are the former surface
points that reach the new surface threshold and pass the new filters. -/
theorem C116_ring [IsStrictOrderedRing K] {plat : Platform K} {hp hp' : HyperParameters K}
    {geo : Geometry P K} {cloud : List P} {indices : List ℕ} {lc : List PointLabel × List K}
    (hgeo : GeometryOK geo) (hv : hp.Valid) (hv' : hp'.Valid) (harg : IsArgsort plat.argsort)
    (harith : ArithOK plat.rnd indices.length hp.nBlocks)
    (hin : ∀ i ∈ indices, i < cloud.length) (h64 : indices.length < 2 ^ 64)
    (hpad : hp'.padding = hp.padding) (hblk : hp'.nBlocks = hp.nBlocks)
    (h : ringLabels plat hp ⟨⟨cloud, indices⟩, geo.isNb⟩ ⟨⟨cloud, indices⟩, geo.norm⟩ = .ok lc) :
    ∃ lc', ringLabels plat hp' ⟨⟨cloud, indices⟩, geo.isNb⟩ ⟨⟨cloud, indices⟩, geo.norm⟩ = .ok lc' ∧
      lc'.2 = lc.2 ∧ lc'.1.length = lc.1.length ∧
      (Stricter hp hp' → ∀ k : ℕ,
        (lc'.1[k]? = some .edge ↔ lc.1[k]? = some .edge ∧
          (∃ c, lc.2[k]? = some c ∧ hp'.edgeThreshold ≤ c) ∧
          PassesFilters hp' geo (ringPoints cloud indices) k) ∧
        (hp'.edgeThreshold = hp.edgeThreshold → hp'.surfaceThreshold ≤ hp.surfaceThreshold →
          (lc'.1[k]? = some .surface ↔ lc.1[k]? = some .surface ∧
            (∃ c, lc.2[k]? = some c ∧ c ≤ hp'.surfaceThreshold) ∧
            PassesFilters hp' geo (ringPoints cloud indices) k))) := by
  obtain ⟨p, ir, l₁, hpp, hp0, hsz, hmk, hri, hnn, hA, hl₁⟩ :=
    ringLabels_defined hgeo hv harg harith hin h64 h
  obtain ⟨hB, hst, hsp, hnbk⟩ := padded_blocksOK (by omega) hv.2.2.2.2.2.2.2 harith hmk
  obtain ⟨l₁', hA', hl₁'⟩ := assignLabel_transfer harg hp'.edgeThreshold hp'.surfaceThreshold hB
    (by have := hv.2.2.2.2.2.2.2; omega) (by omega) hri.nb_test hA
  obtain ⟨l, e1, hl, hk⟩ := ringLabels_of (plat := plat) hpp hp0 hri rfl hnn hsz h64 hmk hA hl₁
  have hpp' : hp'.padding = p := by rw [hpad, hpp]
  obtain ⟨l', e1', hl', hk'⟩ := ringLabels_of (plat := plat) hpp' hp0 hri rfl hnn hsz h64
    (by rw [hblk]; exact hmk) hA' hl₁'
  rw [h] at e1
  injection e1 with e1
  subst e1
  refine ⟨_, e1', rfl, by rw [hl, hl'], fun hs k => ?_⟩
  have hspec := ringLabels_spec (plat := plat) (hp := hp') (cloud := cloud) (indices := indices)
    hgeo hv' harg (by rw [hblk]; exact harith) hin h64
  rw [e1'] at hspec
  have hthr := assignLabel_thresholds harg (k := k) hB (by have := hv.2.2.2.2.2.2.2; omega)
    (by omega) hri.nb_test hA hA'
  have hlp := (ringPoints_getElem? hin).1
  have hkept : PassesFilters hp' geo (ringPoints cloud indices) k → Kept hp' p indices.length
      (adjacentAt geo.isNb (ringPoints cloud indices))
      (rangeAt geo.norm (ringPoints cloud indices)) k := by
    intro hf
    rw [← hlp]
    exact Kept.of_passes hpp' hf
  have hlt : ∀ L, l'[k]? = some L → k < indices.length := by
    intro L hL
    rw [← hl']; exact (List.getElem?_eq_some_iff.1 hL).1
  have hE := hk k .edge (by simp) (by simp) (by simp)
  have hE' := hk' k .edge (by simp) (by simp) (by simp)
  have hS := hk k .surface (by simp) (by simp) (by simp)
  have hS' := hk' k .surface (by simp) (by simp) (by simp)
  constructor
  · constructor
    · intro hc
      have hf := ((hspec.2.2 k).1 hc).1
      obtain ⟨h1, h2⟩ := hE'.1 hc
      obtain ⟨h3, h4⟩ := (hthr.1 hs.edge).1 h1
      exact ⟨hE.2 ⟨h3, h2.of_stricter hs (hnn k (hlt _ hc))⟩, h4, hf⟩
    · rintro ⟨h1, h2, h3⟩
      exact hE'.2 ⟨(hthr.1 hs.edge).2 ⟨(hE.1 h1).1, h2⟩, hkept h3⟩
  · intro he ht
    constructor
    · intro hc
      have hf := ((hspec.2.2 k).2 hc).1
      obtain ⟨h1, h2⟩ := hS'.1 hc
      obtain ⟨h3, h4⟩ := (hthr.2 he.symm ht).1 h1
      exact ⟨hS.2 ⟨h3, h2.of_stricter hs (hnn k (hlt _ hc))⟩, h4, hf⟩
    · rintro ⟨h1, h2, h3⟩
      exact hS'.2 ⟨(hthr.2 he.symm ht).2 ⟨(hS.1 h1).1, h2⟩, hkept h3⟩

omit [Field K] [LinearOrder K] in
theorem selectPoints_sublist {pts : List P} {lc lc' : List PointLabel × List K} {L : PointLabel}
    (h1 : lc'.1.length = lc.1.length) (h2 : lc'.2 = lc.2)
    (h : ∀ k : ℕ, lc'.1[k]? = some L → lc.1[k]? = some L) :
    (selectPoints pts lc' L).Sublist (selectPoints pts lc L) := by
  simp only [selectPoints, h2]
  refine List.Sublist.filterMap _ ?_
  simp only [getIndicesByValue, h1]
  exact List.monotone_filter_right _ (fun k hk => by simpa using h k (by simpa using hk))

omit [Field K] [LinearOrder K] in
theorem flatMap_sublist {α β : Type} {f g : α → List β} :
    ∀ (l : List α), (∀ x ∈ l, (f x).Sublist (g x)) → (l.flatMap f).Sublist (l.flatMap g)
  | [], _ => by simp
  | x :: l, h => by
    rw [List.flatMap_cons, List.flatMap_cons]
    exact (h x (by simp)).append (flatMap_sublist l (fun y hy => h y (by simp [hy])))

/-- What a ring contributes under stricter thresholds. -/
theorem contribution_stricter [IsStrictOrderedRing K] {plat : Platform K} {hp hp' : HyperParameters K}
    {geo : Geometry P K} {cloud : List P} {indices : List ℕ} (hgeo : GeometryOK geo) (hv : hp.Valid)
    (hv' : hp'.Valid) (harg : IsArgsort plat.argsort)
    (harith : ArithOK plat.rnd indices.length hp.nBlocks)
    (hin : ∀ i ∈ indices, i < cloud.length) (h64 : indices.length < 2 ^ 64)
    (hs : Stricter hp hp') :
    (contribution plat hp' geo cloud indices).edge.Sublist
      (contribution plat hp geo cloud indices).edge ∧
    (hp'.edgeThreshold = hp.edgeThreshold → hp'.surfaceThreshold ≤ hp.surfaceThreshold →
      (contribution plat hp' geo cloud indices).surface.Sublist
        (contribution plat hp geo cloud indices).surface) := by
  simp only [contribution]
  cases hl : ringLabels plat hp ⟨⟨cloud, indices⟩, geo.isNb⟩ ⟨⟨cloud, indices⟩, geo.norm⟩ with
  | ok lc =>
    obtain ⟨lc', e, h2, h1, hk⟩ := C116_ring hgeo hv hv' harg harith hin h64 hs.padding hs.nBlocks hl
    rw [e]
    have hk := hk hs
    exact ⟨selectPoints_sublist h1 h2 fun k hc => ((hk k).1.1 hc).1, fun he ht =>
      selectPoints_sublist h1 h2 fun k hc => (((hk k).2 he ht).1 hc).1⟩
  | error e =>
    cases hl' : ringLabels plat hp' ⟨⟨cloud, indices⟩, geo.isNb⟩ ⟨⟨cloud, indices⟩, geo.norm⟩ with
    | error e' => simp
    | ok lc' =>
      obtain ⟨lc, e', -⟩ := C116_ring (hp := hp') (hp' := hp) hgeo hv' hv harg
        (by rw [hs.nBlocks]; exact harith) hin h64 hs.padding.symm hs.nBlocks.symm hl'
      rw [hl] at e'; cases e'

/-- C116: making the thresholds of the node stricter only removes published points and keeps the order
of the others: a higher edge threshold, a narrower range, a lower threshold for occlusion or for
parallel beams removes edge points, and with the same edge threshold the last three and a lower
surface threshold remove surface points. For all clouds and parameters. -/
theorem C116_thresholds [IsStrictOrderedRing K] {plat : Platform K} {hp hp' : HyperParameters K}
    {geo : Geometry P K} {cloud : List P} (hgeo : GeometryOK geo) (hv : hp.Valid) (hv' : hp'.Valid)
    (hplat : PlatformOK plat hp.nBlocks cloud.length) (hs : Stricter hp hp')
    {stamp stamp' : ℤ} {d d' ra ra' : Bool} {eff eff' : CallbackEffect P}
    (h : callback plat hp geo stamp d ra cloud = .ok eff)
    (h' : callback plat hp' geo stamp' d' ra' cloud = .ok eff') :
    eff'.edge.points.Sublist eff.edge.points ∧
    (hp'.edgeThreshold = hp.edgeThreshold → hp'.surfaceThreshold ≤ hp.surfaceThreshold →
      eff'.surface.points.Sublist eff.surface.points) := by
  obtain ⟨rings, out, h1, h2, h3, h4, -⟩ := callback_clouds h
  obtain ⟨rings', out', h1', h2', h3', h4', -⟩ := callback_clouds h'
  rw [h1] at h1'; injection h1' with h1'; subst h1'
  rw [extractClouds_eq hgeo hv hplat h1] at h2
  rw [extractClouds_eq hgeo hv' (by rw [hs.nBlocks]; exact hplat) h1] at h2'
  injection h2 with h2
  injection h2' with h2'
  subst h2; subst h2'
  obtain ⟨hdense, -⟩ := denseRings (hp := hp) hplat.sort hplat.order h1
  have key : ∀ ring ∈ plat.order (removeSparseRings rings (hp.padding + 1)), _ :=
    fun ring hring =>
      let hd := hdense ring hring
      have hle := nodup_length_le hd.nodup hd.bounds
      contribution_stricter (plat := plat) hgeo hv hv' hplat.argsort
        (hplat.arith.mono hv.2.2.2.2.2.2.2.le (by omega)) hd.bounds
        (lt_of_le_of_lt hle hplat.size) hs
  rw [h3, h3', h4, h4', hs.padding]
  exact ⟨(flatMap_sublist _ fun r hr => (key r hr).1).map _, fun he ht =>
    (flatMap_sublist _ fun r hr => (key r hr).2 he ht).map _⟩

/-- C116: the surface threshold has no influence on the edge points. -/
theorem C116_surface_threshold_keeps_edges [IsStrictOrderedRing K] {plat : Platform K}
    {hp : HyperParameters K} {ts' : K} {geo : Geometry P K} {cloud : List P} (hgeo : GeometryOK geo)
    (hv : hp.Valid) (ht : 0 < ts') (hplat : PlatformOK plat hp.nBlocks cloud.length)
    {stamp stamp' : ℤ} {d d' ra ra' : Bool} {eff eff' : CallbackEffect P}
    (h : callback plat hp geo stamp d ra cloud = .ok eff)
    (h' : callback plat { hp with surfaceThreshold := ts' } geo stamp' d' ra' cloud = .ok eff') :
    eff'.edge.points = eff.edge.points := by
  have hv' : HyperParameters.Valid { hp with surfaceThreshold := ts' } := by
    obtain ⟨a, b, c, d, -, f, g, i⟩ := hv
    exact ⟨a, b, c, d, ht, f, g, i⟩
  have s1 : Stricter hp { hp with surfaceThreshold := ts' } :=
    ⟨rfl, rfl, le_rfl, le_rfl, le_rfl, le_rfl, le_rfl⟩
  have s2 : Stricter { hp with surfaceThreshold := ts' } hp :=
    ⟨rfl, rfl, le_rfl, le_rfl, le_rfl, le_rfl, le_rfl⟩
  exact (C116_thresholds hgeo hv hv' hplat s1 h h').1.antisymm
    (C116_thresholds hgeo hv' hv hplat s2 h' h).1

/-! Non-vacuity: two settings, one stricter than the other; on the ring of `C09` a higher edge threshold
removes an edge point, and frees a point for the surface. -/

/-- Example parameters. -/
def exParams : HyperParameters ℚ := ⟨2, 3 / 10, 1 / 50, 50, 1 / 20, 1 / 10, 1000, 6⟩

example : exParams.Valid ∧ Stricter exParams { exParams with edgeThreshold := 60, maxRange := 80 } := by
  refine ⟨?_, ?_⟩
  · simp only [HyperParameters.Valid, exParams]; norm_num
  · constructor <;> simp only [exParams] <;> norm_num

example : edgeAssign exArgsort 1 8 (List.replicate 7 .default) exCurv exNb7 >>=
      (surfaceAssign exArgsort 1 7 · exCurv exNb7) =
    .ok [.edgeNeighbor, .edge, .edgeNeighbor, .edge, .surfaceNeighbor, .surface, .surfaceNeighbor] := by
  decide +kernel

end Verif.Extraction
