/-
C131: extraction misses no feature, except in the neighbourhood of a stronger point that is filtered out.
-/
import Verif.Props.C110
import Verif.Props.C116
import Verif.Props.C130

set_option autoImplicit false

namespace Verif.Extraction

variable {P K : Type} [Field K] [LinearOrder K]

/-- Specification: position `k` has `padding` points on both sides in the ring. -/
def Inside (hp : HyperParameters K) (pts : List P) (k : ℕ) : Prop :=
  hp.padding ≤ k ∧ (k : ℤ) + hp.padding < pts.length

/-- Specification: positions `m` and `k` of the ring are at most `padding` apart and every point between
them is a neighbour of the next. -/
def Close (hp : HyperParameters K) (geo : Geometry P K) (pts : List P) (m k : ℕ) : Prop :=
  (m : ℤ) ≤ k + hp.padding ∧ (k : ℤ) ≤ m + hp.padding ∧ Chain (adjacentAt geo.isNb pts) m k

/-- Specification: the curvature at a position of the ring. -/
def curvatureAt (hp : HyperParameters K) (geo : Geometry P K) (pts : List P) (k : ℕ) : K :=
  smoothness (rangeAt geo.norm pts) hp.padding.toNat k

/-- Specification: the point at position `k` of the ring is in the list `l`. -/
def PublishedIn (l : List P) (pts : List P) (k : ℕ) : Prop := ∃ q, pts[k]? = some q ∧ q ∈ l

/-- Specification: of the ring `pts`, nothing is missing in the edges and surfaces but points next to
another feature or next to a point that would have been one. -/
structure NothingMissed (hp : HyperParameters K) (geo : Geometry P K) (pts edges surfaces : List P) :
    Prop where
  /-- A strong point is published, or close to one at least as strong that is published or filtered
  out. -/
  strong : ∀ k, PassesFilters hp geo pts k → hp.edgeThreshold ≤ curvatureAt hp geo pts k →
    PublishedIn edges pts k ∨ ∃ m, m ≠ k ∧ Inside hp pts m ∧ Close hp geo pts m k ∧
      curvatureAt hp geo pts k ≤ curvatureAt hp geo pts m ∧
      (PublishedIn edges pts m ∨ ¬ PassesFilters hp geo pts m)
  /-- A flat point is published, or close to one at least as flat that is published or filtered out, or
  close to (or itself) a strong point. -/
  flat : ∀ k, PassesFilters hp geo pts k → curvatureAt hp geo pts k ≤ hp.surfaceThreshold →
    PublishedIn surfaces pts k ∨
    (∃ m, m ≠ k ∧ Inside hp pts m ∧ Close hp geo pts m k ∧
      curvatureAt hp geo pts m ≤ curvatureAt hp geo pts k ∧
      (PublishedIn surfaces pts m ∨ ¬ PassesFilters hp geo pts m)) ∨
    ∃ m, Inside hp pts m ∧ Close hp geo pts m k ∧ hp.edgeThreshold ≤ curvatureAt hp geo pts m ∧
      (PublishedIn edges pts m ∨ ¬ PassesFilters hp geo pts m)

theorem BlocksOK.cover {rnd : ℚ → ℚ} {r : IndexRange} (h : BlocksOK rnd r) (hn : 0 ≤ r.nBlocks) {k : ℕ}
    (h1 : r.start ≤ k) (h2 : (k : ℤ) < r.stop) :
    ∃ j : ℕ, (j : ℤ) < r.nBlocks ∧ r.bnd rnd j ≤ k ∧ k < r.bnd rnd (j + 1) := by
  have key : ∀ j : ℕ, (j : ℤ) ≤ r.nBlocks → k < r.bnd rnd j →
      ∃ i : ℕ, (i : ℤ) < r.nBlocks ∧ r.bnd rnd i ≤ k ∧ k < r.bnd rnd (i + 1) := by
    intro j
    induction j with
    | zero =>
      intro _ hk
      have e := h.bnd_eq 0 (by simpa using hn)
      have f := h.first
      simp only [Nat.cast_zero] at e
      omega
    | succ j ih =>
      intro hj hk
      rcases Nat.lt_or_ge k (r.bnd rnd j) with hlt | hge
      · exact ih (by push_cast at hj; omega) hlt
      · exact ⟨j, by push_cast at hj; omega, hge, hk⟩
  refine key r.nBlocks.toNat (by omega) ?_
  have e := h.bnd_eq r.nBlocks.toNat (by omega)
  rw [Int.toNat_of_nonneg hn, h.last] at e
  omega

/-- What the labels of a ring say about the curvature. -/
theorem ringLabels_complete [IsStrictOrderedRing K] {plat : Platform K} {hp : HyperParameters K}
    {geo : Geometry P K} {cloud : List P} {indices : List ℕ} {lc : List PointLabel × List K}
    (hgeo : GeometryOK geo) (hv : hp.Valid) (harg : IsArgsort plat.argsort)
    (harith : ArithOK plat.rnd indices.length hp.nBlocks)
    (hin : ∀ i ∈ indices, i < cloud.length) (h64 : indices.length < 2 ^ 64)
    (h : ringLabels plat hp ⟨⟨cloud, indices⟩, geo.isNb⟩ ⟨⟨cloud, indices⟩, geo.norm⟩ = .ok lc) :
    let pts := ringPoints cloud indices
    (∀ k, PassesFilters hp geo pts k → hp.edgeThreshold ≤ curvatureAt hp geo pts k →
      lc.1[k]? = some .edge ∨ ∃ m, m ≠ k ∧ Inside hp pts m ∧ Close hp geo pts m k ∧
        curvatureAt hp geo pts k ≤ curvatureAt hp geo pts m ∧
        (lc.1[m]? = some .edge ∨ ¬ PassesFilters hp geo pts m)) ∧
    (∀ k, PassesFilters hp geo pts k → curvatureAt hp geo pts k ≤ hp.surfaceThreshold →
      lc.1[k]? = some .surface ∨
      (∃ m, m ≠ k ∧ Inside hp pts m ∧ Close hp geo pts m k ∧
        curvatureAt hp geo pts m ≤ curvatureAt hp geo pts k ∧
        (lc.1[m]? = some .surface ∨ ¬ PassesFilters hp geo pts m)) ∨
      ∃ m, Inside hp pts m ∧ Close hp geo pts m k ∧ hp.edgeThreshold ≤ curvatureAt hp geo pts m ∧
        (lc.1[m]? = some .edge ∨ ¬ PassesFilters hp geo pts m)) := by
  intro pts
  obtain ⟨p, ir, l₁, hpp, hp0, hsz, hmk, hri, hnn, hA, hl₁⟩ :=
    ringLabels_defined hgeo hv harg harith hin h64 h
  have hnb0 := hv.2.2.2.2.2.2.2
  obtain ⟨hB, hst, hsp, hnbk⟩ := padded_blocksOK (by omega) hnb0 harith hmk
  obtain ⟨l, e1, hl, hk⟩ := ringLabels_of (plat := plat) hpp hp0 hri rfl hnn hsz h64 hmk hA hl₁
  rw [h] at e1
  injection e1 with e1
  subst e1
  have hlp : pts.length = indices.length := (ringPoints_getElem? hin).1
  have hpn : hp.padding.toNat = p := by omega
  have hC : ∀ k, Inside hp pts k → ((List.range indices.length).map fun i =>
      if p ≤ i ∧ i + p < indices.length then
        smoothness (rangeAt geo.norm (ringPoints cloud indices)) p i else 0)[k]? =
      some (curvatureAt hp geo pts k) := by
    intro k hk
    simp only [Inside, hpp, hlp] at hk
    rw [List.getElem?_map, List.getElem?_range (by omega), Option.map_some, if_pos (by omega),
      curvatureAt, hpn]
  have hI : ∀ k : ℕ, p ≤ k → k + p < indices.length → Inside hp pts k := by
    intro k h1 h2
    simp only [Inside, hpp, hlp]
    omega
  have hlast : ∀ (L : PointLabel) (m : ℕ), L ≠ .occluded → L ≠ .outOfRange → L ≠ .parallelBeam →
      l₁[m]? = some L → l[m]? = some L ∨ ¬ PassesFilters hp geo pts m := by
    intro L m n1 n2 n3 hm
    by_cases hf : PassesFilters hp geo pts m
    · refine Or.inl ((hk m L n1 n2 n3).2 ⟨hm, ?_⟩)
      rw [← hlp]
      exact Kept.of_passes hpp hf
    · exact Or.inr hf
  have hblock : ∀ k, PassesFilters hp geo pts k → ∃ b e : ℕ, b ≤ k ∧ k < e ∧ p ≤ b ∧
      e + p ≤ indices.length ∧
      BlockLabelled hp.edgeThreshold hp.surfaceThreshold p ((List.range indices.length).map fun i =>
        if p ≤ i ∧ i + p < indices.length then
          smoothness (rangeAt geo.norm (ringPoints cloud indices)) p i else 0)
        (adjacentAt geo.isNb (ringPoints cloud indices)) l₁ b e := by
    intro k hf
    have hki := hf.interior
    rw [hlp, hpp] at hki
    obtain ⟨j, hj, hj1, hj2⟩ := hB.cover (by omega) (k := k) (by omega) (by omega)
    have hlo := hB.bnd_eq j (by omega)
    have hlo' := hB.ge j (by omega)
    have hhi := hB.bnd_eq (j + 1) (by push_cast; omega)
    have hup := hB.bnd_mono (i := j + 1) (j := ir.nBlocks.toNat) (by omega) (by omega)
    have hup' := hB.bnd_eq ir.nBlocks.toNat (by omega)
    rw [Int.toNat_of_nonneg (by omega), hB.last] at hup'
    push_cast at hhi
    refine ⟨ir.bnd plat.rnd j, ir.bnd plat.rnd (j + 1), hj1, hj2, by omega, by omega, ?_⟩
    refine C79_ring_labelling_complete harg p _ _ indices.length l₁ _ _ _ hp.nBlocks ir hnb0 harith hmk
      hri.nb_test hA j _ _ ?_ ?_
    · rw [begin_ok (by omega) hj, hlo]
    · rw [end_ok (by omega) hj, hhi]
  have hclose : ∀ m k, Linked (adjacentAt geo.isNb (ringPoints cloud indices)) p m k →
      Close hp geo pts m k := by
    rintro m k ⟨h1, h2, h3⟩
    exact ⟨by rw [hpp]; omega, by rw [hpp]; omega, h3⟩
  have hmarks := fun k => assignLabel_marks harg hB (by omega) (by omega) hri.nb_test hA k
  have hE : ∀ m, l₁[m]? = some .edge → p ≤ m → m + p < indices.length →
      hp.edgeThreshold ≤ curvatureAt hp geo pts m := by
    intro m hm h1 h2
    obtain ⟨-, -, c, hc, hle⟩ := (hmarks m).1 hm
    rw [hC m (hI m h1 h2)] at hc
    rwa [Option.some.inj hc]
  constructor
  · intro k hf hstrong
    obtain ⟨b, e, hb, he, hpb, hep, hlab⟩ := hblock k hf
    rcases hlab.strong k _ hb he (hC k (hI k (by omega) (by omega))) hstrong with h1 |
      ⟨m, c, hm1, hm2, hm3, hm4, hm5, hm6⟩
    · exact Or.inl ((hlast _ k (by simp) (by simp) (by simp) h1).resolve_right (not_not_intro hf))
    · rw [hC m (hI m (by omega) (by omega))] at hm5
      obtain rfl := Option.some.inj hm5
      by_cases hmk' : m = k
      · subst hmk'
        exact Or.inl ((hlast _ m (by simp) (by simp) (by simp) hm3).resolve_right (not_not_intro hf))
      · exact Or.inr ⟨m, hmk', hI m (by omega) (by omega), hclose m k hm4, hm6,
          hlast _ m (by simp) (by simp) (by simp) hm3⟩
  · intro k hf hflat
    obtain ⟨b, e, hb, he, hpb, hep, hlab⟩ := hblock k hf
    rcases hlab.flat k _ hb he (hC k (hI k (by omega) (by omega))) hflat with h1 |
      ⟨m, c, hm1, hm2, hm3, hm4, hm5, hm6⟩ | h1 | ⟨m, hm1, hm2, hm3, hm4⟩
    · exact Or.inl ((hlast _ k (by simp) (by simp) (by simp) h1).resolve_right (not_not_intro hf))
    · rw [hC m (hI m (by omega) (by omega))] at hm5
      obtain rfl := Option.some.inj hm5
      by_cases hmk' : m = k
      · subst hmk'
        exact Or.inl ((hlast _ m (by simp) (by simp) (by simp) hm3).resolve_right (not_not_intro hf))
      · exact Or.inr (Or.inl ⟨m, hmk', hI m (by omega) (by omega), hclose m k hm4, hm6,
          hlast _ m (by simp) (by simp) (by simp) hm3⟩)
    · refine Or.inr (Or.inr ⟨k, hI k (by omega) (by omega), hclose k k ⟨by omega, by omega, ?_⟩,
        hE k h1 (by omega) (by omega), hlast _ k (by simp) (by simp) (by simp) h1⟩)
      intro i h2 h3
      simp at h2 h3
      omega
    · exact Or.inr (Or.inr ⟨m, hI m (by omega) (by omega), hclose m k hm4,
        hE m hm3 (by omega) (by omega), hlast _ m (by simp) (by simp) (by simp) hm3⟩)

omit [Field K] [LinearOrder K] in
theorem ringPoints_range (pts : List P) : ringPoints pts (List.range pts.length) = pts := by
  apply List.ext_getElem?
  intro k
  rw [(ringPoints_getElem? (fun i hi => List.mem_range.1 hi)).2]
  by_cases hk : k < pts.length
  · simp [hk]
  · rw [List.getElem?_eq_none (not_lt.1 hk), List.getElem?_eq_none (by simpa using hk)]; rfl

omit [Field K] [LinearOrder K] in
theorem mem_selectPoints {pts : List P} {lc : List PointLabel × List K} {L : PointLabel} {k : ℕ} {q : P}
    (hq : pts[k]? = some q) (hl : lc.1[k]? = some L) (hlen : lc.2.length = lc.1.length) :
    q ∈ (selectPoints pts lc L).map Prod.fst := by
  have hk : k < lc.2.length := by rw [hlen]; exact (List.getElem?_eq_some_iff.1 hl).1
  refine List.mem_map.2 ⟨(q, lc.2[k]), List.mem_filterMap.2 ⟨k, mem_getIndicesByValue.2 hl, ?_⟩, rfl⟩
  simp [hq, hk]

/-- C131: for every ring that was processed (its points are in the coloured cloud), a point that passes
every filter and is strong (flat) is published as an edge (a surface) unless it is close to another point
that took its place; that point is published or was filtered out afterwards. The `rings` are the rings of
the cloud with more than `padding` points, each in the order of the angles. Missing from "no feature is
missed": points next to one that is filtered out, see `C131_hidden_violated`. -/
theorem C131_complete_partial [IsStrictOrderedRing K] {plat : Platform K} {hp : HyperParameters K}
    {geo : Geometry P K} (hgeo : GeometryOK geo) (hv : hp.Valid) {cloud : List P}
    (hplat : PlatformOK plat hp.nBlocks cloud.length) {stamp : ℤ} {isDense ringAvailable : Bool}
    {eff : CallbackEffect P}
    (h : callback plat hp geo stamp isDense ringAvailable cloud = .ok eff) :
    ∃ rings : Rings, (rings.map Prod.fst).Nodup ∧
      (∀ r idx, (r, idx) ∈ rings → IsDenseRing hp geo cloud r idx) ∧
      (∀ p ∈ cloud, hp.padding < (cloud.filter fun q => geo.ringOf q = geo.ringOf p).length →
        geo.ringOf p ∈ rings.map Prod.fst) ∧
      ∀ r idx, (r, idx) ∈ rings → (∃ q ∈ eff.colored.points, geo.ringOf q.1 = r) →
        NothingMissed hp geo (ringPoints cloud idx) eff.edge.points eff.surface.points := by
  obtain ⟨rings, hnd, hd, hcov, he, hs, hc⟩ :=
    callback_contributions plat hp geo hgeo hv cloud stamp isDense ringAvailable eff hplat h
  refine ⟨rings, hnd, fun r idx hr => (hd r idx hr).1, hcov, ?_⟩
  rintro r idx hr ⟨q, hq, hqr⟩
  have hring : ∀ r' idx', (r', idx') ∈ rings → ∀ a ∈ ringPoints cloud idx', geo.ringOf a = r' := by
    intro r' idx' hr' a ha
    obtain ⟨i, hi, hia⟩ := List.mem_filterMap.1 ha
    obtain ⟨b, hb, hbr⟩ := ((hd r' idx' hr').1.mem i).1 hi
    rw [hia] at hb
    rw [Option.some.inj hb, hbr]
  have hq' : q ∈ (ownContribution plat hp geo (ringPoints cloud idx)).colored := by
    rw [hc] at hq
    obtain ⟨ri, hri, hq⟩ := List.mem_flatMap.1 hq
    have h1 := hring ri.1 ri.2 hri q.1 (mem_ownContribution.2.2 q hq)
    have h2 : ri = (r, idx) := by
      have e1 : ri.1 = r := h1.symm.trans hqr
      exact List.inj_on_of_nodup_map hnd hri hr e1
    rwa [h2] at hq
  have hdr := (hd r idx hr).1
  set pts := ringPoints cloud idx with hpts
  have hlp : pts.length = idx.length := (ringPoints_getElem? hdr.bounds).1
  have hle := nodup_length_le hdr.nodup hdr.bounds
  cases hl : ringLabels plat hp ⟨⟨pts, List.range pts.length⟩, geo.isNb⟩
      ⟨⟨pts, List.range pts.length⟩, geo.norm⟩ with
  | error e =>
    rw [ownContribution, contribution, hl] at hq'
    simp at hq'
  | ok lc =>
    have hin : ∀ i ∈ List.range pts.length, i < pts.length := fun i hi => List.mem_range.1 hi
    have harith : ArithOK plat.rnd (List.range pts.length).length hp.nBlocks :=
      hplat.arith.mono hv.2.2.2.2.2.2.2.le (by rw [List.length_range, hlp]; omega)
    have h64 : (List.range pts.length).length < 2 ^ 64 := by
      rw [List.length_range, hlp]; exact lt_of_le_of_lt hle hplat.size
    have hcomp := ringLabels_complete hgeo hv hplat.argsort harith hin h64 hl
    have hspec := ringLabels_spec (plat := plat) (hp := hp) hgeo hv hplat.argsort harith hin h64
    rw [hl] at hspec
    obtain ⟨hs1, hs2, -⟩ := hspec
    rw [List.length_range] at hs1 hs2
    rw [ringPoints_range] at hcomp
    have hpub : ∀ k, (lc.1[k]? = some .edge → PublishedIn eff.edge.points pts k) ∧
        (lc.1[k]? = some .surface → PublishedIn eff.surface.points pts k) := by
      intro k
      have hk : ∀ L, lc.1[k]? = some L → ∃ a, pts[k]? = some a := by
        intro L hL
        have hlt := (List.getElem?_eq_some_iff.1 hL).1
        exact ⟨_, List.getElem?_eq_getElem (by omega)⟩
      constructor
      · intro hL
        obtain ⟨a, ha⟩ := hk _ hL
        refine ⟨a, ha, ?_⟩
        rw [he]
        refine List.mem_flatMap.2 ⟨(r, idx), hr, ?_⟩
        rw [← hpts, ownContribution, contribution, hl]
        simp only [ringPoints_range]
        exact mem_selectPoints ha hL (by omega)
      · intro hL
        obtain ⟨a, ha⟩ := hk _ hL
        refine ⟨a, ha, ?_⟩
        rw [hs]
        refine List.mem_flatMap.2 ⟨(r, idx), hr, ?_⟩
        rw [← hpts, ownContribution, contribution, hl]
        simp only [ringPoints_range]
        exact mem_selectPoints ha hL (by omega)
    constructor
    · intro k hf hstrong
      rcases hcomp.1 k hf hstrong with h1 | ⟨m, h1, h2, h3, h4, h5⟩
      · exact Or.inl ((hpub k).1 h1)
      · exact Or.inr ⟨m, h1, h2, h3, h4, h5.imp (hpub m).1 id⟩
    · intro k hf hflat
      rcases hcomp.2 k hf hflat with h1 | ⟨m, h1, h2, h3, h4, h5⟩ | ⟨m, h1, h2, h3, h4⟩
      · exact Or.inl ((hpub k).2 h1)
      · exact Or.inr (Or.inl ⟨m, h1, h2, h3, h4, h5.imp (hpub m).2 id⟩)
      · exact Or.inr (Or.inr ⟨m, h1, h2, h3, h4.imp (hpub m).1 id⟩)

/-- C131: a strong point that passes the filters and is stronger than all points close to it is
published. -/
theorem C131_strongest [IsStrictOrderedRing K] {plat : Platform K} {hp : HyperParameters K}
    {geo : Geometry P K} (hgeo : GeometryOK geo) (hv : hp.Valid) {cloud : List P}
    (hplat : PlatformOK plat hp.nBlocks cloud.length) {stamp : ℤ} {isDense ringAvailable : Bool}
    {eff : CallbackEffect P}
    (h : callback plat hp geo stamp isDense ringAvailable cloud = .ok eff) :
    ∃ rings : Rings, (∀ r idx, (r, idx) ∈ rings → IsDenseRing hp geo cloud r idx) ∧
      (∀ p ∈ cloud, hp.padding < (cloud.filter fun q => geo.ringOf q = geo.ringOf p).length →
        geo.ringOf p ∈ rings.map Prod.fst) ∧
      ∀ r idx, (r, idx) ∈ rings → (∃ q ∈ eff.colored.points, geo.ringOf q.1 = r) →
        ∀ k q, (ringPoints cloud idx)[k]? = some q →
          PassesFilters hp geo (ringPoints cloud idx) k →
          hp.edgeThreshold ≤ curvatureAt hp geo (ringPoints cloud idx) k →
          (∀ m, m ≠ k → Close hp geo (ringPoints cloud idx) m k →
            curvatureAt hp geo (ringPoints cloud idx) m <
              curvatureAt hp geo (ringPoints cloud idx) k) →
          q ∈ eff.edge.points := by
  obtain ⟨rings, -, hd, hcov, hall⟩ := C131_complete_partial hgeo hv hplat h
  refine ⟨rings, hd, hcov, fun r idx hr hproc k q hq hf hs hmax => ?_⟩
  rcases (hall r idx hr hproc).strong k hf hs with ⟨q', hq', hmem⟩ | ⟨m, h1, -, h2, h3, -⟩
  · rw [hq] at hq'
    rwa [Option.some.inj hq']
  · exact absurd h3 (not_le.2 (hmax m h1 h2))

omit [Field K] in
/-- A fresh ring all of whose blocks have two points is labelled. -/
theorem assignLabel_succeeds {rnd : ℚ → ℚ} {argsort : List K → List ℕ} (hs : IsArgsort argsort)
    {p : ℕ} (te ts : K) {n : ℕ} {curvature : List K}
    {nb : NeighborCheckXY P} {range : IndexRange} {adj : ℕ → Bool} (hb : BlocksOK rnd range)
    (hn : 0 ≤ range.nBlocks) (hstop : range.stop ≤ n) (hcl : curvature.length = n)
    (hns : nb.ref.indices.length = n)
    (hadj : ∀ m : ℕ, m + 1 < n →
      nb.call m (m + 1) = .ok (adj m) ∧ nb.call ((m : ℤ) + 1) m = .ok (adj m))
    (h2 : ∀ j : ℕ, (j : ℤ) < range.nBlocks → range.bnd rnd j + 2 ≤ range.bnd rnd (j + 1)) :
    ∃ r, assignLabel rnd argsort p te p ts (initLabels n) curvature nb range = .ok r ∧
      r.length = n := by
  have hlen : (initLabels n).length = n := by simp [initLabels]
  have hsize : nb.size = n := by simp only [NeighborCheckXY.size, MappedPoints.size, hns]
  simp only [assignLabel]
  rw [if_neg (by rw [hlen]; simpa using hcl), if_neg (by rw [hlen]; simpa using hsize)]
  refine foldlM_succeeds (I := fun l : List PointLabel => l.length = n) _ _ (fun j hj l hll => ?_) hlen
  rw [List.mem_range] at hj
  have hj' : (j : ℤ) < range.nBlocks := by omega
  have h2j := h2 j hj'
  have hbe := hb.bnd_mono (i := j) (j := j + 1) (by omega) (by push_cast; omega)
  have hen : range.bnd rnd (j + 1) ≤ n := by
    have h1 := hb.bnd_mono (i := j + 1) (j := range.nBlocks.toNat) (by omega) (by omega)
    have h2 := hb.bnd_eq range.nBlocks.toNat (by omega)
    rw [Int.toNat_of_nonneg hn, hb.last] at h2
    omega
  rw [begin_ok (by omega) hj', end_ok (by omega) hj', hb.bnd_eq j (by omega)]
  have hE := hb.bnd_eq (j + 1) (by push_cast; omega)
  push_cast at hE
  rw [hE]
  simp only [bind, Except.bind]
  rw [assignBlock_eq _ _ _ _ _ _ _ _ _ _ hbe (by omega) (by omega)]
  generalize hbb : range.bnd rnd j = b at *
  generalize hee : range.bnd rnd (j + 1) = e at *
  have hlv := slice_length l b e (by omega)
  have hlc := slice_length curvature b e (by omega)
  have hsl := (slice_ok_iff (n := nb) (b := b) (e := e)).2 ⟨h2j, by omega, rfl⟩
  have hin1 : PassInput (slice l b e) (slice curvature b e)
      (NeighborCheckXY.base ⟨⟨nb.ref.cloud, slice nb.ref.indices b e⟩, nb.isNb⟩)
      (fun m => adj (b + m)) := by
    refine ⟨by omega, by rw [hlv]; exact slice_size hsl, fun m hm => ?_⟩
    have h1 := slice_call hsl m (m + 1) (by omega) (by omega)
    have h2 := slice_call hsl (m + 1) m (by omega) (by omega)
    have h3 := hadj (b + m) (by omega)
    push_cast at h1 h2 h3 ⊢
    simp only [NeighborCheckXY.base]
    rw [h1, h2, ← add_assoc]
    exact h3
  obtain ⟨v, hv, hvl⟩ := blockResult_succeeds hs (p := p) (te := te) (ts := ts) hin1
    (by intro hc; rw [hc] at hlv; simp at hlv; omega)
  refine ⟨l.take b ++ v ++ l.drop e, by rw [hsl, hv]; rfl, ?_⟩
  simp only [List.length_append, List.length_take, List.length_drop]
  omega

/-- Neighbour tests and ranges of a ring whose tests are defined. -/
theorem ringInput_of {geo : Geometry P K} (hgeo : GeometryOK geo) {cloud : List P} {indices : List ℕ}
    (hin : ∀ i ∈ indices, i < cloud.length)
    (hdef : ∀ (m : ℕ) (a b : P), (ringPoints cloud indices)[m]? = some a →
      (ringPoints cloud indices)[m + 1]? = some b → ∃ v, geo.isNb a b = .ok v) :
    RingInput ⟨⟨cloud, indices⟩, geo.isNb⟩ ⟨⟨cloud, indices⟩, geo.norm⟩ indices.length
      (adjacentAt geo.isNb (ringPoints cloud indices))
      (rangeAt geo.norm (ringPoints cloud indices)) := by
  obtain ⟨hlp, -⟩ := ringPoints_getElem? hin
  refine ⟨rfl, rfl, fun m hm => ?_, fun m hm => ?_⟩
  · have c1 : NeighborCheckXY.call ⟨⟨cloud, indices⟩, geo.isNb⟩ m ((m : ℤ) + 1) =
        geo.isNb ((ringPoints cloud indices)[m]'(by omega)) ((ringPoints cloud indices)[m + 1]'(by omega)) := by
      have := call_eq (n := ⟨⟨cloud, indices⟩, geo.isNb⟩) (i := m) (j := m + 1) (by simp; omega) (by simp; omega)
      push_cast at this
      rw [this]
      have e := ref_at hin (k := m + 1) hm
      push_cast at e
      simp only [ref_at hin (k := m) (by omega), e, bind, Except.bind]
    have c2 : NeighborCheckXY.call ⟨⟨cloud, indices⟩, geo.isNb⟩ ((m : ℤ) + 1) m =
        geo.isNb ((ringPoints cloud indices)[m + 1]'(by omega)) ((ringPoints cloud indices)[m]'(by omega)) := by
      have := call_eq (n := ⟨⟨cloud, indices⟩, geo.isNb⟩) (i := m + 1) (j := m) (by simp; omega) (by simp; omega)
      push_cast at this
      rw [this]
      have e := ref_at hin (k := m + 1) hm
      push_cast at e
      simp only [ref_at hin (k := m) (by omega), e, bind, Except.bind]
    have e1 : (ringPoints cloud indices)[m]? = some ((ringPoints cloud indices)[m]'(by omega)) := by
      rw [List.getElem?_eq_getElem]
    have e2 : (ringPoints cloud indices)[m + 1]? = some ((ringPoints cloud indices)[m + 1]'(by omega)) := by
      rw [List.getElem?_eq_getElem]
    obtain ⟨v, hvv⟩ := hdef m _ _ e1 e2
    have hadj : adjacentAt geo.isNb (ringPoints cloud indices) m = v := by
      simp only [adjacentAt, e1, e2, hvv]
    rw [c1, c2, hgeo.nb_symm ((ringPoints cloud indices)[m + 1]'(by omega)), hvv, hadj]
    exact ⟨rfl, rfl⟩
  · simp only [Range.call, ref_at hin hm, bind, Except.bind, pure, Except.pure]
    rw [rangeAt_eq _ (by omega)]

/-- A cloud that consists of one ring, `pts` in the order of the angles. -/
theorem callback_single [IsStrictOrderedRing K] {plat : Platform K} {hp : HyperParameters K}
    {geo : Geometry P K} (hgeo : GeometryOK geo) (hv : hp.Valid) {cloud pts : List P}
    (hplat : PlatformOK plat hp.nBlocks cloud.length) {stamp : ℤ} {isDense ringAvailable : Bool}
    {eff : CallbackEffect P}
    (h : callback plat hp geo stamp isDense ringAvailable cloud = .ok eff) {r : ℤ}
    (hperm : cloud.Perm pts) (hring : ∀ q ∈ pts, geo.ringOf q = r) (hlen : hp.padding < pts.length)
    (hsorted : pts.Pairwise fun a b => geo.less a b = true ∧ geo.less b a = false) :
    (∃ idx, IsDenseRing hp geo cloud r idx ∧ ringPoints cloud idx = pts) ∧
    eff.edge.points = (ownContribution plat hp geo pts).edge.map Prod.fst ∧
    eff.surface.points = (ownContribution plat hp geo pts).surface.map Prod.fst ∧
    eff.colored.points = (ownContribution plat hp geo pts).colored := by
  obtain ⟨rings, hnd, hd, hcov, he, hs, hc⟩ :=
    callback_contributions plat hp geo hgeo hv cloud stamp isDense ringAvailable eff hplat h
  have hp0 := hv.1
  have hring' : ∀ q ∈ cloud, geo.ringOf q = r := fun q hq => hring q (hperm.subset hq)
  have hfilter : (cloud.filter fun q => geo.ringOf q = r) = cloud := by
    rw [List.filter_eq_self]
    intro q hq
    simpa using hring' q hq
  have hr : ∀ r' idx, (r', idx) ∈ rings → r' = r ∧ ringPoints cloud idx = pts := by
    intro r' idx hri
    obtain ⟨hdr, -⟩ := hd r' idx hri
    have hpos : 0 < idx.length := by have := hdr.dense; omega
    obtain ⟨q, hq, hqr⟩ := (hdr.mem idx[0]).1 (List.getElem_mem hpos)
    have e : r' = r := by rw [← hqr]; exact hring' q (List.mem_of_getElem? hq)
    subst e
    refine ⟨rfl, ?_⟩
    have hpm := hdr.perm
    rw [hfilter] at hpm
    exact (sorted_unique (hpm.trans hperm).symm (hsorted.imp fun h => Or.inl h.1)
      (hsorted.imp fun h => h.2) hdr.pairwise).symm
  have hpos : 0 < pts.length := by omega
  have hmem : r ∈ rings.map Prod.fst := by
    have h1 : pts[0] ∈ cloud := hperm.symm.subset (List.getElem_mem hpos)
    have h2 := hring' _ h1
    have h3 := hcov _ h1 (by rw [h2, hfilter, hperm.length_eq]; exact hlen)
    rwa [h2] at h3
  obtain ⟨⟨r', idx⟩, hri, rfl⟩ := List.mem_map.1 hmem
  have hone : rings = [(r', idx)] := by
    match rings, hnd, hri, hr with
    | [], _, h, _ => simp at h
    | [a], _, h, _ => rw [List.mem_singleton.1 h]
    | a :: b :: l, hnd, _, hr =>
      have e1 := (hr a.1 a.2 (by simp)).1
      have e2 := (hr b.1 b.2 (by simp)).1
      simp [e1, e2] at hnd
  obtain ⟨-, hpts⟩ := hr r' idx hri
  rw [hone] at he hs hc
  simp only [List.flatMap_cons, List.flatMap_nil, List.append_nil, hpts] at he hs hc
  exact ⟨⟨idx, (hd r' idx hri).1, hpts⟩, he, hs, hc⟩

/-! The violation: a round pole in front of a wall. -/

/-- Two points of a wall at 10 m and three points of a pole at 5 m, 4.9 m and 5 m, in the order of the
angles. -/
noncomputable def exPole : List (PointXYZIR ℝ) :=
  [⟨8, 6, 0, 0⟩, ⟨6, 8, 0, 0⟩, ⟨0, 5, 0, 0⟩, ⟨-147 / 50, 98 / 25, 0, 0⟩, ⟨-4, 3, 0, 0⟩]

/-- Parameters; `d` is the distance that counts as a jump. -/
noncomputable def exPoleHp (d : ℝ) : HyperParameters ℝ := ⟨1, d, 2, 20, 1 / 100, 1, 100, 1⟩

theorem exPoleHp_valid {d : ℝ} (hd : 0 < d) : (exPoleHp d).Valid := by
  norm_num [HyperParameters.Valid, exPoleHp, hd]

theorem xyNorm_of {x y d : ℝ} (hd : 0 ≤ d) (h : x * x + y * y = d * d) : xyNorm x y = d := by
  rw [xyNorm, h, Real.sqrt_mul_self hd]

theorem exPole_range : rangeAt (nodeGeometry 180).norm exPole 0 = 10 ∧
    rangeAt (nodeGeometry 180).norm exPole 1 = 10 ∧ rangeAt (nodeGeometry 180).norm exPole 2 = 5 ∧
    rangeAt (nodeGeometry 180).norm exPole 3 = 49 / 10 ∧
    rangeAt (nodeGeometry 180).norm exPole 4 = 5 := by
  refine ⟨?_, ?_, ?_, ?_, ?_⟩ <;>
  · show xyNorm _ _ = _
    exact xyNorm_of (by norm_num) (by norm_num)

theorem isNb_180 {a b : PointXYZIR ℝ} {x y : ℝ} (hx : xyNorm a.x a.y = x) (hy : xyNorm b.x b.y = y)
    (hx0 : 0 < x) (hy0 : 0 < y) (h : -1 < (a.x * b.x + a.y * b.y) / (x * y)) :
    (nodeGeometry 180).isNb a b = .ok true := by
  show isNeighborXY (degreeToRadian 180) a b = _
  have h1 : degreeToRadian 180 = Real.pi := by rw [degreeToRadian]; ring
  simp only [isNeighborXY, calcRadian, hx, hy, h1]
  rw [if_neg (fun hc => hx0.ne' hc.1), if_neg (mul_pos hx0 hy0).ne']
  simp only [bind, Except.bind, pure, Except.pure]
  have : Real.arccos ((a.x * b.x + a.y * b.y) / (x * y)) < Real.pi :=
    lt_of_le_of_ne (Real.arccos_le_pi _) fun hc => absurd (Real.arccos_eq_pi.1 hc) (not_le.2 h)
  simp [this]

theorem exPole_isNb : ∀ (m : ℕ) (a b : PointXYZIR ℝ), exPole[m]? = some a → exPole[m + 1]? = some b →
    (nodeGeometry 180).isNb a b = .ok true := by
  have h1 : xyNorm 8 6 = 10 := xyNorm_of (by norm_num) (by norm_num)
  have h2 : xyNorm 6 8 = 10 := xyNorm_of (by norm_num) (by norm_num)
  have h3 : xyNorm 0 5 = 5 := xyNorm_of (by norm_num) (by norm_num)
  have h4 : xyNorm (-147 / 50) (98 / 25) = 49 / 10 := xyNorm_of (by norm_num) (by norm_num)
  have h5 : xyNorm (-4) 3 = 5 := xyNorm_of (by norm_num) (by norm_num)
  intro m a b ha hb
  match m with
  | 0 =>
    obtain rfl := Option.some.inj ha; obtain rfl := Option.some.inj hb
    exact isNb_180 h1 h2 (by norm_num) (by norm_num) (by norm_num)
  | 1 =>
    obtain rfl := Option.some.inj ha; obtain rfl := Option.some.inj hb
    exact isNb_180 h2 h3 (by norm_num) (by norm_num) (by norm_num)
  | 2 =>
    obtain rfl := Option.some.inj ha; obtain rfl := Option.some.inj hb
    exact isNb_180 h3 h4 (by norm_num) (by norm_num) (by norm_num)
  | 3 =>
    obtain rfl := Option.some.inj ha; obtain rfl := Option.some.inj hb
    exact isNb_180 h4 h5 (by norm_num) (by norm_num) (by norm_num)
  | m + 4 =>
    rw [List.getElem?_eq_none (by simp only [exPole, List.length_cons, List.length_nil]; omega)] at hb
    cases hb

theorem exPole_curvature (d : ℝ) : curvatureAt (exPoleHp d) (nodeGeometry 180) exPole 1 = 25 ∧
    curvatureAt (exPoleHp d) (nodeGeometry 180) exPole 2 = 2401 / 100 ∧
    curvatureAt (exPoleHp d) (nodeGeometry 180) exPole 3 = 4 / 100 := by
  obtain ⟨h0, h1, h2, h3, h4⟩ := exPole_range
  have hp1 : (exPoleHp d).padding.toNat = 1 := rfl
  simp only [curvatureAt, smoothness, hp1]
  have e1 : Finset.Icc (1 - 1) (1 + 1) = ({0, 1, 2} : Finset ℕ) := rfl
  have e2 : Finset.Icc (2 - 1) (2 + 1) = ({1, 2, 3} : Finset ℕ) := rfl
  have e3 : Finset.Icc (3 - 1) (3 + 1) = ({2, 3, 4} : Finset ℕ) := rfl
  rw [e1, e2, e3]
  simp [h0, h1, h2, h3, h4]
  norm_num

theorem exPole_adjacent : ∀ m, m < 4 → adjacentAt (nodeGeometry 180).isNb exPole m = true := by
  intro m hm
  have hl : exPole.length = 5 := rfl
  have e1 : exPole[m]? = some (exPole[m]'(by omega)) := by rw [List.getElem?_eq_getElem]
  have e2 : exPole[m + 1]? = some (exPole[m + 1]'(by omega)) := by rw [List.getElem?_eq_getElem]
  simp only [adjacentAt, e1, e2, exPole_isNb m _ _ e1 e2]

theorem exPole_passes : PassesFilters (exPoleHp 2) (nodeGeometry 180) exPole 2 := by
  obtain ⟨h0, h1, h2, h3, h4⟩ := exPole_range
  refine ⟨⟨by decide, by decide⟩, ?_, ?_, ?_⟩
  · rw [h2]; norm_num [exPoleHp]
  · intro near far hn hf hj hs
    have hl : exPole.length = 5 := rfl
    rw [hl] at hn hf
    obtain ⟨hadj, hlt⟩ := hj
    have hd : (exPoleHp 2).distanceDiffThreshold = 2 := rfl
    have hp1 : (exPoleHp 2).padding.toNat = 1 := rfl
    obtain ⟨hs1, -⟩ := hs
    rw [hp1] at hs1
    rw [hd] at hlt
    interval_cases near <;> interval_cases far <;> simp [h0, h1, h2, h3, h4] at hlt hadj hs1 <;>
      norm_num at hlt
  · rintro ⟨ha, -⟩
    have hr : (exPoleHp 2).parallelBeamMinRangeRatio = 2 := rfl
    rw [h2, hr] at ha
    norm_num [h1] at ha

/-- The labels of the pole: the point of the wall beside it is the only candidate for an edge. -/
theorem exPole_labels (d : ℝ) {plat : Platform ℝ} (harg : IsArgsort plat.argsort)
    (harith : ArithOK plat.rnd 5 1) :
    ∃ l c, ringLabels plat (exPoleHp d) ⟨⟨exPole, List.range 5⟩, (nodeGeometry 180).isNb⟩
      ⟨⟨exPole, List.range 5⟩, (nodeGeometry 180).norm⟩ = .ok (l, c) ∧ l.length = 5 ∧ c.length = 5 ∧
      ∀ k : ℕ, l[k]? = some .edge ↔ k = 1 ∧ Kept (exPoleHp d) 1 5
        (adjacentAt (nodeGeometry 180).isNb exPole) (rangeAt (nodeGeometry 180).norm exPole) k := by
  have hgeo := nodeGeometry_ok 180
  have hpts : ringPoints exPole (List.range 5) = exPole := ringPoints_range exPole
  have hin : ∀ i ∈ List.range 5, i < exPole.length := fun i hi => List.mem_range.1 hi
  have hri := ringInput_of hgeo hin (by
    rw [hpts]
    exact fun m a b ha hb => ⟨true, exPole_isNb m a b ha hb⟩)
  rw [hpts, List.length_range] at hri
  have hmk : PaddedIndexRange.make ((5 : ℕ) : ℤ) (exPoleHp d).nBlocks (1 : ℕ) = .ok ⟨1, 4, 1⟩ := rfl
  obtain ⟨hB, hst, hsp, hnbk⟩ := padded_blocksOK (by norm_num) (by decide) harith hmk
  have hb0 := hB.bnd_eq 0 (by decide)
  have hb1 := hB.bnd_eq 1 (by decide)
  have hf := hB.first
  have hl := hB.last
  simp only [Nat.cast_zero, Nat.cast_one] at hb0 hb1 hf hl
  rw [hf] at hb0
  rw [hl] at hb1
  have hbnd0 : IndexRange.bnd plat.rnd ⟨1, 4, 1⟩ 0 = 1 := by exact_mod_cast hb0.symm
  have hbnd1 : IndexRange.bnd plat.rnd ⟨1, 4, 1⟩ 1 = 4 := by exact_mod_cast hb1.symm
  obtain ⟨l₁, hA, hl₁⟩ := assignLabel_succeeds harg (p := 1) (exPoleHp d).edgeThreshold
    (exPoleHp d).surfaceThreshold (n := 5) (curvature := (List.range 5).map fun i =>
      if 1 ≤ i ∧ i + 1 < 5 then smoothness (rangeAt (nodeGeometry 180).norm exPole) 1 i else 0) hB
    (by decide) (by decide) (by simp) (by simp) hri.nb_test (by
      intro j hj
      have : j = 0 := by simp only at hj; omega
      subst this
      rw [hbnd0, hbnd1]
      norm_num)
  obtain ⟨l, e1, hl', hk⟩ := ringLabels_of (plat := plat) (hp := (exPoleHp d)) (p := 1) rfl (by norm_num)
    hri (by simp) (fun k _ => by
      simp only [rangeAt]
      split
      · exact hgeo.norm_nonneg _
      · exact le_rfl) (by norm_num) (by norm_num) hmk hA hl₁
  refine ⟨l, _, e1, hl', by simp, fun k => ?_⟩
  rw [hk k .edge (by simp) (by simp) (by simp)]
  refine and_congr_left fun _ => ?_
  have hlab := C79_ring_labelling_complete harg 1 _ _ 5 l₁ _ _ _ (exPoleHp d).nBlocks ⟨1, 4, 1⟩
    one_pos
    harith hmk hri.nb_test hA 0 1 4 (by rw [begin_ok (by decide) (by decide)]; exact congrArg _ hf)
    (by rw [end_ok (by decide) (by decide)]; exact congrArg _ hl)
  obtain ⟨c1, c2, c3⟩ := exPole_curvature d
  have hp1 : (exPoleHp d).padding.toNat = 1 := rfl
  simp only [curvatureAt, hp1] at c1 c2 c3
  have hC : ∀ i, i < 5 → ((List.range 5).map fun i =>
      if 1 ≤ i ∧ i + 1 < 5 then smoothness (rangeAt (nodeGeometry 180).norm exPole) 1 i else 0)[i]? =
      some (if 1 ≤ i ∧ i + 1 < 5 then smoothness (rangeAt (nodeGeometry 180).norm exPole) 1 i else 0) := by
    intro i hi
    rw [List.getElem?_map, List.getElem?_range hi, Option.map_some]
  have hte : (exPoleHp d).edgeThreshold = 20 := rfl
  have k1 := hC 1 (by norm_num)
  have k2 := hC 2 (by norm_num)
  have k3 := hC 3 (by norm_num)
  rw [if_pos (by norm_num), c1] at k1
  rw [if_pos (by norm_num), c2] at k2
  rw [if_pos (by norm_num), c3] at k3
  have hadj : ∀ i j, i ≤ 4 → j ≤ 4 → Chain (adjacentAt (nodeGeometry 180).isNb exPole) i j :=
    fun i j hi hj m _ h2 => exPole_adjacent m (lt_of_lt_of_le h2 (max_le hi hj))
  have hE1 : l₁[1]? = some .edge := by
    rcases hlab.strong 1 _ (by norm_num) (by norm_num) k1 (by rw [hte]; norm_num) with h |
      ⟨m, c, hm1, hm2, hm3, hm4, hm5, hm6⟩
    · exact h
    · have := hm4.1
      have hm : m = 1 ∨ m = 2 := by omega
      rcases hm with rfl | rfl
      · exact hm3
      · rw [k2] at hm5
        obtain rfl := Option.some.inj hm5
        norm_num at hm6
  refine ⟨fun hk1 => ?_, fun e => by rw [e]; exact hE1⟩
  obtain ⟨hlo, hhi, c, hc, hle⟩ :=
    (assignLabel_marks harg hB (by decide) (by decide) hri.nb_test hA k).1 hk1
  simp only at hlo hhi
  have hk123 : k = 1 ∨ k = 2 ∨ k = 3 := by omega
  rcases hk123 with rfl | rfl | rfl
  · rfl
  · exfalso
    exact hlab.apart 1 2 (by norm_num) (by norm_num) (by norm_num) (by norm_num) (by norm_num)
      (Or.inl hE1) (Or.inl hk1) ⟨by norm_num, by norm_num, hadj 1 2 (by norm_num) (by norm_num)⟩
  · rw [k3] at hc
    obtain rfl := Option.some.inj hc
    rw [hte] at hle
    norm_num at hle

theorem exPole_mem : ∀ p ∈ exPole, p.y ≠ 0 ∧ p.ring = 0 := by
  intro p hp
  simp only [exPole, List.mem_cons, List.not_mem_nil, or_false] at hp
  rcases hp with rfl | rfl | rfl | rfl | rfl <;> norm_num

theorem exPole_sorted : exPole.Pairwise fun a b =>
    (nodeGeometry 180).less a b = true ∧ (nodeGeometry 180).less b a = false := by
  simp only [exPole, List.pairwise_cons, List.mem_cons, List.not_mem_nil, or_false,
    forall_eq_or_imp, forall_eq, List.Pairwise.nil, and_true, nodeGeometry, lessAngle]
  norm_num

/-- C131 is false without the exception: a round pole in front of a wall. The ring is processed, the first
point of the pole is strong (curvature 24.01 for a threshold of 20) and passes every filter, but no edge is
published at all, on any platform: the point of the wall beside it has curvature 25, takes its
place, and is then removed as occluded. -/
theorem C131_hidden_violated {plat : Platform ℝ} (hplat : PlatformOK plat 1 5) (stamp : ℤ)
    (isDense ringAvailable : Bool) :
    ∃ eff : CallbackEffect (PointXYZIR ℝ),
      callback plat (exPoleHp 2) (nodeGeometry 180) stamp isDense ringAvailable exPole = .ok eff ∧
      eff.edge.points = [] ∧ eff.colored.points.map Prod.fst = exPole ∧
      (∃ idx, IsDenseRing (exPoleHp 2) (nodeGeometry 180) exPole 0 idx ∧ ringPoints exPole idx = exPole) ∧
      exPole[2]? = some ⟨0, 5, 0, 0⟩ ∧ PassesFilters (exPoleHp 2) (nodeGeometry 180) exPole 2 ∧
      (exPoleHp 2).edgeThreshold ≤ curvatureAt (exPoleHp 2) (nodeGeometry 180) exPole 2 := by
  obtain ⟨eff, h, -⟩ := C19_callback_returns_partial 180 (exPoleHp_valid two_pos) hplat
    (fun a ha b _ _ hs => (exPole_mem a ha).1 hs.1) stamp isDense ringAvailable
  obtain ⟨hring, he, -, hc⟩ := callback_single (nodeGeometry_ok 180) (exPoleHp_valid two_pos) hplat h
    (List.Perm.refl _) (fun q hq => (exPole_mem q hq).2) (by decide) exPole_sorted
  obtain ⟨l, c, hl, hlen, -, hedge⟩ := exPole_labels 2 hplat.argsort hplat.arith
  have hno : ∀ k : ℕ, l[k]? ≠ some .edge := by
    intro k hke
    obtain ⟨rfl, hkept⟩ := (hedge k).1 hke
    obtain ⟨-, h1, h2, -, -⟩ := exPole_range
    refine hkept.occluded ⟨2, 1, ⟨Or.inr ⟨rfl, exPole_adjacent 1 (by norm_num)⟩, ?_⟩,
      Or.inr ⟨by norm_num, by norm_num, by norm_num⟩, Or.inr ⟨by norm_num, by norm_num, by norm_num⟩, ?_⟩
    · rw [h1, h2]
      have hd : (exPoleHp 2).distanceDiffThreshold = 2 := rfl
      rw [hd]
      norm_num
    · intro m hm1 hm2
      simp at hm1 hm2
      omega
  have hpts : ringPoints exPole (List.range 5) = exPole := ringPoints_range exPole
  have hown : ownContribution plat (exPoleHp 2) (nodeGeometry 180) exPole =
      ⟨selectPoints exPole (l, c) .edge, selectPoints exPole (l, c) .surface, colorPoints exPole l⟩ := by
    have e : exPole.length = 5 := rfl
    simp only [ownContribution, contribution, e, hl, hpts]
  refine ⟨eff, h, ?_, ?_, hring, rfl, exPole_passes, ?_⟩
  · rw [he, hown]
    simp only [selectPoints]
    have : getIndicesByValue l .edge = [] := by
      rw [List.eq_nil_iff_forall_not_mem]
      exact fun k hk => hno k (mem_getIndicesByValue.1 hk)
    rw [this]
    rfl
  · rw [hc, hown]
    match l, hlen with
    | [a, b, d, e, f], _ => rfl
  · rw [(exPole_curvature 2).2.1]
    have hte : (exPoleHp 2).edgeThreshold = 20 := rfl
    rw [hte]
    norm_num

/-! Non-vacuity: with a larger distance for jumps the point of the wall is not removed. It meets the
hypotheses of `C131_strongest`, and is published. -/

theorem exPole_edge {plat : Platform ℝ} (hplat : PlatformOK plat 1 5) (stamp : ℤ)
    (isDense ringAvailable : Bool) :
    ∃ eff : CallbackEffect (PointXYZIR ℝ),
      callback plat (exPoleHp 6) (nodeGeometry 180) stamp isDense ringAvailable exPole = .ok eff ∧
      ⟨6, 8, 0, 0⟩ ∈ eff.edge.points := by
  obtain ⟨eff, h, -⟩ := C19_callback_returns_partial 180 (exPoleHp_valid (d := 6) (by norm_num)) hplat
    (fun a ha b _ _ hs => (exPole_mem a ha).1 hs.1) stamp isDense ringAvailable
  obtain ⟨hring, he, -, hc⟩ := callback_single (nodeGeometry_ok 180) (exPoleHp_valid (by norm_num)) hplat h
    (List.Perm.refl _) (fun q hq => (exPole_mem q hq).2) (by decide) exPole_sorted
  obtain ⟨l, c, hl, hlen, hlen', hedge⟩ := exPole_labels 6 hplat.argsort hplat.arith
  have hpts : ringPoints exPole (List.range 5) = exPole := ringPoints_range exPole
  have hown : ownContribution plat (exPoleHp 6) (nodeGeometry 180) exPole =
      ⟨selectPoints exPole (l, c) .edge, selectPoints exPole (l, c) .surface, colorPoints exPole l⟩ := by
    have e : exPole.length = 5 := rfl
    simp only [ownContribution, contribution, e, hl, hpts]
  refine ⟨eff, h, ?_⟩
  rw [he, hown]
  refine mem_selectPoints (k := 1) rfl ((hedge 1).2 ⟨rfl, ?_, ?_, ?_⟩) (by simp only; omega)
  · obtain ⟨h0, h1, h2, -, -⟩ := exPole_range
    rintro ⟨-, -, h3, -⟩
    rw [h1, h0] at h3
    have hr : (exPoleHp 6).parallelBeamMinRangeRatio = 2 := rfl
    rw [hr] at h3
    norm_num at h3
  · rw [exPole_range.2.1]
    norm_num [exPoleHp]
  · rintro ⟨near, far, ⟨hadj, hlt⟩, hfit, -⟩
    obtain ⟨h0, h1, h2, h3, h4⟩ := exPole_range
    have hd : (exPoleHp 6).distanceDiffThreshold = 6 := rfl
    rw [hd] at hlt
    have hn : near < 5 ∧ far < 5 := by rcases hfit with h | h <;> omega
    obtain ⟨hn, hf⟩ := hn
    interval_cases near <;> interval_cases far <;> simp [h0, h1, h2, h3, h4] at hlt hadj <;>
      norm_num at hlt

example : ∃ plat : Platform ℝ, PlatformOK plat 1 5 :=
  ⟨⟨id, cmpSort, exSort, id⟩, cmpSort_isArgsort, exSort_isSort, fun _ => List.Perm.refl _, Or.inl rfl,
    by norm_num⟩

end Verif.Extraction
