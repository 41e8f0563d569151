/-
C17, C18, C19: what the extraction node publishes.
-/
import Verif.Lemmas.RingCongr

set_option autoImplicit false

namespace Verif.Extraction

variable {P K : Type} [Field K] [LinearOrder K]

/-- Specification: `idx` lists the points of the cloud with ring field `r`, each once, without an
inversion of the angle order, and there are more than `padding` of them. -/
structure IsDenseRing (hp : HyperParameters K) (geo : Geometry P K) (cloud : List P) (r : ℤ)
    (idx : List ℕ) : Prop where
  nodup : idx.Nodup
  mem : ∀ i : ℕ, i ∈ idx ↔ ∃ p, cloud[i]? = some p ∧ geo.ringOf p = r
  sorted : idx.Pairwise fun i j => ∀ a b, cloud[i]? = some a → cloud[j]? = some b →
    geo.less b a = false
  dense : hp.padding < idx.length

omit [Field K] [LinearOrder K] in
theorem IsDenseRing.bounds {hp : HyperParameters K} {geo : Geometry P K} {cloud : List P} {r : ℤ}
    {idx : List ℕ} (h : IsDenseRing hp geo cloud r idx) : ∀ i ∈ idx, i < cloud.length := by
  intro i hi
  obtain ⟨p, h1, -⟩ := (h.mem i).1 hi
  exact (List.getElem?_eq_some_iff.1 h1).1

omit [Field K] [LinearOrder K] in
theorem denseRings {plat : Platform K} {hp : HyperParameters K} {geo : Geometry P K}
    {cloud : List P} {rings : Rings} (hs : IsSort plat.sort)
    (ho : ∀ rings, (plat.order rings).Perm rings)
    (h : extractAngleSortedRings plat.sort geo.less geo.ringOf cloud = .ok rings) :
    (∀ ring ∈ plat.order (removeSparseRings rings (hp.padding + 1)),
      IsDenseRing hp geo cloud ring.1 ring.2) ∧
    ((plat.order (removeSparseRings rings (hp.padding + 1))).map Prod.fst).Nodup := by
  obtain ⟨h1, h2⟩ := C20_rings_sorted hs geo.less geo.ringOf cloud rings h
  obtain ⟨h3, h4⟩ := C20_remove_sparse rings (hp.padding + 1)
  constructor
  · intro ring hring
    rw [(ho _).mem_iff] at hring
    obtain ⟨h5, h6⟩ := (h4 ring.1 ring.2).1 hring
    exact ⟨h1.nodup _ _ h5, h1.mem _ _ h5, h2 _ _ h5, by omega⟩
  · rw [((ho _).map Prod.fst).nodup_iff]
    exact (h3.map Prod.fst).nodup h1.keys

/-- The labels of a ring, if it is not skipped. -/
theorem mem_select {pts : List P} {lc : List PointLabel × List K} {L : PointLabel} {q : P × K}
    (h : q ∈ selectPoints pts lc L) :
    ∃ k : ℕ, lc.1[k]? = some L ∧ pts[k]? = some q.1 ∧ lc.2[k]? = some q.2 := by
  simp only [selectPoints, List.mem_filterMap, mem_getIndicesByValue, Option.bind_eq_some_iff,
    Option.map_eq_some_iff] at h
  obtain ⟨k, h1, p, h2, c, h3, rfl⟩ := h
  exact ⟨k, h1, h2, h3⟩

/-- C17: every published edge point has curvature at least the edge threshold, every published
surface point at most the surface threshold, and both pass every filter, for all clouds,
parameters, sort tie orders and hash-map orders. -/
theorem C17_published_features [IsStrictOrderedRing K] {plat : Platform K} {hp : HyperParameters K}
    {geo : Geometry P K} {cloud : List P} (hgeo : GeometryOK geo) (hv : hp.Valid)
    (hplat : PlatformOK plat hp.nBlocks cloud.length) {stamp : ℤ} {isDense ringAvailable : Bool}
    {eff : CallbackEffect P}
    (h : callback plat hp geo stamp isDense ringAvailable cloud = .ok eff) :
    (∀ q ∈ eff.edge.points, ∃ (r : ℤ) (idx : List ℕ) (k : ℕ), IsDenseRing hp geo cloud r idx ∧
      (ringPoints cloud idx)[k]? = some q ∧ PassesFilters hp geo (ringPoints cloud idx) k ∧
      hp.edgeThreshold ≤
        smoothness (rangeAt geo.norm (ringPoints cloud idx)) hp.padding.toNat k) ∧
    (∀ q ∈ eff.surface.points, ∃ (r : ℤ) (idx : List ℕ) (k : ℕ), IsDenseRing hp geo cloud r idx ∧
      (ringPoints cloud idx)[k]? = some q ∧ PassesFilters hp geo (ringPoints cloud idx) k ∧
      smoothness (rangeAt geo.norm (ringPoints cloud idx)) hp.padding.toNat k ≤
        hp.surfaceThreshold) := by
  obtain ⟨rings, out, h1, h2, h3, h4, -⟩ := callback_clouds h
  rw [extractClouds_eq hgeo hv hplat h1] at h2
  injection h2 with h2
  subst h2
  obtain ⟨hdense, -⟩ := denseRings (hp := hp) hplat.sort hplat.order h1
  have hspec : ∀ ring ∈ plat.order (removeSparseRings rings (hp.padding + 1)), _ :=
    fun ring hring =>
      let hd := hdense ring hring
      have hle := nodup_length_le hd.nodup hd.bounds
      ringLabels_spec (plat := plat) hgeo hv hplat.argsort
        (hplat.arith.mono hv.2.2.2.2.2.2.2.le (by omega)) hd.bounds
        (lt_of_le_of_lt hle hplat.size)
  constructor
  · intro q hq
    rw [h3, List.mem_map] at hq
    obtain ⟨⟨q', c⟩, hq, rfl⟩ := hq
    rw [List.mem_flatMap] at hq
    obtain ⟨ring, hring, hq⟩ := hq
    have hs := hspec ring hring
    simp only [contribution] at hq
    cases hl : ringLabels plat hp ⟨⟨cloud, ring.2⟩, geo.isNb⟩ ⟨⟨cloud, ring.2⟩, geo.norm⟩ with
    | error e => rw [hl] at hq; simp at hq
    | ok lc =>
      rw [hl] at hq hs
      obtain ⟨k, hk1, hk2, -⟩ := mem_select hq
      obtain ⟨hpass, c', -, hc1, hc2⟩ := (hs.2.2 k).1 hk1
      exact ⟨ring.1, ring.2, k, hdense ring hring, hk2, hpass, hc2 ▸ hc1⟩
  · intro q hq
    rw [h4, List.mem_map] at hq
    obtain ⟨⟨q', c⟩, hq, rfl⟩ := hq
    rw [List.mem_flatMap] at hq
    obtain ⟨ring, hring, hq⟩ := hq
    have hs := hspec ring hring
    simp only [contribution] at hq
    cases hl : ringLabels plat hp ⟨⟨cloud, ring.2⟩, geo.isNb⟩ ⟨⟨cloud, ring.2⟩, geo.norm⟩ with
    | error e => rw [hl] at hq; simp at hq
    | ok lc =>
      rw [hl] at hq hs
      obtain ⟨k, hk1, hk2, -⟩ := mem_select hq
      obtain ⟨hpass, c', -, hc1, hc2⟩ := (hs.2.2 k).2 hk1
      exact ⟨ring.1, ring.2, k, hdense ring hring, hk2, hpass, hc2 ▸ hc1⟩

/-- Indices in the cloud of the points of a ring with the given label. -/
def selectIndices (plat : Platform K) (hp : HyperParameters K) (geo : Geometry P K)
    (cloud : List P) (L : PointLabel) (idx : List ℕ) : List ℕ :=
  match ringLabels plat hp ⟨⟨cloud, idx⟩, geo.isNb⟩ ⟨⟨cloud, idx⟩, geo.norm⟩ with
  | .ok lc => (getIndicesByValue lc.1 L).filterMap fun k => idx[k]?
  | .error _ => []

theorem mem_selectIndices {plat : Platform K} {hp : HyperParameters K} {geo : Geometry P K}
    {cloud : List P} {L : PointLabel} {idx : List ℕ} {i : ℕ}
    (h : i ∈ selectIndices plat hp geo cloud L idx) :
    ∃ lc, ringLabels plat hp ⟨⟨cloud, idx⟩, geo.isNb⟩ ⟨⟨cloud, idx⟩, geo.norm⟩ = .ok lc ∧
      ∃ k : ℕ, lc.1[k]? = some L ∧ idx[k]? = some i := by
  simp only [selectIndices] at h
  cases hl : ringLabels plat hp ⟨⟨cloud, idx⟩, geo.isNb⟩ ⟨⟨cloud, idx⟩, geo.norm⟩ with
  | error e => rw [hl] at h; simp at h
  | ok lc =>
    rw [hl] at h
    simp only [List.mem_filterMap, mem_getIndicesByValue] at h
    exact ⟨lc, rfl, h⟩

theorem selectIndices_nodup {plat : Platform K} {hp : HyperParameters K} {geo : Geometry P K}
    {cloud : List P} {L : PointLabel} {idx : List ℕ} (hn : idx.Nodup) :
    (selectIndices plat hp geo cloud L idx).Nodup := by
  simp only [selectIndices]
  split
  · refine List.Nodup.filterMap ?_ (List.nodup_range.filter _)
    intro a b i ha hb
    rw [Option.mem_def] at ha hb
    obtain ⟨ha', ha⟩ := List.getElem?_eq_some_iff.1 ha
    obtain ⟨hb', hb⟩ := List.getElem?_eq_some_iff.1 hb
    exact (hn.getElem_inj_iff (hi := ha') (hj := hb')).1 (ha.trans hb.symm)
  · exact List.nodup_nil

theorem select_points_indices {cloud : List P} {idx : List ℕ}
    (hin : ∀ i ∈ idx, i < cloud.length) {lc : List PointLabel × List K}
    (h1 : lc.1.length = idx.length) (h2 : lc.2.length = idx.length) (L : PointLabel) :
    ((selectPoints (ringPoints cloud idx) lc L).map fun q => some q.1) =
      ((getIndicesByValue lc.1 L).filterMap fun k => idx[k]?).map fun (i : ℕ) => cloud[i]? := by
  have hk : ∀ k ∈ getIndicesByValue lc.1 L, k < idx.length := by
    intro k hk
    rw [mem_getIndicesByValue] at hk
    rw [← h1]; exact (List.getElem?_eq_some_iff.1 hk).1
  rw [selectPoints]
  generalize getIndicesByValue lc.1 L = l at hk
  induction l with
  | nil => rfl
  | cons k l ih =>
    have hk' := hk k List.mem_cons_self
    have e1 : (ringPoints cloud idx)[k]? = cloud[idx[k]]? := by
      rw [(ringPoints_getElem? hin).2, List.getElem?_eq_getElem hk']; rfl
    have hi : idx[k] < cloud.length := hin _ (List.getElem_mem hk')
    rw [List.getElem?_eq_getElem hi] at e1
    have e2 : lc.2[k]? = some (lc.2[k]'(by omega)) := List.getElem?_eq_getElem _
    have e3 : idx[k]? = some idx[k] := List.getElem?_eq_getElem _
    simp only [List.filterMap_cons, e1, e2, e3, Option.bind_some, Option.map_some, List.map_cons,
      ih (fun j hj => hk j (List.mem_cons_of_mem _ hj)), List.getElem?_eq_getElem hi]

/-- C18: the published edge and surface points are input points; no input point is published twice
or in both classes; each belongs to a ring with more than `padding` points. -/
theorem C18_published_once [IsStrictOrderedRing K] {plat : Platform K} {hp : HyperParameters K}
    {geo : Geometry P K} {cloud : List P} (hgeo : GeometryOK geo) (hv : hp.Valid)
    (hplat : PlatformOK plat hp.nBlocks cloud.length) {stamp : ℤ} {isDense ringAvailable : Bool}
    {eff : CallbackEffect P}
    (h : callback plat hp geo stamp isDense ringAvailable cloud = .ok eff) :
    ∃ E S : List ℕ, eff.edge.points.map some = E.map (fun i => cloud[i]?) ∧
      eff.surface.points.map some = S.map (fun i => cloud[i]?) ∧
      (E ++ S).Nodup ∧
      ∀ i ∈ E ++ S, ∃ p, cloud[i]? = some p ∧
        hp.padding < (cloud.filter fun q => geo.ringOf q = geo.ringOf p).length := by
  obtain ⟨rings, out, h1, h2, h3, h4, -⟩ := callback_clouds h
  rw [extractClouds_eq hgeo hv hplat h1] at h2
  injection h2 with h2
  subst h2
  obtain ⟨hdense, hkeys⟩ := denseRings (hp := hp) hplat.sort hplat.order h1
  generalize plat.order (removeSparseRings rings (hp.padding + 1)) = rs at *
  -- points and indices correspond
  have hcorr : ∀ L : PointLabel, ∀ ring ∈ rs, ∀ f : Clouds P K → List (P × K),
      (∀ lc, f ⟨selectPoints (ringPoints cloud ring.2) lc .edge,
        selectPoints (ringPoints cloud ring.2) lc .surface,
        colorPoints (ringPoints cloud ring.2) lc.1⟩ = selectPoints (ringPoints cloud ring.2) lc L) →
      f ⟨[], [], []⟩ = [] →
      ((f (contribution plat hp geo cloud ring.2)).map fun q => some q.1) =
        (selectIndices plat hp geo cloud L ring.2).map fun (i : ℕ) => cloud[i]? := by
    intro L ring hring f hf hf0
    have hd := hdense ring hring
    have hle := nodup_length_le hd.nodup hd.bounds
    have hs := ringLabels_spec (plat := plat) hgeo hv hplat.argsort
        (hplat.arith.mono hv.2.2.2.2.2.2.2.le (by omega)) hd.bounds
        (lt_of_le_of_lt hle hplat.size)
    simp only [contribution, selectIndices]
    cases hl : ringLabels plat hp ⟨⟨cloud, ring.2⟩, geo.isNb⟩ ⟨⟨cloud, ring.2⟩, geo.norm⟩ with
    | error e => simp [hf0]
    | ok lc =>
      rw [hl] at hs
      simp only [hf]
      exact select_points_indices hd.bounds hs.1 hs.2.1 L
  have hflat : ∀ (l : Rings) (f : ℤ × List ℕ → List (P × K)) (g : ℤ × List ℕ → List ℕ),
      (∀ r ∈ l, (f r).map (fun q => some q.1) = (g r).map fun (i : ℕ) => cloud[i]?) →
      ((l.flatMap f).map Prod.fst).map some = (l.flatMap g).map fun (i : ℕ) => cloud[i]? := by
    intro l f g hfg
    induction l with
    | nil => rfl
    | cons r l ih =>
      simp only [List.flatMap_cons, List.map_append, ih (fun x hx => hfg x (List.mem_cons_of_mem _ hx))]
      congr 1
      rw [← hfg r List.mem_cons_self, List.map_map]; rfl
  -- an index is published with at most one label
  have huniq : ∀ i L L', i ∈ rs.flatMap (fun r => selectIndices plat hp geo cloud L r.2) →
      i ∈ rs.flatMap (fun r => selectIndices plat hp geo cloud L' r.2) → L = L' := by
    intro i L L' hi hi'
    obtain ⟨r1, hr1, hi⟩ := List.mem_flatMap.1 hi
    obtain ⟨r2, hr2, hi'⟩ := List.mem_flatMap.1 hi'
    obtain ⟨lc, hlc, k, hk, hik⟩ := mem_selectIndices hi
    obtain ⟨lc', hlc', k', hk', hik'⟩ := mem_selectIndices hi'
    obtain ⟨p, hp1, hp2⟩ := ((hdense r1 hr1).mem i).1 (List.mem_of_getElem? hik)
    obtain ⟨p', hp1', hp2'⟩ := ((hdense r2 hr2).mem i).1 (List.mem_of_getElem? hik')
    have hpp : p = p' := Option.some.inj (hp1.symm.trans hp1')
    have hr : r1.1 = r2.1 := by rw [← hp2, ← hp2', hpp]
    have hr12 : r1 = r2 := List.inj_on_of_nodup_map hkeys hr1 hr2 hr
    subst hr12
    obtain rfl : lc = lc' := Except.ok.inj (hlc.symm.trans hlc')
    obtain ⟨ha', ha⟩ := List.getElem?_eq_some_iff.1 hik
    obtain ⟨hb', hb⟩ := List.getElem?_eq_some_iff.1 hik'
    have hkk : k = k' := ((hdense r1 hr1).nodup.getElem_inj_iff (hi := ha') (hj := hb')).1
      (ha.trans hb.symm)
    subst hkk
    exact Option.some.inj (hk.symm.trans hk')
  have hnodup : ∀ L, (rs.flatMap fun r => selectIndices plat hp geo cloud L r.2).Nodup := by
    intro L
    rw [List.nodup_flatMap]
    refine ⟨fun r hr => selectIndices_nodup (hdense r hr).nodup, ?_⟩
    have hpw : rs.Pairwise fun a b => a.1 ≠ b.1 := by
      rw [← List.pairwise_map (f := Prod.fst) (R := fun a b : ℤ => a ≠ b)]; exact hkeys
    refine List.Pairwise.imp_of_mem ?_ hpw
    intro a b ha hb hab i hia hib
    obtain ⟨lc, -, k, -, hik⟩ := mem_selectIndices hia
    obtain ⟨lc', -, k', -, hik'⟩ := mem_selectIndices hib
    obtain ⟨p, hp1, hp2⟩ := ((hdense a ha).mem i).1 (List.mem_of_getElem? hik)
    obtain ⟨p', hp1', hp2'⟩ := ((hdense b hb).mem i).1 (List.mem_of_getElem? hik')
    have hpp : p = p' := Option.some.inj (hp1.symm.trans hp1')
    exact hab (by rw [← hp2, ← hp2', hpp])
  refine ⟨rs.flatMap fun r => selectIndices plat hp geo cloud .edge r.2,
    rs.flatMap fun r => selectIndices plat hp geo cloud .surface r.2, ?_, ?_, ?_, ?_⟩
  · rw [h3]
    exact hflat rs _ _ (fun r hr => hcorr .edge r hr Clouds.edge (fun _ => rfl) rfl)
  · rw [h4]
    exact hflat rs _ _ (fun r hr => hcorr .surface r hr Clouds.surface (fun _ => rfl) rfl)
  · rw [List.nodup_append]
    refine ⟨hnodup _, hnodup _, ?_⟩
    intro a ha b hb hab
    subst hab
    exact absurd (huniq a _ _ ha hb) (by decide)
  · intro i hi
    have : ∃ L, i ∈ rs.flatMap fun r => selectIndices plat hp geo cloud L r.2 := by
      rcases List.mem_append.1 hi with hi | hi
      · exact ⟨_, hi⟩
      · exact ⟨_, hi⟩
    obtain ⟨L, hi⟩ := this
    obtain ⟨r, hr, hi⟩ := List.mem_flatMap.1 hi
    obtain ⟨lc, -, k, -, hik⟩ := mem_selectIndices hi
    have hd := hdense r hr
    obtain ⟨p, hp1, hp2⟩ := (hd.mem i).1 (List.mem_of_getElem? hik)
    refine ⟨p, hp1, lt_of_lt_of_le hd.dense ?_⟩
    have hlen : r.2.length = (ringPoints cloud r.2).length := (ringPoints_getElem? hd.bounds).1.symm
    have hperm : r.2.Perm (ringIndices geo.ringOf cloud r.1) := by
      refine (List.perm_ext_iff_of_nodup hd.nodup (List.nodup_range.filter _)).2 ?_
      intro j
      exact (hd.mem j).trans mem_ringIndices.symm
    have hcount : (cloud.filter fun q => geo.ringOf q = geo.ringOf p).length =
        (ringIndices geo.ringOf cloud r.1).length := by
      rw [hp2]
      exact (ringIndices_length geo.ringOf cloud r.1).symm
    rw [hcount, hperm.length_eq]

end Verif.Extraction
