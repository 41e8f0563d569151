/-
The contribution of one ring, and of all rings.
-/
import Verif.Lemmas.RingLabels
import Verif.Props.C20

set_option autoImplicit false

namespace Verif.Extraction

section Lists
variable {α β : Type}

theorem mapM_filterMap {f : α → Res β} {g : α → Option β} : ∀ {l : List α},
    (∀ x ∈ l, ∃ y, f x = .ok y ∧ g x = some y) → l.mapM f = .ok (l.filterMap g)
  | [], _ => rfl
  | x :: l, h => by
    obtain ⟨y, h1, h2⟩ := h x List.mem_cons_self
    rw [List.mapM_cons, h1, mapM_filterMap (fun z hz => h z (List.mem_cons_of_mem _ hz)),
      List.filterMap_cons, h2]
    rfl

theorem zip_filterMap {γ : Type} {f : α → Option β} {g : α → Option γ} : ∀ {l : List α},
    (∀ x ∈ l, (f x).isSome ∧ (g x).isSome) →
    (l.filterMap f).length = (l.filterMap g).length ∧
    (l.filterMap f).zip (l.filterMap g) =
      l.filterMap (fun x => (f x).bind fun y => (g x).map fun z => (y, z))
  | [], _ => by simp
  | x :: l, h => by
    obtain ⟨h1, h2⟩ := h x List.mem_cons_self
    obtain ⟨y, hy⟩ := Option.isSome_iff_exists.1 h1
    obtain ⟨z, hz⟩ := Option.isSome_iff_exists.1 h2
    obtain ⟨h3, h4⟩ := zip_filterMap (fun w hw => h w (List.mem_cons_of_mem _ hw))
    simp only [List.filterMap_cons, hy, hz, List.length_cons, h3, List.zip_cons_cons, h4,
      Option.bind_some, Option.map_some, and_self]

end Lists

variable {P K : Type} [Field K] [LinearOrder K]

/-- The feature points of a ring with the given label. -/
def selectPoints (pts : List P) (lc : List PointLabel × List K) (L : PointLabel) : List (P × K) :=
  (getIndicesByValue lc.1 L).filterMap fun k => (pts[k]?).bind fun p => (lc.2[k]?).map fun c => (p, c)

/-- The coloured points of a ring. -/
def colorPoints (pts : List P) (labels : List PointLabel) : List (P × RGB) :=
  (List.range labels.length).filterMap fun k =>
    (pts[k]?).bind fun p => (labels[k]?).map fun l => (p, labelToColor l)

/-- What one ring adds to the clouds: nothing if it is skipped. -/
def contribution (plat : Platform K) (hp : HyperParameters K) (geo : Geometry P K)
    (cloud : List P) (indices : List ℕ) : Clouds P K :=
  match ringLabels plat hp ⟨⟨cloud, indices⟩, geo.isNb⟩ ⟨⟨cloud, indices⟩, geo.norm⟩ with
  | .ok lc => ⟨selectPoints (ringPoints cloud indices) lc .edge,
      selectPoints (ringPoints cloud indices) lc .surface, colorPoints (ringPoints cloud indices) lc.1⟩
  | .error _ => ⟨[], [], []⟩

theorem mem_getIndicesByValue {labels : List PointLabel} {L : PointLabel} {k : ℕ} :
    k ∈ getIndicesByValue labels L ↔ labels[k]? = some L := by
  simp only [getIndicesByValue, List.mem_filter, List.mem_range, decide_eq_true_eq]
  exact ⟨fun h => h.2, fun h => ⟨(List.getElem?_eq_some_iff.1 h).1, h⟩⟩

omit [Field K] [LinearOrder K] in
theorem select_ok {cloud : List P} {indices : List ℕ} (hin : ∀ i ∈ indices, i < cloud.length)
    {lc : List PointLabel × List K} (h1 : lc.1.length = indices.length)
    (h2 : lc.2.length = indices.length) (L : PointLabel) :
    ∃ ps cs, getByIndices (getIndicesByValue lc.1 L) (MappedPoints.at ⟨cloud, indices⟩) = .ok ps ∧
      getByIndices (getIndicesByValue lc.1 L) (atI lc.2) = .ok cs ∧ ps.length = cs.length ∧
      ps.zip cs = selectPoints (ringPoints cloud indices) lc L := by
  have hl := (ringPoints_getElem? hin).1
  have hk : ∀ k ∈ getIndicesByValue lc.1 L, k < indices.length := by
    intro k hk
    rw [mem_getIndicesByValue] at hk
    rw [← h1]; exact (List.getElem?_eq_some_iff.1 hk).1
  have hz := zip_filterMap (f := fun k => (ringPoints cloud indices)[k]?) (g := fun k => lc.2[k]?)
    (l := getIndicesByValue lc.1 L) (by
      intro k hk'
      have := hk k hk'
      constructor
      · rw [Option.isSome_iff_exists]
        exact ⟨_, List.getElem?_eq_getElem (by omega)⟩
      · rw [Option.isSome_iff_exists]
        exact ⟨_, List.getElem?_eq_getElem (by omega)⟩)
  refine ⟨_, _, mapM_filterMap (g := fun k => (ringPoints cloud indices)[k]?) ?_,
    mapM_filterMap (g := fun k => lc.2[k]?) ?_, hz.1, hz.2⟩
  · intro k hk'
    exact ⟨_, ref_at hin (hk k hk'), List.getElem?_eq_getElem _⟩
  · intro k hk'
    have := hk k hk'
    exact ⟨_, atI_ok (by omega : k < lc.2.length), List.getElem?_eq_getElem _⟩

theorem ringBody_ok {plat : Platform K} {hp : HyperParameters K} {geo : Geometry P K}
    {cloud : List P} {indices : List ℕ} (hin : ∀ i ∈ indices, i < cloud.length)
    {lc : List PointLabel × List K} (h1 : lc.1.length = indices.length)
    (h2 : lc.2.length = indices.length)
    (h : ringLabels plat hp ⟨⟨cloud, indices⟩, geo.isNb⟩ ⟨⟨cloud, indices⟩, geo.norm⟩ = .ok lc)
    (out : Clouds P K) :
    ringBody plat hp ⟨⟨cloud, indices⟩, geo.isNb⟩ ⟨⟨cloud, indices⟩, geo.norm⟩ out =
      .ok ⟨out.edge ++ selectPoints (ringPoints cloud indices) lc .edge,
        out.surface ++ selectPoints (ringPoints cloud indices) lc .surface,
        out.colored ++ colorPoints (ringPoints cloud indices) lc.1⟩ := by
  obtain ⟨pe, ce, e1, e2, e3, e4⟩ := select_ok hin h1 h2 .edge
  obtain ⟨ps, cs, s1, s2, s3, s4⟩ := select_ok hin h1 h2 .surface
  have hl := (ringPoints_getElem? hin).1
  have hcol : colorPointsByLabel (⟨cloud, indices⟩ : MappedPoints P) lc.1 =
      .ok (colorPoints (ringPoints cloud indices) lc.1) := by
    simp only [colorPointsByLabel]
    rw [if_neg (by simp [MappedPoints.size, h1])]
    refine mapM_filterMap ?_
    intro k hk
    rw [List.mem_range] at hk
    rw [ref_at hin (by omega), atI_ok hk]
    refine ⟨_, rfl, ?_⟩
    rw [List.getElem?_eq_getElem (by omega), List.getElem?_eq_getElem hk]
    rfl
  obtain ⟨labels, curvature⟩ := lc
  simp only [ringBody, h, bind, Except.bind, e1, e2, s1, s2, appendXYZIR, e3, s3, ne_eq,
    not_true_eq_false, if_false, hcol, pure, Except.pure, e4, s4]

/-- One iteration of the ring loop appends the contribution of the ring. -/
theorem processRing_eq [IsStrictOrderedRing K] {plat : Platform K} {hp : HyperParameters K}
    {geo : Geometry P K} {cloud : List P} {ring : ℤ × List ℕ} (hgeo : GeometryOK geo)
    (hv : hp.Valid) (harg : IsArgsort plat.argsort)
    (harith : ArithOK plat.rnd ring.2.length hp.nBlocks)
    (hin : ∀ i ∈ ring.2, i < cloud.length) (h64 : ring.2.length < 2 ^ 64)
    (hsize : hp.padding + 1 ≤ ring.2.length) (out : Clouds P K) :
    processRing plat hp geo cloud out ring =
      .ok ⟨out.edge ++ (contribution plat hp geo cloud ring.2).edge,
        out.surface ++ (contribution plat hp geo cloud ring.2).surface,
        out.colored ++ (contribution plat hp geo cloud ring.2).colored⟩ := by
  have hspec := ringLabels_spec hgeo hv harg harith hin h64
  have hmake : NeighborCheckXY.make ⟨cloud, ring.2⟩ geo.isNb =
      .ok ⟨⟨cloud, ring.2⟩, geo.isNb⟩ := by
    have := hv.1
    simp only [NeighborCheckXY.make]
    rw [if_neg]
    simp only [MappedPoints.size]
    omega
  simp only [processRing, hmake, bind, Except.bind, contribution]
  cases hl : ringLabels plat hp ⟨⟨cloud, ring.2⟩, geo.isNb⟩ ⟨⟨cloud, ring.2⟩, geo.norm⟩ with
  | error e =>
    rw [hl] at hspec
    change e = _ at hspec
    subst hspec
    have : ringBody plat hp ⟨⟨cloud, ring.2⟩, geo.isNb⟩ ⟨⟨cloud, ring.2⟩, geo.norm⟩ out =
        .error .invalidArgument := by
      simp only [ringBody, hl, bind, Except.bind]
    simp only [this, List.append_nil]
  | ok lc =>
    rw [hl] at hspec
    obtain ⟨h1, h2, -⟩ := hspec
    simp only [ringBody_ok hin h1 h2 hl out]

/-- The ring loop appends the contributions of all rings. -/
theorem ringLoop_eq [IsStrictOrderedRing K] {plat : Platform K} {hp : HyperParameters K}
    {geo : Geometry P K} {cloud : List P} (hgeo : GeometryOK geo)
    (hv : hp.Valid) (harg : IsArgsort plat.argsort) : ∀ {rings : Rings} (out : Clouds P K),
    (∀ ring ∈ rings, ArithOK plat.rnd ring.2.length hp.nBlocks ∧
      (∀ i ∈ ring.2, i < cloud.length) ∧ ring.2.length < 2 ^ 64 ∧
      hp.padding + 1 ≤ ring.2.length) →
    rings.foldlM (processRing plat hp geo cloud) out =
      .ok ⟨out.edge ++ rings.flatMap (fun r => (contribution plat hp geo cloud r.2).edge),
        out.surface ++ rings.flatMap (fun r => (contribution plat hp geo cloud r.2).surface),
        out.colored ++ rings.flatMap (fun r => (contribution plat hp geo cloud r.2).colored)⟩
  | [], out, _ => by simp [pure, Except.pure]
  | ring :: rings, out, h => by
    obtain ⟨h1, h2, h3, h4⟩ := h ring List.mem_cons_self
    rw [List.foldlM_cons, processRing_eq hgeo hv harg h1 h2 h3 h4]
    simp only [bind, Except.bind]
    rw [ringLoop_eq hgeo hv harg _ (fun r hr => h r (List.mem_cons_of_mem _ hr))]
    simp [List.flatMap_cons, List.append_assoc]

/-- What the theorems assume of the platform, for a cloud of `n` points. -/
structure PlatformOK (plat : Platform K) (nBlocks : ℤ) (n : ℕ) : Prop where
  argsort : IsArgsort plat.argsort
  sort : IsSort plat.sort
  order : ∀ rings, (plat.order rings).Perm rings
  arith : ArithOK plat.rnd n nBlocks
  size : n < 2 ^ 64

omit [Field K] [LinearOrder K] in
theorem nodup_length_le {cloud : List P} {idx : List ℕ} (h : idx.Nodup)
    (hin : ∀ i ∈ idx, i < cloud.length) : idx.length ≤ cloud.length := by
  have := (List.subperm_of_subset h (fun i hi => List.mem_range.2 (hin i hi) :
    idx ⊆ List.range cloud.length)).length_le
  simpa using this

/-- The clouds of a callback that returns. -/
theorem extractClouds_eq [IsStrictOrderedRing K] {plat : Platform K} {hp : HyperParameters K}
    {geo : Geometry P K} {cloud : List P} (hgeo : GeometryOK geo) (hv : hp.Valid)
    (hplat : PlatformOK plat hp.nBlocks cloud.length) {rings : Rings}
    (h : extractAngleSortedRings plat.sort geo.less geo.ringOf cloud = .ok rings) :
    extractClouds plat hp geo cloud = .ok
      ⟨(plat.order (removeSparseRings rings (hp.padding + 1))).flatMap
          (fun r => (contribution plat hp geo cloud r.2).edge),
        (plat.order (removeSparseRings rings (hp.padding + 1))).flatMap
          (fun r => (contribution plat hp geo cloud r.2).surface),
        (plat.order (removeSparseRings rings (hp.padding + 1))).flatMap
          (fun r => (contribution plat hp geo cloud r.2).colored)⟩ := by
  obtain ⟨hpart, -⟩ := C20_rings_sorted hplat.sort geo.less geo.ringOf cloud rings h
  simp only [extractClouds, h, bind, Except.bind]
  rw [ringLoop_eq hgeo hv hplat.argsort]
  · simp
  · intro ring hring
    rw [(hplat.order _).mem_iff] at hring
    obtain ⟨h1, h2⟩ := ((C20_remove_sparse rings (hp.padding + 1)).2 ring.1 ring.2).1 hring
    have hin : ∀ i ∈ ring.2, i < cloud.length := by
      intro i hi
      obtain ⟨p, hp, -⟩ := (hpart.mem ring.1 ring.2 h1 i).1 hi
      exact (List.getElem?_eq_some_iff.1 hp).1
    have hle := nodup_length_le (hpart.nodup ring.1 ring.2 h1) hin
    have := hplat.size
    exact ⟨hplat.arith.mono hv.2.2.2.2.2.2.2.le (by omega), hin, by omega, h2⟩

theorem callback_clouds {plat : Platform K} {hp : HyperParameters K} {geo : Geometry P K}
    {stamp : ℤ} {d ra : Bool} {cloud : List P} {eff : CallbackEffect P}
    (h : callback plat hp geo stamp d ra cloud = .ok eff) :
    ∃ rings out, extractAngleSortedRings plat.sort geo.less geo.ringOf cloud = .ok rings ∧
      extractClouds plat hp geo cloud = .ok out ∧
      eff.edge.points = out.edge.map Prod.fst ∧ eff.surface.points = out.surface.map Prod.fst ∧
      eff.colored.points = out.colored := by
  simp only [callback, bind, Except.bind] at h
  cases h1 : extractClouds plat hp geo cloud with
  | error e => rw [h1] at h; cases h
  | ok out =>
    rw [h1] at h
    simp only [pure, Except.pure] at h
    injection h with h
    subst h
    have h1' := h1
    simp only [extractClouds, bind, Except.bind] at h1'
    cases h2 : extractAngleSortedRings plat.sort geo.less geo.ringOf cloud with
    | error e => rw [h2] at h1'; cases h1'
    | ok rings => exact ⟨rings, out, rfl, rfl, rfl, rfl, rfl⟩

end Verif.Extraction
