/-
C110: the features do not depend on the order in which the points of a cloud are given.
-/
import Verif.Props.C19

set_option autoImplicit false

namespace Verif.Extraction

/-- Specification: no two points of the same ring lie in the same direction. -/
def DirectionsApart (cloud : List (PointXYZIR ℝ)) : Prop :=
  cloud.Pairwise fun a b => a.ring = b.ring → atan2 a ≠ atan2 b

section
variable {P K : Type}

theorem ringPoints_ringIndices (ringOf : P → ℤ) (cloud : List P) (r : ℤ) :
    ringPoints cloud (ringIndices ringOf cloud r) = cloud.filter fun q => ringOf q = r := by
  induction cloud using List.reverseRecOn with
  | nil => rfl
  | append_singleton pre p ih =>
    rw [ringIndices_snoc, ringPoints, List.filterMap_append, List.filter_append, ← ih]
    congr 1
    · refine List.filterMap_congr ?_
      intro i hi
      obtain ⟨q, h1, -⟩ := mem_ringIndices.1 hi
      exact List.getElem?_append_left (List.getElem?_eq_some_iff.1 h1).1
    · by_cases h : ringOf p = r <;> simp [h]

theorem IsDenseRing.perm {hp : HyperParameters K} {geo : Geometry P K} {cloud : List P} {r : ℤ}
    {idx : List ℕ} (h : IsDenseRing hp geo cloud r idx) :
    (ringPoints cloud idx).Perm (cloud.filter fun q => geo.ringOf q = r) := by
  rw [← ringPoints_ringIndices geo.ringOf cloud r]
  refine List.Perm.filterMap _ ?_
  exact (List.perm_ext_iff_of_nodup h.nodup (List.nodup_range.filter _)).2 fun j =>
    (h.mem j).trans mem_ringIndices.symm

theorem IsDenseRing.pairwise {hp : HyperParameters K} {geo : Geometry P K} {cloud : List P} {r : ℤ}
    {idx : List ℕ} (h : IsDenseRing hp geo cloud r idx) :
    (ringPoints cloud idx).Pairwise fun a b => geo.less b a = false := by
  rw [ringPoints, List.pairwise_filterMap]
  refine h.sorted.imp ?_
  intro i j hij a ha b hb
  exact hij a b ha hb

/-- Two rings with the same points, every two of which are told apart by the comparator, are sorted
in the same way. -/
theorem sorted_unique {less : P → P → Bool} {l l' : List P} (hp : l.Perm l')
    (hapart : l.Pairwise fun a b => less a b = true ∨ less b a = true)
    (h : l.Pairwise fun a b => less b a = false) (h' : l'.Pairwise fun a b => less b a = false) :
    l = l' := by
  have hapart' : l'.Pairwise fun a b => less a b = true ∨ less b a = true :=
    hp.pairwise hapart fun h => h.symm
  have hs : l.Pairwise fun a b => less a b = true ∧ less b a = false := by
    refine hapart.imp₂ ?_ h
    intro a b h1 h2
    exact ⟨h1.resolve_right (by simp [h2]), h2⟩
  have hs' : l'.Pairwise fun a b => less a b = true ∧ less b a = false := by
    refine hapart'.imp₂ ?_ h'
    intro a b h1 h2
    exact ⟨h1.resolve_right (by simp [h2]), h2⟩
  refine hp.eq_of_pairwise ?_ hs hs'
  intro a b _ _ h1 h2
  rw [h2.2] at h1
  cases h1.1

/-- Of pieces belonging to different rings, the filter by ring keeps the piece of that ring. -/
theorem filter_flatMap_piece {α β : Type} {ringOf : α → ℤ} {f : ℤ × β → List α} :
    ∀ {rings : List (ℤ × β)}, (rings.map Prod.fst).Nodup → (∀ ri ∈ rings, ∀ q ∈ f ri, ringOf q = ri.1) →
    ∀ {ri}, ri ∈ rings → (rings.flatMap f).filter (fun q => ringOf q = ri.1) = f ri := by
  intro rings
  induction rings with
  | nil => intro _ _ ri h; cases h
  | cons x rings ih =>
    intro hn hf ri hri
    rw [List.map_cons, List.nodup_cons] at hn
    rw [List.flatMap_cons, List.filter_append]
    have hf' : ∀ ri ∈ rings, ∀ q ∈ f ri, ringOf q = ri.1 :=
      fun ri h => hf ri (List.mem_cons_of_mem _ h)
    rcases List.mem_cons.1 hri with rfl | hri
    · have h1 : (f ri).filter (fun q => ringOf q = ri.1) = f ri := by
        rw [List.filter_eq_self]
        intro q hq
        simp [hf ri List.mem_cons_self q hq]
      have h2 : (rings.flatMap f).filter (fun q => ringOf q = ri.1) = [] := by
        rw [List.filter_eq_nil_iff]
        intro q hq
        obtain ⟨y, hy, hq⟩ := List.mem_flatMap.1 hq
        simp only [decide_eq_true_eq]
        rw [hf' y hy q hq]
        intro hc
        exact hn.1 (hc ▸ List.mem_map_of_mem hy)
      rw [h1, h2, List.append_nil]
    · have h1 : (f x).filter (fun q => ringOf q = ri.1) = [] := by
        rw [List.filter_eq_nil_iff]
        intro q hq
        simp only [decide_eq_true_eq]
        rw [hf x List.mem_cons_self q hq]
        intro hc
        exact hn.1 (hc ▸ List.mem_map_of_mem hri)
      rw [h1, List.nil_append, ih hn.2 hf' hri]

theorem filter_flatMap_none {α β : Type} {ringOf : α → ℤ} {f : ℤ × β → List α} {rings : List (ℤ × β)}
    (hf : ∀ ri ∈ rings, ∀ q ∈ f ri, ringOf q = ri.1) {r : ℤ} (hr : r ∉ rings.map Prod.fst) :
    (rings.flatMap f).filter (fun q => ringOf q = r) = [] := by
  rw [List.filter_eq_nil_iff]
  intro q hq
  obtain ⟨y, hy, hq⟩ := List.mem_flatMap.1 hq
  simp only [decide_eq_true_eq]
  rw [hf y hy q hq]
  intro hc
  exact hr (hc ▸ List.mem_map_of_mem hy)

/-- Two lists with the same elements of every ring have the same elements. -/
theorem perm_of_filters {α : Type} {ringOf : α → ℤ} {l l' : List α}
    (h : ∀ r, l.filter (fun q => ringOf q = r) = l'.filter (fun q => ringOf q = r)) : l.Perm l' := by
  classical
  rw [List.perm_iff_count]
  intro a
  have h1 : ∀ m : List α, (m.filter (fun q => ringOf q = ringOf a)).count a = m.count a := by
    intro m
    rw [List.count_filter (by simp)]
  rw [← h1 l, ← h1 l', h]

variable [Field K] [LinearOrder K]

theorem mem_ownContribution {plat : Platform K} {hp : HyperParameters K} {geo : Geometry P K}
    {pts : List P} :
    (∀ q ∈ (ownContribution plat hp geo pts).edge, q.1 ∈ pts) ∧
    (∀ q ∈ (ownContribution plat hp geo pts).surface, q.1 ∈ pts) ∧
    (∀ q ∈ (ownContribution plat hp geo pts).colored, q.1 ∈ pts) := by
  have hpts : ringPoints pts (List.range pts.length) = pts := by
    apply List.ext_getElem?
    intro k
    rw [(ringPoints_getElem? (fun i hi => List.mem_range.1 hi)).2]
    by_cases hk : k < pts.length
    · simp [hk]
    · rw [List.getElem?_eq_none (not_lt.1 hk), List.getElem?_eq_none (by simpa using hk)]; rfl
  simp only [ownContribution, contribution, hpts]
  cases ringLabels plat hp ⟨⟨pts, List.range pts.length⟩, geo.isNb⟩
      ⟨⟨pts, List.range pts.length⟩, geo.norm⟩ with
  | error e => simp
  | ok lc =>
    refine ⟨?_, ?_, ?_⟩
    · intro q hq
      obtain ⟨k, -, h, -⟩ := mem_select hq
      exact List.mem_of_getElem? h
    · intro q hq
      obtain ⟨k, -, h, -⟩ := mem_select hq
      exact List.mem_of_getElem? h
    · intro q hq
      simp only [colorPoints, List.mem_filterMap, Option.bind_eq_some_iff,
        Option.map_eq_some_iff] at hq
      obtain ⟨k, -, p, h, l, -, rfl⟩ := hq
      exact List.mem_of_getElem? h

/-- The general form, ring by ring, for any comparator that tells the points of the ring apart: what
is published of a ring depends on the points of this ring only. -/
theorem callback_ring_local [IsStrictOrderedRing K] {plat plat' : Platform K}
    (hrnd : plat.rnd = plat'.rnd) (harg : plat.argsort = plat'.argsort) {hp : HyperParameters K}
    {geo : Geometry P K} (hgeo : GeometryOK geo) (hv : hp.Valid) {cloud cloud' : List P}
    {r : ℤ}
    (hfil : (cloud.filter fun q => geo.ringOf q = r).Perm (cloud'.filter fun q => geo.ringOf q = r))
    (hapart : (cloud.filter fun q => geo.ringOf q = r).Pairwise fun a b =>
      geo.less a b = true ∨ geo.less b a = true)
    (hplat : PlatformOK plat hp.nBlocks cloud.length)
    (hplat' : PlatformOK plat' hp.nBlocks cloud'.length)
    {stamp : ℤ} {isDense ringAvailable : Bool} {eff eff' : CallbackEffect P}
    (h : callback plat hp geo stamp isDense ringAvailable cloud = .ok eff)
    (h' : callback plat' hp geo stamp isDense ringAvailable cloud' = .ok eff') :
    eff.edge.points.filter (fun q => geo.ringOf q = r) =
      eff'.edge.points.filter (fun q => geo.ringOf q = r) ∧
    eff.surface.points.filter (fun q => geo.ringOf q = r) =
      eff'.surface.points.filter (fun q => geo.ringOf q = r) ∧
    eff.colored.points.filter (fun q => geo.ringOf q.1 = r) =
      eff'.colored.points.filter (fun q => geo.ringOf q.1 = r) := by
  obtain ⟨rs, hk, hd, hc, he, hs, hcol⟩ :=
    callback_contributions plat hp geo hgeo hv cloud stamp isDense ringAvailable eff hplat h
  obtain ⟨rs', hk', hd', hc', he', hs', hcol'⟩ :=
    callback_contributions plat' hp geo hgeo hv cloud' stamp isDense ringAvailable eff' hplat' h'
  have hF : ownContribution plat' hp geo = ownContribution plat hp geo := by
    funext pts
    simp only [ownContribution, contribution, ringLabels, hrnd, harg]
  rw [hF] at he' hs' hcol'
  have hpos := hv.1
  -- membership of a ring is decided by the number of its points
  have hkey : ∀ {c : List P} {rings : Rings},
      (∀ r idx, (r, idx) ∈ rings → IsDenseRing hp geo c r idx) →
      (∀ p ∈ c, hp.padding < (c.filter fun q => geo.ringOf q = geo.ringOf p).length →
        geo.ringOf p ∈ rings.map Prod.fst) →
      (r ∈ rings.map Prod.fst ↔ hp.padding < (c.filter fun q => geo.ringOf q = r).length) := by
    intro c rings h1 h2
    constructor
    · intro hr
      obtain ⟨⟨r', idx⟩, hri, rfl⟩ := List.mem_map.1 hr
      have hd := h1 _ _ hri
      rw [← hd.perm.length_eq, (ringPoints_getElem? hd.bounds).1]
      exact hd.dense
    · intro hlen
      have hne : (c.filter fun q => geo.ringOf q = r) ≠ [] := by
        intro hc
        rw [hc] at hlen
        simp only [List.length_nil, Nat.cast_zero] at hlen
        omega
      obtain ⟨p, hp'⟩ := List.exists_mem_of_ne_nil _ hne
      rw [List.mem_filter] at hp'
      obtain ⟨hp1, hp2⟩ := hp'
      simp only [decide_eq_true_eq] at hp2
      have := h2 p hp1 (by rw [hp2]; exact hlen)
      rwa [hp2] at this
  have hmem : ∀ {c : List P} {rings : Rings},
      (∀ r idx, (r, idx) ∈ rings → IsDenseRing hp geo c r idx) → ∀ ri ∈ rings,
      ∀ p ∈ ringPoints c ri.2, geo.ringOf p = ri.1 := by
    intro c rings h1 ri hri p hp'
    have := ((h1 ri.1 ri.2 hri).perm.mem_iff).1 hp'
    simpa using (List.mem_filter.1 this).2
  have hdd : ∀ r idx, (r, idx) ∈ rs → IsDenseRing hp geo cloud r idx := fun r idx h => (hd r idx h).1
  have hdd' : ∀ r idx, (r, idx) ∈ rs' → IsDenseRing hp geo cloud' r idx :=
    fun r idx h => (hd' r idx h).1
  have main : ∀ {α : Type} (g : Clouds P K → List α) (ro : α → ℤ),
      (∀ pts : List P, ∀ q ∈ g (ownContribution plat hp geo pts), ∃ p ∈ pts, ro q = geo.ringOf p) →
      (rs.flatMap fun ri => g (ownContribution plat hp geo (ringPoints cloud ri.2))).filter
          (fun q => ro q = r) =
        (rs'.flatMap fun ri => g (ownContribution plat hp geo (ringPoints cloud' ri.2))).filter
          (fun q => ro q = r) := by
    intro α g ro hg
    have hpiece : ∀ ri ∈ rs, ∀ q ∈ g (ownContribution plat hp geo (ringPoints cloud ri.2)),
        ro q = ri.1 := by
      intro ri hri q hq
      obtain ⟨p, hp1, hp2⟩ := hg _ q hq
      rw [hp2]
      exact hmem hdd ri hri p hp1
    have hpiece' : ∀ ri ∈ rs', ∀ q ∈ g (ownContribution plat hp geo (ringPoints cloud' ri.2)),
        ro q = ri.1 := by
      intro ri hri q hq
      obtain ⟨p, hp1, hp2⟩ := hg _ q hq
      rw [hp2]
      exact hmem hdd' ri hri p hp1
    by_cases hr : r ∈ rs.map Prod.fst
    · have hr' : r ∈ rs'.map Prod.fst := by
        rw [hkey hdd' hc', ← hfil.length_eq]
        exact (hkey hdd hc).1 hr
      obtain ⟨⟨r1, idx⟩, h1, e1⟩ := List.mem_map.1 hr
      obtain ⟨⟨r2, idx'⟩, h2, e2⟩ := List.mem_map.1 hr'
      simp only at e1 e2
      subst e1
      subst e2
      have f1 := filter_flatMap_piece (f := fun ri : ℤ × List ℕ =>
        g (ownContribution plat hp geo (ringPoints cloud ri.2))) hk hpiece h1
      have f2 := filter_flatMap_piece (f := fun ri : ℤ × List ℕ =>
        g (ownContribution plat hp geo (ringPoints cloud' ri.2))) hk' hpiece' h2
      simp only at f1 f2
      rw [f1, f2]
      have hsame : ringPoints cloud idx = ringPoints cloud' idx' := by
        refine sorted_unique (((hdd _ _ h1).perm.trans hfil).trans (hdd' _ _ h2).perm.symm) ?_
          (hdd _ _ h1).pairwise (hdd' _ _ h2).pairwise
        exact (hdd _ _ h1).perm.symm.pairwise hapart fun h => h.symm
      rw [hsame]
    · have hr' : r ∉ rs'.map Prod.fst := by
        rw [hkey hdd' hc', ← hfil.length_eq]
        exact fun hc0 => hr ((hkey hdd hc).2 hc0)
      rw [filter_flatMap_none hpiece hr, filter_flatMap_none hpiece' hr']
  refine ⟨?_, ?_, ?_⟩
  · rw [he, he']
    refine main (fun c => c.edge.map Prod.fst) geo.ringOf ?_
    intro pts q hq
    obtain ⟨x, hx, rfl⟩ := List.mem_map.1 hq
    exact ⟨x.1, mem_ownContribution.1 x hx, rfl⟩
  · rw [hs, hs']
    refine main (fun c => c.surface.map Prod.fst) geo.ringOf ?_
    intro pts q hq
    obtain ⟨x, hx, rfl⟩ := List.mem_map.1 hq
    exact ⟨x.1, mem_ownContribution.2.1 x hx, rfl⟩
  · rw [hcol, hcol']
    refine main (fun c => c.colored) (fun q => geo.ringOf q.1) ?_
    intro pts q hq
    exact ⟨q.1, mem_ownContribution.2.2 q hq, rfl⟩

end

/-- C110: let the points of a cloud be given in two orders, and let no two points of one ring lie in
the same direction. Then both callbacks return, and for each ring they publish the same edge points,
surface points and coloured points in the same order, whatever `std::sort` and the hash map do in
either run (as long as ties between equal curvatures are broken alike). In particular the published
clouds hold the same points. -/
theorem C110_order_of_points {plat plat' : Platform ℝ} (hrnd : plat.rnd = plat'.rnd)
    (harg : plat.argsort = plat'.argsort) {hp : HyperParameters ℝ} (hv : hp.Valid)
    (degreeThreshold : ℝ) {cloud cloud' : List (PointXYZIR ℝ)} (hperm : cloud.Perm cloud')
    (hapart : DirectionsApart cloud) (hplat : PlatformOK plat hp.nBlocks cloud.length)
    (hplat' : PlatformOK plat' hp.nBlocks cloud'.length) (stamp : ℤ)
    (isDense ringAvailable : Bool) :
    ∃ eff eff' : CallbackEffect (PointXYZIR ℝ),
      callback plat hp (nodeGeometry degreeThreshold) stamp isDense ringAvailable cloud = .ok eff ∧
      callback plat' hp (nodeGeometry degreeThreshold) stamp isDense ringAvailable cloud' =
        .ok eff' ∧
      (∀ r : ℤ,
        eff.edge.points.filter (fun q => q.ring = r) =
          eff'.edge.points.filter (fun q => q.ring = r) ∧
        eff.surface.points.filter (fun q => q.ring = r) =
          eff'.surface.points.filter (fun q => q.ring = r) ∧
        eff.colored.points.filter (fun q => q.1.ring = r) =
          eff'.colored.points.filter (fun q => q.1.ring = r)) ∧
      eff.edge.points.Perm eff'.edge.points ∧ eff.surface.points.Perm eff'.surface.points ∧
      eff.colored.points.Perm eff'.colored.points := by
  have haxis : ∀ {c : List (PointXYZIR ℝ)}, DirectionsApart c → ∀ a ∈ c, ∀ b ∈ c,
      a.ring = b.ring → ¬ SamePositiveAxis a b := by
    intro c hc
    have hsymm : Std.Symm fun a b : PointXYZIR ℝ => a.ring = b.ring → ¬ SamePositiveAxis a b :=
      ⟨fun a b h e hs => h e.symm ⟨hs.2.1, hs.1, hs.2.2.2.1, hs.2.2.1, hs.2.2.2.2.symm⟩⟩
    have hp : c.Pairwise fun a b => a.ring = b.ring → ¬ SamePositiveAxis a b := by
      refine hc.imp ?_
      intro a b h e hs
      refine h e ?_
      rw [atan2, atan2, Complex.arg_eq_zero_iff.2 ⟨hs.2.2.1.le, hs.1⟩,
        Complex.arg_eq_zero_iff.2 ⟨hs.2.2.2.1.le, hs.2.1⟩]
    intro a ha b hb
    exact hp.forall_of_forall (fun x _ _ hs => hs.2.2.2.2 rfl) ha hb
  have hapart' : DirectionsApart cloud' :=
    hperm.pairwise hapart fun h e hc => h e.symm hc.symm
  obtain ⟨eff, h, -⟩ := C19_callback_returns_partial degreeThreshold hv hplat (haxis hapart) stamp
    isDense ringAvailable
  obtain ⟨eff', h', -⟩ := C19_callback_returns_partial degreeThreshold hv hplat' (haxis hapart')
    stamp isDense ringAvailable
  have hless : ∀ r, (cloud.filter fun q => q.ring = r).Pairwise fun a b =>
      lessAngle a b = true ∨ lessAngle b a = true := by
    intro r
    refine List.Pairwise.imp_of_mem ?_ (hapart.sublist List.filter_sublist)
    intro a b ha hb hab
    have e : a.ring = b.ring := by
      have ea := (List.mem_filter.1 ha).2
      have eb := (List.mem_filter.1 hb).2
      simp only [decide_eq_true_eq] at ea eb
      exact ea.trans eb.symm
    replace ha := (List.mem_filter.1 ha).1
    replace hb := (List.mem_filter.1 hb).1
    have h1 := haxis hapart a ha b hb e
    have h2 := haxis hapart b hb a ha e.symm
    rw [C21_comparator_partial a b h1, C21_comparator_partial b a h2]
    exact lt_or_gt_of_ne (hab e)
  have hrings := fun r => callback_ring_local hrnd harg (nodeGeometry_ok degreeThreshold) hv
    (hperm.filter _) (hless r) hplat hplat' h h'
  exact ⟨eff, eff', h, h', hrings, perm_of_filters fun r => (hrings r).1,
    perm_of_filters fun r => (hrings r).2.1,
    perm_of_filters (ringOf := fun q => q.1.ring) fun r => (hrings r).2.2⟩

/-! Non-vacuity: over the rationals, with the geometry of C19, the points of the cloud of C19 in
another order give the same features. The directions must differ: with two points of a ring in
the same direction, `std::sort` may leave them as they came, and the features change. -/

example : (callback exPlat19 exHp19 exGeo19 42 true true exCloud19.reverse).map
    (fun e => (e.edge.points, e.surface.points)) =
    .ok ([⟨0, 9, 0, 1⟩], [⟨3, 7, 0, 1⟩, ⟨-2, 8, 0, 1⟩]) := by decide +kernel

/-- A ring with two points in the same direction, one of them far away. -/
def exCloud110 : List (PointXYZIR ℚ) :=
  [⟨4, 6, 0, 1⟩, ⟨2, 8, 0, 1⟩, ⟨3, 7, 0, 1⟩, ⟨1, 9, 0, 1⟩, ⟨0, 9, 0, 1⟩, ⟨0, 10, 0, 1⟩,
    ⟨-1, 9, 0, 1⟩, ⟨-2, 8, 0, 1⟩, ⟨-3, 7, 0, 1⟩, ⟨-4, 6, 0, 1⟩]

example : (callback exPlat19 exHp19 exGeo19 42 true true exCloud110).map
      (fun e => (e.edge.points, e.surface.points)) ≠
    (callback exPlat19 exHp19 exGeo19 42 true true exCloud110.reverse).map
      (fun e => (e.edge.points, e.surface.points)) := by decide +kernel

/-- The hypothesis on directions can be met. -/
example : DirectionsApart [(⟨1, 0, 5, 7⟩ : PointXYZIR ℝ), ⟨-1, 0, 5, 7⟩, ⟨2, 0, 0, 8⟩] := by
  have h1 : atan2 ⟨1, 0, 5, 7⟩ = 0 := by
    rw [atan2, Complex.arg_eq_zero_iff]; norm_num
  have h2 : atan2 ⟨-1, 0, 5, 7⟩ = Real.pi := by
    rw [atan2, Complex.arg_eq_pi_iff]; norm_num
  simp [DirectionsApart, h1, h2, Real.pi_ne_zero.symm]

end Verif.Extraction
