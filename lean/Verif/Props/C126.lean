/-
C126: what is extracted from a ring does not depend on the other rings.
-/
import Verif.Props.C110

set_option autoImplicit false

namespace Verif.Extraction

section
variable {P K : Type} [Field K] [LinearOrder K]

/-- Every published point is a point of the cloud. -/
theorem callback_mem [IsStrictOrderedRing K] {plat : Platform K} {hp : HyperParameters K}
    {geo : Geometry P K} (hgeo : GeometryOK geo) (hv : hp.Valid) {cloud : List P}
    (hplat : PlatformOK plat hp.nBlocks cloud.length) {stamp : ℤ} {isDense ringAvailable : Bool}
    {eff : CallbackEffect P}
    (h : callback plat hp geo stamp isDense ringAvailable cloud = .ok eff) :
    (∀ q ∈ eff.edge.points, q ∈ cloud) ∧ (∀ q ∈ eff.surface.points, q ∈ cloud) ∧
      ∀ q ∈ eff.colored.points, q.1 ∈ cloud := by
  obtain ⟨rs, hk, hd, hc, he, hs, hcol⟩ :=
    callback_contributions plat hp geo hgeo hv cloud stamp isDense ringAvailable eff hplat h
  have hsub : ∀ (idx : List ℕ), ∀ p ∈ ringPoints cloud idx, p ∈ cloud := by
    intro idx p hp'
    obtain ⟨i, -, hi⟩ := List.mem_filterMap.1 hp'
    exact List.mem_of_getElem? hi
  rw [he, hs, hcol]
  refine ⟨?_, ?_, ?_⟩
  · intro q hq
    obtain ⟨ri, -, hq⟩ := List.mem_flatMap.1 hq
    obtain ⟨x, hx, rfl⟩ := List.mem_map.1 hq
    exact hsub _ _ (mem_ownContribution.1 x hx)
  · intro q hq
    obtain ⟨ri, -, hq⟩ := List.mem_flatMap.1 hq
    obtain ⟨x, hx, rfl⟩ := List.mem_map.1 hq
    exact hsub _ _ (mem_ownContribution.2.1 x hx)
  · intro q hq
    obtain ⟨ri, -, hq⟩ := List.mem_flatMap.1 hq
    exact hsub _ _ (mem_ownContribution.2.2 q hq)

omit [Field K] in
theorem PlatformOK.mono {plat : Platform K} {nBlocks : ℤ} {n m : ℕ} (h : PlatformOK plat nBlocks n)
    (hn : 0 ≤ nBlocks) (hle : m ≤ n) : PlatformOK plat nBlocks m :=
  ⟨h.argsort, h.sort, h.order, h.arith.mono hn (by exact_mod_cast hle), lt_of_le_of_lt hle h.size⟩

end

/-- Specification: no two points of one ring lie at different places of the positive x half-axis. -/
def AxisClear (cloud : List (PointXYZIR ℝ)) : Prop :=
  ∀ a ∈ cloud, ∀ b ∈ cloud, a.ring = b.ring → ¬ SamePositiveAxis a b

theorem DirectionsApart.axisClear {c : List (PointXYZIR ℝ)} (hc : DirectionsApart c) : AxisClear c := by
  have hsymm : Std.Symm fun a b : PointXYZIR ℝ => a.ring = b.ring → ¬ SamePositiveAxis a b :=
    ⟨fun a b h e hs => h e.symm ⟨hs.2.1, hs.1, hs.2.2.2.1, hs.2.2.1, hs.2.2.2.2.symm⟩⟩
  have hp : c.Pairwise fun a b => a.ring = b.ring → ¬ SamePositiveAxis a b := by
    refine hc.imp ?_
    intro a b h e hs
    refine h e ?_
    rw [atan2, atan2, Complex.arg_eq_zero_iff.2 ⟨hs.2.2.1.le, hs.1⟩,
      Complex.arg_eq_zero_iff.2 ⟨hs.2.2.2.1.le, hs.2.1⟩]
  intro a ha b hb
  exact hp.forall_of_forall (fun x _ _ hs => hs.2.2.2.2 rfl) ha hb

/-- What a callback publishes of a ring. -/
def CallbackEffect.ofRing (eff : CallbackEffect (PointXYZIR ℝ)) (r : ℤ) :
    List (PointXYZIR ℝ) × List (PointXYZIR ℝ) × List (PointXYZIR ℝ × RGB) :=
  (eff.edge.points.filter fun q => q.ring = r, eff.surface.points.filter fun q => q.ring = r,
    eff.colored.points.filter fun q => q.1.ring = r)

/-- C126: two clouds have the same points in ring `r`, in any order, all in different directions.
Whatever the points of the other rings are (as long as the sort is defined on them), both callbacks
return and publish the same of ring `r`, in the same order. -/
theorem C126_ring_local {plat plat' : Platform ℝ} (hrnd : plat.rnd = plat'.rnd)
    (harg : plat.argsort = plat'.argsort) {hp : HyperParameters ℝ} (hv : hp.Valid)
    (degreeThreshold : ℝ) {cloud cloud' : List (PointXYZIR ℝ)} {r : ℤ}
    (hperm : (cloud.filter fun q => q.ring = r).Perm (cloud'.filter fun q => q.ring = r))
    (hapart : (cloud.filter fun q => q.ring = r).Pairwise fun a b => atan2 a ≠ atan2 b)
    (haxis : AxisClear cloud) (haxis' : AxisClear cloud')
    (hplat : PlatformOK plat hp.nBlocks cloud.length)
    (hplat' : PlatformOK plat' hp.nBlocks cloud'.length) (stamp : ℤ)
    (isDense ringAvailable : Bool) :
    ∃ eff eff' : CallbackEffect (PointXYZIR ℝ),
      callback plat hp (nodeGeometry degreeThreshold) stamp isDense ringAvailable cloud = .ok eff ∧
      callback plat' hp (nodeGeometry degreeThreshold) stamp isDense ringAvailable cloud' =
        .ok eff' ∧
      eff.ofRing r = eff'.ofRing r := by
  obtain ⟨eff, h, -⟩ := C19_callback_returns_partial degreeThreshold hv hplat haxis stamp
    isDense ringAvailable
  obtain ⟨eff', h', -⟩ := C19_callback_returns_partial degreeThreshold hv hplat' haxis' stamp
    isDense ringAvailable
  have hless : (cloud.filter fun q => q.ring = r).Pairwise fun a b =>
      lessAngle a b = true ∨ lessAngle b a = true := by
    refine List.Pairwise.imp_of_mem ?_ hapart
    intro a b ha hb hab
    have e : a.ring = b.ring := by
      have ea := (List.mem_filter.1 ha).2
      have eb := (List.mem_filter.1 hb).2
      simp only [decide_eq_true_eq] at ea eb
      exact ea.trans eb.symm
    replace ha := (List.mem_filter.1 ha).1
    replace hb := (List.mem_filter.1 hb).1
    rw [C21_comparator_partial a b (haxis a ha b hb e), C21_comparator_partial b a (haxis b hb a ha e.symm)]
    exact lt_or_gt_of_ne hab
  obtain ⟨h1, h2, h3⟩ := callback_ring_local hrnd harg (nodeGeometry_ok degreeThreshold) hv hperm hless
    hplat hplat' h h'
  exact ⟨eff, eff', h, h', Prod.ext h1 (Prod.ext h2 h3)⟩

theorem filter_eq_self_of {α : Type} {l : List α} {c : List (PointXYZIR ℝ)} {g : α → PointXYZIR ℝ} {r : ℤ}
    (hc : ∀ q ∈ c, q.ring = r) (h : ∀ q ∈ l, g q ∈ c) : l.filter (fun q => (g q).ring = r) = l := by
  rw [List.filter_eq_self]
  intro q hq
  simp [hc _ (h q hq)]

theorem filter_eq_nil_of {α : Type} {l : List α} {c : List (PointXYZIR ℝ)} {g : α → PointXYZIR ℝ} {r : ℤ}
    (hc : ∀ q ∈ c, q.ring ≠ r) (h : ∀ q ∈ l, g q ∈ c) : l.filter (fun q => (g q).ring = r) = [] := by
  rw [List.filter_eq_nil_iff]
  intro q hq
  simp [hc _ (h q hq)]

theorem filter_points_nil {l c : List (PointXYZIR ℝ)} {r : ℤ} (hc : ∀ q ∈ c, q.ring ≠ r)
    (h : ∀ q ∈ l, q ∈ c) : l.filter (fun q => q.ring = r) = [] := filter_eq_nil_of (g := id) hc h

theorem filter_colored_nil {l : List (PointXYZIR ℝ × RGB)} {c : List (PointXYZIR ℝ)} {r : ℤ}
    (hc : ∀ q ∈ c, q.ring ≠ r) (h : ∀ q ∈ l, q.1 ∈ c) : l.filter (fun q => q.1.ring = r) = [] :=
  filter_eq_nil_of (g := Prod.fst) hc h

/-- C126: what is published of a ring is what would be published if the cloud consisted of this ring
alone. -/
theorem C126_one_ring {plat : Platform ℝ} {hp : HyperParameters ℝ} (hv : hp.Valid)
    (degreeThreshold : ℝ) {cloud : List (PointXYZIR ℝ)} (hapart : DirectionsApart cloud)
    (hplat : PlatformOK plat hp.nBlocks cloud.length) (stamp : ℤ) (isDense ringAvailable : Bool)
    (r : ℤ) :
    ∃ eff alone : CallbackEffect (PointXYZIR ℝ),
      callback plat hp (nodeGeometry degreeThreshold) stamp isDense ringAvailable cloud = .ok eff ∧
      callback plat hp (nodeGeometry degreeThreshold) stamp isDense ringAvailable
        (cloud.filter fun q => q.ring = r) = .ok alone ∧
      eff.ofRing r = (alone.edge.points, alone.surface.points, alone.colored.points) := by
  have hsub : (cloud.filter fun q => q.ring = r).Sublist cloud := List.filter_sublist
  have hplat' := hplat.mono hv.2.2.2.2.2.2.2.le hsub.length_le
  have hring : ∀ q ∈ cloud.filter fun q => q.ring = r, q.ring = r := by
    intro q hq
    simpa using (List.mem_filter.1 hq).2
  obtain ⟨eff, alone, h, h', he⟩ := C126_ring_local (cloud' := cloud.filter fun q => q.ring = r) (r := r)
    rfl rfl hv degreeThreshold (by rw [List.filter_filter]; simp)
    (List.Pairwise.imp_of_mem (fun ha hb h => h ((hring _ ha).trans (hring _ hb).symm))
      (hapart.sublist hsub)) hapart.axisClear
    (fun a ha b hb => hapart.axisClear a (hsub.subset ha) b (hsub.subset hb)) hplat hplat' stamp
    isDense ringAvailable
  refine ⟨eff, alone, h, h', he.trans ?_⟩
  obtain ⟨h1, h2, h3⟩ := callback_mem (nodeGeometry_ok degreeThreshold) hv hplat' h'
  exact Prod.ext (filter_eq_self_of (g := id) hring h1)
    (Prod.ext (filter_eq_self_of (g := id) hring h2) (filter_eq_self_of (g := Prod.fst) hring h3))

/-- C126: the features of two clouds without a common ring, say of two sensors, are those of the
joint cloud. -/
theorem C126_union {plat : Platform ℝ} {hp : HyperParameters ℝ} (hv : hp.Valid)
    (degreeThreshold : ℝ) {c1 c2 : List (PointXYZIR ℝ)}
    (hdis : ∀ a ∈ c1, ∀ b ∈ c2, a.ring ≠ b.ring) (h1 : DirectionsApart c1) (h2 : DirectionsApart c2)
    (hplat : PlatformOK plat hp.nBlocks (c1 ++ c2).length) (stamp : ℤ)
    (isDense ringAvailable : Bool) :
    ∃ eff e1 e2 : CallbackEffect (PointXYZIR ℝ),
      callback plat hp (nodeGeometry degreeThreshold) stamp isDense ringAvailable (c1 ++ c2) =
        .ok eff ∧
      callback plat hp (nodeGeometry degreeThreshold) stamp isDense ringAvailable c1 = .ok e1 ∧
      callback plat hp (nodeGeometry degreeThreshold) stamp isDense ringAvailable c2 = .ok e2 ∧
      eff.edge.points.Perm (e1.edge.points ++ e2.edge.points) ∧
      eff.surface.points.Perm (e1.surface.points ++ e2.surface.points) ∧
      eff.colored.points.Perm (e1.colored.points ++ e2.colored.points) := by
  have hn := hv.2.2.2.2.2.2.2.le
  have hplat1 := hplat.mono (m := c1.length) hn (by simp)
  have hplat2 := hplat.mono (m := c2.length) hn (by simp)
  have hapart : DirectionsApart (c1 ++ c2) := by
    refine List.pairwise_append.2 ⟨h1, h2, ?_⟩
    intro a ha b hb e
    exact absurd e (hdis a ha b hb)
  obtain ⟨eff, he, -⟩ := C19_callback_returns_partial degreeThreshold hv hplat hapart.axisClear stamp
    isDense ringAvailable
  obtain ⟨e1, he1, -⟩ := C19_callback_returns_partial degreeThreshold hv hplat1 h1.axisClear stamp
    isDense ringAvailable
  obtain ⟨e2, he2, -⟩ := C19_callback_returns_partial degreeThreshold hv hplat2 h2.axisClear stamp
    isDense ringAvailable
  obtain ⟨m11, m12, m13⟩ := callback_mem (nodeGeometry_ok degreeThreshold) hv hplat1 he1
  obtain ⟨m21, m22, m23⟩ := callback_mem (nodeGeometry_ok degreeThreshold) hv hplat2 he2
  have key : ∀ r, eff.ofRing r =
      ((e1.edge.points ++ e2.edge.points).filter fun q => q.ring = r,
        (e1.surface.points ++ e2.surface.points).filter fun q => q.ring = r,
        (e1.colored.points ++ e2.colored.points).filter fun q => q.1.ring = r) := by
    intro r
    have hring : ∀ {c : List (PointXYZIR ℝ)}, DirectionsApart c →
        (c.filter fun q => q.ring = r).Pairwise fun a b => atan2 a ≠ atan2 b := by
      intro c hc
      refine List.Pairwise.imp_of_mem ?_ (hc.sublist List.filter_sublist)
      intro a b ha hb h
      have ea := (List.mem_filter.1 ha).2
      have eb := (List.mem_filter.1 hb).2
      simp only [decide_eq_true_eq] at ea eb
      exact h (ea.trans eb.symm)
    by_cases hr : ∃ a ∈ c1, a.ring = r
    · have hno : ∀ b ∈ c2, b.ring ≠ r := by
        obtain ⟨a, ha, rfl⟩ := hr
        exact fun b hb => (hdis a ha b hb).symm
      obtain ⟨x, y, hx, hy, hxy⟩ := C126_ring_local (cloud := c1 ++ c2) (cloud' := c1) (r := r) rfl rfl hv
        degreeThreshold (by
          rw [List.filter_append, filter_points_nil hno (fun q hq => hq), List.append_nil])
        (hring hapart) hapart.axisClear h1.axisClear hplat hplat1 stamp isDense ringAvailable
      rw [he] at hx
      rw [he1] at hy
      simp only [Except.ok.injEq] at hx hy
      subst hx
      subst hy
      rw [hxy]
      simp only [List.filter_append]
      rw [filter_points_nil hno m21, filter_points_nil hno m22,
        filter_colored_nil hno m23]
      simp [CallbackEffect.ofRing]
    · have hno : ∀ b ∈ c1, b.ring ≠ r := fun b hb e => hr ⟨b, hb, e⟩
      obtain ⟨x, y, hx, hy, hxy⟩ := C126_ring_local (cloud := c1 ++ c2) (cloud' := c2) (r := r) rfl rfl hv
        degreeThreshold (by
          rw [List.filter_append, filter_points_nil hno (fun q hq => hq), List.nil_append])
        (hring hapart) hapart.axisClear h2.axisClear hplat hplat2 stamp isDense ringAvailable
      rw [he] at hx
      rw [he2] at hy
      simp only [Except.ok.injEq] at hx hy
      subst hx
      subst hy
      rw [hxy]
      simp only [List.filter_append]
      rw [filter_points_nil hno m11, filter_points_nil hno m12,
        filter_colored_nil hno m13]
      simp [CallbackEffect.ofRing]
  refine ⟨eff, e1, e2, he, he1, he2, ?_, ?_, ?_⟩
  · exact perm_of_filters (ringOf := PointXYZIR.ring) fun r => congrArg (fun t => t.1) (key r)
  · exact perm_of_filters (ringOf := PointXYZIR.ring) fun r => congrArg (fun t => t.2.1) (key r)
  · exact perm_of_filters (ringOf := fun q : PointXYZIR ℝ × RGB => q.1.ring)
      fun r => congrArg (fun t => t.2.2) (key r)

/-! Non-vacuity: over the rationals, a second ring behind the cloud of C19 leaves the features of the
first ring as they were (compare the example of C110); and the hypotheses can be met. -/

example : (callback exPlat19 exHp19 exGeo19 42 true true
      (exCloud19 ++ exCloud19.map fun p => { p with ring := 2 })).map
    (fun e => (e.edge.points.filter fun q => q.ring = 1, e.surface.points.filter fun q => q.ring = 1)) =
    .ok ([⟨0, 9, 0, 1⟩], [⟨3, 7, 0, 1⟩, ⟨-2, 8, 0, 1⟩]) := by decide +kernel

example : (∀ a ∈ [(⟨1, 0, 5, 7⟩ : PointXYZIR ℝ), ⟨-1, 0, 5, 7⟩], ∀ b ∈ [(⟨2, 0, 0, 8⟩ : PointXYZIR ℝ)],
      a.ring ≠ b.ring) ∧
    DirectionsApart [(⟨1, 0, 5, 7⟩ : PointXYZIR ℝ), ⟨-1, 0, 5, 7⟩] ∧
    DirectionsApart [(⟨2, 0, 0, 8⟩ : PointXYZIR ℝ)] := by
  have h1 : atan2 ⟨1, 0, 5, 7⟩ = 0 := by
    rw [atan2, Complex.arg_eq_zero_iff]; norm_num
  have h2 : atan2 ⟨-1, 0, 5, 7⟩ = Real.pi := by
    rw [atan2, Complex.arg_eq_pi_iff]; norm_num
  refine ⟨by simp, ?_, ?_⟩ <;> simp [DirectionsApart, h1, h2, Real.pi_ne_zero.symm]

end Verif.Extraction
