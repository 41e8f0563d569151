/-
C141: localising in a map that was made in the same surroundings.
-/
import Verif.Props.C102
import Verif.Props.C134

set_option autoImplicit false

namespace Verif.Loam

open Matrix Verif.Rot Verif.Opt Verif.Loc Verif.Align Verif.Mapping Verif.Apps

/-- Specification: the surroundings, straight edges (a point and a direction of length 1) and planes
`n · x + 1 = 0`. -/
structure World where
  lines : List (V3 × V3)
  planes : List V3
  unit : ∀ l ∈ lines, l.2 ⬝ᵥ l.2 = 1

/-- Specification: the positions of the points of a cloud. -/
def positions {P : Type} (c : Cloud P) : List V3 := c.map Pt.xyz

/-- Specification: what a mapping session gets if poses and features are exact: rigid poses, and clouds
whose points, moved by the pose, are on edges of the surroundings. -/
def World.Exact {P : Type} (W : World) (msgs : List (Cloud P × Pose)) : Prop :=
  ∀ m ∈ msgs, IsRotation m.2.linear ∧
    ∀ p ∈ positions m.1, ∃ l ∈ W.lines, OnRay l.1 l.2 (m.2.linear *ᵥ p + m.2.translation)

/-- Specification: around `y` there are at least 15 points of the map on the line `l` within `r`, no other
edge comes closer than `r + 2 g` (but for points that are on `l` as well), and no point is in the map 15
times. -/
def World.EdgeClear (W : World) (map : List V3) (l : V3 × V3) (y : V3) (r g : ℝ) : Prop :=
  (∃ near : List V3, near.Sublist map ∧ 15 ≤ near.length ∧ ∀ x ∈ near, OnRay l.1 l.2 x ∧ vlen (x - y) ≤ r) ∧
  (∀ l' ∈ W.lines, ∀ x, OnRay l'.1 l'.2 x → ¬ OnRay l.1 l.2 x → r + 2 * g < vlen (x - y)) ∧
  ∀ x, ¬ (List.replicate 15 x).Sublist map

/-- Specification: the same for a plane; and no 15 points of the map on the plane near `y` are on one
line. -/
def World.SurfaceClear (W : World) (map : List V3) (n : V3) (y : V3) (r g : ℝ) : Prop :=
  (∃ near : List V3, near.Sublist map ∧ 15 ≤ near.length ∧ ∀ x ∈ near, OnPlane n x ∧ vlen (x - y) ≤ r) ∧
  (∀ n' ∈ W.planes, ∀ x, OnPlane n' x → ¬ OnPlane n x → r + 2 * g < vlen (x - y)) ∧
  ∀ X : List V3, X.Sublist map → X.length = 15 →
    (∀ x ∈ X, OnPlane n x ∧ vlen (x - y) ≤ r + 2 * g) → ¬ ∃ a d, ∀ x ∈ X, OnRay a d x

/-- Specification: what a scan at the pose `S` sees: every edge point, moved by the pose, is on an edge of
the surroundings and every surface point on a plane, and these places are clear. -/
structure World.Seen (W : World) (edgeMap surfaceMap : List V3) (c : Scene) (S : Pose) (r g : ℝ) : Prop where
  line : ∀ p ∈ c.edges, (c.anchor p, c.dir p) ∈ W.lines
  on_line : ∀ p ∈ c.edges, OnRay (c.anchor p) (c.dir p) (S.linear *ᵥ p + S.translation)
  edge_clear : ∀ p ∈ c.edges,
    W.EdgeClear edgeMap (c.anchor p, c.dir p) (S.linear *ᵥ p + S.translation) r g
  plane : ∀ p ∈ c.surfaces, c.normal p ∈ W.planes
  on_plane : ∀ p ∈ c.surfaces, OnPlane (c.normal p) (S.linear *ᵥ p + S.translation)
  surface_clear : ∀ p ∈ c.surfaces,
    W.SurfaceClear surfaceMap (c.normal p) (S.linear *ᵥ p + S.translation) r g

/-! ### What the search finds -/

/-- A search for 15 points finds 15 points of the map and only points of one object if at least 15 points
of the object are within `r` of the place and the points of other objects are farther than `r + 2g`. -/
theorem object_found {knn : Knn} (hk : KnnSpec knn) (map : List V3) (P : V3 → Prop) (y0 : V3) (r g : ℝ)
    (near : List V3) (hnear : near.Sublist map) (hlen : 15 ≤ near.length)
    (hP : ∀ x ∈ near, P x ∧ vlen (x - y0) ≤ r) (hfar : ∀ x ∈ map, ¬ P x → r + 2 * g < vlen (x - y0))
    (y : V3) (hy : vlen (y - y0) ≤ g) :
    ∃ X Y, nearestKSearch knn map y nNeighbors = .ok X ∧ X.Perm Y ∧ Y.Sublist map ∧ X.length = 15 ∧
      ∀ x ∈ X, P x := by
  classical
  obtain ⟨X, hX, hXl, -, rest, hperm, hrest⟩ := C80_nearest_partial hk map y 15 (by norm_num)
    (hlen.trans hnear.length_le)
  obtain ⟨Y, hY, hYm⟩ : X.Subperm map :=
    (List.sublist_append_left X rest).subperm.trans hperm.subperm
  refine ⟨X, Y, hX, hY.symm, hYm, hXl, fun x hx => ?_⟩
  by_contra hnP
  have hxm : x ∈ map := hperm.subset (List.mem_append_left _ hx)
  have h1 := hfar x hxm hnP
  have e1 : ∀ a : V3, vlen (y - a) ^ 2 = sqDist y a := fun a => by
    rw [vlen_sq_eq]
    simp [sqLen, sqDist, Fin.sum_univ_three]
  have h2 : r + g < vlen (y - x) := by
    have a1 := vlen_sub_le (y - x) (y - y0)
    rw [show y - x - (y - y0) = -(x - y0) by abel, vlen_neg] at a1
    linarith
  have hnr : ∀ z ∈ near, z ∉ rest := by
    intro z hz hzr
    have a1 := hrest x hx z hzr
    rw [← e1, ← e1] at a1
    have a2 := abs_le_of_sq_le_sq' a1 (vlen_nonneg _) |>.2
    have a3 := vlen_sub_le (y - y0) (z - y0)
    rw [show y - y0 - (z - y0) = y - z by abel] at a3
    linarith [(hP z hz).2]
  have hnX : near.Subperm (X.erase x) := by
    refine List.subperm_ext_iff.2 fun z hz => ?_
    have hne : z ≠ x := by
      rintro rfl
      exact hnP (hP z hz).1
    rw [List.count_erase_of_ne hne]
    have c1 := hnear.count_le z
    rw [← hperm.count_eq, List.count_append, List.count_eq_zero_of_not_mem (hnr z hz)] at c1
    exact c1
  have hl := hnX.length_le
  rw [List.length_erase_of_mem hx] at hl
  omega

theorem edge_found {W : World} {knn : Knn} (hk : KnnSpec knn) {map : List V3}
    (hon : ∀ x ∈ map, ∃ l ∈ W.lines, OnRay l.1 l.2 x) {l : V3 × V3} {y0 : V3} {r g : ℝ}
    (h : W.EdgeClear map l y0 r g) {y : V3} (hy : vlen (y - y0) ≤ g) :
    ∃ X, nearestKSearch knn map y nNeighbors = .ok X ∧ (∀ x ∈ X, OnRay l.1 l.2 x) ∧
      ∃ x ∈ X, ∃ x' ∈ X, x ≠ x' := by
  obtain ⟨⟨near, h1, h2, h3⟩, h4, h5⟩ := h
  obtain ⟨X, Y, hX, hXY, hY, hXl, hP⟩ := object_found hk map _ y0 r g near h1 h2 h3 (fun x hx hnot => by
    obtain ⟨l', hl', hx'⟩ := hon x hx
    exact h4 l' hl' x hx' hnot) y hy
  refine ⟨X, hX, hP, ?_⟩
  by_contra hall
  push Not at hall
  have hne : X ≠ [] := by
    rintro rfl
    simp at hXl
  obtain ⟨x, hx⟩ := List.exists_mem_of_ne_nil _ hne
  have hrep : X = List.replicate 15 x := List.eq_replicate_iff.2 ⟨hXl, fun b hb => (hall x hx b hb).symm⟩
  rw [hrep] at hXY
  rw [List.perm_replicate.1 hXY.symm] at hY
  exact h5 x hY

/-- Points of a plane off the origin that are not on one line span the space. -/
theorem spanning_of_plane {X : List V3} {n : V3} (hX : ∀ x ∈ X, OnPlane n x)
    (hline : ¬ ∃ a d, ∀ x ∈ X, OnRay a d x) : Spanning X := by
  intro v hv
  by_contra hv0
  apply hline
  -- `v` and `n` are not parallel, so all points are on the line of direction `n × v`
  by_cases hX0 : X = []
  · exact ⟨0, 0, by simp [hX0]⟩
  obtain ⟨x0, hx0⟩ := List.exists_mem_of_ne_nil _ hX0
  refine ⟨x0, n ⨯₃ v, ?_⟩
  intro x hx
  have e1 : n ⬝ᵥ (x - x0) = 0 := by
    have a := hX x hx
    have b := hX x0 hx0
    unfold OnPlane at a b
    rw [dotProduct_sub]
    linarith
  have e2 : v ⬝ᵥ (x - x0) = 0 := by
    rw [dotProduct_sub, dotProduct_comm v x, dotProduct_comm v x0, hv x hx, hv x0 hx0, sub_zero]
  have hc : sqLen (n ⨯₃ v) ≠ 0 := by
    intro h0
    have hcv : n ⨯₃ v = 0 := by
      funext i
      simp only [sqLen, Fin.sum_univ_three] at h0
      have h00 := sq_nonneg ((n ⨯₃ v) 0)
      have h01 := sq_nonneg ((n ⨯₃ v) 1)
      have h02 := sq_nonneg ((n ⨯₃ v) 2)
      have e0 : (n ⨯₃ v) 0 ^ 2 = 0 := by linarith
      have e1 : (n ⨯₃ v) 1 ^ 2 = 0 := by linarith
      have e2 : (n ⨯₃ v) 2 ^ 2 = 0 := by linarith
      fin_cases i
      · exact pow_eq_zero_iff (two_ne_zero) |>.1 e0
      · exact pow_eq_zero_iff (two_ne_zero) |>.1 e1
      · exact pow_eq_zero_iff (two_ne_zero) |>.1 e2
    -- `(n × v) × x0 = (n·x0) v - (v·x0) n`
    have h1 : (n ⬝ᵥ x0) • v = (0 : V3) := by
      have hn : n ⬝ᵥ x0 = -1 := by
        have := hX x0 hx0
        unfold OnPlane at this
        linarith
      have hvx : v ⬝ᵥ x0 = 0 := by rw [dotProduct_comm]; exact hv x0 hx0
      have c0 := congrFun hcv 0
      have c1 := congrFun hcv 1
      have c2 := congrFun hcv 2
      simp [cross_apply] at c0 c1 c2
      simp only [dotProduct, Fin.sum_univ_three] at hn hvx ⊢
      funext i
      fin_cases i
      · show (n 0 * x0 0 + n 1 * x0 1 + n 2 * x0 2) * v 0 = 0
        linear_combination (x0 1) * (-c2) + (x0 2) * c1 + (n 0) * hvx
      · show (n 0 * x0 0 + n 1 * x0 1 + n 2 * x0 2) * v 1 = 0
        linear_combination (x0 0) * c2 - (x0 2) * c0 + (n 1) * hvx
      · show (n 0 * x0 0 + n 1 * x0 1 + n 2 * x0 2) * v 2 = 0
        linear_combination -(x0 0) * c1 + (x0 1) * c0 + (n 2) * hvx
    have hn : n ⬝ᵥ x0 = -1 := by
      have := hX x0 hx0
      unfold OnPlane at this
      linarith
    rw [hn] at h1
    exact hv0 (by simpa using h1)
  refine ⟨((n ⨯₃ v) ⬝ᵥ (x - x0)) / sqLen (n ⨯₃ v), ?_⟩
  generalize hw : x - x0 = w at e1 e2
  have hx' : x = x0 + w := by rw [← hw]; abel
  rw [hx']
  congr 1
  generalize hcd : n ⨯₃ v = c at hc ⊢
  have c0 : c 0 = n 1 * v 2 - n 2 * v 1 := by rw [← hcd, cross_apply]; rfl
  have c1 : c 1 = n 2 * v 0 - n 0 * v 2 := by rw [← hcd, cross_apply]; rfl
  have c2 : c 2 = n 0 * v 1 - n 1 * v 0 := by rw [← hcd, cross_apply]; rfl
  simp only [dotProduct, Fin.sum_univ_three, sqLen] at e1 e2 hc ⊢
  funext i
  simp only [Pi.smul_apply, smul_eq_mul]
  rw [div_mul_eq_mul_div, eq_div_iff hc]
  rw [c0, c1, c2]
  fin_cases i
  · simp only [Fin.zero_eta]
    rw [c0]
    linear_combination (-((n 2 * v 0 - n 0 * v 2) * v 2 - (n 0 * v 1 - n 1 * v 0) * v 1)) * e1 +
      ((n 2 * v 0 - n 0 * v 2) * n 2 - (n 0 * v 1 - n 1 * v 0) * n 1) * e2
  · simp only [Fin.mk_one]
    rw [c1]
    linear_combination (-((n 0 * v 1 - n 1 * v 0) * v 0 - (n 1 * v 2 - n 2 * v 1) * v 2)) * e1 +
      ((n 0 * v 1 - n 1 * v 0) * n 0 - (n 1 * v 2 - n 2 * v 1) * n 2) * e2
  · simp only [Fin.reduceFinMk]
    rw [c2]
    linear_combination (-((n 1 * v 2 - n 2 * v 1) * v 1 - (n 2 * v 0 - n 0 * v 2) * v 0)) * e1 +
      ((n 1 * v 2 - n 2 * v 1) * n 1 - (n 2 * v 0 - n 0 * v 2) * n 0) * e2

theorem surface_found {W : World} {knn : Knn} (hk : KnnSpec knn) {map : List V3}
    (hon : ∀ x ∈ map, ∃ n ∈ W.planes, OnPlane n x) {n y0 : V3} {r g : ℝ} (hg : 0 ≤ g)
    (h : W.SurfaceClear map n y0 r g) {y : V3} (hy : vlen (y - y0) ≤ g) :
    ∃ X, nearestKSearch knn map y nNeighbors = .ok X ∧ (∀ x ∈ X, OnPlane n x) ∧ Spanning X := by
  obtain ⟨⟨near, h1, h2, h3⟩, h4, h5⟩ := h
  obtain ⟨X, Y, hX, hXY, hY, hXl, hP⟩ := object_found hk map
    (fun x => OnPlane n x ∧ vlen (x - y0) ≤ r + 2 * g) y0 r g near
    h1 h2 (fun x hx => ⟨⟨(h3 x hx).1, by linarith [(h3 x hx).2]⟩, (h3 x hx).2⟩) (by
      intro x hx hnot
      by_cases hp : OnPlane n x
      · by_contra hle
        exact hnot ⟨hp, not_lt.1 hle⟩
      · obtain ⟨n', hn', hx'⟩ := hon x hx
        exact h4 n' hn' x hx' hp) y hy
  refine ⟨X, hX, fun x hx => (hP x hx).1, spanning_of_plane (fun x hx => (hP x hx).1) ?_⟩
  rintro ⟨a, d, hl⟩
  exact h5 Y hY (hXY.length_eq ▸ hXl) (fun x hx => hP x (hXY.mem_iff.2 hx))
    ⟨a, d, fun x hx => hl x (hXY.mem_iff.2 hx)⟩

/-! ### The map -/

theorem keyframes_mem {P : Type} {h ks : List (Cloud P × Pose)} (hk : Keyframes h ks) : ∀ k ∈ ks, k ∈ h := by
  induction hk with
  | nil => simp
  | add c p _ _ _ ih =>
    intro k hk
    rcases List.mem_append.1 hk with hk | hk
    · exact List.mem_append_left _ (ih k hk)
    · exact List.mem_append_right _ hk
  | skip c p _ _ ih => exact fun k hk => List.mem_append_left _ (ih k hk)

/-- C141: what localization loads after a mapping session with exact poses: every point of the edge map is
on an edge of the surroundings, whatever the points carry besides their coordinates. -/
theorem C141_map {P Q : Type} {W : World} {conv : Pt P → Pt Q} (hconv : ∀ p, (conv p).xyz = p.xyz)
    {garbage : Pose} {msgs : List (Cloud P × Pose)} (hW : W.Exact msgs) (hne : ∃ m ∈ msgs, m.1 ≠ [])
    {fs : Fs P} {e s : Cloud Q} {k : ℤ}
    (hspin : localizationMain conv (mappingMain garbage msgs fs) = .spin e s k) :
    e ≠ [] ∧ ∀ x ∈ positions e, ∃ l ∈ W.lines, OnRay l.1 l.2 x := by
  obtain ⟨ks, hk, hks, hfile⟩ := (C102_mapping garbage msgs fs).2.2 hne fun m hm => (hW m hm).1
  have he := ((C102_start conv (mappingMain garbage msgs fs)).2.2 e s k hspin).2.1 _ hfile
  subst he
  refine ⟨fun h => hks (List.map_eq_nil_iff.1 h), ?_⟩
  intro x hx
  obtain ⟨q, hq, rfl⟩ := List.mem_map.1 hx
  obtain ⟨p, hp, rfl⟩ := List.mem_map.1 hq
  rw [hconv]
  obtain ⟨cl, hcl, hpc⟩ := List.mem_flatten.1 hp
  obtain ⟨e', he', rfl⟩ := List.mem_map.1 hcl
  obtain ⟨kf, hkf, rfl⟩ := List.mem_map.1 he'
  obtain ⟨p0, hp0, rfl⟩ := List.mem_map.1 hpc
  exact (hW kf (keyframes_mem hk kf hkf)).2 p0.xyz (List.mem_map_of_mem hp0)

/-- The surface map is that of the file, as the mapping session writes no such file. -/
theorem surface_map {P Q : Type} {conv : Pt P → Pt Q} {garbage : Pose} {msgs : List (Cloud P × Pose)}
    {fs : Fs P} {surface : Cloud P} (hsurf : fs "maps/surface.pcd" = some (.pcd surface)) {e s : Cloud Q}
    {k : ℤ} (hspin : localizationMain conv (mappingMain garbage msgs fs) = .spin e s k) :
    s = surface.map conv ∧ k = 40 := by
  have h := (C102_start conv (mappingMain garbage msgs fs)).2.2 e s k hspin
  refine ⟨h.2.2.1 _ ?_, h.1⟩
  rw [(C102_mapping garbage msgs fs).1 _ (by decide)]
  exact hsurf

/-- C141: with a surface map on disk localization does start after such a session. -/
theorem C141_starts {P Q : Type} (W : World) (conv : Pt P → Pt Q) (garbage : Pose)
    {msgs : List (Cloud P × Pose)} (hW : W.Exact msgs) (hne : ∃ m ∈ msgs, m.1 ≠ []) {fs : Fs P}
    {surface : Cloud P} (hsurf : fs "maps/surface.pcd" = some (.pcd surface)) :
    ∃ ks, Keyframes msgs ks ∧ localizationMain conv (mappingMain garbage msgs fs) =
      .spin ((placed (ks.map fun k => (k.2, k.1))).flatten.map conv) (surface.map conv) 40 :=
  C102_pipeline_partial conv [] garbage msgs [] fs surface hsurf hne (fun m hm => (hW m hm).1) (by simp)

theorem surface_on {P Q : Type} {W : World} {conv : Pt P → Pt Q} (hconv : ∀ p, (conv p).xyz = p.xyz)
    {surface : Cloud P} (hs : ∀ x ∈ positions surface, ∃ n ∈ W.planes, OnPlane n x) :
    ∀ x ∈ positions (surface.map conv), ∃ n ∈ W.planes, OnPlane n x := by
  intro x hx
  obtain ⟨q, hq, rfl⟩ := List.mem_map.1 hx
  obtain ⟨p, hp, rfl⟩ := List.mem_map.1 hq
  rw [hconv]
  exact hs _ (List.mem_map_of_mem hp)

/-! ### Localising -/

/-- C141: after a mapping session with exact poses, localization with the files it finds, started at the
true pose `S` of a scan of the same surroundings, stays there, reports convergence and error 0. -/
theorem C141_stays {nth : Nth} (hn : Lib.IsNthElement nth) {llt : Llt} (hllt : LltSpec llt) {L : Libs}
    (hk : KnnSpec L.knn) (he : EigSpec L.eig) (hqr : QrSpec L.qr) {P Q : Type} {W : World}
    {conv : Pt P → Pt Q} (hconv : ∀ p, (conv p).xyz = p.xyz) {garbage : Pose}
    {msgs : List (Cloud P × Pose)} (hW : W.Exact msgs) (hne : ∃ m ∈ msgs, m.1 ≠ []) {fs : Fs P}
    {surface : Cloud P} (hsurf : fs "maps/surface.pcd" = some (.pcd surface))
    (hplanes : ∀ x ∈ positions surface, ∃ n ∈ W.planes, OnPlane n x) {e s : Cloud Q} {k : ℤ}
    (hspin : localizationMain conv (mappingMain garbage msgs fs) = .spin e s k) {c : Scene}
    {surfaceScan : List V3} (hscan : L.downsample surfaceScan = c.surfaces)
    (hpts : c.edges ≠ [] ∨ c.surfaces ≠ []) {S : Pose} (hS : IsRotation S.linear) {r g : ℝ} (hg : 0 ≤ g)
    (hseen : W.Seen (positions e) (positions s) c S r g) :
    ∃ res, run nth llt (make L (positions e) (positions s) nNeighbors c.edges surfaceScan) k S = .ok res ∧
      res.pose = S ∧ res.success = true ∧ res.message = .converged ∧ res.error = 0 := by
  obtain ⟨hse, hk40⟩ := surface_map hsurf hspin
  have honE := (C141_map hconv hW hne hspin).2
  have honS : ∀ x ∈ positions s, ∃ n ∈ W.planes, OnPlane n x := by
    rw [hse]; exact surface_on hconv hplanes
  obtain ⟨res, h1, h2, h3, h4, h5, -⟩ := C85_true_pose hn hllt hk he hqr (positions e) (positions s) c.edges
    surfaceScan k (by omega) S hS (by rw [hscan]; exact hpts) (by
      intro p hp
      obtain ⟨X, hX, hl, hx⟩ := edge_found hk honE (hseen.edge_clear p hp)
        (y := S.linear *ᵥ p + S.translation) (by rw [sub_self, vlen_zero]; exact hg)
      exact ⟨X, hX, _, _, hl, hseen.on_line p hp, hx⟩) (by
      intro p hp
      rw [hscan] at hp
      obtain ⟨X, hX, hl, hx⟩ := surface_found hk honS hg (hseen.surface_clear p hp)
        (y := S.linear *ᵥ p + S.translation) (by rw [sub_self, vlen_zero]; exact hg)
      exact ⟨X, hX, _, hl, hseen.on_plane p hp, hx⟩)
  exact ⟨res, h1, h2, h3, h4, h5⟩

/-- What a scan sees clearly, the search finds. -/
theorem clear_of_seen {knn : Knn} (hk : KnnSpec knn) {W : World} {edgeMap surfaceMap : List V3}
    (honE : ∀ x ∈ edgeMap, ∃ l ∈ W.lines, OnRay l.1 l.2 x)
    (honS : ∀ x ∈ surfaceMap, ∃ n ∈ W.planes, OnPlane n x) {c : Scene} {S : Pose} (hS : IsRotation S.linear)
    {r g : ℝ} (hg : 0 < g) (hseen : W.Seen edgeMap surfaceMap c S r g) {μ : ℝ} (hμ : 1 / 10 < μ)
    (hobs : ∀ (t : ℝ) (ω v : V3), μ * (t ^ 2 + sqLen ω + sqLen v) ≤ c.rates S.linear t ω v) :
    c.Clear knn edgeMap surfaceMap S g μ :=
  { proper :=
      { dir := fun p hp => W.unit _ (hseen.line p hp)
        normal := fun p hp h0 => by
          have := hseen.on_plane p hp
          rw [h0] at this
          simp [OnPlane] at this }
    rotation := hS
    exact := by
      intro d hd
      rcases List.mem_append.1 hd with hd | hd
      · obtain ⟨p, hp, rfl⟩ := List.mem_map.1 hd
        obtain ⟨t, ht⟩ := hseen.on_line p hp
        have h1 : c.dir p ⨯₃ (S.apply p - c.anchor p) = 0 := by
          have : S.apply p - c.anchor p = t • c.dir p := by
            show S.linear *ᵥ p + S.translation - c.anchor p = _
            rw [ht]; abel
          rw [this, map_smul, cross_self, smul_zero]
        rw [h1, vlen_zero, mul_zero]
      · obtain ⟨p, hp, rfl⟩ := List.mem_map.1 hd
        have h1 : c.normal p ⬝ᵥ S.apply p + 1 = 0 := hseen.on_plane p hp
        rw [h1, abs_zero, zero_div]
    g_pos := hg
    edges := by
      intro p hp y hy
      obtain ⟨X, hX, hl, x, hx, x', hx', hne'⟩ := edge_found hk honE
        (hseen.edge_clear p hp) (y := y) hy
      exact ⟨X, hX, List.ne_nil_of_mem hx,
        onlyLine_of_line (W.unit _ (hseen.line p hp)) hl hx hx' hne'⟩
    surfaces := by
      intro p hp y hy
      obtain ⟨X, hX, hl, hx⟩ := surface_found hk honS hg.le (hseen.surface_clear p hp)
        (y := y) hy
      exact ⟨X, hX, hx, planeCost_of_plane hl⟩
    μ_min := hμ
    observed := hobs }

/-- C141: and there is a neighbourhood of the true pose from which localization converges and at least
halves the error, if every motion of the sensor changes what it sees (`observed`, see `C134`). -/
theorem C141_converges {nth : Nth} (hn : Lib.IsNthElement nth) {llt : Llt} (hllt : LltSpec llt) {L : Libs}
    (hk : KnnSpec L.knn) (he : EigSpec L.eig) (hqr : QrSpec L.qr) {P Q : Type} {W : World}
    {conv : Pt P → Pt Q} (hconv : ∀ p, (conv p).xyz = p.xyz) {garbage : Pose}
    {msgs : List (Cloud P × Pose)} (hW : W.Exact msgs) (hne : ∃ m ∈ msgs, m.1 ≠ []) {fs : Fs P}
    {surface : Cloud P} (hsurf : fs "maps/surface.pcd" = some (.pcd surface))
    (hplanes : ∀ x ∈ positions surface, ∃ n ∈ W.planes, OnPlane n x) {e s : Cloud Q} {k : ℤ}
    (hspin : localizationMain conv (mappingMain garbage msgs fs) = .spin e s k) {c : Scene}
    {surfaceScan : List V3} (hscan : L.downsample surfaceScan = c.surfaces) {S : Pose}
    (hS : IsRotation S.linear) {r g : ℝ} (hg : 0 < g) (hseen : W.Seen (positions e) (positions s) c S r g)
    {μ : ℝ} (hμ : 1 / 10 < μ)
    (hobs : ∀ (t : ℝ) (ω v : V3), μ * (t ^ 2 + sqLen ω + sqLen v) ≤ c.rates S.linear t ω v) :
    ∃ ε > 0, ∀ T : Pose, IsRotation T.linear → ∀ d, 0 ≤ d → d ≤ ε →
      (∀ x, vlen (T.linear *ᵥ x - S.linear *ᵥ x) ≤ d * vlen x) →
      vlen (T.translation - S.translation) ≤ ε →
      ∃ res, run nth llt (make L (positions e) (positions s) nNeighbors c.edges surfaceScan) k T = .ok res ∧
        res.message = .converged ∧ res.success = true ∧
        vlen (res.pose.translation - S.translation) ≤ d / 2 ∧
        ∀ x, vlen (res.pose.linear *ᵥ x - S.linear *ᵥ x) ≤ (d / 2 + 1 / 100000000) * vlen x := by
  obtain ⟨hse, hk40⟩ := surface_map hsurf hspin
  have honE := (C141_map hconv hW hne hspin).2
  have honS : ∀ x ∈ positions s, ∃ n ∈ W.planes, OnPlane n x := by
    rw [hse]; exact surface_on hconv hplanes
  have hclear := clear_of_seen hk honE honS hS hg hseen hμ hobs
  obtain ⟨ε, hε, h⟩ := C134_neighbourhood hn hllt he hqr (positions e) (positions s) surfaceScan c hscan S g μ
    hclear
  exact ⟨ε, hε, fun T hT d hd0 hd h1 h2 => h T hT d hd0 hd h1 h2 k (by omega)⟩

/-! ### A session -/

/-- Two poles ten metres to the left and to the right of the start, and a ceiling two metres above. -/
noncomputable def exWorld : World where
  lines := [(![10, 0, 0], ![0, 0, 1]), (![-10, 0, 0], ![0, 0, 1])]
  planes := [![0, 0, -1 / 2]]
  unit := by simp

/-- The first scan sees one pole; five metres further the second one sees the other. -/
noncomputable def exSession : List (Cloud Unit × Pose) :=
  [((List.range 15).map fun i : ℕ => ⟨![10, 0, (i : ℝ) - 7], ()⟩, ⟨1, 0⟩),
    ((List.range 15).map fun i : ℕ => ⟨![-10, -5, (i : ℝ) - 7], ()⟩, ⟨1, ![0, 5, 0]⟩)]

/-- Sixteen points of the ceiling. -/
noncomputable def exCeiling : List V3 :=
  (List.range 16).map fun i : ℕ => ![2 * ((i % 4 : ℕ) : ℝ) - 3, 2 * ((i / 4 : ℕ) : ℝ) - 3, 2]

theorem exSession_exact : exWorld.Exact exSession := by
  intro m hm
  simp only [exSession, List.mem_cons, List.not_mem_nil, or_false] at hm
  rcases hm with rfl | rfl
  · refine ⟨⟨by simp, by simp⟩, fun p hp => ?_⟩
    simp only [positions, List.map_map, List.mem_map, Function.comp] at hp
    obtain ⟨i, -, rfl⟩ := hp
    refine ⟨_, List.mem_cons_self, (i : ℝ) - 7, ?_⟩
    funext j
    fin_cases j <;> simp
  · refine ⟨⟨by simp, by simp⟩, fun p hp => ?_⟩
    simp only [positions, List.map_map, List.mem_map, Function.comp] at hp
    obtain ⟨i, -, rfl⟩ := hp
    refine ⟨_, List.mem_cons_of_mem _ List.mem_cons_self, (i : ℝ) - 7, ?_⟩
    funext j
    fin_cases j <;> simp

theorem exSession_keyframes : Keyframes exSession exSession := by
  have e1 := Keyframes.add (P := Unit) ((List.range 15).map fun i : ℕ => ⟨![10, 0, (i : ℝ) - 7], ()⟩) ⟨1, 0⟩ .nil
    (by simp) (by simp)
  refine Keyframes.add (P := Unit) ((List.range 15).map fun i : ℕ => ⟨![-10, -5, (i : ℝ) - 7], ()⟩)
    ⟨1, ![0, 5, 0]⟩ e1 (by simp) ?_
  intro k hk
  simp only [List.nil_append, List.getLast?_singleton, Option.mem_def, Option.some.injEq] at hk
  subst hk
  left
  refine Real.le_sqrt_of_sq_le ?_
  simp [Fin.sum_univ_three]

/-- The files: a surface map only. -/
noncomputable def exFs : Fs Unit := save (fun _ => none) "maps/surface.pcd" (exCeiling.map fun x => ⟨x, ()⟩)

theorem exSession_spin :
    ∃ e s, localizationMain (Q := Unit) id (mappingMain ⟨1, 0⟩ exSession exFs) = .spin e s 40 ∧
      positions e = exPoles ∧ positions s = exCeiling := by
  obtain ⟨ks, hk, h⟩ := C141_starts exWorld (Q := Unit) id ⟨1, 0⟩ exSession_exact
    ⟨_, List.mem_cons_self, by simp⟩ (fs := exFs) (surface := exCeiling.map fun x => ⟨x, ()⟩) (by simp [exFs, save])
  obtain rfl := C59_unique _ _ _ hk exSession_keyframes
  refine ⟨_, _, h, ?_, ?_⟩
  · simp [positions, placed, exSession, exPoles, Function.comp_def]
  · simp [positions, Function.comp_def]

theorem exCeiling_nodup : exCeiling.Nodup := by
  refine List.nodup_range.map_on ?_
  intro i _ j _ h
  have h0 := congrFun h 0
  have h1 := congrFun h 1
  simp at h0 h1
  have h0' : i % 4 = j % 4 := by exact_mod_cast h0
  have h1' : i / 4 = j / 4 := by exact_mod_cast h1
  omega

/-- Three points of a corner of a square are not on one line. -/
theorem corner_line {X : List V3} {x y : ℝ} (h0 : ![x, y, 2] ∈ X) (h1 : ![x + 2, y, 2] ∈ X)
    (h2 : ![x, y + 2, 2] ∈ X) : ¬ ∃ a d, ∀ x ∈ X, OnRay a d x := by
  rintro ⟨a, d, h⟩
  obtain ⟨t0, e0⟩ := h _ h0
  obtain ⟨t1, e1⟩ := h _ h1
  obtain ⟨t2, e2⟩ := h _ h2
  have a0 := congrFun e0 0
  have a1 := congrFun e0 1
  have b0 := congrFun e1 0
  have b1 := congrFun e1 1
  have c0 := congrFun e2 0
  have c1 := congrFun e2 1
  simp at a0 a1 b0 b1 c0 c1
  have k1 : (t1 - t0) * d 0 = 2 := by linarith
  have k2 : (t2 - t0) * d 0 = 0 := by linarith
  have k3 : (t2 - t0) * d 1 = 2 := by linarith
  rcases mul_eq_zero.1 k2 with k | k
  · rw [k] at k3
    norm_num at k3
  · rw [k] at k1
    norm_num at k1

theorem exCeiling_line {X : List V3} (hX : X.Sublist exCeiling) (hl : X.length = 15) :
    ¬ ∃ a d, ∀ x ∈ X, OnRay a d x := by
  classical
  have hnd := exCeiling_nodup.sublist hX
  have hmiss : ∀ p ∈ exCeiling, ∀ q ∈ exCeiling, p ≠ q → p ∈ X ∨ q ∈ X := by
    intro p hp q hq hpq
    by_contra hno
    push Not at hno
    have hsub : (p :: q :: X).Subperm exCeiling := by
      refine List.subperm_of_subset ?_ ?_
      · refine List.nodup_cons.2 ⟨?_, List.nodup_cons.2 ⟨hno.2, hnd⟩⟩
        simp only [List.mem_cons, not_or]
        exact ⟨hpq, hno.1⟩
      · intro z hz
        simp only [List.mem_cons] at hz
        rcases hz with rfl | rfl | hz
        · exact hp
        · exact hq
        · exact hX.subset hz
    have := hsub.length_le
    simp [exCeiling, hl] at this
  have hm : ∀ i ∈ List.range 16, (![2 * ((i % 4 : ℕ) : ℝ) - 3, 2 * ((i / 4 : ℕ) : ℝ) - 3, 2] : V3) ∈ exCeiling :=
    fun i hi => List.mem_map_of_mem (f := fun i : ℕ => (![2 * ((i % 4 : ℕ) : ℝ) - 3, 2 * ((i / 4 : ℕ) : ℝ) - 3, 2] : V3)) hi
  have m0 : ![-3, -3, 2] ∈ exCeiling := by simpa using hm 0 (by simp)
  have m1 : ![-1, -3, 2] ∈ exCeiling := by
    have := hm 1 (by simp); norm_num at this; exact this
  have m4 : ![-3, -1, 2] ∈ exCeiling := by
    have := hm 4 (by simp); norm_num at this; exact this
  have m2 : ![1, 1, 2] ∈ exCeiling := by
    have := hm 10 (by simp); norm_num at this; exact this
  have m3 : ![3, 1, 2] ∈ exCeiling := by
    have := hm 11 (by simp); norm_num at this; exact this
  have m5 : ![1, 3, 2] ∈ exCeiling := by
    have := hm 14 (by simp); norm_num at this; exact this
  have ne : ∀ a b c d : ℝ, a ≠ c → (![a, b, 2] : V3) ≠ ![c, d, 2] := by
    intro a b c d hac h
    exact hac (by simpa using congrFun h 0)
  by_cases hall : ![-3, -3, 2] ∈ X ∧ ![-1, -3, 2] ∈ X ∧ ![-3, -1, 2] ∈ X
  · refine corner_line (x := -3) (y := -3) hall.1 ?_ ?_
    · convert hall.2.1 using 2; norm_num
    · convert hall.2.2 using 3; norm_num
  · have hp : ∃ p ∈ exCeiling, p ∉ X ∧ (p 0 = -3 ∨ p 0 = -1) := by
      by_contra hno
      push Not at hno
      refine hall ⟨?_, ?_, ?_⟩
      · by_contra hx
        exact (hno _ m0 hx).1 (by simp)
      · by_contra hx
        exact (hno _ m1 hx).2 (by simp)
      · by_contra hx
        exact (hno _ m4 hx).1 (by simp)
    obtain ⟨p, hpm, hpX, hp0⟩ := hp
    have other : ∀ c d : ℝ, 0 < c → (![c, d, 2] : V3) ∈ exCeiling → (![c, d, 2] : V3) ∈ X := by
      intro c d hc hm
      refine (hmiss p hpm _ hm ?_).resolve_left hpX
      rintro rfl
      simp at hp0
      rcases hp0 with h | h <;> linarith
    refine corner_line (x := 1) (y := 1) (other _ _ (by norm_num) m2) ?_ ?_
    · convert other _ _ (by norm_num) m3 using 2; norm_num
    · convert other _ _ (by norm_num) m5 using 3; norm_num

theorem exPole_clear (σ : ℝ) (hσ : σ = 10 ∨ σ = -10) (z : ℝ) (hz : |z| ≤ 2) :
    exWorld.EdgeClear exPoles (![σ, 0, 0], ![0, 0, 1]) ![σ, 0, z] 10 1 := by
  refine ⟨⟨(List.range 15).map fun i : ℕ => ![σ, 0, (i : ℝ) - 7], ?_, by simp, ?_⟩, ?_, ?_⟩
  · rcases hσ with rfl | rfl
    · exact List.sublist_append_left _ _
    · exact List.sublist_append_right _ _
  · intro x hx
    obtain ⟨i, hi, rfl⟩ := List.mem_map.1 hx
    refine ⟨⟨(i : ℝ) - 7, ?_⟩, ?_⟩
    · funext j
      fin_cases j <;> simp
    · have hi' : (i : ℝ) ≤ 14 := by
        have := List.mem_range.1 hi
        exact_mod_cast (by omega : i ≤ 14)
      have hi0 : (0 : ℝ) ≤ i := Nat.cast_nonneg _
      refine vlen_le_of_sq _ (by norm_num) ?_
      rw [abs_le] at hz
      simp [sqLen, Fin.sum_univ_three]
      nlinarith
  · intro l' hl' x hx hnot
    have hx0 : x 0 = -σ ∧ x 1 = 0 := by
      obtain ⟨t, rfl⟩ := hx
      simp only [exWorld, List.mem_cons, List.not_mem_nil, or_false] at hl'
      rcases hl' with rfl | rfl <;> rcases hσ with rfl | rfl <;> simp
      all_goals exact (hnot ⟨t, rfl⟩).elim
    by_contra hle
    rw [not_lt] at hle
    have h1 := pow_le_pow_left₀ (vlen_nonneg _) hle 2
    rw [vlen_sq_eq] at h1
    have h2 : (x 0 - σ) ^ 2 ≤ sqLen (x - ![σ, 0, z]) := by
      simp [sqLen, Fin.sum_univ_three]
      nlinarith [sq_nonneg (x 1), sq_nonneg (x 2 - z)]
    rw [hx0.1] at h2
    rcases hσ with rfl | rfl <;> norm_num at h1 h2 <;> linarith
  · intro x hx
    have := exPoles_nodup.sublist hx
    simp at this

theorem exCeiling_clear (a b : ℝ) (ha : |a| ≤ 4) (hb : |b| ≤ 4) :
    exWorld.SurfaceClear exCeiling ![0, 0, -1 / 2] ![a, b, 2] 10 1 := by
  refine ⟨⟨exCeiling, List.Sublist.refl _, by simp [exCeiling], ?_⟩, ?_, fun X hX hl _ => exCeiling_line hX hl⟩
  · intro x hx
    obtain ⟨i, hi, rfl⟩ := List.mem_map.1 hx
    refine ⟨by simp [OnPlane, dotProduct, Fin.sum_univ_three], ?_⟩
    have h1 : ((i % 4 : ℕ) : ℝ) ≤ 3 := by exact_mod_cast (by omega : i % 4 ≤ 3)
    have h2 : ((i / 4 : ℕ) : ℝ) ≤ 3 := by
      have := List.mem_range.1 hi
      exact_mod_cast (by omega : i / 4 ≤ 3)
    have h3 : (0 : ℝ) ≤ ((i % 4 : ℕ) : ℝ) := Nat.cast_nonneg _
    have h4 : (0 : ℝ) ≤ ((i / 4 : ℕ) : ℝ) := Nat.cast_nonneg _
    generalize ((i % 4 : ℕ) : ℝ) = u at *
    generalize ((i / 4 : ℕ) : ℝ) = v at *
    refine vlen_le_of_sq _ (by norm_num) ?_
    rw [abs_le] at ha hb
    simp [sqLen, Fin.sum_univ_three]
    nlinarith
  · intro n' hn' x hx hnot
    simp only [exWorld, List.mem_cons, List.not_mem_nil, or_false] at hn'
    subst hn'
    exact absurd hx hnot

theorem exSeen : exWorld.Seen exPoles exCeiling exScene ⟨1, 0⟩ 10 1 where
  line := by
    intro p hp
    simp only [exScene, List.mem_cons, List.not_mem_nil, or_false] at hp
    rcases hp with rfl | rfl | rfl | rfl <;> simp [exScene, exWorld]
  on_line := by
    intro p hp
    simp only [exScene, List.mem_cons, List.not_mem_nil, or_false] at hp
    refine ⟨p 2, ?_⟩
    funext j
    rcases hp with rfl | rfl | rfl | rfl <;> fin_cases j <;> simp [exScene]
  edge_clear := by
    intro p hp
    simp only [exScene, List.mem_cons, List.not_mem_nil, or_false] at hp
    rcases hp with rfl | rfl | rfl | rfl
    · simpa [exScene] using exPole_clear 10 (.inl rfl) 2 (by norm_num)
    · simpa [exScene] using exPole_clear 10 (.inl rfl) (-2) (by norm_num)
    · simpa [exScene] using exPole_clear (-10) (.inr rfl) 2 (by norm_num)
    · simpa [exScene] using exPole_clear (-10) (.inr rfl) (-2) (by norm_num)
  plane := by
    intro p hp
    simp [exScene, exWorld]
  on_plane := by
    intro p hp
    simp only [exScene, List.mem_cons, List.not_mem_nil, or_false] at hp
    rcases hp with rfl | rfl | rfl | rfl <;> simp [OnPlane, exScene, dotProduct, Fin.sum_univ_three]
  surface_clear := by
    intro p hp
    simp only [exScene, List.mem_cons, List.not_mem_nil, or_false] at hp
    rcases hp with rfl | rfl | rfl | rfl
    · simpa [exScene] using exCeiling_clear 4 4 (by norm_num) (by norm_num)
    · simpa [exScene] using exCeiling_clear 4 (-4) (by norm_num) (by norm_num)
    · simpa [exScene] using exCeiling_clear (-4) 4 (by norm_num) (by norm_num)
    · simpa [exScene] using exCeiling_clear (-4) (-4) (by norm_num) (by norm_num)

theorem exCeiling_on : ∀ x ∈ positions (exCeiling.map fun x => (⟨x, ()⟩ : Pt Unit)),
    ∃ n ∈ exWorld.planes, OnPlane n x := by
  intro x hx
  simp only [positions, List.map_map, List.mem_map, Function.comp] at hx
  obtain ⟨y, hy, rfl⟩ := hx
  obtain ⟨i, -, rfl⟩ := List.mem_map.1 hy
  exact ⟨_, List.mem_cons_self, by simp [OnPlane, dotProduct, Fin.sum_univ_three]⟩

/-- The session meets the conditions: localization starts with its map and stays at the true pose, and from
near poses the error is halved. -/
example {nth : Nth} (hn : Lib.IsNthElement nth) {llt : Llt} (hllt : LltSpec llt) :
    ∃ e s, localizationMain (Q := Unit) id (mappingMain ⟨1, 0⟩ exSession exFs) = .spin e s 40 ∧
      (∃ res, run nth llt (make exLibs (positions e) (positions s) nNeighbors exScene.edges exScene.surfaces) 40
        ⟨1, 0⟩ = .ok res ∧ res.pose = ⟨1, 0⟩ ∧ res.success = true ∧ res.message = .converged ∧ res.error = 0) ∧
      ∃ ε > 0, ∀ T : Pose, IsRotation T.linear → ∀ d, 0 ≤ d → d ≤ ε →
        (∀ x, vlen (T.linear *ᵥ x - (1 : Matrix (Fin 3) (Fin 3) ℝ) *ᵥ x) ≤ d * vlen x) →
        vlen (T.translation - 0) ≤ ε →
        ∃ res, run nth llt (make exLibs (positions e) (positions s) nNeighbors exScene.edges exScene.surfaces) 40 T =
            .ok res ∧ res.message = .converged ∧ res.success = true ∧
          vlen (res.pose.translation - 0) ≤ d / 2 ∧
          ∀ x, vlen (res.pose.linear *ᵥ x - (1 : Matrix (Fin 3) (Fin 3) ℝ) *ᵥ x) ≤
            (d / 2 + 1 / 100000000) * vlen x := by
  obtain ⟨e, s, h, he, hs⟩ := exSession_spin
  have hseen : exWorld.Seen (positions e) (positions s) exScene ⟨1, 0⟩ 10 1 := by
    rw [he, hs]; exact exSeen
  have hsurf : exFs "maps/surface.pcd" = some (.pcd (exCeiling.map fun x => (⟨x, ()⟩ : Pt Unit))) := by
    simp [exFs, save]
  have hne : ∃ m ∈ exSession, m.1 ≠ [] := ⟨_, List.mem_cons_self, by simp⟩
  refine ⟨e, s, h, ?_, ?_⟩
  · exact C141_stays hn hllt (L := exLibs) (S := ⟨1, 0⟩) (r := 10) (g := 1) exKnn_spec exEig_spec exQr_spec
      (conv := id) (fun p => rfl)
      exSession_exact hne hsurf exCeiling_on h (surfaceScan := exScene.surfaces) (c := exScene) rfl
      (.inl (by simp [exScene])) ⟨by simp, by simp⟩ (by norm_num) hseen
  · exact C141_converges hn hllt (L := exLibs) (S := ⟨1, 0⟩) (r := 10) (g := 1) (μ := 1) exKnn_spec exEig_spec
      exQr_spec (conv := id) (fun p => rfl)
      exSession_exact hne hsurf exCeiling_on h (surfaceScan := exScene.surfaces) (c := exScene) rfl
      ⟨by simp, by simp⟩ (by norm_num) hseen exScene_clear.μ_min exScene_clear.observed

end Verif.Loam
