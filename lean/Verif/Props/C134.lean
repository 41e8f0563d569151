/-
C134 near the true pose, one step of the scan matching squares the error.
-/
import Verif.Lemmas.Features
import Verif.Props.C113

set_option autoImplicit false

namespace Verif.Loam

open Matrix Verif.Rot Verif.Opt Verif.Loc Verif.Align

/-- What surrounds the sensor: for every edge point of the scan the line that it lies on, given by a point
and a direction, and for every point of the (downsampled) surface scan the plane `n · x + 1 = 0`. -/
structure Scene where
  edges : List V3
  surfaces : List V3
  anchor : V3 → V3
  dir : V3 → V3
  normal : V3 → V3

/-- The directions have length 1, the normals are not zero. -/
structure Scene.Proper (c : Scene) : Prop where
  dir : ∀ p ∈ c.edges, c.dir p ⬝ᵥ c.dir p = 1
  normal : ∀ p ∈ c.surfaces, c.normal p ≠ 0

/-- Twice the distances of the edge points, moved by the pose, from their lines; the distances of the
surface points from their planes. -/
noncomputable def Scene.offsets (c : Scene) (T : Pose) : List ℝ :=
  (c.edges.map fun p => 2 * vlen (c.dir p ⨯₃ (T.apply p - c.anchor p))) ++
    c.surfaces.map fun p => |c.normal p ⬝ᵥ T.apply p + 1| / vlen (c.normal p)

/-- The velocity of the point `p` for a rate `s` of scaling, `ω` of rotation and `v` of translation. -/
def velocity (R : Matrix (Fin 3) (Fin 3) ℝ) (s : ℝ) (ω v p : V3) : V3 :=
  R *ᵥ ((2 * s) • p + (2 : ℝ) • (ω ⨯₃ p)) + v

/-- The squared rates at which the offsets change. -/
noncomputable def Scene.rates (c : Scene) (R : Matrix (Fin 3) (Fin 3) ℝ) (s : ℝ) (ω v : V3) : ℝ :=
  (c.edges.map fun p => 4 * sqLen (c.dir p ⨯₃ velocity R s ω v p)).sum +
    (c.surfaces.map fun p => (c.normal p ⬝ᵥ velocity R s ω v p) ^ 2 / sqLen (c.normal p)).sum

/-- Of all lines, the line through `a` in direction `u`, and no other, fits the points `X` best. -/
def OnlyLine (X : List V3) (a u : V3) : Prop :=
  ∀ m d : V3, d ⬝ᵥ d = 1 → BestLine X m d → (d = u ∨ d = -u) ∧ OnRay a u m

/-- Near the point `y`, where the edge point `p` is expected, the search finds points that its line fits
best. -/
def Scene.EdgeFound (c : Scene) (knn : Knn) (map : List V3) (p y : V3) : Prop :=
  ∃ X, nearestKSearch knn map y nNeighbors = .ok X ∧ X ≠ [] ∧ OnlyLine X (c.anchor p) (c.dir p)

/-- Near the point `y`, where the surface point `p` is expected, the search finds points, not all of them on
one plane through the origin, whose equations its plane satisfies best. -/
def Scene.SurfaceFound (c : Scene) (knn : Knn) (map : List V3) (p y : V3) : Prop :=
  ∃ X, nearestKSearch knn map y nNeighbors = .ok X ∧ Spanning X ∧
    ∀ v, planeCost X (c.normal p) ≤ planeCost X v

/-- `S` is the true pose, under which every point is within `η` of its line or plane; `T` is the pose to
start from, its rotation wrong by `d` and its translation by `τ`; the lines and planes are those that fit the
points found under `T` best; the points of the scan reach as far as `ρ`; every motion is seen (`μ`); under
`T` no offset is more than `κ` times another, or `κ` times 1e-8 if that is more. -/
structure Scene.Near (c : Scene) (knn : Knn) (edgeMap surfaceMap : List V3) (S T : Pose)
    (d τ η ρ κ μ : ℝ) : Prop where
  proper : c.Proper
  ne_nil : c.edges ≠ [] ∨ c.surfaces ≠ []
  true_rotation : IsRotation S.linear
  rotation : IsRotation T.linear
  d_nonneg : 0 ≤ d
  rotation_error : ∀ x, vlen (T.linear *ᵥ x - S.linear *ᵥ x) ≤ d * vlen x
  translation_error : vlen (T.translation - S.translation) ≤ τ
  noise : ∀ e ∈ c.offsets S, e ≤ 2 * η
  edges : ∀ p ∈ c.edges, c.EdgeFound knn edgeMap p (T.apply p)
  surfaces : ∀ p ∈ c.surfaces, c.SurfaceFound knn surfaceMap p (T.apply p)
  extent : ∀ p ∈ c.edges ++ c.surfaces, vlen p ≤ ρ
  μ_min : 1 / 10 ≤ μ
  observed : ∀ (s : ℝ) (ω v : V3), μ * (s ^ 2 + sqLen ω + sqLen v) ≤ c.rates T.linear s ω v
  κ_one : 1 ≤ κ
  ratio : ∀ e ∈ c.offsets T, ∀ e' ∈ c.offsets T, e ≤ κ * max e' (1 / 10 ^ 8)
  finite : 8 * (c.edges.length + c.surfaces.length) * (ρ * d + τ + η) ^ 2 ≤ dblMax

/-! ### The blocks -/

theorem hat_mulVec' (a v : V3) : hat a *ᵥ v = a ⨯₃ v := by
  rw [cross_apply]
  funext i
  fin_cases i <;> simp [hat, mulVec, dotProduct, Fin.sum_univ_succ] <;> ring

theorem parallel_of_two {a u m d x y : V3} (hxy : x ≠ y) (hx : OnRay a u x) (hy : OnRay a u y)
    (hx' : OnRay m d x) (hy' : OnRay m d y) (hu : u ⬝ᵥ u = 1) (hd : d ⬝ᵥ d = 1) :
    (d = u ∨ d = -u) ∧ OnRay a u m := by
  obtain ⟨s, rfl⟩ := hx
  obtain ⟨t, rfl⟩ := hy
  obtain ⟨s', hs'⟩ := hx'
  obtain ⟨t', ht'⟩ := hy'
  have h1 : (s - t) • u = (s' - t') • d := by
    rw [sub_smul, sub_smul]
    have : (a + s • u) - (a + t • u) = (m + s' • d) - (m + t' • d) := by rw [hs', ht']
    rw [add_sub_add_left_eq_sub, add_sub_add_left_eq_sub] at this
    exact this
  have hst : s - t ≠ 0 := by
    intro h
    apply hxy
    rw [sub_eq_zero.1 h]
  have h2 : (s - t) ^ 2 = (s' - t') ^ 2 := by
    have := congrArg (fun w => w ⬝ᵥ w) h1
    simp only [smul_dotProduct, dotProduct_smul, hu, hd, smul_eq_mul] at this
    nlinarith
  have hdu : d = u ∨ d = -u := by
    rcases sq_eq_sq_iff_eq_or_eq_neg.1 h2.symm with h | h
    · left
      rw [h] at h1
      exact (smul_right_injective _ hst h1).symm
    · right
      rw [h, neg_smul, ← smul_neg] at h1
      rw [smul_right_injective _ hst h1, neg_neg]
  refine ⟨hdu, ?_⟩
  rcases hdu with rfl | rfl
  · exact ⟨s - s', by rw [sub_smul, ← add_sub_assoc, hs', add_sub_cancel_right]⟩
  · refine ⟨s + s', ?_⟩
    rw [smul_neg] at hs'
    rw [add_smul, ← add_assoc, hs', neg_add_cancel_right]

theorem cross_line {a u m d : V3} (hd : d = u ∨ d = -u) (hm : OnRay a u m) (z : V3) :
    d ⨯₃ (z - m) = d ⨯₃ (z - a) := by
  obtain ⟨t, rfl⟩ := hm
  have e : z - (a + t • u) = (z - a) - t • u := by abel
  rw [e, map_sub, map_smul]
  rcases hd with rfl | rfl
  · rw [cross_self, smul_zero, sub_zero]
  · rw [map_neg, LinearMap.neg_apply, LinearMap.neg_apply, cross_self, neg_zero, smul_zero, sub_zero]

/-- Points of a line, not all of them the same, are fitted best by that line. -/
theorem onlyLine_of_line {X : List V3} {a u : V3} (hu : u ⬝ᵥ u = 1) (hX : ∀ x ∈ X, OnRay a u x) {x y : V3}
    (hx : x ∈ X) (hy : y ∈ X) (hxy : x ≠ y) : OnlyLine X a u := by
  intro m d hd hbest
  have hc := bestLine_collinear hbest hX
  exact parallel_of_two hxy (hX x hx) (hX y hy) (hc x hx) (hc y hy) hu hd

/-- Points of a plane are fitted best by that plane. -/
theorem planeCost_of_plane {X : List V3} {n : V3} (hX : ∀ x ∈ X, OnPlane n x) (v : V3) :
    planeCost X n ≤ planeCost X v := by
  have h0 : planeCost X n = 0 := by
    unfold planeCost
    refine List.sum_eq_zero fun y hy => ?_
    obtain ⟨x, hx, rfl⟩ := List.mem_map.1 hy
    have := hX x hx
    unfold OnPlane at this
    rw [this]
    norm_num
  rw [h0]
  refine List.sum_nonneg fun y hy => ?_
  obtain ⟨x, -, rfl⟩ := List.mem_map.1 hy
  exact sq_nonneg _

/-- The feature of an edge point. -/
def edgeFeature (p m d : V3) : Feature := ⟨3, hat ((m + d) - (m - d)), p, (m - d) ⨯₃ (m + d)⟩

theorem edgeFeature_residual (p m d : V3) (T : Pose) :
    (edgeFeature p m d).residual T = cross (T.apply p - (m - d)) (T.apply p - (m + d)) := by
  show hat ((m + d) - (m - d)) *ᵥ T.apply p + (m - d) ⨯₃ (m + d) = _
  rw [hat_mulVec']
  generalize T.apply p = y
  rw [cross_apply, cross_apply]
  funext i
  fin_cases i <;> simp [cross] <;> ring

theorem edgeFeature_A (p m d v : V3) : (edgeFeature p m d).A *ᵥ v = (2 : ℝ) • (d ⨯₃ v) := by
  show hat ((m + d) - (m - d)) *ᵥ v = _
  rw [hat_mulVec', show (m + d) - (m - d) = (2 : ℝ) • d by rw [two_smul]; abel, map_smul, LinearMap.smul_apply]

theorem edgeFeature_offset (p m d : V3) (T : Pose) :
    (edgeFeature p m d).residual T = (2 : ℝ) • (d ⨯₃ (T.apply p - m)) := by
  rw [edgeFeature_residual]
  generalize T.apply p = y
  rw [cross_apply]
  funext i
  fin_cases i <;> simp [cross] <;> ring

theorem vlen_cross_neg (a b : V3) : vlen ((-a) ⨯₃ b) = vlen (a ⨯₃ b) := by
  rw [map_neg, LinearMap.neg_apply, vlen_neg]

theorem edge_feature {L : Libs} (he : EigSpec L.eig) (c : Scene) {map : List V3} {T : Pose}
    {p : V3}
    (h : c.EdgeFound L.knn map p (T.apply p)) :
    ∃ f : Feature, edgeBlock L.knn L.eig map nNeighbors T p = .ok ((f.block T).jac, (f.block T).res) ∧ f.x = p ∧
      (∀ v, vlen (f.A *ᵥ v) = 2 * vlen (c.dir p ⨯₃ v)) ∧
      ∀ T' : Pose, vlen (f.residual T') = 2 * vlen (c.dir p ⨯₃ (T'.apply p - c.anchor p)) := by
  obtain ⟨X, hX, hne, honly⟩ := h
  obtain ⟨m, C, hmc, hd, hbest⟩ := C81_best_line he X hne
  set d : V3 := fun i => (L.eig C).2 i 2 with hddef
  obtain ⟨hdu, hm⟩ := honly m d hd hbest
  have hmove := cross_line hdu hm
  have hsign : ∀ v, vlen (d ⨯₃ v) = vlen (c.dir p ⨯₃ v) := by
    intro v
    rcases hdu with h | h
    · rw [h]
    · rw [h, vlen_cross_neg]
  refine ⟨edgeFeature p m d, ?_, rfl, fun v => ?_, fun T' => ?_⟩
  · have hb : edgeBlock L.knn L.eig map nNeighbors T p =
        .ok (⟨3, 7, makeEdgeJacobianRow (Quat.ofMatrix T.linear) p (m - d) (m + d)⟩,
          ⟨3, makeEdgeResidual T p (m - d) (m + d)⟩) := by
      unfold edgeBlock
      simp only [hX, hmc, finite, bind, Except.bind, pure, Except.pure]
      rfl
    rw [hb]
    have e1 : makeEdgeJacobianRow (Quat.ofMatrix T.linear) p (m - d) (m + d) =
        (edgeFeature p m d).A * alignmentJacobian (Quat.ofMatrix T.linear) p := by
      unfold makeEdgeJacobianRow alignmentJacobian
      rw [mul_hcat, Matrix.mul_one]
      rfl
    have e2 : makeEdgeResidual T p (m - d) (m + d) = (edgeFeature p m d).residual T := by
      rw [edgeFeature_residual]
      rfl
    rw [e1, e2]
    rfl
  · rw [edgeFeature_A]
    show vlen ((2 : ℝ) • (d ⨯₃ v) : V3) = _
    rw [vlen_smul, hsign, abs_of_pos (by norm_num)]
  · rw [edgeFeature_offset]
    show vlen ((2 : ℝ) • (d ⨯₃ (T'.apply p - m)) : V3) = _
    rw [vlen_smul, hmove, hsign, abs_of_pos (by norm_num)]

/-- The feature of a surface point. -/
noncomputable def surfaceFeature (p n : V3) : Feature :=
  ⟨1, Matrix.of fun _ i => n i / Rot.norm n, p, fun _ => 1 / Rot.norm n⟩

theorem vlen_one (r : Fin 1 → ℝ) : vlen r = |r 0| := by
  unfold vlen
  rw [Fin.sum_univ_one, Real.sqrt_sq_eq_abs]

theorem surfaceFeature_A (p n v : V3) : (surfaceFeature p n).A *ᵥ v = fun _ => (n ⬝ᵥ v) / Rot.norm n := by
  funext i
  show (fun j => n j / Rot.norm n) ⬝ᵥ v = _
  simp only [dotProduct, Fin.sum_univ_three]
  ring

theorem surfaceFeature_residual (p n : V3) (T : Pose) :
    (surfaceFeature p n).residual T = fun _ => (n ⬝ᵥ T.apply p + 1) / Rot.norm n := by
  show (surfaceFeature p n).A *ᵥ T.apply p + _ = _
  rw [surfaceFeature_A]
  funext i
  show (n ⬝ᵥ T.apply p) / Rot.norm n + 1 / Rot.norm n = _
  ring

theorem vlen_pos {n : ℕ} {v : Fin n → ℝ} (h : v ≠ 0) : 0 < vlen v := by
  refine lt_of_le_of_ne (vlen_nonneg _) fun h0 => h ?_
  apply sqLen_eq_zero
  rw [← vlen_sq_eq, ← h0]
  norm_num

theorem surface_feature {L : Libs} (hqr : QrSpec L.qr) (c : Scene) {map : List V3} {T : Pose} {p : V3}
    (hn : c.normal p ≠ 0) (h : c.SurfaceFound L.knn map p (T.apply p)) :
    ∃ f : Feature, surfaceBlock L.knn L.qr map nNeighbors T p = .ok ((f.block T).jac, (f.block T).res) ∧ f.x = p ∧
      (∀ v, vlen (f.A *ᵥ v) = |c.normal p ⬝ᵥ v| / vlen (c.normal p)) ∧
      ∀ T' : Pose, vlen (f.residual T') = |c.normal p ⬝ᵥ T'.apply p + 1| / vlen (c.normal p) := by
  obtain ⟨X, hX, hspan, hfit⟩ := h
  have hest : estimatePlaneCoefficients L.qr X = .ok (c.normal p) := by
    obtain ⟨w, h1, h2⟩ := C82_least_squares hqr X hspan
    rw [h1]
    by_contra hne
    have := h2 (c.normal p) fun e => hne (by rw [e])
    exact absurd (hfit w) (not_le.2 this)
  set n := c.normal p
  have hn0 := vlen_pos hn
  have hnorm : Rot.norm n ≠ 0 := by rw [norm_eq_vlen]; exact hn0.ne'
  refine ⟨surfaceFeature p n, ?_, rfl, fun v => ?_, fun T' => ?_⟩
  · have hb : surfaceBlock L.knn L.qr map nNeighbors T p =
        .ok (⟨1, 7, hcat ((Matrix.of fun _ i => n i / Rot.norm n : Matrix (Fin 1) (Fin 3) ℝ) *
          dRpDq (Quat.ofMatrix T.linear) p) (Matrix.of fun _ i => n i / Rot.norm n)⟩,
          ⟨1, fun _ => (n ⬝ᵥ T.apply p + planeBias) / Rot.norm n⟩) := by
      unfold surfaceBlock
      simp only [hX, hest, bind, Except.bind, makeJacobianRow, if_neg hnorm, finite, signedPointPlaneDistance]
      rfl
    rw [hb]
    have e1 : hcat ((Matrix.of fun _ i => n i / Rot.norm n : Matrix (Fin 1) (Fin 3) ℝ) *
          dRpDq (Quat.ofMatrix T.linear) p) (Matrix.of fun _ i => n i / Rot.norm n) =
        (surfaceFeature p n).A * alignmentJacobian (Quat.ofMatrix T.linear) p := by
      unfold alignmentJacobian
      rw [mul_hcat, Matrix.mul_one]
      rfl
    have e2 : (fun _ : Fin 1 => (n ⬝ᵥ T.apply p + planeBias) / Rot.norm n) = (surfaceFeature p n).residual T := by
      rw [surfaceFeature_residual]
      rfl
    rw [e1, e2]
    rfl
  · rw [surfaceFeature_A]
    show vlen (fun _ : Fin 1 => (n ⬝ᵥ v) / Rot.norm n) = _
    rw [vlen_one, abs_div, norm_eq_vlen, abs_of_pos hn0]
  · rw [surfaceFeature_residual]
    show vlen (fun _ : Fin 1 => (n ⬝ᵥ T'.apply p + 1) / Rot.norm n) = _
    rw [vlen_one, abs_div, norm_eq_vlen, abs_of_pos hn0]

theorem mapM_ok {α β : Type} (l : List α) (f : α → Res β) (g : α → β) (h : ∀ x ∈ l, f x = .ok (g x)) :
    l.mapM f = .ok (l.map g) := by
  induction l with
  | nil => rfl
  | cons x l ih =>
    rw [List.mapM_cons, h x List.mem_cons_self, ih fun z hz => h z (List.mem_cons_of_mem _ hz)]
    rfl

/-- The features that stand for a scene. -/
structure Stands (c : Scene) (fs : List Feature) : Prop where
  length : fs.length = c.edges.length + c.surfaces.length
  seen : ∀ R s ω v, seen fs R s ω v = c.rates R s ω v
  errors : ∀ T : Pose, fs.map (fun f => vlen (f.residual T)) = c.offsets T
  points : ∀ f ∈ fs, f.x ∈ c.edges ++ c.surfaces
  gain : ∀ f ∈ fs, ∀ v, vlen (f.A *ᵥ v) ≤ 2 * vlen v

theorem stands {L : Libs} (he : EigSpec L.eig) (hqr : QrSpec L.qr) {c : Scene}
    (hp : c.Proper) {edgeMap surfaceMap surfaceScan : List V3} (hs : L.downsample surfaceScan = c.surfaces) {T : Pose}
    (hE : ∀ p ∈ c.edges, c.EdgeFound L.knn edgeMap p (T.apply p))
    (hS : ∀ p ∈ c.surfaces, c.SurfaceFound L.knn surfaceMap p (T.apply p)) :
    ∃ fs, Stands c fs ∧ make L edgeMap surfaceMap nNeighbors c.edges surfaceScan T =
      .ok ((fs.map (Feature.block T)).map Block.jac, (fs.map (Feature.block T)).map Block.res) := by
  have h1 : ∀ p, ∃ f : Feature, p ∈ c.edges →
      edgeBlock L.knn L.eig edgeMap nNeighbors T p = .ok ((f.block T).jac, (f.block T).res) ∧ f.x = p ∧
      (∀ v, vlen (f.A *ᵥ v) = 2 * vlen (c.dir p ⨯₃ v)) ∧
      ∀ T' : Pose, vlen (f.residual T') = 2 * vlen (c.dir p ⨯₃ (T'.apply p - c.anchor p)) := by
    intro p
    by_cases h : p ∈ c.edges
    · obtain ⟨f, hf⟩ := edge_feature he c (hE p h)
      exact ⟨f, fun _ => hf⟩
    · exact ⟨surfaceFeature 0 0, fun h' => absurd h' h⟩
  have h2 : ∀ p, ∃ f : Feature, p ∈ c.surfaces →
      surfaceBlock L.knn L.qr surfaceMap nNeighbors T p = .ok ((f.block T).jac, (f.block T).res) ∧ f.x = p ∧
      (∀ v, vlen (f.A *ᵥ v) = |c.normal p ⬝ᵥ v| / vlen (c.normal p)) ∧
      ∀ T' : Pose, vlen (f.residual T') = |c.normal p ⬝ᵥ T'.apply p + 1| / vlen (c.normal p) := by
    intro p
    by_cases h : p ∈ c.surfaces
    · obtain ⟨f, hf⟩ := surface_feature hqr c (hp.normal p h) (hS p h)
      exact ⟨f, fun _ => hf⟩
    · exact ⟨surfaceFeature 0 0, fun h' => absurd h' h⟩
  choose F hF using h1
  choose G hG using h2
  refine ⟨c.edges.map F ++ c.surfaces.map G, ⟨by simp, fun R s ω v => ?_, fun T' => ?_, fun f hf => ?_, fun f hf v => ?_⟩, ?_⟩
  · unfold Align.seen Scene.rates
    rw [List.map_append, List.sum_append, List.map_map, List.map_map]
    congr 2
    · refine List.map_congr_left fun p hp => ?_
      obtain ⟨-, hx, hA, -⟩ := hF p hp
      show sqLen ((F p).A *ᵥ (R *ᵥ ((2 * s) • (F p).x + (2 : ℝ) • (ω ⨯₃ (F p).x)) + v)) = _
      rw [← vlen_sq_eq, hA, hx, mul_pow, vlen_sq_eq]
      norm_num [velocity]
    · refine List.map_congr_left fun p hp => ?_
      obtain ⟨-, hx, hA, -⟩ := hG p hp
      show sqLen ((G p).A *ᵥ (R *ᵥ ((2 * s) • (G p).x + (2 : ℝ) • (ω ⨯₃ (G p).x)) + v)) = _
      rw [← vlen_sq_eq, hA, hx, div_pow, sq_abs, vlen_sq_eq]
      rfl
  · unfold Scene.offsets
    rw [List.map_append, List.map_map, List.map_map]
    congr 1
    · exact List.map_congr_left fun p hp => (hF p hp).2.2.2 T'
    · exact List.map_congr_left fun p hp => (hG p hp).2.2.2 T'
  · rcases List.mem_append.1 hf with hf | hf
    · obtain ⟨p, hp, rfl⟩ := List.mem_map.1 hf
      rw [(hF p hp).2.1]
      exact List.mem_append_left _ hp
    · obtain ⟨p, hp, rfl⟩ := List.mem_map.1 hf
      rw [(hG p hp).2.1]
      exact List.mem_append_right _ hp
  · rcases List.mem_append.1 hf with hf | hf
    · obtain ⟨p, hp', rfl⟩ := List.mem_map.1 hf
      rw [(hF p hp').2.2.1]
      have h1 := vlen_cross_le (c.dir p) v
      have h2 : vlen (c.dir p) = 1 := by
        rw [← norm_eq_vlen, Rot.norm, hp.dir p hp', Real.sqrt_one]
      rw [h2] at h1
      linarith
    · obtain ⟨p, hp', rfl⟩ := List.mem_map.1 hf
      rw [(hG p hp').2.2.1, div_le_iff₀ (vlen_pos (hp.normal p hp'))]
      have h1 : |c.normal p ⬝ᵥ v| ≤ vlen (c.normal p) * vlen v := by
        refine abs_le_of_sq_le_sq ?_ (mul_nonneg (vlen_nonneg _) (vlen_nonneg _))
        rw [mul_pow, vlen_sq_eq, vlen_sq_eq]
        exact dot_sq_le _ _
      nlinarith [mul_nonneg (vlen_nonneg (c.normal p)) (vlen_nonneg v)]
  · unfold make edgeMake surfaceMake
    rw [hs, mapM_ok c.edges _ _ fun p hp => (hF p hp).1, mapM_ok c.surfaces _ _ fun p hp => (hG p hp).1]
    simp only [bind, Except.bind, pure, Except.pure, List.map_map, List.map_append]
    rfl

theorem near_of {c : Scene} {knn : Knn} {edgeMap surfaceMap : List V3} {S T : Pose} {d τ η ρ κ μ : ℝ}
    (h : c.Near knn edgeMap surfaceMap S T d τ η ρ κ μ) {fs : List Feature} (hfs : Stands c fs) :
    Align.Near fs S T d τ (2 * η) ρ 2 κ μ where
  ne_nil := by
    rw [← List.length_pos_iff, hfs.length]
    rcases h.ne_nil with h | h
    · have := List.length_pos_iff.2 h
      omega
    · have := List.length_pos_iff.2 h
      omega
  true_rotation := h.true_rotation
  rotation := h.rotation
  d_nonneg := h.d_nonneg
  rotation_error := h.rotation_error
  translation_error := h.translation_error
  noise := fun f hf => h.noise _ (by
    rw [← hfs.errors]
    exact List.mem_map_of_mem (f := fun f : Feature => vlen (f.residual S)) hf)
  extent := fun f hf => h.extent _ (hfs.points f hf)
  α_nonneg := by norm_num
  gain := hfs.gain
  μ_min := h.μ_min
  observed := fun s ω v => by
    rw [hfs.seen]
    exact h.observed s ω v
  κ_one := h.κ_one
  scale := by
    intro s hs e he e' he'
    obtain ⟨f, hf, rfl⟩ := List.mem_map.1 he
    obtain ⟨f', hf', rfl⟩ := List.mem_map.1 he'
    have hm : ∀ f ∈ fs, vlen (f.residual T) ∈ c.offsets T := fun f hf => by
      rw [← hfs.errors]
      exact List.mem_map_of_mem (f := fun f : Feature => vlen (f.residual T)) hf
    have h1 := h.ratio _ (hm f hf) _ (hm f' hf')
    have hs0 : 0 ≤ s := (isScale_bounds (hi := (featureErrors fs T).sum) (by
      intro e he
      have hnn : ∀ e ∈ featureErrors fs T, 0 ≤ e := by
        intro e he
        obtain ⟨f, -, rfl⟩ := List.mem_map.1 he
        exact sq_nonneg _
      exact ⟨hnn e he, List.single_le_sum hnn e he⟩) hs).1
    have hκ := lt_of_lt_of_le one_pos h.κ_one
    have h2 := pow_le_pow_left₀ (vlen_nonneg _) h1 2
    rw [mul_pow] at h2
    refine h2.trans (mul_le_mul_of_nonneg_left ?_ (sq_nonneg _))
    rcases le_total (vlen (f'.residual T)) (1 / 10 ^ 8) with h3 | h3
    · rw [max_eq_right h3]
      refine le_trans ?_ (le_max_right _ _)
      norm_num
      linarith
    · rw [max_eq_left h3]
      exact le_max_left _ _
  finite := by
    rw [hfs.length]
    push_cast
    have := h.finite
    nlinarith

/-! ### The step -/

/-- C134: one iteration of scan matching, started from a pose that is wrong by `d` in rotation and `τ` in
translation, returns a pose that is wrong by at most `B = (4ρd² + 8η) √(nκ/μ)` in translation and
`B + (d + B)² + d²/2 + 1e-8` in rotation: for exact points the error is squared. It does not depend on `τ`. -/
theorem C134_step {nth : Nth} (hn : Lib.IsNthElement nth) {llt : Llt} (hllt : LltSpec llt) {L : Libs}
    (he : EigSpec L.eig) (hqr : QrSpec L.qr) (edgeMap surfaceMap surfaceScan : List V3)
    (c : Scene) (hs : L.downsample surfaceScan = c.surfaces) (S T : Pose) (d τ η ρ κ μ : ℝ)
    (h : c.Near L.knn edgeMap surfaceMap S T d τ η ρ κ μ) :
    let B := (4 * ρ * d ^ 2 + 8 * η) * Real.sqrt ((c.edges.length + c.surfaces.length) * κ / μ)
    ∃ r, run nth llt (make L edgeMap surfaceMap nNeighbors c.edges surfaceScan) 1 T = .ok r ∧
      vlen (r.pose.translation - S.translation) ≤ B ∧
      ∀ x, vlen (r.pose.linear *ᵥ x - S.linear *ᵥ x) ≤
        (B + (d + B) ^ 2 + d ^ 2 / 2 + 1 / 100000000) * vlen x := by
  obtain ⟨fs, hfs, hmake⟩ := stands he hqr h.proper hs h.edges h.surfaces
  obtain ⟨r, h1, h2, h3⟩ := ((near_of h hfs).run hn hllt _ hmake).1
  have e : after fs.length d (2 * η) ρ 2 κ μ =
      (4 * ρ * d ^ 2 + 8 * η) * Real.sqrt ((c.edges.length + c.surfaces.length) * κ / μ) := by
    unfold after
    rw [hfs.length]
    push_cast
    ring
  unfold afterR at h3
  rw [e] at h2 h3
  exact ⟨r, h1, h2, h3⟩

/-- C134: if the errors are small enough for the step to pass the test of convergence, that pose is the
result, for every limit of at least one iteration, and is reported as converged. -/
theorem C134_converges {nth : Nth} (hn : Lib.IsNthElement nth) {llt : Llt} (hllt : LltSpec llt) {L : Libs}
    (he : EigSpec L.eig) (hqr : QrSpec L.qr) (edgeMap surfaceMap surfaceScan : List V3)
    (c : Scene) (hs : L.downsample surfaceScan = c.surfaces) (S T : Pose) (d τ η ρ κ μ : ℝ)
    (h : c.Near L.knn edgeMap surfaceMap S T d τ η ρ κ μ) :
    let B := (4 * ρ * d ^ 2 + 8 * η) * Real.sqrt ((c.edges.length + c.surfaces.length) * κ / μ)
    d + B < 1 / 1000 → τ + B < 1 / 1000 → ∀ maxIter : ℤ, 1 ≤ maxIter →
    ∃ r, run nth llt (make L edgeMap surfaceMap nNeighbors c.edges surfaceScan) maxIter T = .ok r ∧
      r.message = .converged ∧ r.success = true ∧ r.iteration = 0 ∧
      vlen (r.pose.translation - S.translation) ≤ B ∧
      ∀ x, vlen (r.pose.linear *ᵥ x - S.linear *ᵥ x) ≤
        (B + (d + B) ^ 2 + d ^ 2 / 2 + 1 / 100000000) * vlen x := by
  obtain ⟨fs, hfs, hmake⟩ := stands he hqr h.proper hs h.edges h.surfaces
  have hr := ((near_of h hfs).run hn hllt _ hmake).2
  have e : after fs.length d (2 * η) ρ 2 κ μ =
      (4 * ρ * d ^ 2 + 8 * η) * Real.sqrt ((c.edges.length + c.surfaces.length) * κ / μ) := by
    unfold after
    rw [hfs.length]
    push_cast
    ring
  unfold afterR at hr
  rw [e] at hr
  exact hr

/-! ### A neighbourhood of the true pose -/

theorem sqLen_perturbed {n : ℕ} (a e : Fin n → ℝ) {t : ℝ} (h0 : 0 < t) :
    (1 - t) * sqLen a - sqLen e / t ≤ sqLen (a + e) := by
  have h1 : sqLen (a + e) = sqLen a + 2 * (a ⬝ᵥ e) + sqLen e := by
    simp only [sqLen_eq, add_dotProduct, dotProduct_add]
    rw [dotProduct_comm e a]
    ring
  have h2 := sqLen_nonneg (t • a + e)
  have h3 : sqLen (t • a + e) = t ^ 2 * sqLen a + 2 * t * (a ⬝ᵥ e) + sqLen e := by
    simp only [sqLen_eq, add_dotProduct, dotProduct_add, smul_dotProduct, dotProduct_smul, smul_eq_mul]
    rw [dotProduct_comm e a]
    ring
  rw [h3] at h2
  have h4 := sqLen_nonneg e
  have h5 : 0 ≤ (t ^ 2 * sqLen a + 2 * t * (a ⬝ᵥ e) + sqLen e) / t := by positivity
  have h6 : (t ^ 2 * sqLen a + 2 * t * (a ⬝ᵥ e) + sqLen e) / t =
      t * sqLen a + 2 * (a ⬝ᵥ e) + sqLen e / t := by
    field_simp
  rw [h6] at h5
  rw [h1]
  linarith

theorem seen_moved (fs : List Feature) {α ρ d t : ℝ} (hα : 0 ≤ α) (hd : 0 ≤ d)
    (hgain : ∀ f ∈ fs, ∀ v, vlen (f.A *ᵥ v) ≤ α * vlen v) (hext : ∀ f ∈ fs, vlen f.x ≤ ρ)
    {R R' : Matrix (Fin 3) (Fin 3) ℝ} (hR : ∀ x, vlen (R' *ᵥ x - R *ᵥ x) ≤ d * vlen x) (h0 : 0 < t)
    (s : ℝ) (ω v : V3) :
    (1 - t) * seen fs R s ω v - fs.length * (8 * α ^ 2 * d ^ 2 * ρ ^ 2 / t) * (s ^ 2 + sqLen ω) ≤
      seen fs R' s ω v := by
  induction fs with
  | nil => simp [seen]
  | cons f fs ih =>
    have ih := ih (fun g hg => hgain g (List.mem_cons_of_mem _ hg)) fun g hg => hext g (List.mem_cons_of_mem _ hg)
    unfold seen at ih ⊢
    rw [List.map_cons, List.map_cons, List.sum_cons, List.sum_cons, List.length_cons]
    push_cast
    set z := (2 * s) • f.x + (2 : ℝ) • (ω ⨯₃ f.x) with hz
    have h1 := sqLen_perturbed (f.A *ᵥ (R *ᵥ z + v)) (f.A *ᵥ (R' *ᵥ z - R *ᵥ z)) h0
    have e : f.A *ᵥ (R *ᵥ z + v) + f.A *ᵥ (R' *ᵥ z - R *ᵥ z) = f.A *ᵥ (R' *ᵥ z + v) := by
      rw [← mulVec_add]
      congr 1
      abel
    rw [e] at h1
    have hx := hext f List.mem_cons_self
    have hρ : 0 ≤ ρ := (vlen_nonneg _).trans hx
    have h2 : vlen z ≤ 2 * ρ * (|s| + vlen ω) := by
      have a1 := vlen_add_le ((2 * s) • f.x) ((2 : ℝ) • (ω ⨯₃ f.x))
      rw [vlen_smul, vlen_smul, abs_mul, abs_of_pos (by norm_num : (0 : ℝ) < 2)] at a1
      have a2 := vlen_cross_le ω f.x
      have a3 := mul_le_mul_of_nonneg_left hx (abs_nonneg s)
      have a4 := mul_le_mul_of_nonneg_left hx (vlen_nonneg ω)
      nlinarith
    have h3 : sqLen (f.A *ᵥ (R' *ᵥ z - R *ᵥ z)) ≤ 8 * α ^ 2 * d ^ 2 * ρ ^ 2 * (s ^ 2 + sqLen ω) := by
      have b1 := hgain f List.mem_cons_self (R' *ᵥ z - R *ᵥ z)
      have b2 := mul_le_mul_of_nonneg_left (hR z) hα
      have b3 := mul_le_mul_of_nonneg_left h2 (mul_nonneg hα hd)
      have b4 : vlen (f.A *ᵥ (R' *ᵥ z - R *ᵥ z)) ≤ α * d * (2 * ρ * (|s| + vlen ω)) := by linarith
      have b5 := pow_le_pow_left₀ (vlen_nonneg _) b4 2
      rw [vlen_sq_eq] at b5
      have b6 : (|s| + vlen ω) ^ 2 ≤ 2 * (s ^ 2 + sqLen ω) := by
        rw [← vlen_sq_eq, ← sq_abs s]
        nlinarith [sq_nonneg (|s| - vlen ω)]
      have b7 := mul_le_mul_of_nonneg_left b6 (by positivity : 0 ≤ 4 * α ^ 2 * d ^ 2 * ρ ^ 2)
      linarith
    have h4 := div_le_div_of_nonneg_right h3 h0.le
    have h5 : 8 * α ^ 2 * d ^ 2 * ρ ^ 2 * (s ^ 2 + sqLen ω) / t =
        8 * α ^ 2 * d ^ 2 * ρ ^ 2 / t * (s ^ 2 + sqLen ω) := by ring
    rw [h5] at h4
    linarith

/-- `S` is the true pose: every point lies exactly on its line or plane; wherever a point is expected within
`g` of where it is, its line or plane fits the points found best; every motion is seen. -/
structure Scene.Clear (c : Scene) (knn : Knn) (edgeMap surfaceMap : List V3) (S : Pose) (g μ : ℝ) : Prop where
  proper : c.Proper
  rotation : IsRotation S.linear
  exact : ∀ e ∈ c.offsets S, e = 0
  g_pos : 0 < g
  edges : ∀ p ∈ c.edges, ∀ y, vlen (y - S.apply p) ≤ g → c.EdgeFound knn edgeMap p y
  surfaces : ∀ p ∈ c.surfaces, ∀ y, vlen (y - S.apply p) ≤ g → c.SurfaceFound knn surfaceMap p y
  μ_min : 1 / 10 < μ
  observed : ∀ (s : ℝ) (ω v : V3), μ * (s ^ 2 + sqLen ω + sqLen v) ≤ c.rates S.linear s ω v

theorem moved_close {S T : Pose} {d τ ρ : ℝ} (hd0 : 0 ≤ d)
    (hd : ∀ x, vlen (T.linear *ᵥ x - S.linear *ᵥ x) ≤ d * vlen x)
    (hτ : vlen (T.translation - S.translation) ≤ τ) {x : V3} (hx : vlen x ≤ ρ) :
    vlen (T.apply x - S.apply x) ≤ ρ * d + τ := by
  have e : T.apply x - S.apply x = (T.linear *ᵥ x - S.linear *ᵥ x) + (T.translation - S.translation) := by
    simp only [Pose.apply]
    abel
  rw [e]
  have h1 := vlen_add_le (T.linear *ᵥ x - S.linear *ᵥ x) (T.translation - S.translation)
  have h2 := mul_le_mul_of_nonneg_left hx hd0
  linarith [hd x]

/-- Close to the true pose, everything that the theorems need. -/
theorem near_clear {L : Libs} (he : EigSpec L.eig) (hqr : QrSpec L.qr) {c : Scene}
    {edgeMap surfaceMap surfaceScan : List V3} (hs : L.downsample surfaceScan = c.surfaces) {S T : Pose} {g μ : ℝ}
    (h : c.Clear L.knn edgeMap surfaceMap S g μ) (hT : IsRotation T.linear) {d τ ρ : ℝ} (hd0 : 0 ≤ d)
    (hd : ∀ x, vlen (T.linear *ᵥ x - S.linear *ᵥ x) ≤ d * vlen x)
    (hτ : vlen (T.translation - S.translation) ≤ τ) (hρ0 : 0 ≤ ρ) (hρ : ∀ p ∈ c.edges ++ c.surfaces, vlen p ≤ ρ)
    (hg : ρ * d + τ ≤ g)
    (hsmall : (c.edges.length + c.surfaces.length) * (64 * d ^ 2 * ρ ^ 2) * μ ≤ (μ - 1 / 10) ^ 2 / 2)
    (hfin : 8 * (c.edges.length + c.surfaces.length) * (ρ * d + τ + 0) ^ 2 ≤ dblMax) :
    c.Near L.knn edgeMap surfaceMap S T d τ 0 ρ (1 + 2 * 10 ^ 8 * (ρ * d + τ)) (1 / 10) := by
  have hE : ∀ p ∈ c.edges, c.EdgeFound L.knn edgeMap p (T.apply p) := fun p hp =>
    h.edges p hp _ ((moved_close hd0 hd hτ (hρ p (List.mem_append_left _ hp))).trans hg)
  have hS : ∀ p ∈ c.surfaces, c.SurfaceFound L.knn surfaceMap p (T.apply p) := fun p hp =>
    h.surfaces p hp _ ((moved_close hd0 hd hτ (hρ p (List.mem_append_right _ hp))).trans hg)
  obtain ⟨fs, hfs, -⟩ := stands (surfaceScan := surfaceScan) he hqr h.proper hs hE hS
  have hμ := h.μ_min
  have hτ0 : 0 ≤ τ := (vlen_nonneg _).trans hτ
  have hκ0 : 0 ≤ 2 * 10 ^ 8 * (ρ * d + τ) := by positivity
  have hμ0 : 0 < μ := by linarith
  refine ⟨h.proper, ?_, h.rotation, hT, hd0, hd, hτ, fun e he => by rw [h.exact e he]; norm_num, hE, hS, hρ,
    le_refl _, fun s ω v => ?_, by linarith, fun e he' e' _ => ?_, hfin⟩
  · by_contra hcon
    rw [not_or, not_not, not_not] at hcon
    have := h.observed 1 0 0
    rw [Scene.rates, hcon.1, hcon.2] at this
    simp [sqLen] at this
    linarith
  · rw [← hfs.seen]
    set t := (μ - 1 / 10) / (2 * μ) with ht
    have ht0 : 0 < t := by
      rw [ht]
      exact div_pos (by linarith) (by linarith)
    have h1 := seen_moved fs (α := 2) (ρ := ρ) (by norm_num) hd0 hfs.gain
      (fun f hf => hρ _ (hfs.points f hf)) hd ht0 s ω v
    rw [hfs.seen S.linear, hfs.length] at h1
    push_cast at h1
    have h2 := h.observed s ω v
    have hQ1 : 0 ≤ s ^ 2 + sqLen ω := by have := sqLen_nonneg ω; positivity
    have hQ2 := sqLen_nonneg v
    have ht1 : t * μ = (μ - 1 / 10) / 2 := by
      rw [ht]
      field_simp
    have ht2 : 0 ≤ 1 - t := by
      have : t * μ ≤ 1 * μ := by rw [ht1]; linarith
      have := le_of_mul_le_mul_right this hμ0
      linarith
    have h3 := mul_le_mul_of_nonneg_left h2 ht2
    have h4 : (1 - t) * (μ * (s ^ 2 + sqLen ω + sqLen v)) = (μ + 1 / 10) / 2 * (s ^ 2 + sqLen ω + sqLen v) := by
      linear_combination (-(s ^ 2 + sqLen ω + sqLen v)) * ht1
    rw [h4] at h3
    have h5 : ((c.edges.length : ℝ) + c.surfaces.length) * (8 * 2 ^ 2 * d ^ 2 * ρ ^ 2 / t) ≤ (μ - 1 / 10) / 2 := by
      rw [← mul_div_assoc, div_le_iff₀ ht0, ht, ← mul_div_assoc, le_div_iff₀ (by linarith)]
      linarith
    have h6 := mul_le_mul_of_nonneg_right h5 hQ1
    nlinarith [mul_nonneg (by linarith : 0 ≤ μ - 1 / 10) hQ2]
  · rw [← hfs.errors] at he'
    obtain ⟨f, hf, rfl⟩ := List.mem_map.1 he'
    have h0 : vlen (f.residual S) = 0 := h.exact _ (by
      rw [← hfs.errors]
      exact List.mem_map_of_mem (f := fun f : Feature => vlen (f.residual S)) hf)
    have e1 : f.residual T = f.A *ᵥ (T.apply f.x - S.apply f.x) + f.residual S := by
      rw [mulVec_sub]
      simp only [Feature.residual]
      abel
    have h1 := vlen_add_le (f.A *ᵥ (T.apply f.x - S.apply f.x)) (f.residual S)
    rw [← e1, h0] at h1
    have h2 := hfs.gain f hf (T.apply f.x - S.apply f.x)
    have h3 := moved_close hd0 hd hτ (hρ _ (hfs.points f hf))
    have h4 : (1 + 2 * 10 ^ 8 * (ρ * d + τ)) * (1 / 10 ^ 8) ≤
        (1 + 2 * 10 ^ 8 * (ρ * d + τ)) * max e' (1 / 10 ^ 8) :=
      mul_le_mul_of_nonneg_left (le_max_right _ _) (by linarith)
    refine le_trans ?_ h4
    norm_num
    linarith

/-- C134: in surroundings that are seen clearly from the true pose, there is a neighbourhood of that pose from
which scan matching converges in one iteration and at least halves the error of the rotation, up to 1e-8; the
translation ends within half the error of the rotation too. -/
theorem C134_neighbourhood {nth : Nth} (hn : Lib.IsNthElement nth) {llt : Llt} (hllt : LltSpec llt) {L : Libs}
    (he : EigSpec L.eig) (hqr : QrSpec L.qr) (edgeMap surfaceMap surfaceScan : List V3)
    (c : Scene) (hs : L.downsample surfaceScan = c.surfaces) (S : Pose) (g μ : ℝ)
    (h : c.Clear L.knn edgeMap surfaceMap S g μ) :
    ∃ ε > 0, ∀ T : Pose, IsRotation T.linear → ∀ d, 0 ≤ d → d ≤ ε →
      (∀ x, vlen (T.linear *ᵥ x - S.linear *ᵥ x) ≤ d * vlen x) →
      vlen (T.translation - S.translation) ≤ ε → ∀ maxIter : ℤ, 1 ≤ maxIter →
      ∃ r, run nth llt (make L edgeMap surfaceMap nNeighbors c.edges surfaceScan) maxIter T = .ok r ∧
        r.message = .converged ∧ r.success = true ∧
        vlen (r.pose.translation - S.translation) ≤ d / 2 ∧
        ∀ x, vlen (r.pose.linear *ᵥ x - S.linear *ᵥ x) ≤ (d / 2 + 1 / 100000000) * vlen x := by
  obtain ⟨ρ, hρ0, hρ⟩ : ∃ ρ : ℝ, 0 ≤ ρ ∧ ∀ x ∈ c.edges ++ c.surfaces, vlen x ≤ ρ := by
    refine ⟨((c.edges ++ c.surfaces).map vlen).sum, List.sum_nonneg ?_, fun x hx => ?_⟩
    · intro y hy
      obtain ⟨x, -, rfl⟩ := List.mem_map.1 hy
      exact vlen_nonneg _
    · exact List.single_le_sum (by
        intro y hy
        obtain ⟨x, -, rfl⟩ := List.mem_map.1 hy
        exact vlen_nonneg _) _ (List.mem_map_of_mem hx)
  obtain ⟨n, hnd⟩ : ∃ n : ℝ, n = (c.edges.length : ℝ) + c.surfaces.length := ⟨_, rfl⟩
  have hn0 : 0 ≤ n := by rw [hnd]; positivity
  have hμ := h.μ_min
  have hμ0 : 0 < μ := by linarith
  have hm : 0 < (μ - 1 / 10) ^ 2 / 2 := by
    have : 0 < μ - 1 / 10 := by linarith
    positivity
  set A := Real.sqrt (n * (1 + 2 * 10 ^ 8 * (ρ + 1)) / (1 / 10)) with hA
  have hA0 : 0 ≤ A := Real.sqrt_nonneg _
  have hden1 : 0 < 32 * (ρ * A + 1) := by positivity
  have hden2 : 0 < 8 * n * (ρ + 1) ^ 2 + 1 := by positivity
  have hden3 : 0 < n * (64 * ρ ^ 2) * μ + 1 := by positivity
  have hden4 : 0 < ρ + 1 := by positivity
  have hg := h.g_pos
  obtain ⟨ε, hε0, hε1, hε2, hε3, hε4, hε5⟩ : ∃ ε : ℝ, 0 < ε ∧ ε ≤ 1 / 4000 ∧ ε * (32 * (ρ * A + 1)) ≤ 1 ∧
      ε * (8 * n * (ρ + 1) ^ 2 + 1) ≤ 1 ∧ ε * (n * (64 * ρ ^ 2) * μ + 1) ≤ (μ - 1 / 10) ^ 2 / 2 ∧
      ε * (ρ + 1) ≤ g := by
    refine ⟨min (1 / 4000) (min (1 / (32 * (ρ * A + 1))) (min (1 / (8 * n * (ρ + 1) ^ 2 + 1))
      (min ((μ - 1 / 10) ^ 2 / 2 / (n * (64 * ρ ^ 2) * μ + 1)) (g / (ρ + 1))))), ?_, min_le_left _ _, ?_, ?_, ?_, ?_⟩
    · refine lt_min (by norm_num) (lt_min (by positivity) (lt_min (by positivity) (lt_min (div_pos hm hden3)
        (by positivity))))
    · rw [← le_div_iff₀ hden1]
      exact (min_le_right _ _).trans (min_le_left _ _)
    · rw [← le_div_iff₀ hden2]
      exact (min_le_right _ _).trans ((min_le_right _ _).trans (min_le_left _ _))
    · rw [← le_div_iff₀ hden3]
      exact (min_le_right _ _).trans ((min_le_right _ _).trans ((min_le_right _ _).trans (min_le_left _ _)))
    · rw [← le_div_iff₀ hden4]
      exact (min_le_right _ _).trans ((min_le_right _ _).trans ((min_le_right _ _).trans (min_le_right _ _)))
  refine ⟨ε, hε0, ?_⟩
  intro T hT d hd0 hdε hd ht maxIter hmax
  have hres : ρ * d + ε ≤ (ρ + 1) * ε := by nlinarith
  have hres0 : 0 ≤ ρ * d + ε := by positivity
  have hfin : 8 * n * (ρ * d + ε + 0) ^ 2 ≤ dblMax := by
    have h1 : (ρ * d + ε + 0) ^ 2 ≤ ((ρ + 1) * ε) ^ 2 := by
      rw [add_zero]
      exact pow_le_pow_left₀ hres0 hres 2
    have h2 : 8 * n * ((ρ + 1) * ε) ^ 2 ≤ 1 := by
      have e : 8 * n * ((ρ + 1) * ε) ^ 2 = (ε * (8 * n * (ρ + 1) ^ 2)) * ε := by ring
      rw [e]
      have h3 : ε * (8 * n * (ρ + 1) ^ 2) ≤ 1 := by linarith
      have h4 : 0 ≤ ε * (8 * n * (ρ + 1) ^ 2) := by positivity
      nlinarith
    have h3 := mul_le_mul_of_nonneg_left h1 (by positivity : 0 ≤ 8 * n)
    linarith [dblMax_large]
  have hsmall : n * (64 * d ^ 2 * ρ ^ 2) * μ ≤ (μ - 1 / 10) ^ 2 / 2 := by
    have h1 : d ^ 2 ≤ ε := by nlinarith
    have h2 := mul_le_mul_of_nonneg_left h1 (by positivity : 0 ≤ n * (64 * ρ ^ 2) * μ)
    linarith
  rw [hnd] at hfin hsmall
  have hsit := near_clear he hqr hs h hT hd0 hd ht hρ0 hρ (by linarith) hsmall hfin
  have hconv := C134_converges hn hllt he hqr edgeMap surfaceMap surfaceScan c hs S T d ε 0 ρ _ _ hsit
  simp only at hconv
  rw [← hnd] at hconv
  set B := (4 * ρ * d ^ 2 + 8 * 0) * Real.sqrt (n * (1 + 2 * 10 ^ 8 * (ρ * d + ε)) / (1 / 10)) with hB
  have hBle : B ≤ d / 8 := by
    have h1 : Real.sqrt (n * (1 + 2 * 10 ^ 8 * (ρ * d + ε)) / (1 / 10)) ≤ A := by
      refine Real.sqrt_le_sqrt ?_
      refine div_le_div_of_nonneg_right (mul_le_mul_of_nonneg_left ?_ hn0) (by norm_num)
      have : ρ * d + ε ≤ ρ + 1 := by nlinarith
      linarith
    have h3 : B ≤ 4 * ρ * d ^ 2 * A := by
      rw [hB, mul_zero, add_zero]
      exact mul_le_mul_of_nonneg_left h1 (by positivity)
    have h4 : d * (ρ * A) ≤ ε * (ρ * A) := mul_le_mul_of_nonneg_right hdε (by positivity)
    have h5 : d * (ρ * A) ≤ 1 / 32 := by linarith
    have h6 := mul_le_mul_of_nonneg_left h5 hd0
    have h7 : 4 * ρ * d ^ 2 * A = 4 * (d * (d * (ρ * A))) := by ring
    linarith
  have hB0 : 0 ≤ B := by rw [hB]; positivity
  obtain ⟨r, r1, r2, r3, -, r5, r6⟩ := hconv (by linarith) (by linarith) maxIter hmax
  refine ⟨r, r1, r2, r3, by linarith, fun x => (r6 x).trans (mul_le_mul_of_nonneg_right ?_ (vlen_nonneg _))⟩
  have h1 : (d + B) ^ 2 ≤ (9 / 8 * d) ^ 2 := pow_le_pow_left₀ (by positivity) (by linarith) 2
  have h2 : d ^ 2 ≤ 1 / 4000 * d := by
    rw [sq]
    exact mul_le_mul_of_nonneg_right (hdε.trans hε1) hd0
  linarith

/-! ### What the search finds -/

/-- C134: a search for 15 points finds only points of one object if at least 15 points of the object are
within `r` of the place and the points of other objects are farther than `r + 2g`; this holds for all
queries within `g` of the place. If the map has no point twice, the points found are not all the same. -/
theorem C134_neighbours {knn : Knn} (hk : KnnSpec knn) (map : List V3) (P : V3 → Prop) (y0 : V3) (r g : ℝ)
    (near : List V3) (hnear : near.Sublist map) (hlen : 15 ≤ near.length)
    (hP : ∀ x ∈ near, P x ∧ vlen (x - y0) ≤ r) (hfar : ∀ x ∈ map, ¬ P x → r + 2 * g < vlen (x - y0))
    (hmap : map.Nodup) (y : V3) (hy : vlen (y - y0) ≤ g) :
    ∃ X, nearestKSearch knn map y nNeighbors = .ok X ∧ (∀ x ∈ X, P x) ∧ ∃ x ∈ X, ∃ x' ∈ X, x ≠ x' := by
  classical
  obtain ⟨X, hX, hXl, -, rest, hperm, hrest⟩ := C80_nearest_partial hk map y 15 (by norm_num)
    (hlen.trans hnear.length_le)
  refine ⟨X, hX, fun x hx => ?_, ?_⟩
  · by_contra hnP
    have hxm : x ∈ map := hperm.subset (List.mem_append_left _ hx)
    have h1 := hfar x hxm hnP
    have e1 : ∀ a : V3, vlen (y - a) ^ 2 = sqDist y a := fun a => by
      rw [vlen_sq_eq]
      simp [sqLen, sqDist, Fin.sum_univ_three]
    have h2 : r + g < vlen (y - x) := by
      have a1 := vlen_sub_le (y - x) (y - y0)
      rw [show y - x - (y - y0) = -(x - y0) by abel, vlen_neg] at a1
      linarith
    have hnr : ∀ z ∈ near, z ∉ rest := by
      intro z hz hzr
      have a1 := hrest x hx z hzr
      rw [← e1, ← e1] at a1
      have a2 := abs_le_of_sq_le_sq' a1 (vlen_nonneg _) |>.2
      have a3 := vlen_sub_le (y - y0) (z - y0)
      rw [show y - y0 - (z - y0) = y - z by abel] at a3
      linarith [(hP z hz).2]
    have hnX : near ⊆ X.erase x := by
      intro z hz
      have hzm := hperm.symm.subset (hnear.subset hz)
      rcases List.mem_append.1 hzm with hzX | hzr
      · have hne : z ≠ x := by
          rintro rfl
          exact hnP (hP z hz).1
        exact (List.mem_erase_of_ne hne).2 hzX
      · exact absurd hzr (hnr z hz)
    have hl := (List.subperm_of_subset (hmap.sublist hnear) hnX).length_le
    rw [List.length_erase_of_mem hx] at hl
    omega
  · have hnd : X.Nodup := ((hperm.nodup_iff.2 hmap).sublist (List.sublist_append_left _ _))
    match X, hXl, hnd with
    | a :: b :: _, _, hnd =>
      refine ⟨a, by simp, b, by simp, ?_⟩
      rintro rfl
      simp at hnd

/-! ### A scene -/

/-- Two poles, ten metres to the left and to the right, fifteen points each. -/
noncomputable def exPoles : List V3 :=
  ((List.range 15).map fun i : ℕ => ![10, 0, (i : ℝ) - 7]) ++ (List.range 15).map fun i : ℕ => ![-10, 0, (i : ℝ) - 7]

/-- Two points seen of each pole, four of a ceiling two metres above the sensor. -/
noncomputable def exScene : Scene where
  edges := [![10, 0, 2], ![10, 0, -2], ![-10, 0, 2], ![-10, 0, -2]]
  surfaces := [![4, 4, 2], ![4, -4, 2], ![-4, 4, 2], ![-4, -4, 2]]
  anchor := fun p => ![p 0, 0, 0]
  dir := fun _ => ![0, 0, 1]
  normal := fun _ => ![0, 0, -1 / 2]

theorem exPoles_nodup : exPoles.Nodup := by
  have hinj : ∀ a : ℝ, Function.Injective fun i : ℕ => (![a, 0, (i : ℝ) - 7] : V3) := by
    intro a i j h
    have := congrFun h 2
    simpa using this
  refine List.nodup_append.2 ⟨(List.nodup_range).map (hinj 10), (List.nodup_range).map (hinj (-10)), ?_⟩
  intro x hx y hy hxy
  obtain ⟨i, -, rfl⟩ := List.mem_map.1 hx
  obtain ⟨j, -, rfl⟩ := List.mem_map.1 hy
  have := congrFun hxy 0
  norm_num at this

theorem exPole_found {knn : Knn} (hk : KnnSpec knn) (σ : ℝ) (hσ : σ = 10 ∨ σ = -10) (z : ℝ) (hz : |z| ≤ 2) (y : V3)
    (hy : vlen (y - ![σ, 0, z]) ≤ 1) : exScene.EdgeFound knn exPoles ![σ, 0, z] y := by
  have hcol : ∀ i ∈ List.range 15, vlen ((![σ, 0, (i : ℝ) - 7] : V3) - ![σ, 0, z]) ≤ 9 := by
    intro i hi
    have hi' : (i : ℝ) ≤ 14 := by
      have := List.mem_range.1 hi
      exact_mod_cast (by omega : i ≤ 14)
    have hi0 : (0 : ℝ) ≤ i := Nat.cast_nonneg _
    refine vlen_le_of_sq _ (by norm_num) ?_
    rw [abs_le] at hz
    simp [sqLen, Fin.sum_univ_three]
    nlinarith
  suffices h : ∃ X, nearestKSearch knn exPoles y nNeighbors = .ok X ∧
      (∀ x ∈ X, OnRay (exScene.anchor ![σ, 0, z]) (exScene.dir ![σ, 0, z]) x) ∧ ∃ x ∈ X, ∃ x' ∈ X, x ≠ x' by
    obtain ⟨X, hX, hline, x, hx, x', hx', hne⟩ := h
    exact ⟨X, hX, List.ne_nil_of_mem hx, onlyLine_of_line (by simp [exScene]) hline hx hx' hne⟩
  refine C134_neighbours hk exPoles _ ![σ, 0, z] 9 1 ((List.range 15).map fun i : ℕ => ![σ, 0, (i : ℝ) - 7]) ?_
    (by simp) ?_ ?_ exPoles_nodup y hy
  · rcases hσ with rfl | rfl
    · exact List.sublist_append_left _ _
    · exact List.sublist_append_right _ _
  · intro x hx
    obtain ⟨i, hi, rfl⟩ := List.mem_map.1 hx
    refine ⟨⟨(i : ℝ) - 7, ?_⟩, hcol i hi⟩
    funext j
    fin_cases j <;> simp [exScene]
  · intro x hx hnot
    have hx0 : x 0 = -σ := by
      rcases List.mem_append.1 hx with hx | hx <;> obtain ⟨i, -, rfl⟩ := List.mem_map.1 hx <;>
        rcases hσ with rfl | rfl <;> simp
      all_goals
        exfalso
        exact hnot ⟨(i : ℝ) - 7, by funext j; fin_cases j <;> simp [exScene]⟩
    by_contra hle
    rw [not_lt] at hle
    have h1 := pow_le_pow_left₀ (vlen_nonneg _) hle 2
    rw [vlen_sq_eq] at h1
    have h2 : (x 0 - σ) ^ 2 ≤ sqLen (x - ![σ, 0, z]) := by
      simp [sqLen, Fin.sum_univ_three]
      nlinarith [sq_nonneg (x 1), sq_nonneg (x 2 - z)]
    rw [hx0] at h2
    rcases hσ with rfl | rfl <;> norm_num at h1 h2 <;> linarith

theorem exScene_clear : exScene.Clear exKnn exPoles exWall ⟨1, 0⟩ 1 1 where
  proper :=
    { dir := fun p _ => by simp [exScene]
      normal := fun p _ h => by
        have := congrFun h 2
        simp [exScene] at this }
  rotation := ⟨by simp, by simp⟩
  exact := by
    intro e he
    rcases List.mem_append.1 he with he | he
    · obtain ⟨p, hp, rfl⟩ := List.mem_map.1 he
      have : exScene.dir p ⨯₃ ((⟨1, 0⟩ : Pose).apply p - exScene.anchor p) = 0 := by
        simp only [exScene, List.mem_cons, List.not_mem_nil, or_false] at hp
        rw [cross_apply]
        rcases hp with rfl | rfl | rfl | rfl <;> simp [exScene, Pose.apply]
      rw [this, vlen_zero, mul_zero]
    · obtain ⟨p, hp, rfl⟩ := List.mem_map.1 he
      simp only [exScene, List.mem_cons, List.not_mem_nil, or_false] at hp
      rcases hp with rfl | rfl | rfl | rfl <;> norm_num [exScene, Pose.apply]
  g_pos := by norm_num
  edges := by
    intro p hp y hy
    simp only [exScene, List.mem_cons, List.not_mem_nil, or_false] at hp
    have hS : (⟨1, 0⟩ : Pose).apply p = p := by simp [Pose.apply]
    rw [hS] at hy
    rcases hp with rfl | rfl | rfl | rfl
    · exact exPole_found exKnn_spec 10 (Or.inl rfl) 2 (by norm_num) y hy
    · exact exPole_found exKnn_spec 10 (Or.inl rfl) (-2) (by norm_num) y hy
    · exact exPole_found exKnn_spec (-10) (Or.inr rfl) 2 (by norm_num) y hy
    · exact exPole_found exKnn_spec (-10) (Or.inr rfl) (-2) (by norm_num) y hy
  surfaces := by
    intro p _ y _
    obtain ⟨X, hX, hm⟩ := small_map_members exWall (by simp [exWall]) (by simp [exWall]) y
    refine ⟨X, hX, fun v hv => exWall_spanning v fun x hx => hv x ((hm x).2 hx), planeCost_of_plane fun x hx => ?_⟩
    have hx := (hm x).1 hx
    simp only [exWall, List.mem_cons, List.not_mem_nil, or_false] at hx
    rcases hx with rfl | rfl | rfl | rfl <;> simp [OnPlane, exScene, dotProduct, Fin.sum_univ_three]
  μ_min := by norm_num
  observed := by
    intro s ω v
    have e : exScene.rates (1 : Matrix (Fin 3) (Fin 3) ℝ) s ω v =
        16 * ((20 * s) ^ 2 + (4 * ω 1) ^ 2 + v 0 ^ 2 + (20 * ω 2) ^ 2 + (4 * ω 0) ^ 2 + v 1 ^ 2) +
          4 * ((4 * s + v 2) ^ 2 + (8 * ω 0) ^ 2 + (8 * ω 1) ^ 2) := by
      simp only [Scene.rates, exScene, velocity, one_mulVec, cross_apply, sqLen, List.map_cons, List.map_nil,
        List.sum_cons, List.sum_nil, Fin.sum_univ_three, dotProduct]
      simp
      ring
    show 1 * (s ^ 2 + sqLen ω + sqLen v) ≤ exScene.rates (1 : Matrix (Fin 3) (Fin 3) ℝ) s ω v
    rw [e]
    simp only [sqLen, Fin.sum_univ_three]
    nlinarith [sq_nonneg (4 * s + v 2), sq_nonneg (8 * s + v 2), sq_nonneg s, sq_nonneg (ω 0), sq_nonneg (ω 1),
      sq_nonneg (ω 2), sq_nonneg (v 0), sq_nonneg (v 1), sq_nonneg (v 2)]

/-- The scene meets the conditions of the theorems, for a search, an eigensolver and a solver as specified: for
poses near the true one the result is at most half as wrong. -/
example {nth : Nth} (hn : Lib.IsNthElement nth) {llt : Llt} (hllt : LltSpec llt) :
    ∃ ε > 0, ∀ T : Pose, IsRotation T.linear → ∀ d, 0 ≤ d → d ≤ ε →
      (∀ x, vlen (T.linear *ᵥ x - (1 : Matrix (Fin 3) (Fin 3) ℝ) *ᵥ x) ≤ d * vlen x) →
      vlen (T.translation - 0) ≤ ε → ∀ maxIter : ℤ, 1 ≤ maxIter →
      ∃ r, run nth llt (make exLibs exPoles exWall nNeighbors exScene.edges exScene.surfaces) maxIter T = .ok r ∧
        r.message = .converged ∧ r.success = true ∧
        vlen (r.pose.translation - 0) ≤ d / 2 ∧
        ∀ x, vlen (r.pose.linear *ᵥ x - (1 : Matrix (Fin 3) (Fin 3) ℝ) *ᵥ x) ≤ (d / 2 + 1 / 100000000) * vlen x :=
  C134_neighbourhood hn hllt (L := exLibs) exEig_spec exQr_spec exPoles exWall exScene.surfaces exScene rfl ⟨1, 0⟩ 1 1
    exScene_clear

/-- The conditions of one step, for a pose that is turned by 1/400 of a radian and moved by 1/400 of a
metre. -/
example : exScene.Near exKnn exPoles exWall ⟨1, 0⟩ ⟨rotZ (1 / 400), ![1 / 400, 0, 0]⟩ (1 / 400) (1 / 400) 0 11
    (1 + 2 * 10 ^ 8 * (11 * (1 / 400) + 1 / 400)) (1 / 10) := by
  have hρ : ∀ p ∈ exScene.edges ++ exScene.surfaces, vlen p ≤ 11 := by
    intro p hp
    refine vlen_le_of_sq _ (by norm_num) ?_
    simp only [exScene, List.cons_append, List.nil_append, List.mem_cons, List.not_mem_nil, or_false] at hp
    rcases hp with rfl | rfl | rfl | rfl | rfl | rfl | rfl | rfl <;> simp [sqLen, Fin.sum_univ_three] <;> norm_num
  refine near_clear (L := exLibs) (surfaceScan := exScene.surfaces) exEig_spec exQr_spec rfl exScene_clear
    (rotZ_isRotation _) (by norm_num) (fun x => ?_) ?_ (by norm_num) hρ (by norm_num) ?_ ?_
  · have := rotZ_error (1 / 400) x
    rwa [abs_of_pos (by norm_num)] at this
  · refine vlen_le_of_sq _ (by norm_num) ?_
    simp [sqLen, Fin.sum_univ_succ]
  · norm_num [exScene]
  · have := dblMax_large
    norm_num [exScene]
    linarith

end Verif.Loam
