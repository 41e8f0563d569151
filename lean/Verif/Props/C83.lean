/-
C83 the blocks of the scan matching problem, C84 the optimiser on that problem, C85 the true pose is a
fixed point.
-/
import Verif.Props.C82
import Verif.Props.C44

set_option autoImplicit false

namespace Verif.Loam

open Matrix Verif.Rot Verif.Opt Verif.Loc

/-- `b` is the block of the edge point `p` with neighbours `X` at the pose `T`: three residuals, in length
twice the distance of the moved point from the line that fits `X` best, and their derivative by the
coordinates of the pose (the line held fixed), taken at the quaternion that Eigen's conversion gives for
the rotation. -/
def EdgeMatch (X : List V3) (T : Pose) (p : V3) (b : Block) : Prop :=
  ∃ (a d r : V3) (J : Matrix (Fin 3) (Fin (4 + 3)) ℝ), b = ⟨3, J, r⟩ ∧ BestLine X a d ∧ d ⬝ᵥ d = 1 ∧
    IsDistance (OnRay a d) (T.linear *ᵥ p + T.translation) (len r / 2) ∧
    ∃ q : Quat, q = Quat.ofMatrix T.linear ∧ q.IsUnit ∧ q.toRotationMatrix = T.linear ∧
      r = (moved p (coords q T.translation) - (a - d)) ⨯₃ (moved p (coords q T.translation) - (a + d)) ∧
      HasFDerivAt (fun c => (moved p c - (a - d)) ⨯₃ (moved p c - (a + d))) (mat J)
        (coords q T.translation)

/-- `b` is the block of the surface point `p` with neighbours `X` at the pose `T`: one residual, in
magnitude the distance of the moved point from the plane `w · x + 1 = 0` that satisfies the equations of
`X` best, and its derivative by the coordinates of the pose (the plane held fixed), taken at the
quaternion that Eigen's conversion gives for the rotation. -/
def SurfaceMatch (X : List V3) (T : Pose) (p : V3) (b : Block) : Prop :=
  ∃ (w : V3) (d : ℝ) (J : Matrix (Fin 1) (Fin (4 + 3)) ℝ), b = ⟨1, J, fun _ => d⟩ ∧
    (∀ v, v ≠ w → planeCost X w < planeCost X v) ∧ w ≠ 0 ∧
    (d = 0 ↔ OnPlane w (T.linear *ᵥ p + T.translation)) ∧
    IsDistance (OnPlane w) (T.linear *ᵥ p + T.translation) |d| ∧
    ∃ q : Quat, q = Quat.ofMatrix T.linear ∧ q.IsUnit ∧ q.toRotationMatrix = T.linear ∧
      d = (w ⬝ᵥ moved p (coords q T.translation) + 1) / len w ∧
      HasFDerivAt (fun c => fun _ : Fin 1 => (w ⬝ᵥ moved p c + 1) / len w) (mat J)
        (coords q T.translation)

/-- The neighbours `X` of a surface point determine a plane: they span the space and their centroid is
not the origin. -/
def Regular (X : List V3) : Prop := Spanning X ∧ ¬ ∀ i, (X.map fun x => x i).sum = 0

theorem edgeBlock_ok {knn : Knn} (hk : KnnSpec knn) {eig : Eig} (he : EigSpec eig) (map : List V3)
    (hm : map ≠ []) (k : ℕ) (h0 : 0 < k) (T : Pose) (hT : IsRotation T.linear) (p : V3) :
    ∃ X b, nearestKSearch knn map (T.apply p) k = .ok X ∧ X.length = k ∧
      edgeBlock knn eig map k T p = .ok (b.jac, b.res) ∧ EdgeMatch X T p b := by
  obtain ⟨X, a, d, J, r, h1, h2, h3, h4, h5⟩ := C81_edge_residual hk he map hm k h0 T p
  obtain ⟨X0, hX0, hX⟩ := nearestKSearch_pos hk map (T.apply p) k h0 hm
  have hlen : X.length = k := by
    rw [h1] at hX
    injection hX with hX
    rw [hX, List.length_append, hX0.1, List.length_replicate]
    omega
  obtain ⟨m, C, hmc, hu, hbest⟩ := C81_best_line he X (by
    rintro rfl
    rw [List.length_nil] at hlen
    omega)
  set u : V3 := fun i => (eig C).2 i 2 with hudef
  have hq := C71_matrix_to_quaternion _ hT
  have hTq : makePose (Quat.ofMatrix T.linear) T.translation = T := by
    unfold makePose
    rw [hq.2]
  have hJ := C52_jacobian (Quat.ofMatrix T.linear) hq.1 T.translation p (m - u) (m + u)
  rw [hTq] at hJ
  have hblock : edgeBlock knn eig map k T p =
      .ok (⟨3, 7, makeEdgeJacobianRow (Quat.ofMatrix T.linear) p (m - u) (m + u)⟩,
        ⟨3, makeEdgeResidual T p (m - u) (m + u)⟩) := by
    unfold edgeBlock
    simp only [h1, hmc, finite, bind, Except.bind, pure, Except.pure]
    rfl
  refine ⟨X, ⟨3, makeEdgeJacobianRow (Quat.ofMatrix T.linear) p (m - u) (m + u),
    makeEdgeResidual T p (m - u) (m + u)⟩, h1, hlen, hblock, m, u, _, _, rfl, hbest, hu, ?_,
    Quat.ofMatrix T.linear, rfl, hq.1, hq.2, hJ.1, hJ.2⟩
  exact edge_distance T p m u hu

theorem surfaceBlock_ok {knn : Knn} {qr : Qr} (hqr : QrSpec qr) (map : List V3) (k : ℤ) (T : Pose)
    (hT : IsRotation T.linear) (p : V3) (X : List V3)
    (hX : nearestKSearch knn map (T.apply p) k = .ok X) (hr : Regular X) :
    ∃ b : Block, surfaceBlock knn qr map k T p = .ok (b.jac, b.res) ∧ SurfaceMatch X T p b := by
  obtain ⟨w, h1, -, h2⟩ := estimate_spec hqr X hr.1
  have hcent := C82_centroid hqr X hr.1
  rw [h1, Except.ok.injEq] at hcent
  have hw : w ≠ 0 := fun h => hr.2 (hcent.1 h)
  have hq := C71_matrix_to_quaternion _ hT
  have hTq : makePose (Quat.ofMatrix T.linear) T.translation = T := by
    unfold makePose
    rw [hq.2]
  obtain ⟨J, j1, j2, j3⟩ := C53_jacobian w hw (Quat.ofMatrix T.linear) hq.1 T.translation p
  rw [hTq] at j2
  obtain ⟨d, e1, -, e2, e3⟩ := (C53_distance w (T.apply p)).2 hw
  rw [e1, Option.some.injEq] at j2
  refine ⟨⟨1, J, fun _ => d⟩, ?_, w, d, J, rfl, h2, hw, e2, e3, _, rfl, hq.1, hq.2, j2, j3⟩
  unfold surfaceBlock
  simp only [hX, h1, bind, Except.bind, j1, e1, finite]
  rfl

/-- `bs` are the blocks of the scan matching problem at the pose `T`: the matches of the edge points of
the scan, in order, and then the matches of the points of the downsampled surface scan, in order. -/
def Matches (L : Libs) (edgeMap surfaceMap : List V3) (k : ℤ) (edgeScan surfaceScan : List V3) (T : Pose)
    (bs : List Block) : Prop :=
  ∃ es ss, bs = es ++ ss ∧
    List.Forall₂ (fun p b => ∃ X, nearestKSearch L.knn edgeMap (T.apply p) k = .ok X ∧
      (X.length : ℤ) = k ∧ EdgeMatch X T p b) edgeScan es ∧
    List.Forall₂ (fun p b => ∃ X, nearestKSearch L.knn surfaceMap (T.apply p) k = .ok X ∧
      SurfaceMatch X T p b) (L.downsample surfaceScan) ss

/-- C83: with a map that has an edge point and with regular neighbourhoods of the surface points, the
problem has one block per edge point of the scan, in the order of the scan, followed by one block per
point of the downsampled surface scan; each is the match of its point. All blocks have seven columns
and as many residuals as rows. -/
theorem C83_blocks {L : Libs} (hk : KnnSpec L.knn) (he : EigSpec L.eig) (hqr : QrSpec L.qr)
    (edgeMap surfaceMap : List V3) (k : ℕ) (h0 : 0 < k) (edgeScan surfaceScan : List V3) (T : Pose)
    (hT : IsRotation T.linear) (hm : edgeScan = [] ∨ edgeMap ≠ [])
    (hs : ∀ p ∈ L.downsample surfaceScan, ∃ X,
      nearestKSearch L.knn surfaceMap (T.apply p) k = .ok X ∧ Regular X) :
    ∃ bs : List Block, make L edgeMap surfaceMap k edgeScan surfaceScan T =
        .ok (bs.map Block.jac, bs.map Block.res) ∧
      Matches L edgeMap surfaceMap k edgeScan surfaceScan T bs := by
  have blocks_of : ∀ (l : List V3) (f : V3 → Res (DMat × DVec)) (P : V3 → Block → Prop),
      (∀ x ∈ l, ∃ b : Block, f x = .ok (b.jac, b.res) ∧ P x b) →
      ∃ bs : List Block, l.mapM f = .ok (bs.map fun b => (b.jac, b.res)) ∧ List.Forall₂ P l bs := by
    intro l f P h
    induction l with
    | nil => exact ⟨[], rfl, .nil⟩
    | cons x l ih =>
      obtain ⟨b, hb, hP⟩ := h x List.mem_cons_self
      obtain ⟨bs, hbs, hPs⟩ := ih fun z hz => h z (List.mem_cons_of_mem _ hz)
      refine ⟨b :: bs, ?_, .cons hP hPs⟩
      rw [List.mapM_cons, hb, hbs]
      rfl
  obtain ⟨es, hes, hE⟩ := blocks_of edgeScan (edgeBlock L.knn L.eig edgeMap k T)
    (fun p b => ∃ X, nearestKSearch L.knn edgeMap (T.apply p) k = .ok X ∧
      (X.length : ℤ) = k ∧ EdgeMatch X T p b) (fun p hp => by
      have hm' : edgeMap ≠ [] := hm.resolve_left (by rintro rfl; exact absurd hp (by simp))
      obtain ⟨X, b, h1, h2, h3, h4⟩ := edgeBlock_ok hk he edgeMap hm' k h0 T hT p
      exact ⟨b, h3, X, h1, by rw [h2], h4⟩)
  obtain ⟨ss, hss, hS⟩ := blocks_of (L.downsample surfaceScan) (surfaceBlock L.knn L.qr surfaceMap k T)
    (fun p b => ∃ X, nearestKSearch L.knn surfaceMap (T.apply p) k = .ok X ∧
      SurfaceMatch X T p b) (fun p hp => by
      obtain ⟨X, hX, hr⟩ := hs p hp
      obtain ⟨b, h1, h2⟩ := surfaceBlock_ok hqr surfaceMap k T hT p X hX hr
      exact ⟨b, h1, X, hX, h2⟩)
  refine ⟨es ++ ss, ?_, es, ss, rfl, hE, hS⟩
  unfold make edgeMake surfaceMake
  rw [hes, hss]
  simp only [bind, Except.bind, pure, Except.pure, List.map_map, List.map_append]
  rfl

/-- C83 is false for an empty map: a scan with an edge point then fails an assertion, whatever the
surface map. -/
theorem C83_empty_map_violated {L : Libs} (hk : KnnSpec L.knn) (surfaceMap : List V3) (k : ℕ)
    (h0 : 0 < k) (p : V3) (edgeScan surfaceScan : List V3) (T : Pose) :
    make L [] surfaceMap k (p :: edgeScan) surfaceScan T = .error .assertFail := by
  have hb : edgeBlock L.knn L.eig [] k T p = .error .assertFail := by
    unfold edgeBlock
    simp only [(C80_refused hk [] (T.apply p) k).2.2 (by omega) rfl, bind, Except.bind]
  unfold make edgeMake
  rw [List.mapM_cons, hb]
  rfl

/-- C83: an empty scan gives a problem without blocks, whatever the maps. -/
theorem C83_empty_scan (L : Libs) (edgeMap surfaceMap : List V3) (k : ℤ) (surfaceScan : List V3) (T : Pose)
    (hd : L.downsample surfaceScan = []) :
    make L edgeMap surfaceMap k [] surfaceScan T = .ok ([], []) := by
  unfold make edgeMake surfaceMake
  rw [hd]
  rfl

/-! ### C84 -/

theorem calcUpdate_unit {llt : Llt} {q dq : Quat} {ws : List ℝ} {Js : List DMat} {rs : List DVec} {dt : V3}
    (h : calcUpdate llt q ws Js rs = .ok (dq, dt)) : dq.IsUnit := by
  unfold calcUpdate at h
  cases hw : weightedUpdate llt (makeM q) ws Js rs with
  | error e => rw [hw] at h; cases h
  | ok dx =>
    rw [hw] at h
    injection h with h
    injection h with h _
    rw [← h]
    exact C51_unit _

theorem runLoop_congr (nth : Nth) (llt : Llt) {f g : Problem}
    (h : ∀ (q : Quat) (t : V3), q.IsUnit → f (makePose q t) = g (makePose q t)) (n : ℕ) (i : ℤ) (q : Quat)
    (hq : q.IsUnit) (t : V3) (s e : ℝ) : runLoop nth llt f n i q t s e = runLoop nth llt g n i q t s e := by
  induction n generalizing i q t s e with
  | zero => rfl
  | succ n ih =>
    unfold runLoop
    rw [h q t hq]
    cases g (makePose q t) with
    | error _ => rfl
    | ok jr =>
      obtain ⟨Js, rs⟩ := jr
      simp only [bind, Except.bind]
      split
      · rfl
      · cases normalizeErrorScale nth (computeErrors rs) with
        | error _ => rfl
        | ok ns =>
          obtain ⟨ns, sc⟩ := ns
          simp only
          split
          · rfl
          · split
            · rfl
            · cases hu : calcUpdate llt q (computeWeights ns) Js rs with
              | error _ => rfl
              | ok d =>
                obtain ⟨dq, dt⟩ := d
                simp only
                split
                · rfl
                · exact ih _ _ (mul_isUnit _ _ hq (calcUpdate_unit hu)) _ _ _

theorem run_congr (nth : Nth) (llt : Llt) {f g : Problem}
    (h : ∀ T : Pose, IsRotation T.linear → f T = g T) (maxIter : ℤ) (initial : Pose)
    (hR : IsRotation initial.linear) : run nth llt f maxIter initial = run nth llt g maxIter initial := by
  unfold run
  simp only
  split
  · rfl
  · exact runLoop_congr nth llt (fun q t hq => h _ (toRotationMatrix_rotation _ hq)) _ _ _
      (C71_matrix_to_quaternion _ hR).1 _ _ _

/-- C84: with a map that has an edge point and regular neighbourhoods everywhere in the surface map, scan
matching from any rigid initial pose, for any scan, ends without failure. The iterates are those of the
optimiser on the problem whose blocks, at every rigid pose, are the matches of the scan; the result is
rigid. -/
theorem C84_scan_matching {nth : Nth} (hn : Lib.IsNthElement nth) {llt : Llt} (hllt : LltSpec llt)
    {L : Libs} (hk : KnnSpec L.knn) (he : EigSpec L.eig) (hqr : QrSpec L.qr)
    (edgeMap surfaceMap : List V3) (hm : edgeMap ≠ [])
    (hs : ∀ query, ∃ X, nearestKSearch L.knn surfaceMap query nNeighbors = .ok X ∧ Regular X)
    (edgeScan surfaceScan : List V3) (maxIter : ℤ) (h0 : 0 ≤ maxIter) (initial : Pose)
    (hR : IsRotation initial.linear) :
    ∃ (blocks : Pose → List Block) (r : Result),
      (∀ T : Pose, IsRotation T.linear →
        Matches L edgeMap surfaceMap nNeighbors edgeScan surfaceScan T (blocks T)) ∧
      run nth llt (make L edgeMap surfaceMap nNeighbors edgeScan surfaceScan) maxIter initial = .ok r ∧
      IsRun blocks maxIter.toNat 0 (start initial) dblMax dblMax r ∧ IsRotation r.pose.linear := by
  have hex : ∀ T : Pose, ∃ bs : List Block, IsRotation T.linear →
      make L edgeMap surfaceMap nNeighbors edgeScan surfaceScan T =
        .ok (bs.map Block.jac, bs.map Block.res) ∧
      Matches L edgeMap surfaceMap nNeighbors edgeScan surfaceScan T bs := by
    intro T
    by_cases hT : IsRotation T.linear
    · obtain ⟨bs, h⟩ := C83_blocks hk he hqr edgeMap surfaceMap 15 (by norm_num) edgeScan surfaceScan T hT
        (.inr hm) fun p _ => hs (T.apply p)
      exact ⟨bs, fun _ => h⟩
    · exact ⟨[], fun h => absurd h hT⟩
  choose blocks hblocks using hex
  have hcongr := run_congr nth llt (f := make L edgeMap surfaceMap nNeighbors edgeScan surfaceScan)
    (g := problem blocks) (fun T hT => (hblocks T hT).1) maxIter initial hR
  obtain ⟨r, hr, hrun⟩ := C44_run hn hllt blocks maxIter h0 initial hR
  exact ⟨blocks, r, fun T hT => (hblocks T hT).2, hcongr.trans hr, hrun,
    C44_rigid hn hllt blocks maxIter initial hR r hr⟩

/-! ### C85 -/

theorem first_step_zero {nth : Nth} (hn : Lib.IsNthElement nth) {llt : Llt}
    (hllt : LltSpec llt) (blocks : Pose → List Block) (maxIter : ℤ) (h1 : 1 ≤ maxIter) (initial : Pose)
    (hR : IsRotation initial.linear) (hne : blocks initial ≠ [])
    (hstep : ∀ q ws dx, IsStep q (blocks initial) ws dx → (∀ w ∈ ws, 0 < w) → dx = 0)
    (hE : (errorsOf (blocks initial)).sum ≤ dblMax)
    (hS : ∀ s, IsScale (errorsOf (blocks initial)) s → s ≤ dblMax) :
    ∃ r, run nth llt (problem blocks) maxIter initial = .ok r ∧ r.success = true ∧
      r.message = .converged ∧ r.pose = initial ∧ r.error = (errorsOf (blocks initial)).sum ∧
      r.iteration = 0 := by
  obtain ⟨r, hr, k, X, E, S, small, hX, hE0, hS0, hk, hall, hsm, hpose, hmsg⟩ :=
    C44_run hn hllt blocks maxIter (by omega) initial hR
  have hp : (X 0).pose = initial := by
    rw [hX]
    unfold Iterate.pose start makePose
    simp only
    rw [(C71_matrix_to_quaternion _ hR).2]
  have hk0 : k ≠ 0 := by
    rintro rfl
    rw [hp] at hmsg
    cases hm : r.message <;> rw [hm] at hmsg
    · exact hne hmsg.2.2.1
    · obtain ⟨-, -, -, -, h5, -, h7, -⟩ := hmsg
      rw [hE0, h5] at h7
      exact absurd h7 (not_lt.2 hE)
    · obtain ⟨-, -, -, -, -, h6, -, h8, -⟩ := hmsg
      rw [hS0] at h8
      exact absurd h8 (not_lt.2 (hS _ h6))
    · exact absurd hmsg.1 (by omega)
    · have := hmsg.1
      omega
  obtain ⟨dx, h2, h3, h4, h5, h6, h7, h8⟩ := (hall 0 (by omega)).1
  rw [hp] at h3 h5
  have hdx : dx = 0 := hstep _ _ _ h5 (by
    intro w hw
    unfold weightsOf at hw
    rw [List.mem_map] at hw
    obtain ⟨e, -, rfl⟩ := hw
    exact ((C45_weight 1.345 (by norm_num)).1 _).1)
  have hz : (![dx 0, dx 1, dx 2] : Fin 3 → ℝ) = 0 := by
    rw [hdx]; ext i; fin_cases i <;> rfl
  have hz' : (![dx 3, dx 4, dx 5] : Fin 3 → ℝ) = 0 := by
    rw [hdx]; ext i; fin_cases i <;> rfl
  have hid : angleAxisToQuaternion 0 = ⟨1, 0, 0, 0⟩ := C51_near_zero 0 (by
    simp [Rot.norm])
  rw [hz, hid] at h6 h8
  rw [hz'] at h7 h8
  have hsmall : small 0 := by
    rw [h8]
    have hv : Quat.vec ⟨1, 0, 0, 0⟩ = 0 := by ext i; fin_cases i <;> rfl
    rw [hv]
    simp [Loc.len]
  have hk1 : k = 1 := by
    by_contra hne'
    exact hsm 0 (by omega) hsmall
  subst hk1
  have hX1 : X 1 = X 0 := by
    refine Prod.ext ?_ ?_
    · rw [h6]; simp [Quat.mul]
    · rw [h7, add_zero]
  refine ⟨r, hr, ?_⟩
  rw [hpose, hX1, hp]
  cases hm : r.message <;> rw [hm] at hmsg
  · exact absurd hsmall (hmsg.2.1 0 (by omega))
  · exact absurd hsmall (hmsg.2.1 0 (by omega))
  · exact absurd hsmall (hmsg.2.1 0 (by omega))
  · exact ⟨hmsg.2.2.2.2.2, rfl, rfl, by rw [hmsg.2.2.2.1]; exact h3, by rw [hmsg.2.2.1]; norm_num⟩
  · exact absurd hsmall (hmsg.2.1 0 (by omega))

theorem errorsOf_zero {bs : List Block} (hz : ∀ b ∈ bs, b.r = 0) : ∀ e ∈ errorsOf bs, e = 0 := by
  intro e he
  unfold errorsOf at he
  rw [List.mem_map] at he
  obtain ⟨b, hb, rfl⟩ := he
  rw [hz b hb]
  simp [sqLen]

theorem isMedian_zero {l : List ℝ} {m : ℝ} (h : ∀ e ∈ l, e = 0) (hm : Lib.IsMedian l m) : m = 0 := by
  obtain ⟨a, b, ha, hb, rfl⟩ := hm
  rw [h a ha.1, h b hb.1]
  norm_num

theorem isScale_zero {l : List ℝ} {s : ℝ} (h : ∀ e ∈ l, e = 0) (hs : IsScale l s) : s = 0 := by
  obtain ⟨m, d, hm, hd, rfl⟩ := hs
  have hm0 := isMedian_zero h hm
  have : d = 0 := isMedian_zero (fun e he => by
    rw [List.mem_map] at he
    obtain ⟨x, hx, rfl⟩ := he
    rw [h x hx, hm0]
    simp) hd
  rw [this, mul_zero]

theorem step_zero (q : Quat) (bs : List Block) (hz : ∀ b ∈ bs, b.r = 0) (ws : List ℝ) (dx : Fin 6 → ℝ)
    (h : IsStep q bs ws dx) (hw : ∀ w ∈ ws, 0 < w) : dx = 0 := by
  by_cases hd : Degenerate bs
  · exact h.1 hd
  · by_contra hne
    have h1 := h.2 hd 0 (Ne.symm hne)
    have h2 : cost (makeM q) (ws.zip bs) 0 = 0 := by
      unfold cost
      refine List.sum_eq_zero fun y hy => ?_
      rw [List.mem_map] at hy
      obtain ⟨⟨w, b⟩, hp, rfl⟩ := hy
      rw [hz b (List.of_mem_zip hp).2]
      simp [sqLen]
    have h3 : 0 ≤ cost (makeM q) (ws.zip bs) dx := by
      unfold cost
      refine List.sum_nonneg fun y hy => ?_
      rw [List.mem_map] at hy
      obtain ⟨⟨w, b⟩, hp, rfl⟩ := hy
      exact mul_nonneg (hw w (List.of_mem_zip hp).1).le (Finset.sum_nonneg fun i _ => sq_nonneg _)
    linarith

/-- C85: a pose at which all residuals vanish is a fixed point of the optimiser: it is returned
unchanged, as converged, after one iteration, with error 0. -/
theorem C85_fixed_point {nth : Nth} (hn : Lib.IsNthElement nth) {llt : Llt} (hllt : LltSpec llt)
    (blocks : Pose → List Block) (maxIter : ℤ) (h1 : 1 ≤ maxIter) (initial : Pose)
    (hR : IsRotation initial.linear) (hne : blocks initial ≠ []) (hz : ∀ b ∈ blocks initial, b.r = 0) :
    ∃ r, run nth llt (problem blocks) maxIter initial = .ok r ∧ r.pose = initial ∧ r.success = true ∧
      r.message = .converged ∧ r.error = 0 ∧ r.iteration = 0 := by
  have hsum : (errorsOf (blocks initial)).sum = 0 := List.sum_eq_zero (errorsOf_zero hz)
  have hpos : (0 : ℝ) ≤ dblMax := le_trans (by norm_num) dblMax_large
  obtain ⟨r, r1, r2, r3, r4, r5, r6⟩ := first_step_zero hn hllt blocks maxIter h1 initial hR hne
    (fun q ws dx h hw => step_zero q _ hz ws dx h hw) (by rw [hsum]; exact hpos)
    (fun s hs => by rw [isScale_zero (errorsOf_zero hz) hs]; exact hpos)
  exact ⟨r, r1, r4, r2, r3, by rw [r5, hsum], r6⟩

/-- The edge point `p` fits the map perfectly at the pose `T`: its neighbours and the moved point lie on
one line, and the neighbours are not all the same point. -/
def EdgeFits (X : List V3) (T : Pose) (p : V3) : Prop :=
  ∃ a d : V3, (∀ x ∈ X, OnRay a d x) ∧ OnRay a d (T.linear *ᵥ p + T.translation) ∧
    ∃ x ∈ X, ∃ y ∈ X, x ≠ y

/-- The surface point `p` fits the map perfectly at the pose `T`: its neighbours and the moved point lie on
one plane that does not contain the origin of the map, and the neighbours are not all on one line. -/
def SurfaceFits (X : List V3) (T : Pose) (p : V3) : Prop :=
  ∃ n : V3, (∀ x ∈ X, OnPlane n x) ∧ OnPlane n (T.linear *ᵥ p + T.translation) ∧ Spanning X

theorem sqDist_eq_zero {a b : V3} (h : sqDist a b = 0) : a = b := by
  unfold sqDist at h
  have h0 := sq_nonneg (a 0 - b 0)
  have h1 := sq_nonneg (a 1 - b 1)
  have h2 := sq_nonneg (a 2 - b 2)
  have e0 : (a 0 - b 0) ^ 2 = 0 := by linarith
  have e1 : (a 1 - b 1) ^ 2 = 0 := by linarith
  have e2 : (a 2 - b 2) ^ 2 = 0 := by linarith
  funext i
  fin_cases i
  · exact sub_eq_zero.1 (pow_eq_zero_iff two_ne_zero |>.1 e0)
  · exact sub_eq_zero.1 (pow_eq_zero_iff two_ne_zero |>.1 e1)
  · exact sub_eq_zero.1 (pow_eq_zero_iff two_ne_zero |>.1 e2)

theorem bestLine_collinear {X : List V3} {a d a' d' : V3} (hb : BestLine X a d)
    (hX : ∀ x ∈ X, OnRay a' d' x) : ∀ x ∈ X, OnRay a d x := by
  obtain ⟨foot, h1, h2⟩ := hb
  have h3 := h2 a' d' id hX
  have h4 : total X id = 0 := by
    unfold total
    refine List.sum_eq_zero fun y hy => ?_
    rw [List.mem_map] at hy
    obtain ⟨x, -, rfl⟩ := hy
    simp [sqDist]
  have hnn : ∀ y ∈ X.map fun x => sqDist x (foot x), 0 ≤ y := by
    intro y hy
    rw [List.mem_map] at hy
    obtain ⟨x, -, rfl⟩ := hy
    unfold sqDist
    positivity
  have h5 : total X foot = 0 := le_antisymm (by rw [h4] at h3; exact h3) (List.sum_nonneg hnn)
  intro x hx
  have := sum_zero_of_nonneg _ hnn h5 _ (List.mem_map_of_mem hx)
  have hxf := sqDist_eq_zero this
  have h6 := h1 x hx
  rwa [← hxf] at h6

theorem onRay_of_two {a d a' d' x y p : V3} (hxy : x ≠ y) (hx : OnRay a d x) (hy : OnRay a d y)
    (hx' : OnRay a' d' x) (hy' : OnRay a' d' y) (hp : OnRay a' d' p) : OnRay a d p := by
  obtain ⟨s, rfl⟩ := hx'
  obtain ⟨t, rfl⟩ := hy'
  obtain ⟨u, rfl⟩ := hp
  obtain ⟨s1, hs1⟩ := hx
  obtain ⟨t1, ht1⟩ := hy
  have hst : t - s ≠ 0 := by
    intro h
    apply hxy
    rw [sub_eq_zero.1 h]
  refine ⟨s1 + (u - s) / (t - s) * (t1 - s1), ?_⟩
  have e1 : a' + u • d' = (a' + s • d') + ((u - s) / (t - s)) • ((a' + t • d') - (a' + s • d')) := by
    have : (a' + t • d') - (a' + s • d') = (t - s) • d' := by module
    rw [this, smul_smul, div_mul_cancel₀ _ hst]
    module
  rw [e1, hs1, ht1]
  module

theorem len_eq_zero {n : ℕ} {v : Fin n → ℝ} (h : len v = 0) : v = 0 := by
  unfold len at h
  rw [Real.sqrt_eq_zero (by simp only [dotProduct]; exact Finset.sum_nonneg fun i _ => mul_self_nonneg _),
    dotProduct_self_eq_zero] at h
  exact h

theorem edge_zero {X : List V3} {T : Pose} {p : V3} {b : Block} (hm : EdgeMatch X T p b)
    (hf : EdgeFits X T p) : b.r = 0 := by
  obtain ⟨a, d, r, J, rfl, hbest, -, ⟨-, hmin⟩, -⟩ := hm
  obtain ⟨a', d', hX, hp, x, hx, y, hy, hxy⟩ := hf
  have hc := bestLine_collinear hbest hX
  have hpr := onRay_of_two hxy (hc x hx) (hc y hy) (hX x hx) (hX y hy) hp
  have h1 := hmin _ hpr
  have h2 : len (0 : V3) = 0 := by simp [len]
  rw [sub_self, h2] at h1
  have h3 : 0 ≤ len r := Real.sqrt_nonneg _
  exact len_eq_zero (le_antisymm (by linarith) h3)

theorem surface_zero {X : List V3} {T : Pose} {p : V3} {b : Block} (hm : SurfaceMatch X T p b)
    (hf : SurfaceFits X T p) : b.r = 0 := by
  obtain ⟨w, d, J, rfl, hmin, -, hd, -⟩ := hm
  obtain ⟨n, hX, hp, -⟩ := hf
  have hcost : planeCost X n = 0 := by
    unfold planeCost
    refine List.sum_eq_zero fun y hy => ?_
    rw [List.mem_map] at hy
    obtain ⟨x, hx, rfl⟩ := hy
    rw [hX x hx]
    ring
  have hwn : n = w := by
    by_contra h
    have h3 := hmin n h
    have h4 : 0 ≤ planeCost X w := List.sum_nonneg fun y hy => by
      rw [List.mem_map] at hy
      obtain ⟨x, -, rfl⟩ := hy
      exact sq_nonneg _
    linarith
  subst hwn
  funext i
  exact hd.2 hp

theorem surfaceFits_regular {X : List V3} {T : Pose} {p : V3} (hf : SurfaceFits X T p) : Regular X := by
  obtain ⟨n, hX, hp, hs⟩ := hf
  refine ⟨hs, fun hc => ?_⟩
  have h1 : (X.map fun x => n ⬝ᵥ x).sum = 0 := by
    rw [sum_quadratic X _ 0 (n 0) (n 1) (n 2) 0 0 0 0 0 0]
    · rw [hc, hc, hc]
      ring
    · intro x
      simp only [dotProduct, Fin.sum_univ_three]
      ring
  have h2 : ∀ Y : List V3, (∀ x ∈ Y, OnPlane n x) → (Y.map fun x => n ⬝ᵥ x).sum = -Y.length := by
    intro Y hY
    induction Y with
    | nil => simp
    | cons y Y ih =>
      have hy : n ⬝ᵥ y + 1 = 0 := hY y List.mem_cons_self
      rw [List.map_cons, List.sum_cons, ih fun x hx => hY x (List.mem_cons_of_mem _ hx), List.length_cons]
      push_cast
      linarith
  rw [h2 X hX, neg_eq_zero, Nat.cast_eq_zero, List.length_eq_zero_iff] at h1
  subst h1
  have := hs ![1, 0, 0] (by simp)
  have := congrFun this 0
  simp at this

theorem runLoop_iteration (nth : Nth) (llt : Llt) (f : Problem) (n : ℕ) (i : ℤ) (q : Quat) (t : V3) (s e : ℝ)
    (r : Result) (h : runLoop nth llt f n i q t s e = .ok r) : i ≤ r.iteration := by
  induction n generalizing i q t s e with
  | zero =>
    injection h with h
    rw [← h]
  | succ n ih =>
    unfold runLoop at h
    cases hf : f (makePose q t) with
    | error _ => rw [hf] at h; cases h
    | ok jr =>
      obtain ⟨Js, rs⟩ := jr
      rw [hf] at h
      simp only [bind, Except.bind] at h
      split at h
      · injection h with h
        rw [← h]
      · cases hns : normalizeErrorScale nth (computeErrors rs) with
        | error _ => rw [hns] at h; cases h
        | ok ns =>
          obtain ⟨ns, sc⟩ := ns
          rw [hns] at h
          simp only at h
          split at h
          · injection h with h
            rw [← h]
          · split at h
            · injection h with h
              rw [← h]
            · cases hu : calcUpdate llt q (computeWeights ns) Js rs with
              | error _ => rw [hu] at h; cases h
              | ok d =>
                obtain ⟨dq, dt⟩ := d
                rw [hu] at h
                simp only at h
                split at h
                · injection h with h
                  rw [← h]
                · have := ih _ _ _ _ _ h
                  omega

theorem runLoop_first (nth : Nth) (llt : Llt) {f g : Problem} (n : ℕ) (i : ℤ) (q : Quat) (t : V3) (s e : ℝ)
    (hfg : f (makePose q t) = g (makePose q t)) (r : Result)
    (h : runLoop nth llt g (n + 1) i q t s e = .ok r) (hi : r.iteration = i) :
    runLoop nth llt f (n + 1) i q t s e = .ok r := by
  unfold runLoop at h ⊢
  rw [hfg]
  cases hf : g (makePose q t) with
  | error _ => rw [hf] at h; cases h
  | ok jr =>
    obtain ⟨Js, rs⟩ := jr
    rw [hf] at h
    simp only [bind, Except.bind] at h ⊢
    split at h
    · rw [if_pos ‹_›]
      exact h
    · rw [if_neg ‹_›]
      cases hns : normalizeErrorScale nth (computeErrors rs) with
      | error _ => rw [hns] at h; cases h
      | ok ns =>
        obtain ⟨ns, sc⟩ := ns
        rw [hns] at h
        simp only at h ⊢
        split at h
        · rw [if_pos ‹_›]
          exact h
        · rw [if_neg ‹_›]
          split at h
          · rw [if_pos ‹_›]
            exact h
          · rw [if_neg ‹_›]
            cases hu : calcUpdate llt q (computeWeights ns) Js rs with
            | error _ => rw [hu] at h; cases h
            | ok d =>
              obtain ⟨dq, dt⟩ := d
              rw [hu] at h
              simp only at h ⊢
              split at h
              · rw [if_pos ‹_›]
                exact h
              · have := runLoop_iteration _ _ _ _ _ _ _ _ _ _ h
                omega

/-- C85: if the map and the scan fit perfectly at the initial pose - every edge point, moved by the pose,
is on a line with its neighbours in the map, every point of the downsampled surface scan on a plane
with its neighbours - scan matching returns that pose unchanged, as converged, with error 0. Nothing is
assumed about the neighbourhoods at other poses. -/
theorem C85_true_pose {nth : Nth} (hn : Lib.IsNthElement nth) {llt : Llt} (hllt : LltSpec llt)
    {L : Libs} (hk : KnnSpec L.knn) (he : EigSpec L.eig) (hqr : QrSpec L.qr)
    (edgeMap surfaceMap : List V3) (edgeScan surfaceScan : List V3) (maxIter : ℤ) (h1 : 1 ≤ maxIter)
    (initial : Pose) (hR : IsRotation initial.linear)
    (hne : edgeScan ≠ [] ∨ L.downsample surfaceScan ≠ [])
    (hE : ∀ p ∈ edgeScan, ∃ X, nearestKSearch L.knn edgeMap (initial.apply p) nNeighbors = .ok X ∧
      EdgeFits X initial p)
    (hS : ∀ p ∈ L.downsample surfaceScan, ∃ X,
      nearestKSearch L.knn surfaceMap (initial.apply p) nNeighbors = .ok X ∧ SurfaceFits X initial p) :
    ∃ r, run nth llt (make L edgeMap surfaceMap nNeighbors edgeScan surfaceScan) maxIter initial = .ok r ∧
      r.pose = initial ∧ r.success = true ∧ r.message = .converged ∧ r.error = 0 ∧ r.iteration = 0 := by
  have hm : edgeScan = [] ∨ edgeMap ≠ [] := by
    by_cases h : edgeScan = []
    · exact .inl h
    · right
      rintro rfl
      obtain ⟨p, hp⟩ := List.exists_mem_of_ne_nil _ h
      obtain ⟨X, hX, -⟩ := hE p hp
      rw [(C80_refused hk [] (initial.apply p) nNeighbors).2.2 (by unfold nNeighbors; norm_num) rfl] at hX
      cases hX
  obtain ⟨bs, hbs, es, ss, rfl, hes, hss⟩ := C83_blocks hk he hqr edgeMap surfaceMap 15 (by norm_num)
    edgeScan surfaceScan initial hR hm (fun p hp => by
      obtain ⟨X, hX, hf⟩ := hS p hp
      exact ⟨X, hX, surfaceFits_regular hf⟩)
  have hz : ∀ b ∈ es ++ ss, b.r = 0 := by
    have forall₂_mem : ∀ {P : V3 → Block → Prop} {l : List V3} {bs : List Block},
        List.Forall₂ P l bs → ∀ b ∈ bs, ∃ p ∈ l, P p b := by
      intro P l bs h
      induction h with
      | nil => simp
      | cons h _ ih =>
        intro b hb
        rcases List.mem_cons.1 hb with rfl | hb
        · exact ⟨_, List.mem_cons_self, h⟩
        · obtain ⟨p, hp, hP⟩ := ih b hb
          exact ⟨p, List.mem_cons_of_mem _ hp, hP⟩
    intro b hb
    rcases List.mem_append.1 hb with hb | hb
    · obtain ⟨p, hp, X, hX, -, hmatch⟩ := forall₂_mem hes b hb
      obtain ⟨X', hX', hf⟩ := hE p hp
      have : X = X' := by
        have := hX.symm.trans hX'
        injection this
      subst this
      exact edge_zero hmatch hf
    · obtain ⟨p, hp, X, hX, hmatch⟩ := forall₂_mem hss b hb
      obtain ⟨X', hX', hf⟩ := hS p hp
      have : X = X' := by
        have := hX.symm.trans hX'
        injection this
      subst this
      exact surface_zero hmatch hf
  have hne' : es ++ ss ≠ [] := by
    intro h
    obtain ⟨rfl, rfl⟩ := List.append_eq_nil_iff.1 h
    rcases hne with h | h
    · exact h (List.length_eq_zero_iff.1 hes.length_eq)
    · exact h (List.length_eq_zero_iff.1 hss.length_eq)
  obtain ⟨r, hr, rest⟩ := C85_fixed_point hn hllt (fun _ => es ++ ss) maxIter h1 initial hR hne' hz
  refine ⟨r, ?_, rest⟩
  unfold run at hr ⊢
  simp only at hr ⊢
  rw [if_neg (by omega)] at hr ⊢
  obtain ⟨n, hn'⟩ : ∃ n, maxIter.toNat = n + 1 := ⟨maxIter.toNat - 1, by omega⟩
  rw [hn'] at hr ⊢
  refine runLoop_first nth llt n 0 _ _ _ _ ?_ r hr rest.2.2.2.2
  unfold makePose
  rw [(C71_matrix_to_quaternion _ hR).2]
  exact hbs

/-! ### The hypotheses can be met -/

theorem small_map_members (map : List V3) (hm : map ≠ []) (hs : map.length < 15) (query : V3) :
    ∃ X, nearestKSearch exKnn map query nNeighbors = .ok X ∧ ∀ x, x ∈ X ↔ x ∈ map := by
  obtain ⟨X, -, hp, hX⟩ := C80_small_map exKnn_spec map query 15 hm hs
  refine ⟨_, hX, fun x => ?_⟩
  rw [List.mem_append, hp.mem_iff]
  constructor
  · rintro (h | h)
    · exact h
    · rw [List.eq_of_mem_replicate h]
      exact List.head_mem hm
  · exact .inl

/-- Two points of a vertical pole. -/
def exPole : List V3 := [![1, 0, 0], ![1, 0, 1]]

/-- Library functions; no downsampling. -/
noncomputable def exLibs : Libs := ⟨exKnn, exEig, exQr, id⟩

theorem exWall_fits (T : Pose) (p X) (hX : ∀ x, x ∈ X ↔ x ∈ exWall)
    (hp : (T.linear *ᵥ p + T.translation) 2 = 2) : SurfaceFits X T p := by
  refine ⟨![0, 0, -1 / 2], fun x hx => ?_, ?_, fun v hv => exWall_spanning v fun x hx => hv x ((hX x).2 hx)⟩
  · rw [hX] at hx
    simp only [exWall, List.mem_cons, List.not_mem_nil, or_false] at hx
    rcases hx with rfl | rfl | rfl | rfl <;> simp [OnPlane, dotProduct, Fin.sum_univ_three]
  · generalize T.linear *ᵥ p + T.translation = y at hp
    simp [OnPlane, dotProduct, Fin.sum_univ_three, hp]

/-- A vehicle at `(0, 0, 1)` in a map with a pole and a ceiling sees a point of each. -/
example {nth : Nth} (hn : Lib.IsNthElement nth) {llt : Llt} (hllt : LltSpec llt) :
    ∃ r, run nth llt (make exLibs exPole exWall nNeighbors [![1, 0, 6]] [![3, 3, 1]]) 40
        ⟨1, ![0, 0, 1]⟩ = .ok r ∧
      r.pose = ⟨1, ![0, 0, 1]⟩ ∧ r.success = true ∧ r.message = .converged ∧ r.error = 0 ∧
      r.iteration = 0 := by
  refine C85_true_pose hn hllt (L := exLibs) exKnn_spec exEig_spec exQr_spec exPole exWall _ _ 40
    (by norm_num) _ ⟨by simp, by simp⟩ (.inl (by simp)) (fun p hp => ?_) (fun p hp => ?_)
  · rw [List.mem_singleton] at hp
    subst hp
    obtain ⟨X, hX, hmem⟩ := small_map_members exPole (by simp [exPole]) (by simp [exPole])
      ((⟨1, ![0, 0, 1]⟩ : Pose).apply ![1, 0, 6])
    refine ⟨X, hX, ![1, 0, 0], ![0, 0, 1], fun x hx => ?_, ⟨7, ?_⟩, ![1, 0, 0],
      (hmem _).2 (by simp [exPole]), ![1, 0, 1], (hmem _).2 (by simp [exPole]), ?_⟩
    · rw [hmem] at hx
      simp only [exPole, List.mem_cons, List.not_mem_nil, or_false] at hx
      rcases hx with rfl | rfl
      · exact ⟨0, by simp⟩
      · exact ⟨1, by simp⟩
    · simp
      norm_num
    · intro h
      have := congrFun h 2
      simp at this
  · have hp : p = ![3, 3, 1] := by simpa [exLibs] using hp
    subst hp
    obtain ⟨X, hX, hmem⟩ := small_map_members exWall (by simp [exWall]) (by simp [exWall])
      ((⟨1, ![0, 0, 1]⟩ : Pose).apply ![3, 3, 1])
    refine ⟨X, hX, exWall_fits _ _ X hmem ?_⟩
    simp
    norm_num

/-- The same map and scan from any rigid initial pose. -/
example {nth : Nth} (hn : Lib.IsNthElement nth) {llt : Llt} (hllt : LltSpec llt) (initial : Pose)
    (hR : IsRotation initial.linear) :
    ∃ r, run nth llt (make exLibs exPole exWall nNeighbors [![1, 0, 6]] [![3, 3, 1]]) 40 initial = .ok r ∧
      IsRotation r.pose.linear := by
  obtain ⟨-, r, -, h1, -, h2⟩ := C84_scan_matching hn hllt (L := exLibs) exKnn_spec exEig_spec exQr_spec
    exPole exWall (by simp [exPole]) (fun query => by
      obtain ⟨X, hX, hmem⟩ := small_map_members exWall (by simp [exWall]) (by simp [exWall]) query
      exact ⟨X, hX, surfaceFits_regular (exWall_fits ⟨1, 0⟩ ![0, 0, 2] X hmem (by simp))⟩)
    [![1, 0, 6]] [![3, 3, 1]] 40 (by norm_num) initial hR
  exact ⟨r, h1, h2⟩

end Verif.Loam
