/-
C92 independence of the order of the points, C93 degenerate alignment problems.
-/
import Verif.Props.C91

set_option autoImplicit false

namespace Verif.Align

open Matrix Verif.Rot Verif.Opt Verif.Loc

/-! ### C92 -/

theorem isMedian_perm {l l' : List ℝ} {m : ℝ} (h : l.Perm l') (hm : Lib.IsMedian l m) : Lib.IsMedian l' m := by
  obtain ⟨a, b, h2, h3, rfl⟩ := hm
  exact ⟨a, b, h.length_eq ▸ h2.perm h, h.length_eq ▸ h3.perm h, rfl⟩

theorem isScale_perm {l l' : List ℝ} {s : ℝ} (h : l.Perm l') (hs : IsScale l s) : IsScale l' s := by
  obtain ⟨m, d, hm, hd, rfl⟩ := hs
  exact ⟨m, d, isMedian_perm h hm, isMedian_perm (h.map _) hd, rfl⟩

theorem degenerate_perm {bs bs' : List Block} (h : bs.Perm bs') : Degenerate bs ↔ Degenerate bs' := by
  unfold Degenerate gram
  rw [(h.map fun b : Block => b.Jᵀ * b.J).sum_eq]

theorem zip_weightsOf (bs : List Block) (s : ℝ) : (weightsOf bs s).zip bs =
    bs.map fun b => (huberDerivative (sqLen b.r / (s + 1 / 10 ^ 16)) 1.345, b) := by
  induction bs with
  | nil => rfl
  | cons b bs ih =>
    unfold weightsOf errorsOf at *
    simp only [List.map_cons, List.zip_cons_cons, ih]

theorem isStep_perm {q : Quat} {bs bs' : List Block} {s : ℝ} {dx : Fin 6 → ℝ} (h : bs.Perm bs')
    (hs : IsStep q bs (weightsOf bs s) dx) : IsStep q bs' (weightsOf bs' s) dx := by
  have hc : ∀ dy, cost (makeM q) ((weightsOf bs' s).zip bs') dy = cost (makeM q) ((weightsOf bs s).zip bs) dy := by
    intro dy
    unfold cost
    rw [zip_weightsOf, zip_weightsOf]
    exact (((h.map _).map _).sum_eq).symm
  refine ⟨fun hd => hs.1 ((degenerate_perm h).2 hd), fun hd dy hdy => ?_⟩
  rw [hc, hc]
  exact hs.2 (fun h' => hd ((degenerate_perm h).1 h')) dy hdy

theorem isStep_eq {q : Quat} {bs : List Block} {ws : List ℝ} {dx dy : Fin 6 → ℝ} (hx : IsStep q bs ws dx)
    (hy : IsStep q bs ws dy) : dx = dy := by
  by_cases hd : Degenerate bs
  · rw [hx.1 hd, hy.1 hd]
  · by_contra h
    exact lt_asymm (hx.2 hd dy fun e => h e.symm) (hy.2 hd dx h)

theorem runLoop_perm {nth : Nth} (hn : Lib.IsNthElement nth) {llt : Llt} (hllt : LltSpec llt)
    (blocks blocks' : Pose → List Block) (h : ∀ q t, q.IsUnit → (blocks (makePose q t)).Perm (blocks' (makePose q t)))
    (n : ℕ) : ∀ (iter : ℤ) (q : Quat) (t : V3) (ps pe : ℝ), q.IsUnit →
      runLoop nth llt (problem blocks) n iter q t ps pe = runLoop nth llt (problem blocks') n iter q t ps pe := by
  induction n with
  | zero => intros; rfl
  | succ n ih =>
    intro iter q t ps pe hq
    have hp := h q t hq
    by_cases hb : blocks (makePose q t) = []
    · have hb' : blocks' (makePose q t) = [] := by
        rw [hb] at hp
        exact List.nil_perm.1 hp
      rw [runLoop, runLoop]
      simp [problem, hb, hb', bind, Except.bind]
    · have hb' : blocks' (makePose q t) ≠ [] := fun e => hb (by
        rw [e] at hp
        exact List.perm_nil.1 hp)
      obtain ⟨s, dx, a1, a2, a3⟩ := runLoop_pass hn hllt blocks n iter q hq t ps pe hb
      obtain ⟨s', dx', b1, b2, b3⟩ := runLoop_pass hn hllt blocks' n iter q hq t ps pe hb'
      have hs : s' = s := isScale_unique b1 (isScale_perm (hp.map _) a1)
      subst hs
      have hdx : dx' = dx := isStep_eq b2 (isStep_perm hp a2)
      subst hdx
      have hsum : (errorsOf (blocks' (makePose q t))).sum = (errorsOf (blocks (makePose q t))).sum :=
        ((hp.map _).sum_eq).symm
      rw [a3, b3, hsum, ih _ _ _ _ _ (mul_isUnit _ _ hq (C51_unit _))]

theorem run_perm {nth : Nth} (hn : Lib.IsNthElement nth) {llt : Llt} (hllt : LltSpec llt)
    (blocks blocks' : Pose → List Block)
    (h : ∀ T : Pose, IsRotation T.linear → (blocks T).Perm (blocks' T)) (maxIter : ℤ) (initial : Pose)
    (hR : IsRotation initial.linear) :
    run nth llt (problem blocks) maxIter initial = run nth llt (problem blocks') maxIter initial := by
  unfold run
  simp only
  split
  · rfl
  · exact runLoop_perm hn hllt blocks blocks' (fun q t hq => h _ (toRotationMatrix_rotation q hq)) _ _ _ _ _ _
      (C71_matrix_to_quaternion _ hR).1

/-- C92: the result of an alignment does not depend on the order of the pairs of points. -/
theorem C92_alignment {nth : Nth} (hn : Lib.IsNthElement nth) {llt : Llt} (hllt : LltSpec llt)
    (source target source' target' : List V3) (hl : source.length = target.length)
    (hl' : source'.length = target'.length) (hp : (source.zip target).Perm (source'.zip target'))
    (maxIter : ℤ) (initial : Pose) (hR : IsRotation initial.linear) :
    run nth llt (alignmentMake source target) maxIter initial =
      run nth llt (alignmentMake source' target') maxIter initial := by
  rw [alignmentMake_eq _ _ hl, alignmentMake_eq _ _ hl']
  exact run_perm hn hllt _ _ (fun T _ => hp.map _) maxIter initial hR

/-- Two orders of the corners. -/
example {nth : Nth} (hn : Lib.IsNthElement nth) {llt : Llt} (hllt : LltSpec llt) :
    run nth llt (alignmentMake corners (corners.map fun x => rotZ 1 *ᵥ x)) 40 ⟨1, 0⟩ =
      run nth llt (alignmentMake corners.reverse (corners.reverse.map fun x => rotZ 1 *ᵥ x)) 40 ⟨1, 0⟩ := by
  refine C92_alignment hn hllt _ _ _ _ (by simp) (by simp) ?_ 40 _ ⟨by simp, by simp⟩
  rw [zip_map_self, zip_map_self]
  exact (List.reverse_perm _).symm.map _

theorem mapM_blocks (l : List V3) (f : V3 → Res (DMat × DVec)) (g : V3 → Block)
    (h : ∀ x ∈ l, f x = .ok ((g x).jac, (g x).res)) :
    l.mapM f = .ok ((l.map g).map fun b => (b.jac, b.res)) := by
  induction l with
  | nil => rfl
  | cons x l ih =>
    rw [List.mapM_cons, h x List.mem_cons_self, ih fun z hz => h z (List.mem_cons_of_mem _ hz)]
    rfl

/-- C92: the result of scan matching does not depend on the order of the edge points of the scan, nor on
that of the points of the downsampled surface scan. -/
theorem C92_scan_matching {nth : Nth} (hn : Lib.IsNthElement nth) {llt : Llt} (hllt : LltSpec llt)
    {L : Loam.Libs} (hk : Loam.KnnSpec L.knn) (he : Loam.EigSpec L.eig) (hqr : Loam.QrSpec L.qr)
    (edgeMap surfaceMap : List V3) (hm : edgeMap ≠ [])
    (hs : ∀ query, ∃ X, Loam.nearestKSearch L.knn surfaceMap query Loam.nNeighbors = .ok X ∧ Loam.Regular X)
    (edgeScan surfaceScan edgeScan' surfaceScan' : List V3) (hpe : edgeScan.Perm edgeScan')
    (hps : (L.downsample surfaceScan).Perm (L.downsample surfaceScan')) (maxIter : ℤ) (initial : Pose)
    (hR : IsRotation initial.linear) :
    run nth llt (Loam.make L edgeMap surfaceMap Loam.nNeighbors edgeScan surfaceScan) maxIter initial =
      run nth llt (Loam.make L edgeMap surfaceMap Loam.nNeighbors edgeScan' surfaceScan') maxIter initial := by
  have hE : ∀ (T : Pose) (p : V3), ∃ b : Block, IsRotation T.linear →
      Loam.edgeBlock L.knn L.eig edgeMap Loam.nNeighbors T p = .ok (b.jac, b.res) := by
    intro T p
    by_cases hT : IsRotation T.linear
    · obtain ⟨-, b, -, -, h, -⟩ := Loam.edgeBlock_ok hk he edgeMap hm 15 (by norm_num) T hT p
      exact ⟨b, fun _ => h⟩
    · exact ⟨⟨0, 0, 0⟩, fun h => absurd h hT⟩
  have hS : ∀ (T : Pose) (p : V3), ∃ b : Block, IsRotation T.linear →
      Loam.surfaceBlock L.knn L.qr surfaceMap Loam.nNeighbors T p = .ok (b.jac, b.res) := by
    intro T p
    by_cases hT : IsRotation T.linear
    · obtain ⟨X, hX, hr⟩ := hs (T.apply p)
      obtain ⟨b, h, -⟩ := Loam.surfaceBlock_ok hqr surfaceMap Loam.nNeighbors T hT p X hX hr
      exact ⟨b, fun _ => h⟩
    · exact ⟨⟨0, 0, 0⟩, fun h => absurd h hT⟩
  choose eb heb using hE
  choose sb hsb using hS
  have hmake : ∀ (es ss : List V3) (T : Pose), IsRotation T.linear →
      Loam.make L edgeMap surfaceMap Loam.nNeighbors es ss T =
        problem (fun T => es.map (eb T) ++ (L.downsample ss).map (sb T)) T := by
    intro es ss T hT
    unfold Loam.make Loam.edgeMake Loam.surfaceMake problem
    rw [mapM_blocks es _ (eb T) fun x _ => heb T x hT,
      mapM_blocks (L.downsample ss) _ (sb T) fun x _ => hsb T x hT]
    simp only [bind, Except.bind, pure, Except.pure, List.map_map, List.map_append]
    rfl
  rw [Loam.run_congr nth llt (hmake edgeScan surfaceScan) maxIter initial hR,
    Loam.run_congr nth llt (hmake edgeScan' surfaceScan') maxIter initial hR]
  exact run_perm hn hllt _ _ (fun T _ => (hpe.map _).append (hps.map _)) maxIter initial hR

/-- A scan of two edge points and two surface points in two orders. -/
example {nth : Nth} (hn : Lib.IsNthElement nth) {llt : Llt} (hllt : LltSpec llt) (initial : Pose)
    (hR : IsRotation initial.linear) :
    run nth llt (Loam.make Loam.exLibs Loam.exPole Loam.exWall Loam.nNeighbors [![1, 0, 6], ![1, 0, 7]]
        [![3, 3, 1], ![4, 3, 1]]) 40 initial =
      run nth llt (Loam.make Loam.exLibs Loam.exPole Loam.exWall Loam.nNeighbors [![1, 0, 7], ![1, 0, 6]]
        [![4, 3, 1], ![3, 3, 1]]) 40 initial :=
  C92_scan_matching hn hllt (L := Loam.exLibs) Loam.exKnn_spec Loam.exEig_spec Loam.exQr_spec
    Loam.exPole Loam.exWall (by simp [Loam.exPole]) (fun query => by
      obtain ⟨X, hX, hmem⟩ := Loam.small_map_members Loam.exWall (by simp [Loam.exWall]) (by simp [Loam.exWall]) query
      exact ⟨X, hX, Loam.surfaceFits_regular (Loam.exWall_fits ⟨1, 0⟩ ![0, 0, 2] X hmem (by simp))⟩)
    _ _ _ _ (List.Perm.swap _ _ _) (List.Perm.swap _ _ _) 40 initial hR

/-! ### C93 -/

/-- C93: whether an alignment problem is degenerate depends on the source points only, not on the pose
or the target points: it is degenerate exactly if the source points are not spread enough. -/
theorem C93_degenerate (source target : List V3) (h : source.length = target.length) (T : Pose)
    (hT : IsRotation T.linear) (bs : List Block)
    (hb : alignmentMake source target T = .ok (bs.map Block.jac, bs.map Block.res)) :
    Degenerate bs ↔ ¬ Spread source := by
  have hjac : bs.map Block.jac = (alignmentBlocks (source.zip target) T).map Block.jac := by
    rw [alignmentMake_eq _ _ h, problem] at hb
    injection hb with hb
    injection hb with hb _
    exact hb.symm
  have hgram : ∀ l : List Block, gram l = ((l.map Block.jac).map fun M =>
      if hc : M.cols = 7 then ((hc ▸ M.data : Matrix (Fin M.rows) (Fin 7) ℝ))ᵀ * (hc ▸ M.data) else 0).sum := by
    intro l
    unfold gram
    rw [List.map_map]
    congr 1
  have hd : Degenerate bs ↔ Degenerate (alignmentBlocks (source.zip target) T) := by
    unfold Degenerate
    rw [hgram, hgram, hjac]
  rw [hd, alignment_degenerate _ T hT, List.map_fst_zip (by omega)]

/-- C93: a run on source points that are not spread enough returns the initial pose, as converged. -/
theorem C93_unchanged {nth : Nth} (hn : Lib.IsNthElement nth) {llt : Llt} (hllt : LltSpec llt)
    (source target : List V3) (h : source.length = target.length) (hne : source ≠ [])
    (hs : ¬ Spread source) (maxIter : ℤ) (h1 : 1 ≤ maxIter) (initial : Pose) (hR : IsRotation initial.linear)
    (hE : misfit source target initial ≤ dblMax)
    (hS : ∀ s, IsScale (errorsOf (alignmentBlocks (source.zip target) initial)) s → s ≤ dblMax) :
    ∃ r, run nth llt (alignmentMake source target) maxIter initial = .ok r ∧ r.pose = initial ∧
      r.success = true ∧ r.message = .converged := by
  rw [alignmentMake_eq _ _ h]
  have hz : source.zip target ≠ [] := by
    intro e
    have := congrArg List.length e
    rw [List.length_zip, List.length_nil, ← h, Nat.min_self] at this
    exact hne (List.length_eq_zero_iff.1 this)
  obtain ⟨r, r1, r2, r3, r4, -⟩ := C75_degenerate_success hn hllt (alignmentBlocks (source.zip target)) maxIter h1
    initial hR (by simpa [alignmentBlocks] using hz)
    (by
      rw [alignment_degenerate _ _ hR, List.map_fst_zip (by omega)]
      exact hs)
    (by rw [errors_sum]; exact hE) hS
  exact ⟨r, r1, r4, r2, r3⟩

/-- Points on a line are not spread enough: the rotation about the line is not determined. -/
theorem C93_line (source : List V3) (u : V3) (hu : u ⬝ᵥ u = 1) (h : ∀ x ∈ source, ∃ a : ℝ, x = a • u) :
    ¬ Spread source := by
  intro hs
  have h1 := hs 0 u 0
  rw [List.sum_eq_zero] at h1
  · have : sqLen u = 1 := by rw [sqLen_eq, hu]
    rw [this] at h1
    have : sqLen (0 : V3) = 0 := by simp [sqLen]
    rw [this] at h1
    norm_num at h1
  · intro y hy
    obtain ⟨x, hx, rfl⟩ := List.mem_map.1 hy
    obtain ⟨a, rfl⟩ := h x hx
    simp [sqLen]

/-- Three points on a line, to be moved by one: nothing happens. -/
example {nth : Nth} (hn : Lib.IsNthElement nth) {llt : Llt} (hllt : LltSpec llt) :
    ∃ r, run nth llt (alignmentMake [![1, 0, 0], ![2, 0, 0], ![3, 0, 0]] [![2, 0, 0], ![3, 0, 0], ![4, 0, 0]])
        40 ⟨1, 0⟩ = .ok r ∧ r.pose = ⟨1, 0⟩ ∧ r.success = true ∧ r.message = .converged := by
  have hD := dblMax_large
  have he : errorsOf (alignmentBlocks ([![1, 0, 0], ![2, 0, 0], ![3, 0, 0]].zip
      [![2, 0, 0], ![3, 0, 0], ![4, 0, 0]]) ⟨1, 0⟩) = List.replicate 3 1 := by
    simp [errorsOf, alignmentBlocks, alignmentResidual, Pose.apply, sqLen, Fin.sum_univ_succ, List.replicate]
    norm_num
  refine C93_unchanged hn hllt [![1, 0, 0], ![2, 0, 0], ![3, 0, 0]] [![2, 0, 0], ![3, 0, 0], ![4, 0, 0]] rfl
    (List.cons_ne_nil _ _) (C93_line _ ![1, 0, 0] (by simp) ?_) 40 (by norm_num) ⟨1, 0⟩
    ⟨by simp, by simp⟩ ?_ ?_
  · intro x hx
    simp only [List.mem_cons, List.not_mem_nil, or_false] at hx
    rcases hx with rfl | rfl | rfl
    · exact ⟨1, by simp⟩
    · exact ⟨2, by simp⟩
    · exact ⟨3, by simp⟩
  · unfold misfit
    rw [← errors_sum, he]
    simp
    linarith
  · intro s hs
    rw [he] at hs
    rw [isScale_const (fun e h => List.eq_of_mem_replicate h) hs]
    linarith

end Verif.Align
