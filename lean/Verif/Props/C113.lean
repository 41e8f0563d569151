/-
C113: moving the map moves the result of scan matching.
-/
import Verif.Props.C91
import Verif.Props.C83

set_option autoImplicit false

namespace Verif.Loam

open Matrix Verif.Rot Verif.Opt Verif.Loc

/-! ### Specifications -/

/-- A pose moved by a vector. -/
def shiftPose (s : V3) (T : Pose) : Pose := ⟨T.linear, T.translation + s⟩

/-- All points moved by a vector. -/
def shiftMap (s : V3) (X : List V3) : List V3 := X.map fun x => x + s

/-- A neighbour search that looks at differences of points only (its choice among equally near points
does not depend on the origin). -/
def SearchMoves (knn : Knn) (s : V3) : Prop :=
  ∀ (map : List V3) (query : V3) (k : ℕ), knn (shiftMap s map) (query + s) k = knn map query k

/-- The points `X` determine a plane, lie on it, and the plane does not contain the origin; nor does it
when it is moved by `s`. -/
def OnWall (s : V3) (X : List V3) : Prop :=
  Spanning X ∧ ∃ n : V3, (∀ x ∈ X, OnPlane n x) ∧ ¬ OnPlane n (-s)

/-- The points `X` are not all on one plane. -/
def NotFlat (X : List V3) : Prop := ∀ (v : V3) (c : ℝ), (∀ x ∈ X, x ⬝ᵥ v = c) → v = 0

/-- The run asks for the problem at poses in `S` only: changing the problem elsewhere changes nothing. -/
def StaysIn (S : Pose → Prop) (nth : Nth) (llt : Llt) (f : Problem) (maxIter : ℤ) (initial : Pose) :
    Prop :=
  ∀ g : Problem, (∀ T, S T → g T = f T) → run nth llt g maxIter initial = run nth llt f maxIter initial

/-! ### Blocks up to sign -/

/-- The same block, or the block with Jacobian and residual negated. -/
def UpToSign (a b : DMat × DVec) : Prop :=
  a = b ∨ ∃ (m : ℕ) (J : Matrix (Fin m) (Fin 7) ℝ) (r : Fin m → ℝ),
    a = (⟨m, 7, J⟩, ⟨m, r⟩) ∧ b = (⟨m, 7, -J⟩, ⟨m, -r⟩)

theorem accumulate_sign {as bs : List (DMat × DVec)} (h : List.Forall₂ UpToSign as bs) :
    ∀ (ws : List ℝ) (acc : Matrix (Fin 7) (Fin 7) ℝ × Matrix (Fin 7) (Fin 7) ℝ × (Fin 7 → ℝ)),
      accumulate ws (as.map Prod.fst) (as.map Prod.snd) acc =
        accumulate ws (bs.map Prod.fst) (bs.map Prod.snd) acc := by
  induction h with
  | nil => intro ws acc; rfl
  | @cons a b as bs hab _ ih =>
    intro ws acc
    obtain ⟨D, A, c⟩ := acc
    cases ws with
    | nil =>
      obtain ⟨⟨_, _, _⟩, ⟨_, _⟩⟩ := a
      obtain ⟨⟨_, _, _⟩, ⟨_, _⟩⟩ := b
      rfl
    | cons w ws =>
      rcases hab with rfl | ⟨m, J, r, rfl, rfl⟩
      · obtain ⟨⟨m, n, J⟩, ⟨l, r⟩⟩ := a
        simp only [List.map_cons, accumulate]
        split
        · split
          · exact ih _ _
          · rfl
        · rfl
      · simp only [List.map_cons, accumulate, dite_true, Matrix.transpose_neg, Matrix.neg_mul,
          Matrix.mul_neg, neg_neg, Matrix.neg_mulVec, Matrix.mulVec_neg]
        exact ih _ _

theorem errors_sign {as bs : List (DMat × DVec)} (h : List.Forall₂ UpToSign as bs) :
    computeErrors (as.map Prod.snd) = computeErrors (bs.map Prod.snd) := by
  induction h with
  | nil => rfl
  | @cons a b as bs hab _ ih =>
    simp only [computeErrors, List.map_cons] at ih ⊢
    rw [ih]
    rcases hab with rfl | ⟨m, J, r, rfl, rfl⟩
    · rfl
    · simp

theorem update_sign (llt : Llt) (q : Quat) (ws : List ℝ) {as bs : List (DMat × DVec)}
    (h : List.Forall₂ UpToSign as bs) :
    calcUpdate llt q ws (as.map Prod.fst) (as.map Prod.snd) =
      calcUpdate llt q ws (bs.map Prod.fst) (bs.map Prod.snd) := by
  have hl := h.length_eq
  unfold calcUpdate weightedUpdate
  simp only [List.length_map, hl, accumulate_sign h]

/-- The same failure or the same blocks up to sign. -/
def SameProblem (x y : Res (List DMat × List DVec)) : Prop :=
  x = y ∨ ∃ as bs : List (DMat × DVec), x = .ok (as.map Prod.fst, as.map Prod.snd) ∧
    y = .ok (bs.map Prod.fst, bs.map Prod.snd) ∧ List.Forall₂ UpToSign as bs

theorem runLoop_same (nth : Nth) (llt : Llt) (f g : Problem) (s : V3)
    (h : ∀ q t, SameProblem (f (makePose q (t + s))) (g (makePose q t))) (n : ℕ) :
    ∀ (iter : ℤ) (q : Quat) (t : V3) (ps pe : ℝ),
      runLoop nth llt f n iter q (t + s) ps pe =
        (runLoop nth llt g n iter q t ps pe).map (Align.Opt.Result.moved s) := by
  induction n with
  | zero =>
    intro iter q t ps pe
    rfl
  | succ n ih =>
    intro iter q t ps pe
    rw [runLoop, runLoop]
    have hgen : ∀ (js js' : List DMat) (rs rs' : List DVec), rs.length = rs'.length →
        computeErrors rs = computeErrors rs' →
        (∀ ws, calcUpdate llt q ws js rs = calcUpdate llt q ws js' rs') →
        f (makePose q (t + s)) = .ok (js, rs) → g (makePose q t) = .ok (js', rs') →
        runLoop nth llt f (n + 1) iter q (t + s) ps pe =
          (runLoop nth llt g (n + 1) iter q t ps pe).map (Align.Opt.Result.moved s) := by
      intro js js' rs rs' hl he hu hf hg
      rw [runLoop, runLoop, hf, hg]
      simp only [bind, Except.bind, hl, he]
      split
      · rfl
      cases normalizeErrorScale nth (computeErrors rs') with
      | error e => rfl
      | ok ns =>
        obtain ⟨ns, sc⟩ := ns
        simp only
        split
        · rfl
        split
        · rfl
        rw [hu]
        cases calcUpdate llt q (computeWeights ns) js' rs' with
        | error e => rfl
        | ok u =>
          obtain ⟨dq, dt⟩ := u
          simp only
          split
          · show Except.ok _ = Except.ok _
            simp only [Align.Opt.Result.moved, makePose]
            rw [add_right_comm]
          · rw [add_right_comm, ih]
    rw [← runLoop, ← runLoop]
    rcases h q t with heq | ⟨as, bs, hf, hg, hab⟩
    · cases hg : g (makePose q t) with
      | error e =>
        rw [runLoop, runLoop, heq, hg]
        rfl
      | ok jr =>
        obtain ⟨js, rs⟩ := jr
        exact hgen js js rs rs rfl rfl (fun _ => rfl) (heq.trans hg) hg
    · exact hgen _ _ _ _ (by simp [hab.length_eq]) (errors_sign hab) (fun ws => update_sign llt q ws hab)
        hf hg

theorem run_same (nth : Nth) (llt : Llt) (f g : Problem) (s : V3)
    (h : ∀ q t, SameProblem (f (makePose q (t + s))) (g (makePose q t))) (maxIter : ℤ) (initial : Pose) :
    run nth llt f maxIter (shiftPose s initial) =
      (run nth llt g maxIter initial).map (Align.Opt.Result.moved s) := by
  unfold run
  simp only [shiftPose]
  split
  · rfl
  · exact runLoop_same nth llt f g s h _ _ _ _ _ _

/-! ### Moving the map -/

theorem getRows_shift (s : V3) (map : List V3) (indices : List ℕ) :
    getRows (shiftMap s map) indices = Except.map (shiftMap s) (getRows map indices) := by
  unfold getRows
  induction indices with
  | nil => rfl
  | cons i is ih =>
    rw [List.mapM_cons, List.mapM_cons, ih]
    have : (shiftMap s map)[i]? = (map[i]?).map fun x => x + s := by simp [shiftMap]
    rw [this]
    cases map[i]? with
    | none => rfl
    | some x =>
      generalize (List.mapM (m := Except Err) _ is) = m
      cases m with
      | error e => rfl
      | ok X => rfl

theorem search_shift {knn : Knn} {s : V3} (hk : SearchMoves knn s) (map : List V3) (query : V3) (k : ℤ) :
    nearestKSearch knn (shiftMap s map) (query + s) k =
      Except.map (shiftMap s) (nearestKSearch knn map query k) := by
  unfold nearestKSearch
  split
  · rfl
  split
  · rfl
  simp only [hk map query, getRows_shift]

theorem mean_shift (s : V3) (X : List V3) :
    calcMeanAndCovariance (shiftMap s X) =
      (calcMeanAndCovariance X).map fun r => (r.1 + s, r.2) := by
  unfold calcMeanAndCovariance center
  have hl : (shiftMap s X).length = X.length := by simp [shiftMap]
  rw [hl]
  by_cases h : X.length = 0
  · rw [if_pos h, if_pos h]
    rfl
  · rw [if_neg h, if_neg h]
    have hl' : (X.length : ℝ) ≠ 0 := Nat.cast_ne_zero.2 h
    have hsum : ∀ (Y : List V3) (j : Fin 3), ((shiftMap s Y).map fun x => x j).sum =
        (Y.map fun x => x j).sum + Y.length * s j := by
      intro Y j
      induction Y with
      | nil => simp [shiftMap]
      | cons y Y ih =>
        simp only [shiftMap, List.map_cons, List.sum_cons, List.length_cons, Pi.add_apply] at ih ⊢
        rw [ih]
        push_cast
        ring
    have hm : (fun j => ((shiftMap s X).map fun x => x j).sum / (X.length : ℝ)) =
        (fun j => (X.map fun x => x j).sum / (X.length : ℝ)) + s := by
      funext j
      rw [hsum, Pi.add_apply]
      field_simp
    simp only [bind, Option.bind, pure, Option.map_some]
    rw [hm]
    congr 2
    have hD : (shiftMap s X).map (fun x => x - ((fun j => (X.map fun x => x j).sum / (X.length : ℝ)) + s)) =
        X.map (fun x => x - fun j => (X.map fun x => x j).sum / (X.length : ℝ)) := by
      simp only [shiftMap, List.map_map]
      refine List.map_congr_left fun x _ => ?_
      simp only [Function.comp_apply, add_sub_add_right_eq_sub]
    rw [hD]

theorem apply_shift (s : V3) (T : Pose) (p : V3) : (shiftPose s T).apply p = T.apply p + s := by
  simp only [Pose.apply, shiftPose, add_assoc]

theorem edgeBlock_shift {knn : Knn} {s : V3} (hk : SearchMoves knn s) (eig : Eig) (map : List V3) (k : ℤ)
    (T : Pose) (p : V3) :
    edgeBlock knn eig (shiftMap s map) k (shiftPose s T) p = edgeBlock knn eig map k T p := by
  unfold edgeBlock
  simp only [apply_shift, search_shift hk, bind, Except.bind]
  cases nearestKSearch knn map (T.apply p) k with
  | error e => rfl
  | ok X =>
    simp only [Except.map, mean_shift]
    cases calcMeanAndCovariance X with
    | none => rfl
    | some r =>
      obtain ⟨m, C⟩ := r
      simp only [Option.map_some, finite]
      generalize (fun i => (eig C).2 i 2 : V3) = u
      have h1 : m + s + u - (m + s - u) = m + u - (m - u) := by abel
      have h2 : T.apply p + s - (m + s - u) = T.apply p - (m - u) := by abel
      have h3 : T.apply p + s - (m + s + u) = T.apply p - (m + u) := by abel
      simp only [makeEdgeJacobianRow, makeEdgeResidual, apply_shift, h1, h2, h3]
      rfl

theorem mapM_related {α β : Type} {R : β → β → Prop} {f g : α → Res β} (l : List α)
    (h : ∀ x ∈ l, ∃ a b, f x = .ok a ∧ g x = .ok b ∧ R a b) :
    ∃ as bs, l.mapM f = .ok as ∧ l.mapM g = .ok bs ∧ List.Forall₂ R as bs := by
  induction l with
  | nil => exact ⟨[], [], rfl, rfl, .nil⟩
  | cons x l ih =>
    obtain ⟨a, b, ha, hb, hab⟩ := h x List.mem_cons_self
    obtain ⟨as, bs, has, hbs, hR⟩ := ih fun y hy => h y (List.mem_cons_of_mem _ hy)
    refine ⟨a :: as, b :: bs, ?_, ?_, .cons hab hR⟩
    · rw [List.mapM_cons, ha, has]
      rfl
    · rw [List.mapM_cons, hb, hbs]
      rfl

theorem wall_shift {s : V3} {X : List V3} (hX : Spanning X) {n : V3} (hn : ∀ x ∈ X, OnPlane n x)
    (hs : ¬ OnPlane n (-s)) :
    Spanning (shiftMap s X) ∧ ∀ y ∈ shiftMap s X, OnPlane ((1 - n ⬝ᵥ s)⁻¹ • n) y := by
  have h0 : 1 - n ⬝ᵥ s ≠ 0 := by
    intro h
    apply hs
    unfold OnPlane
    rw [dotProduct_neg]
    linarith
  constructor
  · intro v hv
    have hx : ∀ x ∈ X, x ⬝ᵥ (v - (s ⬝ᵥ v) • n) = 0 := by
      intro x hx
      have h1 := hv (x + s) (List.mem_map_of_mem hx)
      have h2 : n ⬝ᵥ x + 1 = 0 := hn x hx
      rw [add_dotProduct] at h1
      rw [dotProduct_sub, dotProduct_smul, smul_eq_mul, dotProduct_comm x n]
      linear_combination h1 - (s ⬝ᵥ v) * h2
    have hv' : v = (s ⬝ᵥ v) • n := sub_eq_zero.1 (hX _ hx)
    have h3 : s ⬝ᵥ v = (s ⬝ᵥ v) * (n ⬝ᵥ s) := by
      conv_lhs => rw [hv']
      rw [dotProduct_smul, smul_eq_mul, dotProduct_comm s n]
    have h4 : s ⬝ᵥ v = 0 := by
      have : (s ⬝ᵥ v) * (1 - n ⬝ᵥ s) = 0 := by linear_combination h3
      exact (mul_eq_zero.1 this).resolve_right h0
    rw [hv', h4, zero_smul]
  · intro y hy
    obtain ⟨x, hx, rfl⟩ := List.mem_map.1 hy
    have h2 : n ⬝ᵥ x + 1 = 0 := hn x hx
    unfold OnPlane
    rw [smul_dotProduct, dotProduct_add, smul_eq_mul]
    field_simp
    linear_combination h2

theorem hcat_neg {m k l : ℕ} (A : Matrix (Fin m) (Fin k) ℝ) (B : Matrix (Fin m) (Fin l) ℝ) :
    hcat (-A) (-B) = -hcat A B := by
  ext i j
  simp only [hcat, Matrix.of_apply, Matrix.neg_apply]
  refine Fin.addCases (fun j => ?_) (fun j => ?_) j <;> simp

theorem norm_smul_abs (c : ℝ) (n : V3) : Rot.norm (c • n) = |c| * Rot.norm n := by
  unfold Rot.norm
  rw [smul_dotProduct, dotProduct_smul, smul_eq_mul, smul_eq_mul, ← mul_assoc,
    Real.sqrt_mul (mul_self_nonneg c), Real.sqrt_mul_self_eq_abs]

theorem surfaceBlock_exact {knn : Knn} {qr : Qr} (hqr : QrSpec qr) (map : List V3) (k : ℤ) (T : Pose) (p : V3)
    (X : List V3) (hX : nearestKSearch knn map (T.apply p) k = .ok X) (hspan : Spanning X) (n : V3)
    (hn : ∀ x ∈ X, OnPlane n x) (hnorm : Rot.norm n ≠ 0) :
    surfaceBlock knn qr map k T p =
      .ok (⟨1, 7, hcat ((Matrix.of fun _ i => n i / Rot.norm n : Matrix (Fin 1) (Fin 3) ℝ) *
          dRpDq (Quat.ofMatrix T.linear) p) (Matrix.of fun _ i => n i / Rot.norm n)⟩,
        ⟨1, fun _ => (n ⬝ᵥ T.apply p + planeBias) / Rot.norm n⟩) := by
  unfold surfaceBlock
  simp only [hX, C82_exact hqr X hspan n hn, bind, Except.bind, makeJacobianRow, if_neg hnorm, finite,
    signedPointPlaneDistance]
  rfl

theorem surfaceBlock_shift {knn : Knn} {s : V3} (hk : SearchMoves knn s) {qr : Qr} (hqr : QrSpec qr)
    (map : List V3) (k : ℤ) (T : Pose) (p : V3) (X : List V3)
    (hX : nearestKSearch knn map (T.apply p) k = .ok X) (hw : OnWall s X) (hne : X ≠ []) :
    ∃ a b, surfaceBlock knn qr (shiftMap s map) k (shiftPose s T) p = .ok a ∧
      surfaceBlock knn qr map k T p = .ok b ∧ UpToSign a b := by
  obtain ⟨hspan, n, hn, hs⟩ := hw
  obtain ⟨hspan', hn'⟩ := wall_shift hspan hn hs
  have h0 : 1 - n ⬝ᵥ s ≠ 0 := by
    intro h
    apply hs
    unfold OnPlane
    rw [dotProduct_neg]
    linarith
  have hn0 : n ≠ 0 := by
    rintro rfl
    obtain ⟨x, hx⟩ := List.exists_mem_of_ne_nil X hne
    have := hn x hx
    simp [OnPlane] at this
  have hnorm : Rot.norm n ≠ 0 := by
    intro h
    exact hn0 ((Loc.len_eq_zero n).1 h)
  set c := (1 - n ⬝ᵥ s)⁻¹ with hc
  have hc0 : c ≠ 0 := inv_ne_zero h0
  have hcs : c * (n ⬝ᵥ s) = c - 1 := by
    have : c * (1 - n ⬝ᵥ s) = 1 := inv_mul_cancel₀ h0
    linear_combination -this
  have hnorm' : Rot.norm (c • n) ≠ 0 := by
    rw [norm_smul_abs]
    exact mul_ne_zero (abs_ne_zero.2 hc0) hnorm
  refine ⟨_, _, surfaceBlock_exact hqr _ k _ p _ (by rw [apply_shift, search_shift hk, hX]; rfl) hspan' _ hn'
    hnorm', surfaceBlock_exact hqr map k T p X hX hspan n hn hnorm, ?_⟩
  rw [apply_shift]
  have hd : (c • n) ⬝ᵥ (T.apply p + s) + planeBias = c * (n ⬝ᵥ T.apply p + planeBias) := by
    rw [smul_dotProduct, dotProduct_add, smul_eq_mul, mul_add, hcs]
    unfold planeBias
    ring
  have hlin : (shiftPose s T).linear = T.linear := rfl
  rcases lt_or_gt_of_ne hc0 with hneg | hpos
  · right
    have hu : (Matrix.of fun _ i => (c • n) i / Rot.norm (c • n) : Matrix (Fin 1) (Fin 3) ℝ) =
        -Matrix.of fun _ i => n i / Rot.norm n := by
      ext i j
      rw [norm_smul_abs, abs_of_neg hneg]
      simp only [Matrix.of_apply, Matrix.neg_apply, Pi.smul_apply, smul_eq_mul]
      field_simp
    refine ⟨1, _, _, rfl, ?_⟩
    simp only [hlin, hu, Matrix.neg_mul, hcat_neg, neg_neg, Prod.mk.injEq, true_and, DVec.mk.injEq,
      heq_eq_eq]
    funext i
    rw [Pi.neg_apply, hd, norm_smul_abs, abs_of_neg hneg]
    field_simp
  · left
    have hu : (Matrix.of fun _ i => (c • n) i / Rot.norm (c • n) : Matrix (Fin 1) (Fin 3) ℝ) =
        Matrix.of fun _ i => n i / Rot.norm n := by
      ext i j
      rw [norm_smul_abs, abs_of_pos hpos]
      simp only [Matrix.of_apply, Pi.smul_apply, smul_eq_mul]
      field_simp
    simp only [hlin, hu, Prod.mk.injEq, true_and, DVec.mk.injEq, heq_eq_eq]
    funext i
    rw [hd, norm_smul_abs, abs_of_pos hpos]
    field_simp

theorem make_shift {L : Libs} {s : V3} (hk : SearchMoves L.knn s) (hqr : QrSpec L.qr)
    (edgeMap surfaceMap : List V3) (k : ℤ) (edgeScan surfaceScan : List V3) (T : Pose)
    (hS : ∀ p ∈ L.downsample surfaceScan, ∃ X, nearestKSearch L.knn surfaceMap (T.apply p) k = .ok X ∧
      X ≠ [] ∧ OnWall s X) :
    SameProblem
      (make L (shiftMap s edgeMap) (shiftMap s surfaceMap) k edgeScan surfaceScan (shiftPose s T))
      (make L edgeMap surfaceMap k edgeScan surfaceScan T) := by
  obtain ⟨as, bs, has, hbs, hab⟩ := mapM_related (R := UpToSign)
    (f := surfaceBlock L.knn L.qr (shiftMap s surfaceMap) k (shiftPose s T))
    (g := surfaceBlock L.knn L.qr surfaceMap k T) (L.downsample surfaceScan) (fun p hp => by
      obtain ⟨X, hX, hne, hw⟩ := hS p hp
      exact surfaceBlock_shift hk hqr surfaceMap k T p X hX hw hne)
  have hedge : edgeBlock L.knn L.eig (shiftMap s edgeMap) k (shiftPose s T) =
      edgeBlock L.knn L.eig edgeMap k T := funext fun p => edgeBlock_shift hk L.eig edgeMap k T p
  unfold make edgeMake surfaceMake
  rw [has, hbs, hedge]
  cases edgeScan.mapM (edgeBlock L.knn L.eig edgeMap k T) with
  | error e => exact .inl rfl
  | ok es =>
    refine .inr ⟨es ++ as, es ++ bs, ?_, ?_, ?_⟩
    · simp [bind, Except.bind, pure, Except.pure]
    · simp [bind, Except.bind, pure, Except.pure]
    · exact List.rel_append (List.forall₂_same.2 fun x _ => .inl rfl) hab

/-- C113, the part that holds: move the map and the initial pose by the same vector. Then scan matching
returns the moved pose, with the same message, number of iterations and errors, or fails in the same
way - provided that, at all poses the optimiser visits, the neighbours of each surface point lie on a
plane that contains the origin neither before nor after the move. Edges need no proviso. Missing:
neighbourhoods that are not exactly flat, and planes through the origin; see
`C113_origin_violated`. -/
theorem C113_translation_partial (nth : Nth) (llt : Llt) {L : Libs} {s : V3} (hk : SearchMoves L.knn s)
    (hqr : QrSpec L.qr) (edgeMap surfaceMap edgeScan surfaceScan : List V3) (maxIter : ℤ) (initial : Pose)
    (S : Pose → Prop)
    (hS : StaysIn S nth llt (make L edgeMap surfaceMap nNeighbors edgeScan surfaceScan) maxIter initial)
    (hwall : ∀ T, S T → ∀ p ∈ L.downsample surfaceScan, ∃ X,
      nearestKSearch L.knn surfaceMap (T.apply p) nNeighbors = .ok X ∧ X ≠ [] ∧ OnWall s X) :
    run nth llt (make L (edgeMap.map fun x => x + s) (surfaceMap.map fun x => x + s) nNeighbors edgeScan
        surfaceScan) maxIter ⟨initial.linear, initial.translation + s⟩ =
      (run nth llt (make L edgeMap surfaceMap nNeighbors edgeScan surfaceScan) maxIter initial).map
        fun r => { r with pose := ⟨r.pose.linear, r.pose.translation + s⟩ } := by
  classical
  let f := make L (shiftMap s edgeMap) (shiftMap s surfaceMap) nNeighbors edgeScan surfaceScan
  let g : Problem := fun T => if S T then make L edgeMap surfaceMap nNeighbors edgeScan surfaceScan T
    else f (shiftPose s T)
  have hg : run nth llt g maxIter initial =
      run nth llt (make L edgeMap surfaceMap nNeighbors edgeScan surfaceScan) maxIter initial :=
    hS g fun T hT => if_pos hT
  have hrun := run_same nth llt f g s (fun q t => by
    have hp : makePose q (t + s) = shiftPose s (makePose q t) := rfl
    rw [hp]
    by_cases hT : S (makePose q t)
    · simp only [g, if_pos hT]
      exact make_shift hk hqr edgeMap surfaceMap nNeighbors edgeScan surfaceScan _ (hwall _ hT)
    · simp only [g, if_neg hT]
      exact .inl rfl) maxIter initial
  rw [hg] at hrun
  exact hrun

/-- C113, edges only: without surface points in the scan there is no proviso. -/
theorem C113_edges (nth : Nth) (llt : Llt) {L : Libs} {s : V3} (hk : SearchMoves L.knn s)
    (hqr : QrSpec L.qr) (edgeMap surfaceMap edgeScan surfaceScan : List V3)
    (hscan : L.downsample surfaceScan = []) (maxIter : ℤ) (initial : Pose) :
    run nth llt (make L (edgeMap.map fun x => x + s) (surfaceMap.map fun x => x + s) nNeighbors edgeScan
        surfaceScan) maxIter ⟨initial.linear, initial.translation + s⟩ =
      (run nth llt (make L edgeMap surfaceMap nNeighbors edgeScan surfaceScan) maxIter initial).map
        fun r => { r with pose := ⟨r.pose.linear, r.pose.translation + s⟩ } :=
  C113_translation_partial nth llt hk hqr edgeMap surfaceMap edgeScan surfaceScan maxIter initial
    (fun _ => True) (fun g h => by rw [show g = _ from funext fun T => h T trivial])
    (fun T _ p hp => by rw [hscan] at hp; exact absurd hp List.not_mem_nil)

/-- C113 is false in general: wherever the neighbours of a surface point are not exactly on one plane, the
map can be moved such that scan matching, started from the moved pose, divides by zero. -/
theorem C113_origin_violated (nth : Nth) (llt : Llt) {L : Libs} (hk : ∀ s, SearchMoves L.knn s)
    (hqr : QrSpec L.qr) (edgeMap surfaceMap surfaceScan : List V3) (p : V3) (rest : List V3)
    (hscan : L.downsample surfaceScan = p :: rest) (initial : Pose) (hR : IsRotation initial.linear)
    (maxIter : ℤ) (h1 : 1 ≤ maxIter) (X : List V3)
    (hX : nearestKSearch L.knn surfaceMap (initial.apply p) nNeighbors = .ok X) (hne : X ≠ [])
    (hflat : NotFlat X) :
    ∃ s : V3, run nth llt (make L (edgeMap.map fun x => x + s) (surfaceMap.map fun x => x + s) nNeighbors
      [] surfaceScan) maxIter ⟨initial.linear, initial.translation + s⟩ = .error .notModelled := by
  have hl : (X.length : ℝ) ≠ 0 := by
    have : X.length ≠ 0 := fun h => hne (List.length_eq_zero_iff.1 h)
    exact_mod_cast this
  set s : V3 := fun i => -((X.map fun x => x i).sum / X.length) with hs
  have hcent : ∀ i, ((shiftMap s X).map fun x => x i).sum = 0 := by
    intro i
    have hsum : ∀ Y : List V3, ((shiftMap s Y).map fun x => x i).sum =
        (Y.map fun x => x i).sum + Y.length * s i := by
      intro Y
      induction Y with
      | nil => simp [shiftMap]
      | cons y Y ih =>
        simp only [shiftMap, List.map_cons, List.sum_cons, List.length_cons, Pi.add_apply] at ih ⊢
        rw [ih]
        push_cast
        ring
    rw [hsum, hs]
    field_simp
    ring
  have hspan : Spanning (shiftMap s X) := by
    intro v hv
    refine hflat v (-(s ⬝ᵥ v)) fun x hx => ?_
    have := hv (x + s) (List.mem_map_of_mem hx)
    rw [add_dotProduct] at this
    linarith
  have hblock := (C82_surface_residual (knn := L.knn) hqr (shiftMap s surfaceMap) nNeighbors
    (shiftPose s initial) p (shiftMap s X) (by rw [apply_shift, search_shift (hk s), hX]; rfl) hspan).1 hcent
  refine ⟨s, ?_⟩
  unfold run
  simp only
  rw [if_neg (by omega)]
  obtain ⟨n, hn⟩ : ∃ n, maxIter.toNat = n + 1 := ⟨maxIter.toNat - 1, by omega⟩
  rw [hn, runLoop]
  have hp : makePose (Quat.ofMatrix initial.linear) (initial.translation + s) = shiftPose s initial := by
    unfold makePose shiftPose
    rw [(C71_matrix_to_quaternion _ hR).2]
  rw [hp]
  have hmake : make L (edgeMap.map fun x => x + s) (surfaceMap.map fun x => x + s) nNeighbors [] surfaceScan
      (shiftPose s initial) = .error .notModelled := by
    unfold make edgeMake surfaceMake
    rw [hscan, List.mapM_cons]
    have : surfaceBlock L.knn L.qr (surfaceMap.map fun x => x + s) nNeighbors (shiftPose s initial) p =
        .error .notModelled := hblock
    rw [this]
    rfl
  rw [hmake]
  rfl

/-! ### The hypotheses can be met -/

theorem exKnn_moves (s : V3) : SearchMoves exKnn s := by
  intro map query k
  have hd : ∀ i : ℕ, ((shiftMap s map)[i]?).elim 0 (sqDist (query + s)) = (map[i]?).elim 0 (sqDist query) := by
    intro i
    have : (shiftMap s map)[i]? = (map[i]?).map fun x => x + s := by simp [shiftMap]
    rw [this]
    cases map[i]? with
    | none => rfl
    | some x =>
      simp only [Option.map_some, Option.elim_some, sqDist, Pi.add_apply, add_sub_add_right_eq_sub]
  unfold exKnn
  simp only [hd]
  simp [shiftMap]

/-- A pole and a ceiling at height 2, both raised by 1. -/
example (nth : Nth) (llt : Llt) (edgeScan surfaceScan : List V3) (initial : Pose) :
    run nth llt (make exLibs (exPole.map fun x => x + ![0, 0, 1]) (exWall.map fun x => x + ![0, 0, 1])
        nNeighbors edgeScan surfaceScan) 40 ⟨initial.linear, initial.translation + ![0, 0, 1]⟩ =
      (run nth llt (make exLibs exPole exWall nNeighbors edgeScan surfaceScan) 40 initial).map
        fun r => { r with pose := ⟨r.pose.linear, r.pose.translation + ![0, 0, 1]⟩ } := by
  refine C113_translation_partial nth llt (L := exLibs) (exKnn_moves _) exQr_spec exPole exWall edgeScan
    surfaceScan 40 initial (fun _ => True) (fun g h => by rw [show g = _ from funext fun T => h T trivial])
    fun T _ p _ => ?_
  obtain ⟨X, hX, hmem⟩ := small_map_members exWall (by simp [exWall]) (by simp [exWall]) (T.apply p)
  refine ⟨X, hX, List.ne_nil_of_mem ((hmem ![0, 0, 2]).2 (by simp [exWall])),
    fun v hv => exWall_spanning v fun x hx => hv x ((hmem x).2 hx), ![0, 0, -1 / 2], fun x hx => ?_, ?_⟩
  · rw [hmem] at hx
    simp only [exWall, List.mem_cons, List.not_mem_nil, or_false] at hx
    rcases hx with rfl | rfl | rfl | rfl <;> simp [OnPlane, dotProduct, Fin.sum_univ_three]
  · simp [OnPlane, dotProduct, Fin.sum_univ_three]
    norm_num

/-- Four points of a rough surface. -/
def exRough : List V3 := [![0, 0, 10], ![1, 0, 10], ![0, 1, 10], ![0, 0, 11]]

theorem exRough_notFlat (X : List V3) (hX : ∀ x, x ∈ X ↔ x ∈ exRough) : NotFlat X := by
  intro v c h
  have h0 := h ![0, 0, 10] ((hX _).2 (by simp [exRough]))
  have h1 := h ![1, 0, 10] ((hX _).2 (by simp [exRough]))
  have h2 := h ![0, 1, 10] ((hX _).2 (by simp [exRough]))
  have h3 := h ![0, 0, 11] ((hX _).2 (by simp [exRough]))
  simp [dotProduct, Fin.sum_univ_three] at h0 h1 h2 h3
  funext i
  fin_cases i
  · show v 0 = 0
    linarith
  · show v 1 = 0
    linarith
  · show v 2 = 0
    linarith

/-- On a map with a rough surface scan matching ends without failure; moved, it does not. -/
example {nth : Nth} (hn : Lib.IsNthElement nth) {llt : Llt} (hllt : LltSpec llt) :
    (∃ r, run nth llt (make exLibs exPole exRough nNeighbors [] [![0, 0, 9]]) 40 ⟨1, 0⟩ = .ok r) ∧
    ∃ s : V3, run nth llt (make exLibs (exPole.map fun x => x + s) (exRough.map fun x => x + s) nNeighbors
      [] [![0, 0, 9]]) 40 ⟨1, 0 + s⟩ = .error .notModelled := by
  have hreg : ∀ query, ∃ X, nearestKSearch exLibs.knn exRough query nNeighbors = .ok X ∧ Regular X := by
    intro query
    obtain ⟨X, hX, hmem⟩ := small_map_members exRough (by simp [exRough]) (by simp [exRough]) query
    refine ⟨X, hX, fun v hv => exRough_notFlat X hmem v 0 hv, fun hc => ?_⟩
    have hpos : ∀ Y : List V3, (∀ x ∈ Y, 10 ≤ x 2) → 10 * (Y.length : ℝ) ≤ (Y.map fun x => x 2).sum := by
      intro Y
      induction Y with
      | nil => simp
      | cons y Y ih =>
        intro h
        have h1 := h y List.mem_cons_self
        have h2 := ih fun x hx => h x (List.mem_cons_of_mem _ hx)
        simp only [List.map_cons, List.sum_cons, List.length_cons]
        push_cast
        linarith
    have h1 := hpos X fun x hx => by
      rw [hmem] at hx
      simp only [exRough, List.mem_cons, List.not_mem_nil, or_false] at hx
      rcases hx with rfl | rfl | rfl | rfl <;> simp
      norm_num
    have h2 : 0 < X.length := List.length_pos_of_mem ((hmem ![0, 0, 10]).2 (by simp [exRough]))
    have h3 : (0 : ℝ) < X.length := by exact_mod_cast h2
    rw [hc 2] at h1
    linarith
  constructor
  · obtain ⟨-, r, -, hr, -⟩ := C84_scan_matching hn hllt (L := exLibs) exKnn_spec exEig_spec exQr_spec exPole
      exRough (by simp [exPole]) hreg [] [![0, 0, 9]] 40 (by norm_num) ⟨1, 0⟩ ⟨by simp, by simp⟩
    exact ⟨r, hr⟩
  · obtain ⟨X, hX, hmem⟩ := small_map_members exRough (by simp [exRough]) (by simp [exRough])
      ((⟨1, 0⟩ : Pose).apply ![0, 0, 9])
    exact C113_origin_violated nth llt (L := exLibs) exKnn_moves exQr_spec exPole exRough [![0, 0, 9]]
      ![0, 0, 9] [] rfl ⟨1, 0⟩ ⟨by simp, by simp⟩ 40 (by norm_num) X hX
      (List.ne_nil_of_mem ((hmem ![0, 0, 10]).2 (by simp [exRough]))) (exRough_notFlat X hmem)

end Verif.Loam
