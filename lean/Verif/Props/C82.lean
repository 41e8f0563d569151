/-
C82 the plane that a surface point is matched to.
-/
import Verif.Props.C81
import Mathlib.LinearAlgebra.Matrix.ToLinearEquiv

set_option autoImplicit false

namespace Verif.Loam

open Matrix Verif.Rot Verif.Opt Verif.Loc

/-- The points span the space: no non-zero vector is orthogonal to all of them. -/
def Spanning (X : List V3) : Prop := ∀ v : V3, (∀ x ∈ X, x ⬝ᵥ v = 0) → v = 0

/-- What is assumed about Eigen's QR solver: for a matrix of full column rank it gives a least squares
solution. Nothing is assumed about other matrices (the decomposition has no pivoting). -/
def QrSpec (qr : Qr) : Prop :=
  ∀ (A : List V3) (b : List ℝ), A.length = b.length → Spanning A → ∀ v : V3,
    ((A.zip b).map fun p => (p.1 ⬝ᵥ qr A b - p.2) ^ 2).sum ≤ ((A.zip b).map fun p => (p.1 ⬝ᵥ v - p.2) ^ 2).sum

/-- How far the points `X` are from satisfying the equation `w · x + 1 = 0`. -/
def planeCost (X : List V3) (w : V3) : ℝ := (X.map fun x => (w ⬝ᵥ x + 1) ^ 2).sum

theorem zip_replicate_sum (X : List V3) (w : V3) :
    ((X.zip (List.replicate X.length (-planeBias))).map fun p => (p.1 ⬝ᵥ w - p.2) ^ 2).sum =
      planeCost X w := by
  unfold planeCost
  induction X with
  | nil => rfl
  | cons x X ih =>
    rw [List.length_cons, List.replicate_succ, List.zip_cons_cons, List.map_cons, List.map_cons,
      List.sum_cons, List.sum_cons, ih, planeBias, sub_neg_eq_add, dotProduct_comm]

theorem planeCost_add (X : List V3) (w z : V3) :
    planeCost X (w + z) = planeCost X w + 2 * (X.map fun x => (w ⬝ᵥ x + 1) * (z ⬝ᵥ x)).sum +
      (X.map fun x => (z ⬝ᵥ x) ^ 2).sum := by
  unfold planeCost
  induction X with
  | nil => simp
  | cons x X ih =>
    simp only [List.map_cons, List.sum_cons]
    rw [ih, add_dotProduct]
    ring

theorem sum_zero_of_nonneg (l : List ℝ) (h : ∀ y ∈ l, 0 ≤ y) (hs : l.sum = 0) : ∀ y ∈ l, y = 0 := by
  induction l with
  | nil => simp
  | cons a l ih =>
    have ha := h a List.mem_cons_self
    have hl : ∀ y ∈ l, 0 ≤ y := fun y hy => h y (List.mem_cons_of_mem _ hy)
    have hl' := List.sum_nonneg hl
    rw [List.sum_cons] at hs
    intro y hy
    rcases List.mem_cons.1 hy with rfl | hy
    · linarith
    · exact ih hl (by linarith) y hy

theorem sum_mul_left (X : List V3) (f : V3 → ℝ) (t : ℝ) :
    (X.map fun x => t * f x).sum = t * (X.map f).sum := by
  induction X with
  | nil => simp
  | cons x X ih =>
    simp only [List.map_cons, List.sum_cons, ih]
    ring

theorem linear_term_zero (a b : ℝ) (h : ∀ t : ℝ, 0 ≤ 2 * (t * b) + t ^ 2 * a) : b = 0 := by
  by_contra hb
  have hb2 : 0 < b ^ 2 := by positivity
  have h1 := h (-b / (|a| + 1))
  have ha : 0 < |a| + 1 := by positivity
  have h2 : 2 * (-b / (|a| + 1) * b) + (-b / (|a| + 1)) ^ 2 * a =
      b ^ 2 * (a - 2 * (|a| + 1)) / (|a| + 1) ^ 2 := by
    field_simp
    ring
  rw [h2] at h1
  have h3 : b ^ 2 * (a - 2 * (|a| + 1)) < 0 :=
    mul_neg_of_pos_of_neg hb2 (by have := le_abs_self a; linarith [abs_nonneg a])
  have h4 : b ^ 2 * (a - 2 * (|a| + 1)) / (|a| + 1) ^ 2 < 0 := div_neg_of_neg_of_pos h3 (by positivity)
  linarith

theorem estimate_spec {qr : Qr} (hqr : QrSpec qr) (X : List V3) (hX : Spanning X) :
    ∃ w, estimatePlaneCoefficients qr X = .ok w ∧
      (∀ z : V3, (X.map fun x => (w ⬝ᵥ x + 1) * (z ⬝ᵥ x)).sum = 0) ∧
      ∀ v, v ≠ w → planeCost X w < planeCost X v := by
  set w := qr X (List.replicate X.length (-planeBias)) with hw
  have hmin : ∀ v, planeCost X w ≤ planeCost X v := by
    intro v
    have := hqr X (List.replicate X.length (-planeBias)) (by simp) hX v
    rwa [zip_replicate_sum, zip_replicate_sum] at this
  have hnorm : ∀ z : V3, (X.map fun x => (w ⬝ᵥ x + 1) * (z ⬝ᵥ x)).sum = 0 := by
    intro z
    refine linear_term_zero ((X.map fun x => (z ⬝ᵥ x) ^ 2).sum) _ fun t => ?_
    have h1 := hmin (w + t • z)
    rw [planeCost_add] at h1
    have h2 : (X.map fun x => (w ⬝ᵥ x + 1) * ((t • z) ⬝ᵥ x)).sum =
        t * (X.map fun x => (w ⬝ᵥ x + 1) * (z ⬝ᵥ x)).sum := by
      rw [← sum_mul_left]
      congr 2
      funext x
      rw [smul_dotProduct, smul_eq_mul]
      ring
    have h3 : (X.map fun x => ((t • z) ⬝ᵥ x) ^ 2).sum = t ^ 2 * (X.map fun x => (z ⬝ᵥ x) ^ 2).sum := by
      rw [← sum_mul_left]
      congr 2
      funext x
      rw [smul_dotProduct, smul_eq_mul]
      ring
    rw [h2, h3] at h1
    linarith
  refine ⟨w, ?_, hnorm, fun v hv => ?_⟩
  · unfold estimatePlaneCoefficients solveLinear
    rw [if_pos (by simp)]
  · have hz : v = w + (v - w) := by abel
    rw [hz, planeCost_add, hnorm]
    have hpos : 0 < (X.map fun x => ((v - w) ⬝ᵥ x) ^ 2).sum := by
      have hnn : ∀ y ∈ X.map fun x => ((v - w) ⬝ᵥ x) ^ 2, 0 ≤ y := by
        intro y hy
        rw [List.mem_map] at hy
        obtain ⟨x, -, rfl⟩ := hy
        exact sq_nonneg _
      refine lt_of_le_of_ne (List.sum_nonneg hnn) fun h => hv ?_
      have hall := sum_zero_of_nonneg _ hnn h.symm
      have : v - w = 0 := hX _ fun x hx => by
        have := hall _ (List.mem_map_of_mem hx)
        rw [dotProduct_comm]
        exact pow_eq_zero_iff (two_ne_zero) |>.1 this
      exact sub_eq_zero.1 this
    linarith

/-- C82: for points that span the space the estimated coefficients exist and are the unique minimiser of
the sum of `(w · x + 1)²`. -/
theorem C82_least_squares {qr : Qr} (hqr : QrSpec qr) (X : List V3) (hX : Spanning X) :
    ∃ w, estimatePlaneCoefficients qr X = .ok w ∧ ∀ v, v ≠ w → planeCost X w < planeCost X v := by
  obtain ⟨w, h1, -, h2⟩ := estimate_spec hqr X hX
  exact ⟨w, h1, h2⟩

/-- C82: if such points lie on a plane `n · x + 1 = 0`, that plane is found exactly. -/
theorem C82_exact {qr : Qr} (hqr : QrSpec qr) (X : List V3) (hX : Spanning X) (n : V3)
    (hn : ∀ x ∈ X, OnPlane n x) : estimatePlaneCoefficients qr X = .ok n := by
  obtain ⟨w, h1, -, h2⟩ := estimate_spec hqr X hX
  have hcost : planeCost X n = 0 := by
    unfold planeCost
    refine List.sum_eq_zero fun y hy => ?_
    rw [List.mem_map] at hy
    obtain ⟨x, hx, rfl⟩ := hy
    rw [hn x hx]
    ring
  by_cases h : n = w
  · rw [h, h1]
  · have h3 := h2 n h
    have h4 : 0 ≤ planeCost X w := List.sum_nonneg fun y hy => by
      rw [List.mem_map] at hy
      obtain ⟨x, -, rfl⟩ := hy
      exact sq_nonneg _
    linarith

/-- C82: the estimate is the zero vector exactly when the centroid of the points is the origin; then there
is no finite residual. -/
theorem C82_centroid {qr : Qr} (hqr : QrSpec qr) (X : List V3) (hX : Spanning X) :
    estimatePlaneCoefficients qr X = .ok 0 ↔ ∀ i, (X.map fun x => x i).sum = 0 := by
  obtain ⟨w, h1, h2, h3⟩ := estimate_spec hqr X hX
  rw [h1, Except.ok.injEq]
  constructor
  · rintro rfl i
    have := h2 (Pi.single i 1)
    simpa using this
  · intro h
    by_contra hw
    have hlt := h3 0 (Ne.symm hw)
    have hz := h2 w
    have e1 : planeCost X 0 = planeCost X w + 2 * (X.map fun x => (w ⬝ᵥ x + 1) * ((-w) ⬝ᵥ x)).sum +
        (X.map fun x => ((-w) ⬝ᵥ x) ^ 2).sum := by
      rw [← planeCost_add, add_neg_cancel]
    have e2 : (X.map fun x => (w ⬝ᵥ x + 1) * ((-w) ⬝ᵥ x)).sum = 0 := h2 (-w)
    have e3 : (X.map fun x => ((-w) ⬝ᵥ x) ^ 2).sum + (X.map fun x => w ⬝ᵥ x).sum =
        (X.map fun x => (w ⬝ᵥ x + 1) * (w ⬝ᵥ x)).sum := by
      rw [← List.sum_map_add]
      congr 2
      funext x
      rw [neg_dotProduct]
      ring
    have e4 : (X.map fun x => w ⬝ᵥ x).sum = 0 := by
      rw [sum_quadratic X _ 0 (w 0) (w 1) (w 2) 0 0 0 0 0 0]
      · rw [h, h, h]
        ring
      · intro x
        simp only [dotProduct, Fin.sum_univ_three]
        ring
    rw [e4, hz] at e3
    rw [e2] at e1
    linarith

/-- C82: the surface block of a scan point whose neighbours span the space and do not have their centroid
at the origin: the residual has one component and is, in magnitude, the distance of the moved point from
the plane of the estimate. If the centroid is the origin the division by the length of the normal
leaves the finite numbers. -/
theorem C82_surface_residual {knn : Knn} {qr : Qr} (hqr : QrSpec qr) (map : List V3) (k : ℤ) (T : Pose)
    (p : V3) (X : List V3) (hX : nearestKSearch knn map (T.apply p) k = .ok X) (hs : Spanning X) :
    ((∀ i, (X.map fun x => x i).sum = 0) →
      surfaceBlock knn qr map k T p = .error .notModelled) ∧
    (¬ (∀ i, (X.map fun x => x i).sum = 0) → ∃ w J d,
      (∀ v, v ≠ w → planeCost X w < planeCost X v) ∧
      surfaceBlock knn qr map k T p = .ok (⟨1, 7, J⟩, ⟨1, fun _ => d⟩) ∧
      (d = 0 ↔ OnPlane w (T.linear *ᵥ p + T.translation)) ∧
      IsDistance (OnPlane w) (T.linear *ᵥ p + T.translation) |d|) := by
  obtain ⟨w, h1, -, h2⟩ := estimate_spec hqr X hs
  have hcent := C82_centroid hqr X hs
  rw [h1, Except.ok.injEq] at hcent
  have hnorm : ∀ v : V3, Rot.norm v = 0 ↔ v = 0 := by
    intro v
    unfold Rot.norm
    rw [Real.sqrt_eq_zero (by simp only [dotProduct]; exact Finset.sum_nonneg fun i _ => mul_self_nonneg _),
      dotProduct_self_eq_zero]
  refine ⟨fun h => ?_, fun h => ?_⟩
  · have hw : w = 0 := hcent.2 h
    unfold surfaceBlock
    simp only [hX, h1, bind, Except.bind]
    rw [makeJacobianRow, if_pos ((hnorm w).2 hw)]
    rfl
  · have hw : w ≠ 0 := fun hw => h (hcent.1 hw)
    obtain ⟨d, e1, -, e2, e3⟩ := (C53_distance w (T.apply p)).2 hw
    refine ⟨w, hcat (Matrix.of (fun _ i => w i / Rot.norm w) * dRpDq (Quat.ofMatrix T.linear) p)
      (Matrix.of fun _ i => w i / Rot.norm w), d, h2, ?_, e2, e3⟩
    unfold surfaceBlock
    simp only [hX, h1, bind, Except.bind]
    rw [makeJacobianRow, if_neg fun hw' => hw ((hnorm w).1 hw'), e1]
    rfl

/-- C82: no estimate describes a plane through the origin: the residual at the origin is never 0. -/
theorem C82_misses_origin (w : V3) (d : ℝ) (h : signedPointPlaneDistance w 0 = some d) : d ≠ 0 := by
  unfold signedPointPlaneDistance at h
  split at h
  · exact absurd h (by simp)
  · rename_i hw
    rw [Option.some.injEq, dotProduct_zero, planeBias, zero_add] at h
    rw [← h]
    exact one_div_ne_zero hw

/-- C82 is false for planes through the origin of the map: the four neighbours lie on the plane `z = 0`,
and so does the origin; but whatever the solver returns, the plane of the estimate does not contain all
four, and the residual of a point at the origin is not zero. -/
theorem C82_origin_violated (qr : Qr) :
    let X : List V3 := [![1, 0, 0], ![-1, 0, 0], ![0, 1, 0], ![0, -1, 0]]
    (∀ x ∈ X, x 2 = 0) ∧ ∃ w, estimatePlaneCoefficients qr X = .ok w ∧ (∃ x ∈ X, ¬ OnPlane w x) ∧
      ∀ d, signedPointPlaneDistance w 0 = some d → d ≠ 0 := by
  intro X
  refine ⟨by simp [X], qr X (List.replicate X.length (-planeBias)), ?_, ?_, C82_misses_origin _⟩
  · unfold estimatePlaneCoefficients solveLinear
    rw [if_pos (by simp)]
  · generalize qr X _ = w
    by_contra h
    push Not at h
    have h1 := h ![1, 0, 0] (by simp [X])
    have h2 := h ![-1, 0, 0] (by simp [X])
    simp [OnPlane, dotProduct, Fin.sum_univ_three] at h1 h2
    linarith

/-- C82: the check that points lie along a plane accepts exactly if the normal is not zero - or there are
no points - and every point has distance at most 0.2 from the plane. -/
theorem C82_check {n : ℕ} (X : List (Fin n → ℝ)) (w : Fin n → ℝ) (hw : w ≠ 0) :
    checkPointsDistributeAlongPlane X w = true ↔
      ∀ x ∈ X, ∀ d, IsDistance (OnPlane w) x d → d ≤ 2 / 10 := by
  unfold checkPointsDistributeAlongPlane
  rw [List.all_eq_true]
  refine forall₂_congr fun x _ => ?_
  obtain ⟨d, -, e1, -, e2⟩ := (C53_distance w x).2 hw
  rw [e1]
  simp only [Bool.not_eq_true', decide_eq_false_iff_not, not_lt]
  constructor
  · rintro h d' ⟨-, hd'⟩
    obtain ⟨⟨y, hy, hy'⟩, -⟩ := e2
    exact le_trans (hd' y hy) (hy' ▸ h)
  · intro h
    exact h _ e2

/-! ### The hypotheses can be met -/


theorem gram_dot (P : List (V3 × ℝ)) (z v : V3) :
    z ⬝ᵥ ((Matrix.of fun i j => (P.map fun p => p.1 i * p.1 j).sum) *ᵥ v) =
      (P.map fun p => (p.1 ⬝ᵥ z) * (p.1 ⬝ᵥ v)).sum := by
  induction P with
  | nil =>
    have : (Matrix.of fun i j => (([] : List (V3 × ℝ)).map fun p => p.1 i * p.1 j).sum) =
        (0 : Matrix (Fin 3) (Fin 3) ℝ) := by
      ext i j
      simp
    rw [this, zero_mulVec, dotProduct_zero]
    rfl
  | cons p P ih =>
    rw [List.map_cons, List.sum_cons, ← ih]
    simp only [dotProduct, mulVec, Fin.sum_univ_three, Matrix.of_apply, List.map_cons, List.sum_cons]
    ring

theorem exists_qr (A : List V3) (b : List ℝ) (hl : A.length = b.length) (hA : Spanning A) :
    ∃ w : V3, ∀ v : V3, ((A.zip b).map fun p => (p.1 ⬝ᵥ w - p.2) ^ 2).sum ≤
      ((A.zip b).map fun p => (p.1 ⬝ᵥ v - p.2) ^ 2).sum := by
  have hP : (A.zip b).map Prod.fst = A := by
    rw [List.map_fst_zip]
    omega
  generalize A.zip b = P at *
  subst hP
  set G : Matrix (Fin 3) (Fin 3) ℝ := Matrix.of fun i j => (P.map fun p => p.1 i * p.1 j).sum with hG
  have hinj : ∀ v, G *ᵥ v = 0 → v = 0 := by
    intro v hv
    have h1 := gram_dot P v v
    rw [← hG, hv, dotProduct_zero] at h1
    refine hA v fun x hx => ?_
    obtain ⟨p, hp, rfl⟩ := List.mem_map.1 hx
    have h2 := sum_zero_of_nonneg (P.map fun p => (p.1 ⬝ᵥ v) * (p.1 ⬝ᵥ v)) (fun y hy => by
      obtain ⟨p, -, rfl⟩ := List.mem_map.1 hy
      exact mul_self_nonneg _) h1.symm _ (List.mem_map_of_mem hp)
    exact mul_self_eq_zero.1 h2
  have hdet : G.det ≠ 0 := by
    intro h
    obtain ⟨v, hv, hv'⟩ := Matrix.exists_mulVec_eq_zero_iff.2 h
    exact hv (hinj v hv')
  set c : V3 := fun i => (P.map fun p => p.1 i * p.2).sum with hc
  have hcz : ∀ z : V3, z ⬝ᵥ c = (P.map fun p => (p.1 ⬝ᵥ z) * p.2).sum := by
    intro z
    rw [hc]
    clear hA hG hinj hdet hc hl
    induction P with
    | nil => simp [dotProduct]
    | cons p P ih =>
      rw [List.map_cons, List.sum_cons, ← ih]
      simp only [dotProduct, Fin.sum_univ_three, List.map_cons, List.sum_cons]
      ring
  refine ⟨G⁻¹ *ᵥ c, fun v => ?_⟩
  have hw : G *ᵥ (G⁻¹ *ᵥ c) = c := by
    rw [mulVec_mulVec, Matrix.mul_nonsing_inv _ (isUnit_iff_ne_zero.2 hdet), one_mulVec]
  generalize G⁻¹ *ᵥ c = w at hw
  have h1 := gram_dot P (v - w) w
  rw [← hG, hw, hcz] at h1
  have key : ∀ Q : List (V3 × ℝ), (Q.map fun p => (p.1 ⬝ᵥ v - p.2) ^ 2).sum =
      (Q.map fun p => (p.1 ⬝ᵥ w - p.2) ^ 2).sum + (Q.map fun p => (p.1 ⬝ᵥ (v - w)) ^ 2).sum +
      2 * ((Q.map fun p => (p.1 ⬝ᵥ (v - w)) * (p.1 ⬝ᵥ w)).sum -
        (Q.map fun p => (p.1 ⬝ᵥ (v - w)) * p.2).sum) := by
    intro Q
    induction Q with
    | nil => simp
    | cons p Q ih =>
      simp only [List.map_cons, List.sum_cons]
      rw [ih, dotProduct_sub]
      ring
  rw [key P, h1, sub_self, mul_zero, add_zero]
  refine le_add_of_nonneg_right (List.sum_nonneg fun y hy => ?_)
  obtain ⟨p, -, rfl⟩ := List.mem_map.1 hy
  exact sq_nonneg _

open Classical in
/-- A least squares solver. -/
noncomputable def exQr : Qr := fun A b =>
  if h : A.length = b.length ∧ Spanning A then (exists_qr A b h.1 h.2).choose else 0

theorem exQr_spec : QrSpec exQr := by
  intro A b h1 h2 v
  unfold exQr
  rw [dif_pos ⟨h1, h2⟩]
  exact (exists_qr A b h1 h2).choose_spec v

/-- Four points of the plane `z = 2`. -/
def exWall : List V3 := [![0, 0, 2], ![1, 0, 2], ![0, 1, 2], ![1, 1, 2]]

theorem exWall_spanning : Spanning exWall := by
  intro v h
  have h0 := h ![0, 0, 2] (by simp [exWall])
  have h1 := h ![1, 0, 2] (by simp [exWall])
  have h2 := h ![0, 1, 2] (by simp [exWall])
  simp [dotProduct, Fin.sum_univ_three] at h0 h1 h2
  rw [h0] at h1 h2
  funext i
  fin_cases i
  · simpa using h1
  · simpa using h2
  · exact h0

/-- The plane `z = 2` is `-z / 2 + 1 = 0`. -/
example : estimatePlaneCoefficients exQr exWall = .ok ![0, 0, -1 / 2] := by
  refine C82_exact exQr_spec exWall exWall_spanning _ fun x hx => ?_
  simp only [exWall, List.mem_cons, List.not_mem_nil, or_false] at hx
  rcases hx with rfl | rfl | rfl | rfl <;> simp [OnPlane, dotProduct, Fin.sum_univ_three]

/-- Points around the origin of the map, with their centroid there. -/
example : estimatePlaneCoefficients exQr [![1, 0, 0], ![0, 1, 0], ![0, 0, 1], ![-1, -1, -1]] = .ok 0 := by
  rw [C82_centroid exQr_spec]
  · intro i
    fin_cases i <;> simp
  · intro v h
    have h0 := h ![1, 0, 0] (by simp)
    have h1 := h ![0, 1, 0] (by simp)
    have h2 := h ![0, 0, 1] (by simp)
    simp [dotProduct, Fin.sum_univ_three] at h0 h1 h2
    funext i
    fin_cases i
    · exact h0
    · exact h1
    · exact h2

end Verif.Loam
