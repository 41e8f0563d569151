/-
C111: the extraction knows no unit of length.
-/
import Verif.Props.C106

set_option autoImplicit false

namespace Verif.Extraction

variable {P K : Type}

/-- The parameters in another unit of length: lengths are multiplied by `c`, thresholds on squares
of lengths by `c²`; counts and ratios stay. -/
def HyperParameters.rescale [Field K] (c : K) (h : HyperParameters K) : HyperParameters K where
  padding := h.padding
  distanceDiffThreshold := c * h.distanceDiffThreshold
  parallelBeamMinRangeRatio := h.parallelBeamMinRangeRatio
  edgeThreshold := c ^ 2 * h.edgeThreshold
  surfaceThreshold := c ^ 2 * h.surfaceThreshold
  minRange := c * h.minRange
  maxRange := c * h.maxRange
  nBlocks := h.nBlocks

/-- A point in another unit of length. -/
def PointXYZIR.rescale [Field K] (c : K) (p : PointXYZIR K) : PointXYZIR K :=
  ⟨c * p.x, c * p.y, c * p.z, p.ring⟩

/-- Specification: a sort of values that looks at the outcome of comparisons only, as `std::sort`
does. -/
def ComparesOnly [LT K] (argsort : List K → List ℕ) : Prop :=
  ∀ l l' : List K, l.length = l'.length →
    (∀ (i j : ℕ) (a b a' b' : K), l[i]? = some a → l[j]? = some b → l'[i]? = some a' →
      l'[j]? = some b' → (a < b ↔ a' < b')) → argsort l = argsort l'

section Monad

theorem foldlM_map_of {α β γ : Type} {f : α → β → Res α} {g : γ → β → Res γ} {h : α → γ}
    (hfg : ∀ a b, g (h a) b = Except.map h (f a b)) (l : List β) (a : α) :
    l.foldlM g (h a) = Except.map h (l.foldlM f a) := by
  induction l generalizing a with
  | nil => rfl
  | cons b l ih =>
    simp only [List.foldlM_cons, bind, Except.bind, hfg]
    cases f a b with
    | error e => rfl
    | ok a' => exact ih a'

theorem bind_map_of {α β γ δ : Type} {f : Res α} {g : α → Res β} {f' : Res γ} {g' : γ → Res δ}
    {h : α → γ} {k : β → δ} (hf : f' = Except.map h f) (hg : ∀ a, g' (h a) = Except.map k (g a)) :
    (f' >>= g') = Except.map k (f >>= g) := by
  subst hf
  cases f with
  | error e => rfl
  | ok a => exact hg a

end Monad

section
variable [CommRing K]

theorem innerProduct_scale (c : K) (xs ys : List K) :
    innerProduct (xs.map (c * ·)) ys = Except.map (c * ·) (innerProduct xs ys) := by
  have h : ∀ (s : K) (xs ys : List K), innerProductLoop (c * s) (xs.map (c * ·)) ys =
      Except.map (c * ·) (innerProductLoop s xs ys) := by
    intro s xs
    induction xs generalizing s with
    | nil => intro ys; rfl
    | cons a as ih =>
      intro ys
      cases ys with
      | nil => rfl
      | cons b bs =>
        simp only [List.map_cons, innerProductLoop]
        rw [← ih]
        congr 1
        ring
  have := h 0 xs ys
  rwa [mul_zero] at this

theorem setU_map {α β : Type} (f : α → β) (l : List α) (i : ℕ) (x : α) :
    setU (l.map f) i (f x) = Except.map (List.map f) (setU l i x) := by
  simp only [setU, List.length_map]
  split_ifs
  · simp [Except.map]
  · rfl

theorem convolution1D_scale (c : K) (input weight : List K) :
    convolution1D (input.map (c * ·)) weight =
      Except.map (List.map (c * ·)) (convolution1D input weight) := by
  have hz : ∀ (l : List K) (i : ℕ), setU (l.map (c * ·)) i 0 =
      Except.map (List.map (c * ·)) (setU l i 0) := by
    intro l i
    have := setU_map (c * ·) l i 0
    rwa [mul_zero] at this
  simp only [convolution1D, List.length_map]
  split_ifs
  · rfl
  · rfl
  · have h0 : List.replicate input.length (0 : K) =
        (List.replicate input.length (0 : K)).map (c * ·) := by simp
    have hi : ∀ (l : List K) (i : ℕ),
        (do
          let x ← innerProduct (((input.map (c * ·)).drop i).take weight.length) weight
          setU (l.map (c * ·)) ((weight.length - 1) / 2 + i) x) =
        Except.map (List.map (c * ·)) (do
          let x ← innerProduct ((input.drop i).take weight.length) weight
          setU l ((weight.length - 1) / 2 + i) x) := by
      intro l i
      simp only [← List.map_drop, ← List.map_take, innerProduct_scale]
      refine bind_map_of (h := (c * ·)) rfl ?_
      intro x
      exact setU_map (c * ·) l _ x
    refine bind_map_of (h := List.map (c * ·)) ?_ ?_
    · conv_lhs => rw [h0]
      exact foldlM_map_of (fun l i => hz l _) _ _
    · intro r
      refine bind_map_of (h := List.map (c * ·)) (foldlM_map_of hi _ _) ?_
      intro r
      exact foldlM_map_of (fun l i => hz l _) _ _

theorem calcCurvature_scale (c : K) (range : List K) (padding : ℤ) :
    calcCurvature (range.map (c * ·)) padding =
      Except.map (List.map (c ^ 2 * ·)) (calcCurvature range padding) := by
  simp only [calcCurvature, bind, Except.bind]
  cases (makeWeight padding : Res (List K)) with
  | error e => rfl
  | ok w =>
    simp only [convolution1D_scale]
    cases convolution1D range w with
    | error e => rfl
    | ok v =>
      simp only [Except.map, pure, Except.pure, List.map_map]
      congr 2
      funext x
      simp only [Function.comp]
      ring

end

section
variable [Field K] [LinearOrder K] [IsStrictOrderedRing K]

theorem argsort_scale {argsort : List K → List ℕ} (h : ComparesOnly argsort) {c : K} (hc : 0 < c)
    (l : List K) : argsort (l.map (c * ·)) = argsort l := by
  refine h _ _ (by simp) ?_
  intro i j a b a' b' ha hb ha' hb'
  simp only [List.getElem?_map, ha', hb', Option.map_some, Option.some.injEq] at ha hb
  rw [← ha, ← hb]
  exact mul_lt_mul_iff_right₀ hc

theorem atI_scale (c : K) (l : List K) (i : ℤ) :
    atI (l.map (c * ·)) i = Except.map (c * ·) (atI l i) := atI_map _ l i

theorem edgeAssign_scale {argsort : List K → List ℕ} (h : ComparesOnly argsort) {c : K} (hc : 0 < c)
    (padding : ℤ) (t : K) (labels : List PointLabel) (curvature : List K) (nb : NeighborCheck) :
    edgeAssign argsort padding (c * t) labels (curvature.map (c * ·)) nb =
      edgeAssign argsort padding t labels curvature nb := by
  have hs : edgeStep padding (c * t) (curvature.map (c * ·)) nb =
      edgeStep padding t curvature nb := by
    funext labels i
    simp only [edgeStep, atI_scale, bind, Except.bind]
    cases atI labels (i : ℤ) with
    | error e => rfl
    | ok l =>
      cases atI curvature (i : ℤ) with
      | error e => rfl
      | ok x => simp only [Except.map, mul_le_mul_iff_right₀ hc]
  simp only [edgeAssign, argsort_scale h hc, hs, List.length_map]

theorem surfaceAssign_scale {argsort : List K → List ℕ} (h : ComparesOnly argsort) {c : K}
    (hc : 0 < c) (padding : ℤ) (t : K) (labels : List PointLabel) (curvature : List K)
    (nb : NeighborCheck) :
    surfaceAssign argsort padding (c * t) labels (curvature.map (c * ·)) nb =
      surfaceAssign argsort padding t labels curvature nb := by
  have hs : surfaceStep padding (c * t) (curvature.map (c * ·)) nb =
      surfaceStep padding t curvature nb := by
    funext labels i
    simp only [surfaceStep, atI_scale, bind, Except.bind]
    cases atI labels (i : ℤ) with
    | error e => rfl
    | ok l =>
      cases atI curvature (i : ℤ) with
      | error e => rfl
      | ok x => simp only [Except.map, mul_le_mul_iff_right₀ hc]
  simp only [surfaceAssign, argsort_scale h hc, hs]

theorem assignLabel_scale {argsort : List K → List ℕ} (h : ComparesOnly argsort) {c : K}
    (hc : 0 < c) (rnd : ℚ → ℚ) (ep : ℤ) (et : K) (sp : ℤ) (st : K) (labels : List PointLabel)
    (curvature : List K) (nb : NeighborCheckXY P) (r : IndexRange) :
    assignLabel rnd argsort ep (c * et) sp (c * st) labels (curvature.map (c * ·)) nb r =
      assignLabel rnd argsort ep et sp st labels curvature nb r := by
  have hb : ∀ (labels : List PointLabel) (b e : ℤ),
      assignBlock argsort ep (c * et) sp (c * st) labels (curvature.map (c * ·)) nb b e =
        assignBlock argsort ep et sp st labels curvature nb b e := by
    intro labels b e
    simp only [assignBlock, List.length_map, ← List.map_drop, ← List.map_take,
      edgeAssign_scale h hc, surfaceAssign_scale h hc]
  simp only [assignLabel, List.length_map, hb]

/-- A ring whose ranges are measured in another unit. -/
def Range.rescale (c : K) (r : Range P K) : Range P K := ⟨r.ref, fun p => c * r.norm p⟩

omit [LinearOrder K] [IsStrictOrderedRing K] in
theorem call_rescale (c : K) (r : Range P K) (i : ℤ) :
    (r.rescale c).call i = Except.map (c * ·) (r.call i) := by
  simp only [Range.call, Range.rescale, bind, Except.bind]
  cases r.ref.at i <;> rfl

omit [LinearOrder K] [IsStrictOrderedRing K] in
theorem interval_rescale (c : K) (r : Range P K) (b e : ℤ) :
    (r.rescale c).interval b e = Except.map (List.map (c * ·)) (r.interval b e) := by
  simp only [Range.interval, call_rescale]
  split_ifs
  · rfl
  · exact mapM_map (fun i : ℕ => r.call i) (c * ·) _

theorem jump_scale {c : K} (hc : 0 < c) (a b t : K) : c * a > c * b + c * t ↔ a > b + t := by
  rw [← mul_add]
  exact mul_lt_mul_iff_right₀ hc

theorem labelOccludedPoints_scale {c : K} (hc : 0 < c) (labels : List PointLabel)
    (nb : NeighborCheckXY P) (r : Range P K) (padding : ℕ) (t : K) :
    labelOccludedPoints labels nb (r.rescale c) padding (c * t) =
      labelOccludedPoints labels nb r padding t := by
  have hl : fromLeftStep nb (r.rescale c) padding (c * t) = fromLeftStep nb r padding t := by
    funext labels i
    simp only [fromLeftStep, call_rescale, bind, Except.bind]
    cases nb.call (i : ℤ) (i + 1) with
    | error e => rfl
    | ok ok =>
      cases r.call (i : ℤ) with
      | error e => rfl
      | ok r0 =>
        cases r.call ((i : ℤ) + 1) with
        | error e => rfl
        | ok r1 => simp only [Except.map, jump_scale hc]
  have hr : fromRightStep nb (r.rescale c) padding (c * t) = fromRightStep nb r padding t := by
    funext labels i
    simp only [fromRightStep, call_rescale, bind, Except.bind]
    cases nb.call (i : ℤ) (i - 1) with
    | error e => rfl
    | ok ok =>
      cases r.call ((i : ℤ) - 1) with
      | error e => rfl
      | ok r1 =>
        cases r.call (i : ℤ) with
        | error e => rfl
        | ok r0 => simp only [Except.map, jump_scale hc]
  simp only [labelOccludedPoints, fromLeft, fromRight, hl, hr]

theorem labelOutOfRange_scale {c : K} (hc : 0 < c) (labels : List PointLabel) (r : Range P K)
    (mn mx : K) :
    labelOutOfRange labels (r.rescale c) (c * mn) (c * mx) = labelOutOfRange labels r mn mx := by
  have hz : (r.rescale c).size = r.size := rfl
  have hs : ∀ v : K, isInInclusiveRange (c * v) (c * mn) (c * mx) = isInInclusiveRange v mn mx := by
    intro v
    simp only [isInInclusiveRange, mul_le_mul_iff_right₀ hc]
  simp only [labelOutOfRange, hz, call_rescale]
  congr 1
  funext labels i
  simp only [bind, Except.bind]
  cases r.call (i : ℤ) with
  | error e => rfl
  | ok v => simp only [Except.map, hs]

theorem ratioGreater_scale {c : K} (hc : 0 < c) (a b t : K) :
    ratioGreater (c * a - c * b) (c * b) t = ratioGreater (a - b) b t := by
  have h1 : c * a - c * b = c * (a - b) := by ring
  simp only [ratioGreater, h1, mul_eq_zero, hc.ne', false_or, ne_eq, abs_mul, abs_of_pos hc,
    mul_div_mul_left _ _ hc.ne']

theorem labelParallelBeamPoints_scale {c : K} (hc : 0 < c) (labels : List PointLabel)
    (r : Range P K) (t : K) :
    labelParallelBeamPoints labels (r.rescale c) t = labelParallelBeamPoints labels r t := by
  simp only [labelParallelBeamPoints, interval_rescale, bind, Except.bind]
  cases r.interval 0 labels.length with
  | error e => rfl
  | ok ranges =>
    simp only [Except.map, atI_scale]
    split_ifs
    · rfl
    · congr 1
      funext labels k
      cases atI ranges ((k : ℤ) + 1 - 1) with
      | error e => rfl
      | ok r0 =>
        simp only
        cases atI ranges ((k : ℤ) + 1) with
        | error e => rfl
        | ok r1 =>
          simp only
          cases atI ranges ((k : ℤ) + 1 + 1) with
          | error e => rfl
          | ok r2 => simp only [ratioGreater_scale hc]

/-- Labels stay, curvatures are squares of lengths. -/
theorem ringLabels_scale {plat : Platform K} (h : ComparesOnly plat.argsort) {c : K} (hc : 0 < c)
    (hp : HyperParameters K) (nb : NeighborCheckXY P) (r : Range P K) :
    ringLabels plat (hp.rescale c) nb (r.rescale c) =
      Except.map (fun lc => (lc.1, lc.2.map (c ^ 2 * ·))) (ringLabels plat hp nb r) := by
  have hz : (r.rescale c).size = r.size := rfl
  have hc2 : 0 < c ^ 2 := pow_pos hc 2
  simp only [ringLabels, HyperParameters.rescale, hz, interval_rescale, bind, Except.bind]
  cases r.interval 0 r.size with
  | error e => rfl
  | ok ranges =>
    simp only [Except.map, calcCurvature_scale]
    cases calcCurvature ranges hp.padding with
    | error e => rfl
    | ok curvature =>
      simp only [Except.map]
      cases PaddedIndexRange.make r.size hp.nBlocks hp.padding with
      | error e => rfl
      | ok ir =>
        simp only [assignLabel_scale h hc2, labelOccludedPoints_scale hc]
        cases assignLabel plat.rnd plat.argsort hp.padding hp.edgeThreshold hp.padding
          hp.surfaceThreshold (initLabels nb.ref.indices.length) curvature nb ir with
        | error e => rfl
        | ok l1 =>
          simp only
          cases labelOccludedPoints l1 nb r hp.padding.toNat hp.distanceDiffThreshold with
          | error e => rfl
          | ok l2 =>
            simp only [labelOutOfRange_scale hc]
            cases labelOutOfRange l2 r hp.minRange hp.maxRange with
            | error e => rfl
            | ok l3 =>
              simp only [labelParallelBeamPoints_scale hc]
              cases labelParallelBeamPoints l3 r hp.parallelBeamMinRangeRatio with
              | error e => rfl
              | ok l4 =>
                simp only [List.length_map, pure, Except.pure]
                split_ifs <;> rfl

/-- Clouds whose curvatures are measured in another unit. -/
def Clouds.rescale (c : K) (o : Clouds P K) : Clouds P K where
  edge := o.edge.map fun q => (q.1, c * q.2)
  surface := o.surface.map fun q => (q.1, c * q.2)
  colored := o.colored

theorem appendXYZIR_scale (c : K) (out : List (P × K)) (points : List P) (cs : List K) :
    appendXYZIR (out.map fun q => (q.1, c * q.2)) points (cs.map (c * ·)) =
      Except.map (List.map fun q => (q.1, c * q.2)) (appendXYZIR out points cs) := by
  simp only [appendXYZIR, List.length_map]
  split_ifs
  · rfl
  · simp only [Except.map, List.map_append]
    congr 2
    rw [List.zip_map_right]
    rfl

theorem getByIndices_scale (c : K) (l : List ℕ) (cs : List K) :
    getByIndices l (atI (cs.map (c * ·))) = Except.map (List.map (c * ·)) (getByIndices l (atI cs)) := by
  simp only [getByIndices, atI_scale]
  exact mapM_map (fun i : ℕ => atI cs i) (c * ·) l

theorem ringBody_scale {plat : Platform K} (h : ComparesOnly plat.argsort) {c : K} (hc : 0 < c)
    (hp : HyperParameters K) (nb : NeighborCheckXY P) (r : Range P K) (out : Clouds P K) :
    ringBody plat (hp.rescale c) nb (r.rescale c) (out.rescale (c ^ 2)) =
      Except.map (Clouds.rescale (c ^ 2)) (ringBody plat hp nb r out) := by
  simp only [ringBody, ringLabels_scale h hc, bind, Except.bind]
  cases ringLabels plat hp nb r with
  | error e => rfl
  | ok lc =>
    simp only [Except.map, getByIndices_scale]
    cases getByIndices (getIndicesByValue lc.1 .edge) nb.ref.at with
    | error e => rfl
    | ok ep =>
      simp only
      cases getByIndices (getIndicesByValue lc.1 .edge) (atI lc.2) with
      | error e => rfl
      | ok ec =>
        simp only [Except.map]
        cases getByIndices (getIndicesByValue lc.1 .surface) nb.ref.at with
        | error e => rfl
        | ok sp =>
          simp only
          cases getByIndices (getIndicesByValue lc.1 .surface) (atI lc.2) with
          | error e => rfl
          | ok sc =>
            simp only [Clouds.rescale, appendXYZIR_scale]
            cases appendXYZIR out.edge ep ec with
            | error e => rfl
            | ok oe =>
              simp only [Except.map]
              cases appendXYZIR out.surface sp sc with
              | error e => rfl
              | ok os =>
                simp only
                cases colorPointsByLabel nb.ref lc.1 with
                | error e => rfl
                | ok oc => rfl

theorem extractClouds_scale {plat : Platform K} (h : ComparesOnly plat.argsort) {c : K} (hc : 0 < c)
    (hp : HyperParameters K) (geo : Geometry P K) (cloud : List P) :
    extractClouds plat (hp.rescale c) { geo with norm := fun p => c * geo.norm p } cloud =
      Except.map (Clouds.rescale (c ^ 2)) (extractClouds plat hp geo cloud) := by
  have hring : ∀ (out : Clouds P K) (ring : ℤ × List ℕ),
      processRing plat (hp.rescale c) { geo with norm := fun p => c * geo.norm p } cloud
        (out.rescale (c ^ 2)) ring =
      Except.map (Clouds.rescale (c ^ 2)) (processRing plat hp geo cloud out ring) := by
    intro out ring
    simp only [processRing, bind, Except.bind]
    cases NeighborCheckXY.make ⟨cloud, ring.2⟩ geo.isNb with
    | error e => rfl
    | ok nb =>
      simp only
      have : (⟨⟨cloud, ring.2⟩, fun p => c * geo.norm p⟩ : Range P K) =
        Range.rescale c ⟨⟨cloud, ring.2⟩, geo.norm⟩ := rfl
      rw [this, ringBody_scale h hc]
      cases ringBody plat hp nb ⟨⟨cloud, ring.2⟩, geo.norm⟩ out with
      | error e => cases e <;> rfl
      | ok o => rfl
  simp only [extractClouds, bind, Except.bind]
  cases extractAngleSortedRings plat.sort geo.less geo.ringOf cloud with
  | error e => rfl
  | ok rings =>
    exact foldlM_map_of (h := Clouds.rescale (c ^ 2)) hring _ ⟨[], [], []⟩

theorem callback_scale {plat : Platform K} (h : ComparesOnly plat.argsort) {c : K} (hc : 0 < c)
    (hp : HyperParameters K) (geo : Geometry P K) (stamp : ℤ) (isDense ringAvailable : Bool)
    (cloud : List P) :
    callback plat (hp.rescale c) { geo with norm := fun p => c * geo.norm p } stamp isDense
        ringAvailable cloud =
      callback plat hp geo stamp isDense ringAvailable cloud := by
  simp only [callback, extractClouds_scale h hc, bind, Except.bind]
  cases extractClouds plat hp geo cloud with
  | error e => rfl
  | ok o => simp [Except.map, Clouds.rescale, Function.comp_def, pure, Except.pure]

end

theorem lessAngle_scale [Field K] [LinearOrder K] [IsStrictOrderedRing K] {c : K} (hc : 0 < c)
    (a b : PointXYZIR K) : lessAngle (a.rescale c) (b.rescale c) = lessAngle a b := by
  have hc2 : 0 < c * c := mul_pos hc hc
  have e1 : ∀ x y : K, c * c * (x * x) + c * c * (y * y) = c * c * (x * x + y * y) := by
    intro x y; ring
  have e4 : ∀ x : K, c * x < 0 ↔ x < 0 := fun x => by
    rw [← not_le, mul_nonneg_iff_of_pos_left hc, not_le]
  have e2 : ∀ x y : K, c * x * (c * y) = c * c * (x * y) := by intro x y; ring
  have e3 : ∀ x y z w : K, c * c * (x * y) - c * c * (z * w) = c * c * (x * y - z * w) := by
    intro x y z w; ring
  simp only [lessAngle, PointXYZIR.rescale, e1, e2, e3, mul_eq_zero, hc.ne', hc2.ne', false_or,
    mul_right_inj' hc.ne', mul_pos_iff_of_pos_left hc, mul_pos_iff_of_pos_left hc2,
    mul_nonneg_iff_of_pos_left hc, e4, gt_iff_lt, ge_iff_le]

theorem xyNorm_scale {c : ℝ} (hc : 0 < c) (x y : ℝ) : xyNorm (c * x) (c * y) = c * xyNorm x y := by
  have h : c * x * (c * x) + c * y * (c * y) = c ^ 2 * (x * x + y * y) := by ring
  rw [xyNorm, xyNorm, h, Real.sqrt_mul (by positivity), Real.sqrt_sq hc.le]

theorem isNeighborXY_scale {c : ℝ} (hc : 0 < c) (t : ℝ) (p q : PointXYZIR ℝ) :
    isNeighborXY t (p.rescale c) (q.rescale c) = isNeighborXY t p q := by
  have h : calcRadian (c * p.x) (c * p.y) (c * q.x) (c * q.y) = calcRadian p.x p.y q.x q.y := by
    have h1 : c * p.x * (c * q.x) + c * p.y * (c * q.y) = c * c * (p.x * q.x + p.y * q.y) := by ring
    have h2 : c * xyNorm p.x p.y * (c * xyNorm q.x q.y) =
        c * c * (xyNorm p.x p.y * xyNorm q.x q.y) := by ring
    simp only [calcRadian, xyNorm_scale hc, h1, h2, mul_eq_zero, hc.ne', false_or,
      mul_div_mul_left _ _ (mul_pos hc hc).ne', or_self]
  simp only [isNeighborXY, PointXYZIR.rescale, h]

/-- C111: measure coordinates in another unit of length, and the parameters accordingly (range
limits and jump threshold by `c`, thresholds on the curvature, a square of lengths, by `c²`; the
beam ratio, the angle, the counts unchanged). Then the callback fails in the same way or publishes
exactly the same points, in the new unit, in the same order and the same colours. -/
theorem C111_unit_of_length {plat : Platform ℝ} (hsort : ComparesOnly plat.argsort) {c : ℝ}
    (hc : 0 < c) (hp : HyperParameters ℝ) (degreeThreshold : ℝ) (stamp : ℤ)
    (isDense ringAvailable : Bool) (cloud : List (PointXYZIR ℝ)) :
    callback plat (hp.rescale c) (nodeGeometry degreeThreshold) stamp isDense ringAvailable
        (cloud.map fun p => p.rescale c) =
      Except.map (CallbackEffect.mapP fun p => p.rescale c)
        (callback plat hp (nodeGeometry degreeThreshold) stamp isDense ringAvailable cloud) := by
  rw [callback_map]
  have hgeo : (nodeGeometry degreeThreshold).comap (fun p => p.rescale c) =
      { nodeGeometry degreeThreshold with
        norm := fun p => c * (nodeGeometry degreeThreshold).norm p } := by
    have h1 : ∀ p : PointXYZIR ℝ, xyNorm (p.rescale c).x (p.rescale c).y = c * xyNorm p.x p.y :=
      fun p => xyNorm_scale hc p.x p.y
    have h2 : ∀ p : PointXYZIR ℝ, (p.rescale c).ring = p.ring := fun _ => rfl
    simp only [Geometry.comap, nodeGeometry, isNeighborXY_scale hc, lessAngle_scale hc, h1, h2]
  rw [hgeo, callback_scale hsort hc]

/-! Non-vacuity: a sort that compares only, and a run in two units. -/

/-- Comparison of the values at two indices. -/
def valueLE [LinearOrder K] (l : List K) (i j : ℕ) : Bool :=
  match l[i]?, l[j]? with
  | some a, some b => !decide (b < a)
  | _, _ => decide (i ≤ j)

/-- Insertion sort of the indices by value. -/
def cmpSort [LinearOrder K] (l : List K) : List ℕ :=
  (List.range l.length).insertionSort fun i j => valueLE l i j = true

theorem cmpSort_comparesOnly [LinearOrder K] : ComparesOnly (K := K) cmpSort := by
  intro l l' hlen h
  have hv : valueLE l = valueLE l' := by
    funext i j
    by_cases hi : i < l.length
    · by_cases hj : j < l.length
      · have hi' : i < l'.length := hlen ▸ hi
        have hj' : j < l'.length := hlen ▸ hj
        have := h j i l[j] l[i] l'[j] l'[i] (by simp [hj]) (by simp [hi]) (by simp [hj'])
          (by simp [hi'])
        simp only [valueLE, List.getElem?_eq_getElem hi, List.getElem?_eq_getElem hj,
          List.getElem?_eq_getElem hi', List.getElem?_eq_getElem hj', this]
      · have hj' : ¬ j < l'.length := hlen ▸ hj
        simp only [valueLE, List.getElem?_eq_none (not_lt.1 hj),
          List.getElem?_eq_none (not_lt.1 hj')]
        cases l[i]? <;> cases l'[i]? <;> rfl
    · have hi' : ¬ i < l'.length := hlen ▸ hi
      simp only [valueLE, List.getElem?_eq_none (not_lt.1 hi), List.getElem?_eq_none (not_lt.1 hi')]
  simp only [cmpSort, hv, hlen]

example : cmpSort [(5 : ℚ), 1, 3, 1] = [1, 3, 2, 0] := by decide +kernel
example : cmpSort [(50 : ℚ), 10, 30, 10] = [1, 3, 2, 0] := by decide +kernel

/-- The run of C19 in millimetres instead of metres. -/
example : (callback { exPlat19 with argsort := cmpSort } (exHp19.rescale 1000) exGeo19 42 true true
    (exCloud19.map fun p => p.rescale 1000)).map (fun e => (e.edge.points, e.surface.points)) =
    .ok ([⟨0, 9000, 0, 1⟩], [⟨3000, 7000, 0, 1⟩, ⟨-2000, 8000, 0, 1⟩]) := by decide +kernel

/-- With the thresholds left as they were, the result is another one. -/
example : (callback { exPlat19 with argsort := cmpSort } exHp19 exGeo19 42 true true
    (exCloud19.map fun p => p.rescale 1000)).map (fun e => (e.edge.points, e.surface.points)) ≠
    .ok ([⟨0, 9000, 0, 1⟩], [⟨3000, 7000, 0, 1⟩, ⟨-2000, 8000, 0, 1⟩]) := by decide +kernel

end Verif.Extraction
