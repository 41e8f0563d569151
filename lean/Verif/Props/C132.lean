import Verif.Props.C126
import Verif.Props.C131

/-!
C132: turning the sensor about its vertical axis turns the features, except at the seam of the angles.
-/

set_option autoImplicit false

namespace Verif.Extraction

/-- Specification: the point as seen after a turn of the sensor's frame by `θ` about the vertical axis. -/
noncomputable def turn (θ : ℝ) (p : PointXYZIR ℝ) : PointXYZIR ℝ :=
  ⟨Real.cos θ * p.x - Real.sin θ * p.y, Real.sin θ * p.x + Real.cos θ * p.y, p.z, p.ring⟩

/-- Specification: no point is carried over the seam of the angles, which lies at `π` (behind the
sensor). -/
def SeamClear (θ : ℝ) (cloud : List (PointXYZIR ℝ)) : Prop :=
  ∀ p ∈ cloud, -Real.pi < atan2 p + θ ∧ atan2 p + θ ≤ Real.pi

/-- Specification: no point lies on the sensor's vertical axis. -/
def OffAxis (cloud : List (PointXYZIR ℝ)) : Prop := ∀ p ∈ cloud, ¬ (p.x = 0 ∧ p.y = 0)

theorem xyNorm_turn (θ : ℝ) (p : PointXYZIR ℝ) :
    xyNorm (turn θ p).x (turn θ p).y = xyNorm p.x p.y := by
  simp only [xyNorm, turn]
  congr 1
  linear_combination (p.x ^ 2 + p.y ^ 2) * Real.sin_sq_add_cos_sq θ

theorem dot_turn (θ : ℝ) (p q : PointXYZIR ℝ) :
    (turn θ p).x * (turn θ q).x + (turn θ p).y * (turn θ q).y = p.x * q.x + p.y * q.y := by
  simp only [turn]
  linear_combination (p.x * q.x + p.y * q.y) * Real.sin_sq_add_cos_sq θ

theorem isNeighborXY_turn (t θ : ℝ) (p q : PointXYZIR ℝ) :
    isNeighborXY t (turn θ p) (turn θ q) = isNeighborXY t p q := by
  simp only [isNeighborXY, calcRadian, xyNorm_turn, dot_turn]

theorem arg_turn {θ : ℝ} {p : PointXYZIR ℝ} (h0 : ¬ (p.x = 0 ∧ p.y = 0)) :
    ((atan2 (turn θ p) : ℝ) : Real.Angle) = (atan2 p : Real.Angle) + (θ : Real.Angle) := by
  have hz : (⟨p.x, p.y⟩ : ℂ) ≠ 0 := fun h => h0 ⟨congrArg Complex.re h, congrArg Complex.im h⟩
  have hw : Complex.exp (θ * Complex.I) ≠ 0 := Complex.exp_ne_zero _
  have e : (⟨(turn θ p).x, (turn θ p).y⟩ : ℂ) = ⟨p.x, p.y⟩ * Complex.exp (θ * Complex.I) := by
    rw [Complex.exp_mul_I, ← Complex.ofReal_cos, ← Complex.ofReal_sin]
    apply Complex.ext
    · simp only [turn, Complex.mul_re, Complex.add_re, Complex.add_im, Complex.mul_im, Complex.ofReal_re,
        Complex.ofReal_im, Complex.I_re, Complex.I_im]
      ring
    · simp only [turn, Complex.mul_re, Complex.add_re, Complex.add_im, Complex.mul_im, Complex.ofReal_re,
        Complex.ofReal_im, Complex.I_re, Complex.I_im]
      ring
  have h1 := Complex.arg_mul_coe_angle hz hw
  rw [← e] at h1
  have h2 := Complex.arg_cos_add_sin_mul_I_coe_angle (θ : Real.Angle)
  rw [Real.Angle.cos_coe, Real.Angle.sin_coe, Complex.ofReal_cos, Complex.ofReal_sin,
    ← Complex.exp_mul_I] at h2
  rw [atan2, atan2, h1, h2]

theorem atan2_turn {θ : ℝ} {p : PointXYZIR ℝ} (h0 : ¬ (p.x = 0 ∧ p.y = 0))
    (h1 : -Real.pi < atan2 p + θ) (h2 : atan2 p + θ ≤ Real.pi) :
    atan2 (turn θ p) = atan2 p + θ := by
  have h := arg_turn (θ := θ) h0
  rw [← Real.Angle.coe_add] at h
  have e := congrArg Real.Angle.toReal h
  rw [Real.Angle.toReal_coe_eq_self_iff_mem_Ioc.2 ⟨h1, h2⟩,
    Real.Angle.toReal_coe_eq_self_iff_mem_Ioc.2
      (⟨Complex.neg_pi_lt_arg _, Complex.arg_le_pi _⟩ : atan2 (turn θ p) ∈ Set.Ioc (-Real.pi) Real.pi)] at e
  exact e

theorem atan2_turn_inj {θ : ℝ} {p q : PointXYZIR ℝ} (hp : ¬ (p.x = 0 ∧ p.y = 0))
    (hq : ¬ (q.x = 0 ∧ q.y = 0)) (h : atan2 (turn θ p) = atan2 (turn θ q)) : atan2 p = atan2 q := by
  have e := arg_turn (θ := θ) hp
  rw [h, arg_turn hq] at e
  exact (Complex.arg_coe_angle_eq_iff.1 (add_right_cancel e)).symm

/-- C132: if the turn of the frame carries no point over the seam, the callback publishes for the turned
cloud the turned points, in the same order and the same colours, or fails in the same way. The sort asks
only for comparisons of elements of the sequence. `AxisClear` (no two different points of a ring on the
positive x axis, C20) is needed because there the comparator has no order. Missing: turns that carry points
over the seam; there the features are not the turned ones, see `C132_seam_violated`. -/
theorem C132_turn_partial {plat : Platform ℝ} (hloc : SortLocal plat.sort) (hp : HyperParameters ℝ)
    (degreeThreshold : ℝ) (stamp : ℤ) (isDense ringAvailable : Bool) {θ : ℝ}
    {cloud : List (PointXYZIR ℝ)} (h0 : OffAxis cloud) (hs : SeamClear θ cloud) (ha : AxisClear cloud)
    (ha' : AxisClear (cloud.map (turn θ))) :
    callback plat hp (nodeGeometry degreeThreshold) stamp isDense ringAvailable (cloud.map (turn θ)) =
      Except.map (CallbackEffect.mapP (turn θ))
        (callback plat hp (nodeGeometry degreeThreshold) stamp isDense ringAvailable cloud) := by
  rw [callback_map]
  have hn : ((nodeGeometry degreeThreshold).comap (turn θ)).norm = (nodeGeometry degreeThreshold).norm := by
    funext p
    exact xyNorm_turn θ p
  have hnb : ((nodeGeometry degreeThreshold).comap (turn θ)).isNb =
      (nodeGeometry degreeThreshold).isNb := by
    funext p q
    exact isNeighborXY_turn _ θ p q
  have hr : ((nodeGeometry degreeThreshold).comap (turn θ)).ringOf =
      (nodeGeometry degreeThreshold).ringOf := rfl
  have hl : ∀ a ∈ cloud, ∀ b ∈ cloud,
      (nodeGeometry degreeThreshold).ringOf a = (nodeGeometry degreeThreshold).ringOf b →
      ((nodeGeometry degreeThreshold).comap (turn θ)).less a b =
        (nodeGeometry degreeThreshold).less a b := by
    intro a hma b hmb hab
    have h1 := C21_comparator_partial a b (ha a hma b hmb hab)
    have h2 := C21_comparator_partial (turn θ a) (turn θ b)
      (ha' _ (List.mem_map_of_mem hma) _ (List.mem_map_of_mem hmb) hab)
    rw [atan2_turn (h0 a hma) (hs a hma).1 (hs a hma).2, atan2_turn (h0 b hmb) (hs b hmb).1 (hs b hmb).2,
      add_lt_add_iff_right] at h2
    exact Bool.eq_iff_iff.2 (h2.trans h1.symm)
  have hx : extractClouds plat hp ((nodeGeometry degreeThreshold).comap (turn θ)) cloud =
      extractClouds plat hp (nodeGeometry degreeThreshold) cloud := by
    have hproc : processRing plat hp ((nodeGeometry degreeThreshold).comap (turn θ)) cloud =
        processRing plat hp (nodeGeometry degreeThreshold) cloud := by
      funext out ring
      simp only [processRing, hn, hnb]
    simp only [extractClouds, hr, extractAngleSortedRings_same hloc hl, hproc]
  simp only [callback, hx]

theorem turn_off {θ : ℝ} {p : PointXYZIR ℝ} (h0 : ¬ (p.x = 0 ∧ p.y = 0)) :
    ¬ ((turn θ p).x = 0 ∧ (turn θ p).y = 0) := by
  intro h
  apply h0
  have := dot_turn θ p p
  rw [h.1, h.2] at this
  constructor <;> nlinarith [sq_nonneg p.x, sq_nonneg p.y]

theorem DirectionsApart.turn {cloud : List (PointXYZIR ℝ)} (hc : DirectionsApart cloud)
    (h0 : OffAxis cloud) (θ : ℝ) : DirectionsApart (cloud.map (turn θ)) := by
  rw [DirectionsApart, List.pairwise_map]
  exact List.Pairwise.imp_of_mem (fun {a b} ha hb h hr he => h hr (atan2_turn_inj (h0 a ha) (h0 b hb) he)) hc

/-- C132, the seam: whatever point of a cloud is chosen, turning the sensor so that this point lies
straight behind makes it the last of its ring, and it is published neither as an edge nor as a surface,
however distinct a feature it is. -/
theorem C132_seam_lost {plat : Platform ℝ} {hp : HyperParameters ℝ} (degreeThreshold : ℝ) (hv : hp.Valid)
    {cloud : List (PointXYZIR ℝ)} (hplat : PlatformOK plat hp.nBlocks cloud.length)
    (h0 : OffAxis cloud) (hc : DirectionsApart cloud) (stamp : ℤ) (isDense ringAvailable : Bool)
    {q : PointXYZIR ℝ} (hq : q ∈ cloud) :
    ∃ eff, callback plat hp (nodeGeometry degreeThreshold) stamp isDense ringAvailable
        (cloud.map (turn (Real.pi - atan2 q))) = .ok eff ∧
      turn (Real.pi - atan2 q) q ∉ eff.edge.points ∧ turn (Real.pi - atan2 q) q ∉ eff.surface.points := by
  have hlen : (cloud.map (turn (Real.pi - atan2 q))).length = cloud.length := List.length_map _
  have hd := hc.turn h0 (Real.pi - atan2 q)
  have ha := hd.axisClear
  have hplat' : PlatformOK plat hp.nBlocks (cloud.map (turn (Real.pi - atan2 q))).length := by rwa [hlen]
  obtain ⟨eff, h, -⟩ := C19_callback_returns_partial degreeThreshold hv hplat' ha stamp isDense ringAvailable
  have hpi : atan2 (turn (Real.pi - atan2 q) q) = Real.pi := by
    have hpos := Real.pi_pos
    rw [atan2_turn (h0 q hq)] <;> linarith
  have key : ∀ (r : ℤ) (idx : List ℕ) (k : ℕ),
      IsDenseRing hp (nodeGeometry degreeThreshold) (cloud.map (turn (Real.pi - atan2 q))) r idx →
      (ringPoints (cloud.map (turn (Real.pi - atan2 q))) idx)[k]? = some (turn (Real.pi - atan2 q) q) →
      PassesFilters hp (nodeGeometry degreeThreshold)
        (ringPoints (cloud.map (turn (Real.pi - atan2 q))) idx) k → False := by
    intro r idx k hr hk hf
    have hpad := hv.1
    obtain ⟨hk1, hk2⟩ := hf.interior
    have hlt : k + 1 < (ringPoints (cloud.map (turn (Real.pi - atan2 q))) idx).length := by omega
    have hsub : ∀ a ∈ ringPoints (cloud.map (turn (Real.pi - atan2 q))) idx,
        a ∈ cloud.map (turn (Real.pi - atan2 q)) ∧ a.ring = r := by
      intro a hm
      have := (hr.perm.mem_iff).1 hm
      rw [List.mem_filter] at this
      exact ⟨this.1, of_decide_eq_true this.2⟩
    have hap : (ringPoints (cloud.map (turn (Real.pi - atan2 q))) idx).Pairwise
        fun a b => a.ring = b.ring → atan2 a ≠ atan2 b :=
      (hr.perm.symm).pairwise (List.Pairwise.filter _ hd) fun h e => (h e.symm).symm
    have hso := hr.pairwise
    rw [List.pairwise_iff_getElem] at hap hso
    have e1 := hap k (k + 1) (by omega) hlt (by omega)
    have e2 := hso k (k + 1) (by omega) hlt (by omega)
    obtain ⟨hk', hke⟩ := List.getElem?_eq_some_iff.1 hk
    obtain ⟨m1, r1⟩ := hsub _ (List.getElem_mem hk')
    obtain ⟨m2, r2⟩ := hsub _ (List.getElem_mem hlt)
    have hle : ¬ atan2 (ringPoints (cloud.map (turn (Real.pi - atan2 q))) idx)[k + 1] <
        atan2 (ringPoints (cloud.map (turn (Real.pi - atan2 q))) idx)[k] := by
      rw [← C21_comparator_partial _ _ (ha _ m2 _ m1 (r2.trans r1.symm)), Bool.not_eq_true]
      exact e2
    refine e1 (r1.trans r2.symm) (le_antisymm (not_lt.1 hle) ?_)
    rw [hke, hpi]
    exact Complex.arg_le_pi _
  obtain ⟨f1, f2⟩ := C17_published_features (nodeGeometry_ok degreeThreshold) hv hplat' h
  refine ⟨eff, h, fun hm => ?_, fun hm => ?_⟩
  · obtain ⟨r, idx, k, h1, h2, h3, -⟩ := f1 _ hm
    exact key r idx k h1 h2 h3
  · obtain ⟨r, idx, k, h1, h2, h3, -⟩ := f2 _ hm
    exact key r idx k h1 h2 h3

theorem exPole_off : OffAxis exPole := fun p hp h => (exPole_mem p hp).1 h.2

theorem exPole_apart : DirectionsApart exPole :=
  exPole_sorted.imp_of_mem fun {a b} ha _ hab _ he => by
    have := (C21_comparator_partial a b fun hs => (exPole_mem a ha).1 hs.1).1 hab.1
    exact this.ne he

/-- The hypotheses of `C132_turn_partial` are met by the pole and a quarter turn. -/
example : OffAxis exPole ∧ SeamClear (-(Real.pi / 2)) exPole ∧ AxisClear exPole ∧
    AxisClear (exPole.map (turn (-(Real.pi / 2)))) := by
  refine ⟨exPole_off, fun p hp => ?_, exPole_apart.axisClear, (exPole_apart.turn exPole_off _).axisClear⟩
  have h1 : 0 ≤ atan2 p := by
    refine Complex.arg_nonneg_iff.2 ?_
    simp only [exPole, List.mem_cons, List.not_mem_nil, or_false] at hp
    rcases hp with rfl | rfl | rfl | rfl | rfl <;> norm_num
  have h2 : atan2 p ≤ Real.pi := Complex.arg_le_pi _
  have h3 := Real.pi_pos
  constructor <;> linarith

/-- C132 is false for turns over the seam: an edge of the scene of `exPole_edge` is published with the
sensor in one orientation and not with the sensor turned, on any platform. -/
theorem C132_seam_violated {plat : Platform ℝ} (hplat : PlatformOK plat 1 5) (stamp : ℤ)
    (isDense ringAvailable : Bool) :
    ∃ (θ : ℝ) (q : PointXYZIR ℝ) (eff eff' : CallbackEffect (PointXYZIR ℝ)),
      callback plat (exPoleHp 6) (nodeGeometry 180) stamp isDense ringAvailable exPole = .ok eff ∧
      q ∈ eff.edge.points ∧
      callback plat (exPoleHp 6) (nodeGeometry 180) stamp isDense ringAvailable
        (exPole.map (turn θ)) = .ok eff' ∧ turn θ q ∉ eff'.edge.points := by
  obtain ⟨eff, h, hq⟩ := exPole_edge hplat stamp isDense ringAvailable
  obtain ⟨eff', h', hn, -⟩ := C132_seam_lost 180 (exPoleHp_valid (d := 6) (by norm_num)) hplat exPole_off exPole_apart stamp
    isDense ringAvailable (q := ⟨6, 8, 0, 0⟩) (by simp [exPole])
  exact ⟨_, _, eff, eff', h, hq, h', hn⟩

end Verif.Extraction
