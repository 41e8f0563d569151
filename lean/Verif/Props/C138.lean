/-
C138: orientations are read from messages as they were written.
-/
import Verif.Model.Tf2
import Verif.Model.Msg
import Verif.Props.C47
import Verif.Props.C37
import Verif.Props.C96
import Mathlib.Analysis.Real.Pi.Bounds

set_option autoImplicit false

namespace Verif.Ekf

open Matrix Verif.Rot Verif.Msg

/-- The orientation of a message, as the filter's node sees it. -/
def orientationOf (m : Msg.PoseMsg) : Ekf.Quat :=
  ⟨m.orientation.w, m.orientation.x, m.orientation.y, m.orientation.z⟩

/-- Specification: the angles are in the usual ranges. -/
structure AnglesOK (roll pitch yaw : ℝ) : Prop where
  roll : -Real.pi < roll ∧ roll ≤ Real.pi
  pitch : -(Real.pi / 2) < pitch ∧ pitch < Real.pi / 2
  yaw : -Real.pi < yaw ∧ yaw ≤ Real.pi

theorem atan2_polar {k θ : ℝ} (hk : 0 < k) (h : -Real.pi < θ ∧ θ ≤ Real.pi) :
    atan2 (k * Real.sin θ) (k * Real.cos θ) = θ := by
  have := Complex.arg_mul_cos_add_sin_mul_I hk (Set.mem_Ioc.2 h)
  have e : (⟨k * Real.cos θ, k * Real.sin θ⟩ : ℂ) = k * (Complex.cos θ + Complex.sin θ * Complex.I) := by
    apply Complex.ext
    · simp [Complex.cos_ofReal_re, Complex.sin_ofReal_im, Complex.cos_ofReal_im]
    · simp [Complex.sin_ofReal_re, Complex.cos_ofReal_im, Complex.sin_ofReal_im]
  unfold atan2
  rw [e, this]

theorem atan2_scale {k : ℝ} (hk : 0 < k) (b a : ℝ) : atan2 (k * b) (k * a) = atan2 b a := by
  unfold atan2
  rw [← Complex.arg_real_mul (⟨a, b⟩ : ℂ) hk]
  congr 1
  apply Complex.ext <;> simp

theorem polar_atan2 {a b k : ℝ} (hk : 0 < k) (h : a ^ 2 + b ^ 2 = k ^ 2) :
    b = k * Real.sin (atan2 b a) ∧ a = k * Real.cos (atan2 b a) := by
  have hn : ‖(⟨a, b⟩ : ℂ)‖ = k := by
    rw [Complex.norm_def, Complex.normSq_mk, ← sq, ← sq, h, Real.sqrt_sq hk.le]
  have hne : (⟨a, b⟩ : ℂ) ≠ 0 := by
    intro h0
    rw [h0, norm_zero] at hn
    exact hk.ne hn
  constructor
  · rw [atan2, Complex.sin_arg, hn]
    field_simp
  · rw [atan2, Complex.cos_arg hne, hn]
    field_simp

/-- `q` as a quaternion of the rotation library. -/
def Quat.toRot (q : Ekf.Quat) : Rot.Quat := ⟨q.w, q.x, q.y, q.z⟩

theorem tf2Matrix_unit {q : Ekf.Quat} (h : q.toRot.IsUnit) :
    q.length2 = 1 ∧ tf2Matrix q = some q.toRot.toRotationMatrix := by
  have hl : q.length2 = 1 := by
    simp only [Rot.Quat.IsUnit, Quat.toRot] at h
    simp only [Quat.length2]
    linarith
  refine ⟨hl, ?_⟩
  unfold tf2Matrix
  rw [hl, if_neg one_ne_zero]
  simp only [Rot.Quat.toRotationMatrix, Quat.toRot, Option.some.injEq]
  ext i j
  fin_cases i <;> fin_cases j <;> simp <;> ring

theorem rpy_entries (r p y : ℝ) :
    (rotZ y * rotY p * rotX r) 2 0 = -Real.sin p ∧
    (rotZ y * rotY p * rotX r) 2 1 = Real.cos p * Real.sin r ∧
    (rotZ y * rotY p * rotX r) 2 2 = Real.cos p * Real.cos r ∧
    (rotZ y * rotY p * rotX r) 1 0 = Real.cos p * Real.sin y ∧
    (rotZ y * rotY p * rotX r) 0 0 = Real.cos p * Real.cos y := by
  refine ⟨?_, ?_, ?_, ?_, ?_⟩ <;>
    simp [rotX, rotY, rotZ, Matrix.mul_apply, Fin.sum_univ_succ] <;> ring

theorem tf2GetYaw_unit {q : Ekf.Quat} (h : q.toRot.IsUnit)
    (hv : |q.toRot.toRotationMatrix 2 0| < 99999 / 100000) :
    tf2GetYaw q = atan2 (q.toRot.toRotationMatrix 1 0) (q.toRot.toRotationMatrix 0 0) := by
  have hl := (tf2Matrix_unit h).1
  have h20 : q.toRot.toRotationMatrix 2 0 = 2 * q.z * q.x - 2 * q.y * q.w := by
    simp [Rot.Quat.toRotationMatrix, Quat.toRot]
  rw [h20, abs_lt] at hv
  unfold tf2GetYaw
  rw [hl]
  simp only [one_ne_zero, if_false, div_one]
  rw [if_neg (by intro; linarith [hv.1, hv.2]), if_neg (by intro; linarith [hv.1, hv.2])]
  simp only [Quat.length2] at hl
  congr 1
  · simp [Rot.Quat.toRotationMatrix, Quat.toRot]; ring
  · simp [Rot.Quat.toRotationMatrix, Quat.toRot]; linarith

/-- C138: from a unit quaternion that rotates by roll, pitch and yaw, roll and pitch are read as they
are, and so is yaw unless the vehicle points almost straight up or down. -/
theorem C138_read {roll pitch yaw : ℝ} (h : AnglesOK roll pitch yaw) (q : Ekf.Quat)
    (hq : q.toRot.IsUnit) (hr : q.toRot.toRotationMatrix = rotZ yaw * rotY pitch * rotX roll) :
    tf2.getRoll q = some roll ∧ tf2.getPitch q = some pitch ∧
    (|Real.sin pitch| < 99999 / 100000 → tf2.getYaw q = some yaw) := by
  obtain ⟨e20, e21, e22, e10, e00⟩ := rpy_entries roll pitch yaw
  rw [← hr] at e20 e21 e22 e10 e00
  have hm := (tf2Matrix_unit hq).2
  have hc : 0 < Real.cos pitch := Real.cos_pos_of_mem_Ioo ⟨h.pitch.1, h.pitch.2⟩
  have hs : |Real.sin pitch| < 1 := by
    rw [← sq_lt_one_iff_abs_lt_one]
    nlinarith [Real.sin_sq_add_cos_sq pitch]
  have hasin : -Real.arcsin (-Real.sin pitch) = pitch := by
    rw [Real.arcsin_neg, neg_neg, Real.arcsin_sin h.pitch.1.le h.pitch.2.le]
  have hn : ¬ 1 ≤ |-Real.sin pitch| := by rw [abs_neg]; exact not_le.2 hs
  refine ⟨?_, ?_, fun hv => ?_⟩
  · simp only [tf2, hm, Option.map_some, tf2Roll, e20, e21, e22, if_neg hn, hasin]
    rw [mul_div_cancel_left₀ _ hc.ne', mul_div_cancel_left₀ _ hc.ne']
    have := atan2_polar one_pos h.roll
    rw [one_mul, one_mul] at this
    rw [this]
  · simp only [tf2, hm, Option.map_some, tf2Pitch, e20, if_neg hn, hasin]
  · simp only [tf2]
    rw [tf2GetYaw_unit hq (by rw [e20, abs_neg]; exact hv), e10, e00, atan2_polar hc h.yaw]

theorem message_quat (flip : Rot.Quat → Bool) (T : Pose) (hT : IsRotation T.linear) :
    (orientationOf (makePoseMsg flip T)).toRot.IsUnit ∧
    (orientationOf (makePoseMsg flip T)).toRot.toRotationMatrix = T.linear := by
  obtain ⟨h1, h2⟩ := C96_round_trip flip T hT
  exact ⟨h1, congrArg Pose.linear h2⟩

theorem rpy_rotation (roll pitch yaw : ℝ) : IsRotation (rotZ yaw * rotY pitch * rotX roll) := by
  obtain ⟨h1, -, h2⟩ := C50_rpy roll pitch yaw
  rw [← h2]
  exact toRotationMatrix_rotation _ h1

/-- C138: the pose that the node makes of an estimate (`MakePoseFromXYZRPY`, then `MakePose`) is read
back as that estimate, whichever sign the quaternion is given. -/
theorem C138_message {roll pitch yaw : ℝ} (h : AnglesOK roll pitch yaw) (flip : Rot.Quat → Bool)
    (t : Fin 3 → ℝ) :
    let m := makePoseMsg flip ⟨(rpyToQuaternionXYZ roll pitch yaw).toRotationMatrix, t⟩
    (m.position.x = t 0 ∧ m.position.y = t 1 ∧ m.position.z = t 2) ∧
    tf2.getRoll (orientationOf m) = some roll ∧ tf2.getPitch (orientationOf m) = some pitch ∧
    (|Real.sin pitch| < 99999 / 100000 → tf2.getYaw (orientationOf m) = some yaw) := by
  intro m
  refine ⟨⟨rfl, rfl, rfl⟩, ?_⟩
  have hr := (C50_rpy roll pitch yaw).2.2
  obtain ⟨h1, h2⟩ := message_quat flip ⟨(rpyToQuaternionXYZ roll pitch yaw).toRotationMatrix, t⟩
    (by rw [hr]; exact rpy_rotation roll pitch yaw)
  exact C138_read h _ h1 (h2.trans hr)

theorem rotation_ext {R S : Matrix (Fin 3) (Fin 3) ℝ} (hR : IsRotation R) (hS : IsRotation S)
    (hv : R 2 0 ^ 2 ≠ 1) (e20 : R 2 0 = S 2 0) (e21 : R 2 1 = S 2 1) (e22 : R 2 2 = S 2 2)
    (e10 : R 1 0 = S 1 0) (e00 : R 0 0 = S 0 0) : R = S := by
  obtain ⟨-, -, aR⟩ := rotation_equations R hR
  obtain ⟨-, -, aS⟩ := rotation_equations S hS
  have R01 := aR 0 1; have R02 := aR 0 2; have R11 := aR 1 1; have R12 := aR 1 2
  have S01 := aS 0 1; have S02 := aS 0 2; have S11 := aS 1 1; have S12 := aS 1 2
  rw [Matrix.adjugate_fin_three] at R01 R02 R11 R12 S01 S02 S11 S12
  simp at R01 R02 R11 R12 S01 S02 S11 S12
  simp only [← e20, ← e21, ← e22, ← e10, ← e00] at S01 S02 S11 S12
  have hne : 1 - R 2 0 ^ 2 ≠ 0 := fun h => hv (by linarith)
  have f01 : R 0 1 = S 0 1 := by
    refine mul_left_cancel₀ hne ?_
    linear_combination R01 - S01 + R 2 0 * R12 - R 2 0 * S12
  have f12 : R 1 2 = S 1 2 := by
    refine mul_left_cancel₀ hne ?_
    linear_combination R12 - S12 + R 2 0 * R01 - R 2 0 * S01
  have f02 : R 0 2 = S 0 2 := by
    refine mul_left_cancel₀ hne ?_
    linear_combination R02 - S02 - R 2 0 * R11 + R 2 0 * S11
  have f11 : R 1 1 = S 1 1 := by
    refine mul_left_cancel₀ hne ?_
    linear_combination R11 - S11 - R 2 0 * R02 + R 2 0 * S02
  ext i j
  fin_cases i <;> fin_cases j <;> assumption

theorem rotation_of_entries {R : Matrix (Fin 3) (Fin 3) ℝ} (hR : IsRotation R) {r p y : ℝ}
    (hc : 0 < Real.cos p) (e20 : R 2 0 = -Real.sin p) (e21 : R 2 1 = Real.cos p * Real.sin r)
    (e22 : R 2 2 = Real.cos p * Real.cos r) (e10 : R 1 0 = Real.cos p * Real.sin y)
    (e00 : R 0 0 = Real.cos p * Real.cos y) : R = rotZ y * rotY p * rotX r := by
  obtain ⟨f20, f21, f22, f10, f00⟩ := rpy_entries r p y
  refine rotation_ext hR (rpy_rotation r p y) ?_ (e20.trans f20.symm) (e21.trans f21.symm)
    (e22.trans f22.symm) (e10.trans f10.symm) (e00.trans f00.symm)
  rw [e20]
  have := Real.sin_sq_add_cos_sq p
  have : 0 < Real.cos p ^ 2 := by positivity
  intro h
  nlinarith

/-- C138: the angles read from a unit quaternion say which rotation it is, unless the vehicle points
almost straight up or down. -/
theorem C138_rebuild (q : Ekf.Quat) (hq : q.toRot.IsUnit)
    (hv : |q.toRot.toRotationMatrix 2 0| < 99999 / 100000) :
    ∃ roll pitch yaw, AnglesOK roll pitch yaw ∧ |Real.sin pitch| < 99999 / 100000 ∧
      tf2.getRoll q = some roll ∧ tf2.getPitch q = some pitch ∧ tf2.getYaw q = some yaw ∧
      q.toRot.toRotationMatrix = (rpyToQuaternionXYZ roll pitch yaw).toRotationMatrix := by
  have hR := toRotationMatrix_rotation _ hq
  set R := q.toRot.toRotationMatrix with hRdef
  have hm := (tf2Matrix_unit hq).2
  have hy := tf2GetYaw_unit hq hv
  rw [← hRdef] at hm hy
  obtain ⟨hcol, hrow, -⟩ := rotation_equations R hR
  have c00 := hcol 0 0
  have r22 := hrow 2 2
  simp [Fin.sum_univ_succ] at c00 r22
  have habs := abs_lt.1 hv
  have hpitch : Real.sin (-Real.arcsin (R 2 0)) = -R 2 0 := by
    rw [Real.sin_neg, Real.sin_arcsin (by linarith) (by linarith)]
  have hIoo : -Real.arcsin (R 2 0) ∈ Set.Ioo (-(Real.pi / 2)) (Real.pi / 2) :=
    ⟨by have := Real.arcsin_lt_pi_div_two.2 (show R 2 0 < 1 by linarith); linarith,
     by have := Real.neg_pi_div_two_lt_arcsin.2 (show -1 < R 2 0 by linarith); linarith⟩
  have hc := Real.cos_pos_of_mem_Ioo hIoo
  set p := -Real.arcsin (R 2 0) with hp
  have hsq := Real.sin_sq_add_cos_sq p
  rw [hpitch] at hsq
  have hn : ¬ 1 ≤ |R 2 0| := by intro h; linarith
  obtain ⟨s1, c1⟩ := polar_atan2 (a := R 2 2 / Real.cos p) (b := R 2 1 / Real.cos p) (k := 1) one_pos
    (by field_simp; nlinarith)
  obtain ⟨s2, c2⟩ := polar_atan2 (a := R 0 0) (b := R 1 0) (k := Real.cos p) hc (by nlinarith)
  refine ⟨atan2 (R 2 1 / Real.cos p) (R 2 2 / Real.cos p), p, atan2 (R 1 0) (R 0 0),
    ⟨⟨Complex.neg_pi_lt_arg _, Complex.arg_le_pi _⟩, ⟨hIoo.1, hIoo.2⟩,
      ⟨Complex.neg_pi_lt_arg _, Complex.arg_le_pi _⟩⟩, by rw [hpitch, abs_neg]; exact hv, ?_, ?_, ?_, ?_⟩
  · simp only [tf2, hm, Option.map_some, tf2Roll, if_neg hn, ← hp]
  · simp only [tf2, hm, Option.map_some, tf2Pitch, if_neg hn, ← hp]
  · simp only [tf2, hy]
  · rw [(C50_rpy _ _ _).2.2]
    refine rotation_of_entries hR hc (by rw [hpitch, neg_neg]) ?_ ?_ s2 c2
    · rw [one_mul] at s1
      rw [← s1]; field_simp
    · rw [one_mul] at c1
      rw [← c1]; field_simp

theorem length2_scale (c : ℝ) (q : Ekf.Quat) :
    (⟨c * q.w, c * q.x, c * q.y, c * q.z⟩ : Ekf.Quat).length2 = c ^ 2 * q.length2 := by
  simp only [Quat.length2]; ring

/-- C138: the length and the sign of the quaternion do not matter, unless the vehicle points almost
straight up or down (then the heading may be read differently for the two signs). -/
theorem C138_scale (c : ℝ) (hc : c ≠ 0) (q : Ekf.Quat) :
    tf2.getRoll ⟨c * q.w, c * q.x, c * q.y, c * q.z⟩ = tf2.getRoll q ∧
    tf2.getPitch ⟨c * q.w, c * q.x, c * q.y, c * q.z⟩ = tf2.getPitch q ∧
    (|2 * (q.x * q.z - q.w * q.y)| < 99999 / 100000 * q.length2 →
      tf2.getYaw ⟨c * q.w, c * q.x, c * q.y, c * q.z⟩ = tf2.getYaw q) := by
  have hl := length2_scale c q
  have hm : tf2Matrix ⟨c * q.w, c * q.x, c * q.y, c * q.z⟩ = tf2Matrix q := by
    unfold tf2Matrix
    rw [hl]
    by_cases h : q.length2 = 0
    · rw [if_pos (by rw [h, mul_zero]), if_pos h]
    · rw [if_neg (mul_ne_zero (pow_ne_zero 2 hc) h), if_neg h]
      simp only [Option.some.injEq]
      ext i j
      fin_cases i <;> fin_cases j <;> simp <;> field_simp
  refine ⟨by simp only [tf2, hm], by simp only [tf2, hm], fun h => ?_⟩
  have hpos : 0 < q.length2 := by
    have := abs_nonneg (2 * (q.x * q.z - q.w * q.y))
    nlinarith
  have hc2 : 0 < c ^ 2 := by positivity
  have hs : -2 * (c * q.x * (c * q.z) - c * q.w * (c * q.y)) / (c ^ 2 * q.length2) =
      -2 * (q.x * q.z - q.w * q.y) / q.length2 := by
    field_simp
  have ha : |-2 * (q.x * q.z - q.w * q.y) / q.length2| < 99999 / 100000 := by
    rw [abs_div, abs_of_pos hpos, div_lt_iff₀ hpos]
    rwa [neg_mul, abs_neg]
  have hb := abs_lt.1 ha
  simp only [tf2, Option.some.injEq, tf2GetYaw, hl]
  rw [if_neg (mul_pos hc2 hpos).ne', if_neg hpos.ne', hs, if_neg (not_le.2 hb.1), if_neg (not_le.2 hb.2),
    if_neg (not_le.2 hb.1), if_neg (not_le.2 hb.2)]
  rw [← atan2_scale hc2 (2 * (q.x * q.y + q.w * q.z))]
  congr 1 <;> ring

/-- C138: the length of the quaternion never matters, not even if the vehicle points straight up or down. -/
theorem C138_length (c : ℝ) (hc : 0 < c) (q : Ekf.Quat) :
    tf2.getYaw ⟨c * q.w, c * q.x, c * q.y, c * q.z⟩ = tf2.getYaw q ∧
    tf2.getRoll ⟨c * q.w, c * q.x, c * q.y, c * q.z⟩ = tf2.getRoll q ∧
    tf2.getPitch ⟨c * q.w, c * q.x, c * q.y, c * q.z⟩ = tf2.getPitch q := by
  obtain ⟨hroll, hpitch, -⟩ := C138_scale c hc.ne' q
  refine ⟨?_, hroll, hpitch⟩
  have hl := length2_scale c q
  have hc2 : 0 < c ^ 2 := by positivity
  have hnormal : atan2 (2 * (c * q.x * (c * q.y) + c * q.w * (c * q.z)))
      (c * q.w * (c * q.w) + c * q.x * (c * q.x) - c * q.y * (c * q.y) - c * q.z * (c * q.z)) =
      atan2 (2 * (q.x * q.y + q.w * q.z)) (q.w * q.w + q.x * q.x - q.y * q.y - q.z * q.z) := by
    rw [← atan2_scale hc2 (2 * (q.x * q.y + q.w * q.z))]
    congr 1 <;> ring
  simp only [tf2, Option.some.injEq, tf2GetYaw, hl, hnormal, atan2_scale hc]
  by_cases h : q.length2 = 0
  · rw [if_pos (by rw [h, mul_zero]), if_pos h]
  · have hs : -2 * (c * q.x * (c * q.z) - c * q.w * (c * q.y)) / (c ^ 2 * q.length2) =
        -2 * (q.x * q.z - q.w * q.y) / q.length2 := by
      field_simp
    rw [if_neg (mul_ne_zero hc2.ne' h), if_neg h, hs]

/-! ### Cases -/

theorem anglesOK_case : AnglesOK (1 / 10) (-(1 / 5)) 3 := by
  have := Real.pi_gt_three
  exact ⟨⟨by linarith, by linarith⟩, ⟨by linarith, by linarith⟩, ⟨by linarith, by linarith⟩⟩

theorem steep_case : |Real.sin (-(1 / 5))| < 99999 / 100000 := by
  rw [Real.sin_neg, abs_neg]
  have h1 := Real.sin_lt (show (0 : ℝ) < 1 / 5 by norm_num)
  have h2 := Real.sin_nonneg_of_nonneg_of_le_pi (show (0 : ℝ) ≤ 1 / 5 by norm_num)
    (by linarith [Real.pi_gt_three])
  rw [abs_of_nonneg h2]
  linarith

/-- A vehicle that rolls by 0.1, pitches by -0.2 and heads to 3 rad, sent with the sign reversed. -/
example : tf2.getYaw (orientationOf (makePoseMsg (fun _ => true)
      ⟨(rpyToQuaternionXYZ (1 / 10) (-(1 / 5)) 3).toRotationMatrix, ![1, 2, 3]⟩)) = some 3 :=
  (C138_message anglesOK_case (fun _ => true) ![1, 2, 3]).2.2.2 steep_case

/-- The cyclic permutation of the axes; its angles are a quarter turn of roll and of yaw. -/
example : ∃ roll pitch yaw, AnglesOK roll pitch yaw ∧ |Real.sin pitch| < 99999 / 100000 ∧
    tf2.getRoll ⟨1 / 2, 1 / 2, 1 / 2, 1 / 2⟩ = some roll ∧
    tf2.getPitch ⟨1 / 2, 1 / 2, 1 / 2, 1 / 2⟩ = some pitch ∧
    tf2.getYaw ⟨1 / 2, 1 / 2, 1 / 2, 1 / 2⟩ = some yaw ∧
    (Quat.toRot ⟨1 / 2, 1 / 2, 1 / 2, 1 / 2⟩).toRotationMatrix =
      (rpyToQuaternionXYZ roll pitch yaw).toRotationMatrix :=
  C138_rebuild _ (by simp only [Rot.Quat.IsUnit, Quat.toRot]; norm_num)
    (by simp [Rot.Quat.toRotationMatrix, Quat.toRot])

/-- A quaternion of length 2 with the sign reversed. -/
example : tf2.getYaw ⟨-2 * 1, -2 * 0, -2 * 0, -2 * 0⟩ = tf2.getYaw ⟨1, 0, 0, 0⟩ :=
  (C138_scale (-2) (by norm_num) ⟨1, 0, 0, 0⟩).2.2 (by norm_num [Quat.length2])

/-- A vehicle that points straight down, its quaternion ten times too long. -/
example : tf2.getYaw ⟨10 * 1, 10 * 0, 10 * 1, 10 * 0⟩ = tf2.getYaw ⟨1, 0, 1, 0⟩ :=
  (C138_length 10 (by norm_num) ⟨1, 0, 1, 0⟩).1

end Verif.Ekf
