/-
C96 poses in messages.
-/
import Verif.Model.Msg
import Verif.Props.C25
import Verif.Props.C89

set_option autoImplicit false

namespace Verif.Msg

open Matrix Verif.Rot Verif.Align

/-- The message has a unit quaternion. -/
def PoseMsg.IsUnit (m : PoseMsg) : Prop :=
  m.orientation.w ^ 2 + m.orientation.x ^ 2 + m.orientation.y ^ 2 + m.orientation.z ^ 2 = 1

/-- Two quaternions of messages are equal, or opposite and so describe the same rotation. -/
def SameRotation (a b : Quaternion) : Prop :=
  a = b ∨ (a.x = -b.x ∧ a.y = -b.y ∧ a.z = -b.z ∧ a.w = -b.w)

theorem vec_eta (v : Fin 3 → ℝ) : ![v 0, v 1, v 2] = v := by
  funext j
  fin_cases j <;> rfl

theorem toVector3d_makePoint (v : Fin 3 → ℝ) : toVector3d (makePoint v) = v := vec_eta v

/-- C96: a message with a unit quaternion becomes the rigid pose that it describes: points are rotated by
`q p q*` and moved by the position. -/
theorem C96_reads (m : PoseMsg) (hm : m.IsUnit) (p : Fin 3 → ℝ) :
    IsRotation (getIsometry3d m).linear ∧
    (getIsometry3d m).linear *ᵥ p + (getIsometry3d m).translation =
      sandwich p ![m.orientation.w, m.orientation.x, m.orientation.y, m.orientation.z] +
        ![m.position.x, m.position.y, m.position.z] := by
  have hu : (toQuaterniond m.orientation).IsUnit := hm
  refine ⟨toRotationMatrix_rotation _ hu, ?_⟩
  show (toQuaterniond m.orientation).toRotationMatrix *ᵥ p + _ = _
  rw [toRotationMatrix_sandwich _ hu]
  rfl

/-- C96: a rigid pose survives being sent and received, and its message has a unit quaternion. -/
theorem C96_round_trip (flip : Quat → Bool) (T : Pose) (hT : IsRotation T.linear) :
    (makePoseMsg flip T).IsUnit ∧ getIsometry3d (makePoseMsg flip T) = T := by
  obtain ⟨h1, h2⟩ := C71_matrix_to_quaternion _ hT
  have hq : ∃ q : Quat, q.IsUnit ∧ q.toRotationMatrix = T.linear ∧
      (makePoseMsg flip T).orientation = ofQuat q := by
    unfold makePoseMsg
    simp only
    by_cases hf : flip (Quat.ofMatrix T.linear) = true
    · rw [if_pos hf]
      exact ⟨opp (Quat.ofMatrix T.linear), opp_isUnit h1, by rw [opp_toRotationMatrix, h2], rfl⟩
    · rw [if_neg hf]
      exact ⟨_, h1, h2, rfl⟩
  obtain ⟨q, hu, hr, ho⟩ := hq
  refine ⟨?_, ?_⟩
  · unfold PoseMsg.IsUnit
    rw [ho]
    exact hu
  · unfold getIsometry3d
    rw [ho]
    show makePose q (toVector3d (makePoint T.translation)) = T
    rw [toVector3d_makePoint]
    unfold makePose
    rw [hr]

/-- C96: a message with a unit quaternion that is received and sent again keeps its position, and its
quaternion up to the sign. -/
theorem C96_back (flip : Quat → Bool) (m : PoseMsg) (hm : m.IsUnit) :
    (makePoseMsg flip (getIsometry3d m)).position = m.position ∧
    SameRotation (makePoseMsg flip (getIsometry3d m)).orientation m.orientation := by
  have hu : (toQuaterniond m.orientation).IsUnit := hm
  refine ⟨rfl, ?_⟩
  have h : Quat.ofMatrix (getIsometry3d m).linear = toQuaterniond m.orientation ∨
      Quat.ofMatrix (getIsometry3d m).linear = opp (toQuaterniond m.orientation) := ofMatrix_eq_or_opp hu
  unfold makePoseMsg SameRotation
  simp only
  rcases h with h | h <;> rw [h] <;> split_ifs <;> simp [ofQuat, toQuaterniond, opp]

/-- C96: broadcast transforms carry the same pose as pose messages, with the given stamp and frames. -/
theorem C96_transform (T : Pose) (hT : IsRotation T.linear) (stamp : ℤ) (frame child : String) :
    let m := makeTransformStamped T stamp frame child
    m.header = ⟨stamp, frame⟩ ∧ m.child = child ∧ getIsometry3d ⟨m.translation, m.rotation⟩ = T := by
  refine ⟨rfl, rfl, ?_⟩
  have h := (C96_round_trip (fun _ => false) T hT).2
  exact h

/-- C96: a pose message with covariance has the given stamp and frame, the pose, and entry `6 i + j` of its
array is entry `(i, j)` of the covariance. -/
theorem C96_covariance (flip : Quat → Bool) (init : Fin 36 → ℝ) (T : Pose) (hT : IsRotation T.linear)
    (covariance : Matrix (Fin 6) (Fin 6) ℝ) (stamp : ℤ) (frame : String) :
    let m := makePoseWithCovarianceStamped flip init T covariance stamp frame
    m.header = ⟨stamp, frame⟩ ∧ getIsometry3d m.content.pose = T ∧
    (∀ (i j : Fin 6) (k : Fin 36), k.val = 6 * i.val + j.val → m.content.covariance k = covariance i j) ∧
    (makePoseStamped flip T stamp frame).header = ⟨stamp, frame⟩ ∧
    getIsometry3d (makePoseStamped flip T stamp frame).content = T := by
  have h := (C96_round_trip flip T hT).2
  exact ⟨rfl, h, fun i j k hk => Lib.C27_array_entry init covariance i j k hk, rfl, h⟩

/-- C96: twists carry linear and angular velocity in their places, with the given stamp and frame. -/
theorem C96_twist (linear angular : Fin 3 → ℝ) (stamp : ℤ) (frame : String) :
    let m := makeTwistStamped linear angular stamp frame
    m.header = ⟨stamp, frame⟩ ∧
    (∀ i, ![m.content.linear.x, m.content.linear.y, m.content.linear.z] i = linear i) ∧
    (∀ i, ![m.content.angular.x, m.content.angular.y, m.content.angular.z] i = angular i) :=
  ⟨rfl, fun i => congrFun (vec_eta linear) i, fun i => congrFun (vec_eta angular) i⟩

/-! ### Quaternions that are not units -/

/-- Squared norm of a quaternion and of its vector part. -/
def normSq (q : Quat) : ℝ := q.w ^ 2 + q.x ^ 2 + q.y ^ 2 + q.z ^ 2

theorem rot_len (q : Quat) (p : Fin 3 → ℝ) :
    (q.toRotationMatrix *ᵥ p) ⬝ᵥ (q.toRotationMatrix *ᵥ p) =
      p ⬝ᵥ p - 4 * (1 - normSq q) * ((q.vec ⨯₃ p) ⬝ᵥ (q.vec ⨯₃ p)) := by
  simp [Quat.toRotationMatrix, normSq, Quat.vec, dotProduct, mulVec, Fin.sum_univ_succ, crossProduct]
  ring

theorem cross_le (v p : Fin 3 → ℝ) : (v ⨯₃ p) ⬝ᵥ (v ⨯₃ p) ≤ (v ⬝ᵥ v) * (p ⬝ᵥ p) := by
  have h : (v ⬝ᵥ v) * (p ⬝ᵥ p) - (v ⨯₃ p) ⬝ᵥ (v ⨯₃ p) = (v ⬝ᵥ p) ^ 2 := by
    simp [dotProduct, Fin.sum_univ_succ, crossProduct]
    ring
  have := sq_nonneg (v ⬝ᵥ p)
  linarith

theorem cross_nonneg (v p : Fin 3 → ℝ) : 0 ≤ (v ⨯₃ p) ⬝ᵥ (v ⨯₃ p) := by
  simp only [dotProduct]
  exact Finset.sum_nonneg fun i _ => mul_self_nonneg _

/-- C96, what happens in general: the received pose is rigid exactly if the quaternion is a unit
quaternion or has no vector part. The full claim is that it is rigid for every message; it is false. -/
theorem C96_rigid_iff_partial (m : PoseMsg) :
    IsRotation (getIsometry3d m).linear ↔
      m.IsUnit ∨ (m.orientation.x = 0 ∧ m.orientation.y = 0 ∧ m.orientation.z = 0) := by
  constructor
  · intro h
    by_contra hc
    rw [not_or] at hc
    obtain ⟨h1, h2⟩ := hc
    have hk : ∀ p : Fin 3 → ℝ, ((toQuaterniond m.orientation).vec ⨯₃ p) ⬝ᵥ
        ((toQuaterniond m.orientation).vec ⨯₃ p) = 0 := by
      intro p
      have h3 := rot_len (toQuaterniond m.orientation) p
      have h4 : ((getIsometry3d m).linear *ᵥ p) ⬝ᵥ ((getIsometry3d m).linear *ᵥ p) = p ⬝ᵥ p := by
        rw [dotProduct_mulVec, vecMul_mulVec, ← dotProduct_mulVec]
        rw [h.1, one_mulVec]
      rw [show (toQuaterniond m.orientation).toRotationMatrix = (getIsometry3d m).linear from rfl, h4] at h3
      have h5 : 1 - normSq (toQuaterniond m.orientation) ≠ 0 := fun h => h1 (by
        unfold PoseMsg.IsUnit
        unfold normSq toQuaterniond at h
        linarith)
      have h6 : (1 - normSq (toQuaterniond m.orientation)) *
          (((toQuaterniond m.orientation).vec ⨯₃ p) ⬝ᵥ ((toQuaterniond m.orientation).vec ⨯₃ p)) = 0 := by
        linarith
      exact (mul_eq_zero.1 h6).resolve_left h5
    have k1 := hk ![1, 0, 0]
    have k2 := hk ![0, 1, 0]
    simp [toQuaterniond, Quat.vec, crossProduct, dotProduct, Fin.sum_univ_succ] at k1 k2
    refine h2 ⟨?_, ?_, ?_⟩ <;> nlinarith [sq_nonneg m.orientation.x, sq_nonneg m.orientation.y, sq_nonneg m.orientation.z]
  · rintro (h | ⟨h1, h2, h3⟩)
    · exact (C96_reads m h 0).1
    · have : (getIsometry3d m).linear = 1 := by
        unfold getIsometry3d makePose toQuaterniond Quat.toRotationMatrix
        rw [h1, h2, h3]
        ext i j
        fin_cases i <;> fin_cases j <;> simp
      rw [this]
      exact ⟨by simp, by simp⟩

/-- C96 is false for messages whose quaternion is not normalised: the received pose stretches points to
seven times their length. -/
theorem C96_not_normalised_violated :
    let m : PoseMsg := ⟨⟨0, 0, 0⟩, ⟨0, 0, 2, 0⟩⟩
    ¬ IsRotation (getIsometry3d m).linear ∧ (getIsometry3d m).linear *ᵥ ![1, 0, 0] = ![-7, 0, 0] := by
  refine ⟨fun h => ?_, ?_⟩
  · rcases (C96_rigid_iff_partial _).1 h with h | ⟨-, -, h⟩
    · unfold PoseMsg.IsUnit at h
      norm_num at h
    · norm_num at h
  · funext i
    fin_cases i <;>
      simp [getIsometry3d, makePose, toQuaterniond, Quat.toRotationMatrix, mulVec, dotProduct, Fin.sum_univ_succ]
    norm_num

/-- C96: `MakeIsometry3d` refuses quaternions whose norm is not within a millionth of one, and otherwise
gives a pose with the translation and with squared lengths kept up to a relative error of `10⁻⁵`. -/
theorem C96_checked (q : Quat) (t : Fin 3 → ℝ) :
    (1 / 1000000 ≤ |Real.sqrt (normSq q) - 1| → makeIsometry3d q t = .error .assertFail) ∧
    (|Real.sqrt (normSq q) - 1| < 1 / 1000000 → ∃ T, makeIsometry3d q t = .ok T ∧ T.translation = t ∧
      (normSq q = 1 → IsRotation T.linear ∧ ∀ p, T.linear *ᵥ p = sandwich p (toWXYZ q)) ∧
      ∀ p : Fin 3 → ℝ, |(T.linear *ᵥ p) ⬝ᵥ (T.linear *ᵥ p) - p ⬝ᵥ p| ≤ 1 / 100000 * (p ⬝ᵥ p)) := by
  unfold makeIsometry3d
  refine ⟨fun h => if_neg (not_lt.2 h), fun h => ⟨_, if_pos h, rfl, fun h1 => ?_, fun p => ?_⟩⟩
  · exact ⟨toRotationMatrix_rotation q h1, toRotationMatrix_sandwich q h1⟩
  · have hn : 0 ≤ normSq q := by unfold normSq; positivity
    have hs := Real.sq_sqrt hn
    set s := Real.sqrt (normSq q)
    rw [abs_lt] at h
    show |(q.toRotationMatrix *ᵥ p) ⬝ᵥ (q.toRotationMatrix *ᵥ p) - p ⬝ᵥ p| ≤ _
    have hp : 0 ≤ p ⬝ᵥ p := by
      simp only [dotProduct]
      exact Finset.sum_nonneg fun i _ => mul_self_nonneg _
    have hv : q.vec ⬝ᵥ q.vec ≤ normSq q := by
      simp [Quat.vec, normSq, dotProduct, Fin.sum_univ_succ]
      nlinarith [sq_nonneg q.w]
    have h1 : |1 - normSq q| ≤ 9 / 4000000 := by
      rw [← hs, abs_le]
      constructor <;> nlinarith
    have h2 : normSq q ≤ 1 + 1 / 100000 := by
      rw [abs_le] at h1
      linarith
    rw [rot_len, sub_sub_cancel_left, abs_neg, abs_mul, abs_mul, abs_of_nonneg (cross_nonneg _ _),
      abs_of_nonneg (by norm_num : (0 : ℝ) ≤ 4)]
    have h3 : (q.vec ⨯₃ p) ⬝ᵥ (q.vec ⨯₃ p) ≤ (1 + 1 / 100000) * (p ⬝ᵥ p) :=
      (cross_le _ _).trans (mul_le_mul_of_nonneg_right (hv.trans h2) hp)
    calc 4 * |1 - normSq q| * ((q.vec ⨯₃ p) ⬝ᵥ (q.vec ⨯₃ p))
        ≤ 4 * (9 / 4000000) * ((1 + 1 / 100000) * (p ⬝ᵥ p)) := by
          refine mul_le_mul (by linarith) h3 (cross_nonneg _ _) (by norm_num)
      _ ≤ 1 / 100000 * (p ⬝ᵥ p) := by nlinarith

/-! ### Cases -/

/-- A quarter turn. -/
example : getIsometry3d (makePoseMsg (fun _ => true) ⟨!![0, -1, 0; 1, 0, 0; 0, 0, 1], ![1, 2, 3]⟩) =
    ⟨!![0, -1, 0; 1, 0, 0; 0, 0, 1], ![1, 2, 3]⟩ :=
  (C96_round_trip _ _ ⟨by
    ext i j
    fin_cases i <;> fin_cases j <;> simp [Matrix.mul_apply, Fin.sum_univ_succ], by
    simp [Matrix.det_fin_three]⟩).2

/-- A message. -/
example : (⟨⟨1, 2, 3⟩, ⟨0, 0, 3 / 5, 4 / 5⟩⟩ : PoseMsg).IsUnit := by
  unfold PoseMsg.IsUnit
  norm_num

/-- A quaternion that passes the check without being a unit quaternion. -/
example : ∃ T, makeIsometry3d ⟨1 + 1 / 10000000, 0, 0, 0⟩ 0 = .ok T := by
  obtain ⟨T, h, -⟩ := (C96_checked ⟨1 + 1 / 10000000, 0, 0, 0⟩ 0).2 (by
    unfold normSq
    rw [show (1 + 1 / 10000000 : ℝ) ^ 2 + 0 ^ 2 + 0 ^ 2 + 0 ^ 2 = (1 + 1 / 10000000) ^ 2 by ring,
      Real.sqrt_sq (by norm_num)]
    norm_num)
  exact ⟨T, h⟩

end Verif.Msg
