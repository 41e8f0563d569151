/-
C58 Recent scans.
C59 The map builder adds a scan exactly when the pose moved enough.
C60 The published path is the full history.
C63 Map frame is the centroid of the map.
C78 Odometry builds its map from the poses it estimates.
-/
import Mathlib.Analysis.SpecialFunctions.Trigonometric.Inverse
import Mathlib.Tactic.Linarith
import Mathlib.Tactic.NormNum
import Mathlib.Tactic.Positivity
import Mathlib.Tactic.FieldSimp
import Verif.Model.Mapping
import Verif.Props.C47

set_option autoImplicit false

namespace Verif.Mapping

open Verif Verif.Rot Matrix

variable {P : Type}

/-! ### C58 -/

theorem mergeClouds_eq (scans : List (Cloud P)) : mergeClouds scans = scans.flatten := by
  have h : ∀ (acc : Cloud P), scans.foldl (fun m s => m ++ s) acc = acc ++ scans.flatten := by
    induction scans with
    | nil => simp
    | cons a rest ih => intro acc; simp [ih, List.append_assoc]
  simpa [mergeClouds] using h []

/-- The scans moved to the map frame, in the order of the history. -/
def placed (h : List (Pose × Cloud P)) : List (Cloud P) :=
  h.map fun e => e.2.map fun p => ⟨e.1.linear *ᵥ p.xyz + e.1.translation, p.other⟩

/-- The object after a history of additions. -/
def scansAfter (h : List (Pose × Cloud P)) : RecentScans P :=
  h.foldl (fun r e => r.add e.1 e.2) RecentScans.new

theorem scansAfter_scans (h : List (Pose × Cloud P)) : (scansAfter h).scans = placed h := by
  have hg : ∀ r : RecentScans P,
      (h.foldl (fun r e => r.add e.1 e.2) r).scans = r.scans ++ placed h := by
    induction h with
    | nil => intro r; simp [placed]
    | cons e rest ih =>
      intro r
      rw [List.foldl_cons, ih]
      simp [RecentScans.add, placed, transformPointCloud, Pose.apply]
  simpa [scansAfter, RecentScans.new] using hg RecentScans.new

theorem toInt_of_lt {n : ℕ} (h : n < 2 ^ 31) : toInt n = n := by
  unfold toInt
  rw [Int.bmod_eq_of_le (by omega) (by omega)]

/-- For every history of fewer than 2^31 scans and every `n ≥ 0`, the `n` most recent scans are the
concatenation, in insertion order, of the last `min n count` transformed scans; all scans are all of
them; and there are none exactly at the start. -/
theorem C58_recent (h : List (Pose × Cloud P)) (hlen : h.length < 2 ^ 31) (n : ℕ) :
    (scansAfter h).getRecent n =
      .ok ((placed h).drop (h.length - min n h.length)).flatten ∧
    (scansAfter h).getAll = (placed h).flatten ∧
    ((scansAfter h).isEmpty = true ↔ h = []) := by
  have hl : (placed h).length = h.length := by simp [placed]
  refine ⟨?_, ?_, ?_⟩
  · simp only [RecentScans.getRecent, scansAfter_scans, hl, toInt_of_lt hlen, mergeClouds_eq]
    rw [if_neg (by omega)]
    have : (min (n : ℤ) (h.length : ℤ)).toNat = min n h.length := by omega
    rw [this]
  · rw [RecentScans.getAll, scansAfter_scans, mergeClouds_eq]
  · simp only [RecentScans.isEmpty, scansAfter_scans, hl]
    simp

/-- Asking for a negative number of scans is undefined behaviour. -/
theorem C58_negative (h : List (Pose × Cloud P)) (n : ℤ) (hn : n < 0) :
    (scansAfter h).getRecent n = .error .undefinedBehaviour := by
  simp only [RecentScans.getRecent]
  rw [if_pos]
  left
  omega

/-- Three scans, the last two asked for. -/
example : (scansAfter [((⟨1, 0⟩ : Pose), ([⟨0, 1⟩] : Cloud ℕ)), (⟨1, 0⟩, [⟨0, 2⟩, ⟨0, 3⟩]),
    (⟨1, 0⟩, [⟨0, 4⟩])]).getRecent 2 = .ok [⟨0, 2⟩, ⟨0, 3⟩, ⟨0, 4⟩] := by
  rw [show (2 : ℤ) = ((2 : ℕ) : ℤ) from rfl, (C58_recent _ (by simp) 2).1]
  simp [placed]

/-! ### C78 -/

/-- `poses` are the poses of an odometry run over `scans`: the first is the identity, each later one
is what the updater returns for the local map made of the last `nLocal` scans placed at their
estimated poses, the scan, and the pose before. -/
def IsOdometry (nLocal : ℕ) (updater : Cloud P → Cloud P → Pose → Res Pose)
    (scans : List (Cloud P)) (poses : List Pose) : Prop :=
  poses.length = scans.length ∧
  ∀ k (hk : k < scans.length) (hp : k < poses.length),
    if h0 : k = 0 then poses[k] = ⟨1, 0⟩
    else updater
      (((placed ((poses.zip scans).take k)).drop (k - min nLocal k)).flatten)
      scans[k] (poses[k - 1]'(by omega)) = .ok poses[k]

/-- The run of the code. -/
def odometryRun (nLocal : ℤ) (updater : Cloud P → Cloud P → Pose → Res Pose) :
    Odometry P → List (Cloud P) → Res (Odometry P)
  | o, [] => .ok o
  | o, s :: rest => do
    let o ← o.update nLocal updater s
    odometryRun nLocal updater o rest

theorem odometryRun_append (nLocal : ℤ) (updater : Cloud P → Cloud P → Pose → Res Pose)
    (o : Odometry P) (as bs : List (Cloud P)) :
    odometryRun nLocal updater o (as ++ bs) =
      (odometryRun nLocal updater o as).bind fun o => odometryRun nLocal updater o bs := by
  induction as generalizing o with
  | nil => rfl
  | cons a rest ih =>
    simp only [List.cons_append, odometryRun, bind]
    cases h : o.update nLocal updater a with
    | error e => rfl
    | ok o1 => simp only [Except.bind]; rw [ih]; rfl

theorem placed_append (a b : List (Pose × Cloud P)) : placed (a ++ b) = placed a ++ placed b := by
  simp [placed]

theorem update_nonempty (nLocal : ℤ) (updater : Cloud P → Cloud P → Pose → Res Pose)
    (o : Odometry P) (s : Cloud P) (hne : ¬ o.map.isEmpty = true) {recent : Cloud P}
    (hrec : o.map.getRecent nLocal = .ok recent) :
    o.update nLocal updater s =
      (updater recent s o.pose).bind fun T => .ok ⟨T, o.map.add T s⟩ := by
  unfold Odometry.update
  rw [if_neg hne, hrec]
  rfl

theorem odometry_aux (B : ℕ) (hB : ∀ (h : List (Pose × Cloud P)), h.length < B → ∀ n : ℕ,
      (scansAfter h).getRecent n = .ok ((placed h).drop (h.length - min n h.length)).flatten ∧
      (scansAfter h).getAll = (placed h).flatten ∧ ((scansAfter h).isEmpty = true ↔ h = []))
    (nLocal : ℕ) (updater : Cloud P → Cloud P → Pose → Res Pose)
    (scans : List (Cloud P)) (hlen : scans.length < B) (o : Odometry P)
    (h : odometryRun nLocal updater Odometry.new scans = .ok o) :
    ∃ poses, IsOdometry nLocal updater scans poses ∧
      o.map = scansAfter (poses.zip scans) ∧ o.pose = poses.getLastD ⟨1, 0⟩ := by
  induction scans using List.reverseRecOn generalizing o with
  | nil =>
    cases h
    exact ⟨[], ⟨rfl, fun k hk => absurd hk (by simp)⟩, by simp [scansAfter, Odometry.new], by simp [Odometry.new]⟩
  | append_singleton as s ih =>
    rw [odometryRun_append] at h
    cases hn : odometryRun nLocal updater Odometry.new as with
    | error e => rw [hn] at h; simp [Except.bind] at h
    | ok o0 =>
      rw [hn] at h
      simp only [Except.bind, odometryRun, bind] at h
      have hlen' : as.length < B := lt_of_le_of_lt (by simp) hlen
      clear hlen
      obtain ⟨poses, ⟨hpl, hposes⟩, hmap, hpose⟩ := ih hlen' o0 hn
      have hzl : (poses.zip as).length = as.length := by simp [hpl]
      have hadd : ∀ T : Pose, (scansAfter (poses.zip as)).add T s =
          scansAfter ((poses ++ [T]).zip (as ++ [s])) := by
        intro T
        rw [List.zip_append hpl]
        simp [scansAfter]
      have htake : ∀ (T : Pose) (k : ℕ), k ≤ as.length →
          (((poses ++ [T]).zip (as ++ [s])).take k) = (poses.zip as).take k := by
        intro T k hk
        rw [List.zip_append hpl, List.take_append_of_le_length (by omega)]
      have hnew : ∀ T : Pose,
          (if as.length = 0 then T = ⟨1, 0⟩ else
            updater (((placed (poses.zip as)).drop (as.length - min nLocal as.length)).flatten) s
              o0.pose = .ok T) →
          IsOdometry nLocal updater (as ++ [s]) (poses ++ [T]) := by
        intro T hT
        refine ⟨by simp [hpl], ?_⟩
        intro k hk hkp
        rw [List.length_append, List.length_singleton] at hk
        by_cases hlast : k = as.length
        · subst hlast
          have e1 : (poses ++ [T])[as.length]'hkp = T := by
            rw [List.getElem_append_right (by omega)]
            simp [hpl]
          by_cases h0 : as.length = 0
          · rw [dif_pos h0, e1]
            rwa [if_pos h0] at hT
          · rw [dif_neg h0, e1, htake T _ le_rfl, List.take_of_length_le (by omega)]
            rw [if_neg h0] at hT
            have e2 : (as ++ [s])[as.length]'(by simp) = s := by simp
            have e3 : (poses ++ [T])[as.length - 1]'(by simp; omega) = o0.pose := by
              rw [List.getElem_append_left (by omega), hpose]
              have hne : poses ≠ [] := List.ne_nil_of_length_pos (by omega)
              rw [List.getLastD_eq_getLast?, List.getLast?_eq_some_getLast hne,
                Option.getD_some, List.getLast_eq_getElem]
              congr 1
              omega
            rw [e2, e3]
            exact hT
        · have hk' : k < as.length := by omega
          have := hposes k hk' (by omega)
          have e1 : (poses ++ [T])[k]'hkp = poses[k]'(by omega) := List.getElem_append_left (by omega)
          have e2 : (as ++ [s])[k]'(by simp; omega) = as[k] := List.getElem_append_left hk'
          by_cases h0 : k = 0
          · rw [dif_pos h0] at this ⊢
            rw [e1, this]
          · rw [dif_neg h0] at this ⊢
            have e3 : (poses ++ [T])[k - 1]'(by simp; omega) = poses[k - 1]'(by omega) :=
              List.getElem_append_left (by omega)
            rw [htake T k (by omega), e1, e2, e3]
            exact this
      have hemp : o0.map.isEmpty = true ↔ as.length = 0 := by
        rw [hmap, (hB (poses.zip as) (hzl.symm ▸ hlen') 0).2.2]
        rw [← List.length_eq_zero_iff, hzl]
      by_cases h0 : as.length = 0
      · have hup : o0.update nLocal updater s = .ok { o0 with map := o0.map.add o0.pose s } := by
          simp [Odometry.update, hemp.2 h0]
        rw [hup] at h
        simp only at h
        cases h
        have hp0 : poses = [] := List.eq_nil_of_length_eq_zero (by omega)
        have hpose0 : o0.pose = ⟨1, 0⟩ := by rw [hpose, hp0]; simp
        refine ⟨poses ++ [⟨1, 0⟩], hnew _ (by rw [if_pos h0]), ?_, ?_⟩
        · simp only
          rw [hmap, hpose0, hadd]
        · simp only
          rw [hpose0]
          simp
      · have hemp' : ¬ o0.map.isEmpty = true := fun he => h0 (hemp.1 he)
        have hrec : o0.map.getRecent nLocal =
            .ok (((placed (poses.zip as)).drop (as.length - min nLocal as.length)).flatten) := by
          rw [hmap, (hB (poses.zip as) (hzl.symm ▸ hlen') nLocal).1, hzl]
        rw [update_nonempty nLocal updater o0 s hemp' hrec] at h
        cases hu : updater (((placed (poses.zip as)).drop
            (as.length - min nLocal as.length)).flatten) s o0.pose with
        | error e => rw [hu] at h; simp [Except.bind] at h
        | ok T =>
          rw [hu] at h
          simp only [Except.bind] at h
          cases h
          refine ⟨poses ++ [T], hnew T (by rw [if_neg h0]; exact hu), ?_, ?_⟩
          · simp only
            rw [hmap, hadd]
          · simp

/-- Odometry started with an empty map: the map holds every scan placed at the pose estimated for
it, the first at the identity, each later pose being estimated against the most recent scans and the
pose before it; the current pose is the last of them (the identity before any scan). -/
theorem C78_odometry (nLocal : ℕ) (updater : Cloud P → Cloud P → Pose → Res Pose)
    (scans : List (Cloud P)) (hlen : scans.length < 2 ^ 31) (o : Odometry P)
    (h : odometryRun nLocal updater Odometry.new scans = .ok o) :
    ∃ poses, IsOdometry nLocal updater scans poses ∧
      o.map = scansAfter (poses.zip scans) ∧ o.pose = poses.getLastD ⟨1, 0⟩ :=
  odometry_aux (2 ^ 31) C58_recent nLocal updater scans hlen o h

/-- Two scans with an updater that moves by one along x. -/
example : ∃ o : Odometry ℕ, odometryRun ((1 : ℕ) : ℤ)
    (fun _ _ p => .ok ⟨p.linear, p.translation + ![1, 0, 0]⟩) Odometry.new
    [[⟨0, 1⟩], [⟨0, 2⟩]] = .ok o ∧ o.pose.translation = ![1, 0, 0] ∧ o.map.scans.length = 2 := by
  refine ⟨_, rfl, ?_, rfl⟩
  simp [Odometry.new]

/-! ### C59 -/

/-- Angle `θ ∈ [0, π]` of the rotation that takes `A` to `B`. -/
def IsRelativeAngle (A B : Matrix (Fin 3) (Fin 3) ℝ) (θ : ℝ) : Prop :=
  0 ≤ θ ∧ θ ≤ Real.pi ∧ (Aᵀ * B).trace = 1 + 2 * Real.cos θ

/-- The pose moved enough: by at least 1 in position, or by an angle whose half has a sine of at
least 1/10. -/
def Moved (a b : Pose) : Prop :=
  1 ≤ Real.sqrt (∑ i, (b.translation i - a.translation i) ^ 2) ∨
  ∃ θ, IsRelativeAngle a.linear b.linear θ ∧ 1 / 10 ≤ Real.sin (θ / 2)

/-- The scans that make up the map, for a history of scans and poses: the first non-empty one, and
each non-empty one whose pose moved enough from the last chosen. -/
inductive Keyframes : List (Cloud P × Pose) → List (Cloud P × Pose) → Prop
  | nil : Keyframes [] []
  | add {h ks} (c : Cloud P) (p : Pose) : Keyframes h ks → c ≠ [] →
      (∀ k ∈ ks.getLast?, Moved k.2 p) → Keyframes (h ++ [(c, p)]) (ks ++ [(c, p)])
  | skip {h ks} (c : Cloud P) (p : Pose) : Keyframes h ks →
      (c = [] ∨ ∃ k ∈ ks.getLast?, ¬ Moved k.2 p) → Keyframes (h ++ [(c, p)]) ks

theorem relativeRotation {A B : Matrix (Fin 3) (Fin 3) ℝ} (hA : IsRotation A) (hB : IsRotation B) :
    IsRotation (Aᵀ * B) := by
  obtain ⟨hA1, hA2⟩ := hA
  obtain ⟨hB1, hB2⟩ := hB
  have hA3 : A * Aᵀ = 1 := mul_eq_one_comm.1 hA1
  refine ⟨?_, ?_⟩
  · rw [transpose_mul, transpose_transpose]
    calc Bᵀ * A * (Aᵀ * B) = Bᵀ * (A * Aᵀ) * B := by simp only [Matrix.mul_assoc]
      _ = 1 := by rw [hA3, Matrix.mul_one, hB1]
  · rw [det_mul, det_transpose, hA2, hB2, one_mul]

/-- The squared length of the vector part of a rotation's quaternion. -/
theorem vec_norm_sq (R : Matrix (Fin 3) (Fin 3) ℝ) (hR : IsRotation R) :
    Rot.norm (Quat.ofMatrix R).vec ^ 2 = (3 - R.trace) / 4 := by
  obtain ⟨hu, hm⟩ := C71_matrix_to_quaternion R hR
  rw [norm_sq]
  have htr : R.trace = 3 - 4 * ((Quat.ofMatrix R).vec ⬝ᵥ (Quat.ofMatrix R).vec) := by
    conv_lhs => rw [← hm]
    generalize Quat.ofMatrix R = q
    simp [Matrix.trace, Fin.sum_univ_three, Quat.toRotationMatrix, Quat.vec, dotProduct]
    ring
  rw [htr]; ring

theorem norm_nonneg' {n : ℕ} (v : Fin n → ℝ) : 0 ≤ Rot.norm v := Real.sqrt_nonneg _

/-- Every pair of rotations has a relative angle. -/
theorem exists_relativeAngle {A B : Matrix (Fin 3) (Fin 3) ℝ} (hA : IsRotation A)
    (hB : IsRotation B) : ∃ θ, IsRelativeAngle A B θ := by
  have hR := relativeRotation hA hB
  have h1 := vec_norm_sq _ hR
  obtain ⟨hu, _⟩ := C71_matrix_to_quaternion _ hR
  have h2 : Rot.norm (Quat.ofMatrix (Aᵀ * B)).vec ^ 2 ≤ 1 := by
    rw [norm_sq]
    unfold Quat.IsUnit at hu
    have : (Quat.ofMatrix (Aᵀ * B)).vec ⬝ᵥ (Quat.ofMatrix (Aᵀ * B)).vec =
        (Quat.ofMatrix (Aᵀ * B)).x ^ 2 + (Quat.ofMatrix (Aᵀ * B)).y ^ 2 +
          (Quat.ofMatrix (Aᵀ * B)).z ^ 2 := by
      simp [dotProduct, Fin.sum_univ_three, Quat.vec]; ring
    rw [this]
    nlinarith [sq_nonneg (Quat.ofMatrix (Aᵀ * B)).w]
  have h3 : 0 ≤ Rot.norm (Quat.ofMatrix (Aᵀ * B)).vec ^ 2 := sq_nonneg _
  refine ⟨Real.arccos (((Aᵀ * B).trace - 1) / 2), Real.arccos_nonneg _, Real.arccos_le_pi _, ?_⟩
  rw [Real.cos_arccos (by linarith) (by linarith)]
  ring

/-- The vector part of the relative quaternion has length `sin (θ / 2)`. -/
theorem vec_norm_eq_sin {A B : Matrix (Fin 3) (Fin 3) ℝ} (hA : IsRotation A) (hB : IsRotation B)
    {θ : ℝ} (hθ : IsRelativeAngle A B θ) :
    Rot.norm (Quat.ofMatrix (Aᵀ * B)).vec = Real.sin (θ / 2) := by
  obtain ⟨h0, hpi, htr⟩ := hθ
  have h1 := vec_norm_sq _ (relativeRotation hA hB)
  rw [htr] at h1
  have hs : 0 ≤ Real.sin (θ / 2) := Real.sin_nonneg_of_nonneg_of_le_pi (by linarith) (by linarith)
  have hc : Real.cos θ = 1 - 2 * Real.sin (θ / 2) ^ 2 := by
    have := Real.cos_two_mul (θ / 2)
    rw [show 2 * (θ / 2) = θ by ring] at this
    have h2 := Real.sin_sq_add_cos_sq (θ / 2)
    linarith
  have : Rot.norm (Quat.ofMatrix (Aᵀ * B)).vec ^ 2 = Real.sin (θ / 2) ^ 2 := by
    rw [h1, hc]; ring
  exact (pow_left_inj₀ (norm_nonneg' _) hs (by norm_num)).1 this

/-- The translation of the relative pose is as long as the distance between the positions. -/
theorem relative_translation_norm {a b : Pose} (hA : IsRotation a.linear) :
    Rot.norm (Pose.mul (Pose.inverse a) b).translation =
      Real.sqrt (∑ i, (b.translation i - a.translation i) ^ 2) := by
  have h : (Pose.mul (Pose.inverse a) b).translation =
      a.linearᵀ *ᵥ (b.translation - a.translation) := by
    simp only [Pose.mul, Pose.inverse, mulVec_sub]
    abel
  rw [h, Rot.norm]
  congr 1
  have hA3 : a.linear * a.linearᵀ = 1 := mul_eq_one_comm.1 hA.1
  rw [mulVec_transpose, ← dotProduct_mulVec, ← mulVec_transpose, mulVec_mulVec, hA3, one_mulVec]
  simp only [dotProduct, Pi.sub_apply]
  exact Finset.sum_congr rfl fun i _ => by ring

/-- The code's test for two rigid poses is exactly "did not move enough". -/
theorem C59_threshold (a b : Pose) (hA : IsRotation a.linear) (hB : IsRotation b.linear) :
    poseDiffIsSufficientlySmall a b translationThreshold rotationThreshold ↔ ¬ Moved a b := by
  obtain ⟨θ, hθ⟩ := exists_relativeAngle hA hB
  have hv := vec_norm_eq_sin hA hB hθ
  have huniq : ∀ θ', IsRelativeAngle a.linear b.linear θ' →
      Real.sin (θ' / 2) = Real.sin (θ / 2) := by
    intro θ' h'
    rw [← vec_norm_eq_sin hA hB h', hv]
  unfold poseDiffIsSufficientlySmall Moved
  simp only
  rw [relative_translation_norm hA]
  have hlin : (Pose.mul (Pose.inverse a) b).linear = a.linearᵀ * b.linear := rfl
  rw [hlin, hv, translationThreshold, rotationThreshold, not_or, not_le, not_exists]
  constructor
  · rintro ⟨h1, h2⟩
    refine ⟨h1, ?_⟩
    rintro θ' ⟨h', h''⟩
    rw [huniq θ' h'] at h''
    linarith
  · rintro ⟨h1, h2⟩
    refine ⟨h1, ?_⟩
    by_contra hcon
    exact h2 θ ⟨hθ, not_lt.1 hcon⟩

/-- The builder after a history of callbacks. -/
noncomputable def builderAfter (garbage : Pose) (h : List (Cloud P × Pose)) : MapBuilder P :=
  h.foldl (fun b e => b.callback e.1 e.2) (MapBuilder.new garbage)

/-- Chosen scans are chosen in only one way. -/
theorem C59_unique (h ks ks' : List (Cloud P × Pose)) (h1 : Keyframes h ks)
    (h2 : Keyframes h ks') : ks = ks' := by
  induction h1 generalizing ks' with
  | nil =>
    generalize hh : ([] : List (Cloud P × Pose)) = h at h2
    cases h2 with
    | nil => rfl
    | add c p _ _ _ => simp at hh
    | skip c p _ _ => simp at hh
  | @add h ks c p _ hne hmoved ih =>
    generalize hh : h ++ [(c, p)] = h' at h2
    cases h2 with
    | nil => simp at hh
    | add c' p' hk hne' hmoved' =>
      obtain ⟨e1, e2⟩ := List.append_inj' hh rfl
      simp only [List.cons.injEq, Prod.mk.injEq, and_true] at e2
      obtain ⟨rfl, rfl⟩ := e2
      subst e1
      rw [ih _ hk]
    | skip c' p' hk hskip =>
      obtain ⟨e1, e2⟩ := List.append_inj' hh rfl
      simp only [List.cons.injEq, Prod.mk.injEq, and_true] at e2
      obtain ⟨rfl, rfl⟩ := e2
      subst e1
      have := ih _ hk
      subst this
      rcases hskip with hc | ⟨k, hk, hnm⟩
      · exact absurd hc hne
      · exact absurd (hmoved k hk) hnm
  | @skip h ks c p _ hskip ih =>
    generalize hh : h ++ [(c, p)] = h' at h2
    cases h2 with
    | nil => simp at hh
    | add c' p' hk hne' hmoved' =>
      obtain ⟨e1, e2⟩ := List.append_inj' hh rfl
      simp only [List.cons.injEq, Prod.mk.injEq, and_true] at e2
      obtain ⟨rfl, rfl⟩ := e2
      subst e1
      have := ih _ hk
      subst this
      rcases hskip with hc | ⟨k, hk, hnm⟩
      · exact absurd hc hne'
      · exact absurd (hmoved' k hk) hnm
    | skip c' p' hk hskip' =>
      obtain ⟨e1, e2⟩ := List.append_inj' hh rfl
      simp only [List.cons.injEq, Prod.mk.injEq, and_true] at e2
      obtain ⟨rfl, rfl⟩ := e2
      subst e1
      exact ih _ hk

/-- For every history of scans with rigid poses, and whatever the uninitialised previous pose
contains, the map is the concatenation of the chosen scans, each placed at its pose. -/
theorem C59_map (garbage : Pose) (h : List (Cloud P × Pose))
    (hrigid : ∀ e ∈ h, IsRotation e.2.linear) :
    ∃ ks, Keyframes h ks ∧
      (builderAfter garbage h).map = (placed (ks.map fun k => (k.2, k.1))).flatten := by
  suffices H : ∃ ks, Keyframes h ks ∧
      (builderAfter garbage h).map = (placed (ks.map fun k => (k.2, k.1))).flatten ∧
      (∀ k ∈ ks, k.1 ≠ [] ∧ IsRotation k.2.linear) ∧
      (∀ k ∈ ks.getLast?, (builderAfter garbage h).prev = k.2) by
    obtain ⟨ks, h1, h2, _⟩ := H
    exact ⟨ks, h1, h2⟩
  induction h using List.reverseRecOn with
  | nil => exact ⟨[], .nil, rfl, by simp, by simp⟩
  | append_singleton h e ih =>
    obtain ⟨c, p⟩ := e
    obtain ⟨ks, hk, hmap, hks, hprev⟩ := ih fun e he => hrigid e (List.mem_append_left _ he)
    have hp : IsRotation p.linear := hrigid (c, p) (by simp)
    have hb : builderAfter garbage (h ++ [(c, p)]) = (builderAfter garbage h).callback c p := by
      simp [builderAfter]
    rw [hb]
    generalize builderAfter garbage h = b at hmap hprev
    have hmapnil : b.map.length = 0 ↔ ks = [] := by
      rw [List.length_eq_zero_iff, hmap]
      constructor
      · intro hnil
        rcases List.eq_nil_or_concat ks with h0 | ⟨l, x, rfl⟩
        · exact h0
        · exfalso
          have hx := (hks x (by simp)).1
          simp only [placed, List.concat_eq_append, List.map_append, List.flatten_append] at hnil
          have h2 := (List.append_eq_nil_iff.1 hnil).2
          simp at h2
          exact hx h2
      · rintro rfl; rfl
    unfold MapBuilder.callback
    by_cases hc : c.length = 0
    · rw [if_pos hc]
      have hc' : c = [] := List.length_eq_zero_iff.1 hc
      exact ⟨ks, .skip c p hk (Or.inl hc'), hmap, hks, hprev⟩
    · rw [if_neg hc]
      have hc' : c ≠ [] := fun h => hc (by simp [h])
      simp only
      by_cases hcond : b.map.length ≠ 0 ∧
          poseDiffIsSufficientlySmall b.prev p translationThreshold rotationThreshold
      · rw [if_pos hcond]
        have hne : ks ≠ [] := fun h0 => hcond.1 (hmapnil.2 h0)
        have hlast := List.getLast?_eq_some_getLast hne
        have hpr := hprev _ hlast
        refine ⟨ks, .skip c p hk (Or.inr ⟨ks.getLast hne, hlast, ?_⟩), hmap, hks, hprev⟩
        rw [← C59_threshold _ _ (hks _ (List.getLast_mem hne)).2 hp, ← hpr]
        exact hcond.2
      · rw [if_neg hcond]
        refine ⟨ks ++ [(c, p)], .add c p hk hc' ?_, ?_, ?_, ?_⟩
        · intro k hkl
          by_contra hnm
          apply hcond
          have hne : ks ≠ [] := by rintro rfl; simp at hkl
          refine ⟨fun h0 => hne (hmapnil.1 h0), ?_⟩
          have hkm : k ∈ ks := List.mem_of_mem_getLast? hkl
          rw [hprev k hkl]
          exact (C59_threshold _ _ (hks k hkm).2 hp).2 hnm
        · simp only [hmap, placed, List.map_append, List.flatten_append]
          simp [transformPointCloud, Pose.apply]
        · intro k hkm
          rcases List.mem_append.1 hkm with h' | h'
          · exact hks k h'
          · rw [List.mem_singleton.1 h']; exact ⟨hc', hp⟩
        · intro k hkl
          simp at hkl
          rw [← hkl]

/-- What the uninitialised member contains never matters, for any poses whatever, rigid or not. -/
theorem C59_garbage (g g' : Pose) (h : List (Cloud P × Pose)) :
    (builderAfter g h).map = (builderAfter g' h).map ∧
      ((builderAfter g h).map ≠ [] → builderAfter g h = builderAfter g' h) := by
  induction h using List.reverseRecOn with
  | nil => exact ⟨rfl, fun h => absurd rfl h⟩
  | append_singleton h e ih =>
    obtain ⟨hm, heq⟩ := ih
    have hb : ∀ x, builderAfter x (h ++ [e]) = (builderAfter x h).callback e.1 e.2 := by
      intro x; simp [builderAfter]
    rw [hb, hb]
    by_cases hnil : (builderAfter g h).map = []
    · have hnil' : (builderAfter g' h).map = [] := by rw [← hm]; exact hnil
      unfold MapBuilder.callback
      by_cases hc : e.1.length = 0
      · rw [if_pos hc, if_pos hc]
        exact ⟨hm, heq⟩
      · rw [if_neg hc, if_neg hc]
        simp [hnil, hnil']
    · rw [heq hnil]
      exact ⟨rfl, fun _ => rfl⟩

/-- Empty clouds never change the builder; and with an empty map, which is the case exactly as long
as all clouds were empty, no file is written. -/
theorem C59_empty (garbage : Pose) (h : List (Cloud P × Pose)) (b : MapBuilder P) (p : Pose)
    (name : String) :
    b.callback [] p = b ∧
    ((builderAfter garbage h).saveMap name = none ↔ ∀ e ∈ h, e.1 = []) ∧
    (∀ f, (builderAfter garbage h).saveMap name = some f →
      f = (name, (builderAfter garbage h).map) ∧ f.2 ≠ []) := by
  have hiff : (builderAfter garbage h).map = [] ↔ ∀ e ∈ h, e.1 = [] := by
    induction h using List.reverseRecOn with
    | nil => simp [builderAfter, MapBuilder.new]
    | append_singleton h e ih =>
      have hb : builderAfter garbage (h ++ [e]) = (builderAfter garbage h).callback e.1 e.2 := by
        simp [builderAfter]
      rw [hb]
      unfold MapBuilder.callback
      have hall : (∀ x ∈ h ++ [e], x.1 = []) ↔ (∀ x ∈ h, x.1 = []) ∧ e.1 = [] := by
        simp only [List.mem_append, List.mem_singleton]
        constructor
        · intro H; exact ⟨fun x hx => H x (Or.inl hx), H e (Or.inr rfl)⟩
        · rintro ⟨H1, H2⟩ x (hx | rfl)
          · exact H1 x hx
          · exact H2
      rw [hall]
      by_cases hc : e.1.length = 0
      · rw [if_pos hc, ih]
        have : e.1 = [] := List.length_eq_zero_iff.1 hc
        simp [this]
      · rw [if_neg hc]
        have hc' : e.1 ≠ [] := fun h => hc (by simp [h])
        simp only
        split_ifs with hcond
        · have : (builderAfter garbage h).map ≠ [] := fun h0 => hcond.1 (by simp [h0])
          simp [this, hc']
        · simp [transformPointCloud, hc']
  refine ⟨by simp [MapBuilder.callback], ?_, ?_⟩
  · rw [← hiff]
    simp only [MapBuilder.saveMap, List.length_eq_zero_iff]
    split_ifs with h0 <;> simp [h0]
  · intro f hf
    simp only [MapBuilder.saveMap, List.length_eq_zero_iff] at hf
    split_ifs at hf with h0
    cases hf
    exact ⟨rfl, h0⟩

/-- The chosen scans of a history: the first at the origin, the second (moved by a half) skipped,
the third (moved by two) chosen. -/
example (c : Pt ℕ) : Keyframes
    [([c], (⟨1, 0⟩ : Pose)), ([c], ⟨1, ![1 / 2, 0, 0]⟩), ([c], ⟨1, ![2, 0, 0]⟩)]
    [([c], (⟨1, 0⟩ : Pose)), ([c], ⟨1, ![2, 0, 0]⟩)] := by
  have e1 := Keyframes.add (P := ℕ) [c] ⟨1, 0⟩ .nil (by simp) (by simp)
  have e2 := Keyframes.skip (P := ℕ) [c] ⟨1, ![1 / 2, 0, 0]⟩ e1 (by
    refine Or.inr ⟨([c], ⟨1, 0⟩), by simp, ?_⟩
    rw [← C59_threshold _ _ ⟨by simp, by simp⟩ ⟨by simp, by simp⟩]
    unfold poseDiffIsSufficientlySmall
    simp only
    rw [relative_translation_norm ⟨by simp, by simp⟩]
    refine ⟨?_, ?_⟩
    · simp only [Fin.sum_univ_three, translationThreshold]
      simp
      norm_num
    · have hlin : (Pose.mul (Pose.inverse ⟨1, 0⟩) ⟨1, ![1 / 2, 0, 0]⟩).linear = 1 := by
        simp [Pose.mul, Pose.inverse]
      have h1 := vec_norm_sq 1 ⟨by simp, by simp⟩
      rw [hlin]
      have h2 : Rot.norm (Quat.ofMatrix 1).vec ^ 2 = 0 := by rw [h1]; simp
      have h3 : Rot.norm (Quat.ofMatrix 1).vec = 0 := by simpa using h2
      rw [h3, rotationThreshold]
      norm_num)
  have e3 := Keyframes.add (P := ℕ) [c] ⟨1, ![2, 0, 0]⟩ e2 (by simp) (by
    intro k hk
    simp at hk
    subst hk
    left
    simp only [Fin.sum_univ_three]
    simp)
  exact e3

/-! ### C60 -/

/-- After any non-empty sequence of pose messages the last published path holds exactly those poses,
with their headers, in arrival order, under the header of the latest message; one path is published
per message. -/
theorem C60_path {H Q : Type} (default : H) (msgs : List (H × Q)) (last : H × Q) :
    let g := (msgs ++ [last]).foldl (fun g m => g.publish m.1 m.2) (PathGenerator.new default)
    g.published.getLast? = some ⟨last.1, msgs ++ [last]⟩ ∧
      g.published.length = (msgs ++ [last]).length := by
  have hgen : ∀ ms : List (H × Q),
      let g := ms.foldl (fun g m => g.publish m.1 m.2) (PathGenerator.new (Q := Q) default)
      g.path.poses = ms ∧ g.published.length = ms.length := by
    intro ms
    induction ms using List.reverseRecOn with
    | nil => exact ⟨rfl, rfl⟩
    | append_singleton ms m ih =>
      obtain ⟨h1, h2⟩ := ih
      simp only [List.foldl_append, List.foldl_cons, List.foldl_nil]
      generalize ms.foldl (fun g m => g.publish m.1 m.2) (PathGenerator.new default) = g at h1 h2
      exact ⟨by simp [PathGenerator.publish, h1], by simp [PathGenerator.publish, h2]⟩
  obtain ⟨h1, h2⟩ := hgen msgs
  simp only [List.foldl_append, List.foldl_cons, List.foldl_nil]
  generalize msgs.foldl (fun g m => g.publish m.1 m.2) (PathGenerator.new default) = g at h1 h2
  refine ⟨?_, ?_⟩
  · simp [PathGenerator.publish, h1]
  · simp [PathGenerator.publish, h2]

/-- The paths published for three messages: one, two and three poses long. -/
example : (([(1, 'a'), (2, 'b'), (3, 'c')] : List (ℕ × Char)).foldl
    (fun g m => g.publish m.1 m.2) (PathGenerator.new 0)).published.map (fun p => (p.header, p.poses)) =
    [(1, [(1, 'a')]), (2, [(1, 'a'), (2, 'b')]), (3, [(1, 'a'), (2, 'b'), (3, 'c')])] := by
  decide

/-! ### C63 -/

theorem foldl_add_apply (ps : List (Fin 3 → ℝ)) (i : Fin 3) :
    (ps.foldl (fun c p => c + p) 0 : Fin 3 → ℝ) i = (ps.map fun p => p i).sum := by
  have h : ∀ acc : Fin 3 → ℝ,
      (ps.foldl (fun c p => c + p) acc) i = acc i + (ps.map fun p => p i).sum := by
    induction ps with
    | nil => simp
    | cons a rest ih => intro acc; simp [ih, add_assoc]
  simpa using h 0

/-- Full claim: for every map the transform is the mean of the points, lies within their bounding
box and is finite. Proved for non-empty maps of fewer than 2^32 points; for the empty one it is
false (`C63_empty_violated`). -/
theorem C63_centroid_partial (points : List (Fin 3 → ℝ)) (hne : points ≠ [])
    (hlen : points.length < 2 ^ 32) :
    ∃ c, onPointCloud points = some c ∧
      (∀ i, c i * points.length = (points.map fun p => p i).sum) ∧
      ∀ i (lo hi : ℝ), (∀ p ∈ points, lo ≤ p i ∧ p i ≤ hi) → lo ≤ c i ∧ c i ≤ hi := by
  have hpos : 0 < points.length := List.length_pos_iff.2 hne
  have hmod : points.length % 2 ^ 32 = points.length := Nat.mod_eq_of_lt hlen
  have hposR : (0 : ℝ) < points.length := by exact_mod_cast hpos
  unfold onPointCloud
  simp only [hmod, List.take_length]
  rw [if_neg hpos.ne']
  refine ⟨_, rfl, ?_, ?_⟩
  · intro i
    rw [foldl_add_apply, div_mul_cancel₀ _ hposR.ne']
  · intro i lo hi hb
    rw [foldl_add_apply, le_div_iff₀ hposR, div_le_iff₀ hposR]
    have h1 : ∀ ps : List (Fin 3 → ℝ), (∀ p ∈ ps, lo ≤ p i ∧ p i ≤ hi) →
        lo * ps.length ≤ (ps.map fun p => p i).sum ∧ (ps.map fun p => p i).sum ≤ hi * ps.length := by
      intro ps
      induction ps with
      | nil => simp
      | cons a rest ih =>
        intro h
        obtain ⟨g1, g2⟩ := ih fun p hp => h p (List.mem_cons_of_mem _ hp)
        obtain ⟨a1, a2⟩ := h a List.mem_cons_self
        simp only [List.map_cons, List.sum_cons, List.length_cons]
        push_cast
        constructor <;> linarith
    exact h1 points hb

/-- For the empty map the transform broadcast is not finite. -/
theorem C63_empty_violated : onPointCloud [] = none := by
  simp [onPointCloud]

/-- The centroid of two points. -/
example : onPointCloud [![0, 0, 0], ![2, 4, 6]] = some ![1, 2, 3] := by
  simp only [onPointCloud, List.length_cons, List.length_nil]
  norm_num
  funext i
  fin_cases i <;> norm_num

end Verif.Mapping
