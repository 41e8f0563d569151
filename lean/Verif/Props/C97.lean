/-
C97 the localization node publishes rigid poses.
-/
import Verif.Props.C96
import Verif.Props.C54

set_option autoImplicit false

namespace Verif.Store

open Matrix Verif Verif.Rot Verif.Opt Verif.Msg

theorem runLoop_rigid (nth : Nth) (llt : Llt) (make : Problem) (n : ℕ) : ∀ (iter : ℤ) (q : Quat)
    (t : Fin 3 → ℝ) (ps pe : ℝ) (r : Result), q.IsUnit → runLoop nth llt make n iter q t ps pe = .ok r →
    IsRotation r.pose.linear := by
  induction n with
  | zero =>
    intro iter q t ps pe r hq h
    simp only [runLoop, Except.ok.injEq] at h
    subst h
    exact toRotationMatrix_rotation q hq
  | succ n ih =>
    intro iter q t ps pe r hq h
    have hp : IsRotation (makePose q t).linear := toRotationMatrix_rotation q hq
    rw [runLoop] at h
    cases hm : make (makePose q t) with
    | error e =>
      rw [hm] at h
      simp [bind, Except.bind] at h
    | ok jr =>
      rw [hm] at h
      simp only [bind, Except.bind] at h
      split_ifs at h with h0 h1
      · simp only [pure, Except.pure, Except.ok.injEq] at h
        subst h
        exact hp
      · cases hs : normalizeErrorScale nth (computeErrors jr.2) with
        | error e =>
          rw [hs] at h
          simp at h
        | ok ns =>
          rw [hs] at h
          simp only [pure, Except.pure, Except.ok.injEq] at h
          subst h
          exact hp
      · cases hs : normalizeErrorScale nth (computeErrors jr.2) with
        | error e =>
          rw [hs] at h
          simp at h
        | ok ns =>
          rw [hs] at h
          simp only at h
          split_ifs at h with h2
          · simp only [pure, Except.pure, Except.ok.injEq] at h
            subst h
            exact hp
          · cases hu : calcUpdate llt q (computeWeights ns.1) jr.1 jr.2 with
            | error e =>
              rw [hu] at h
              simp at h
            | ok d =>
              have hd : d.1.IsUnit := by
                unfold calcUpdate at hu
                cases hw : weightedUpdate llt (makeM q) (computeWeights ns.1) jr.1 jr.2 with
                | error e =>
                  rw [hw] at hu
                  simp [bind, Except.bind] at hu
                | ok dx =>
                  rw [hw] at hu
                  simp only [bind, Except.bind, pure, Except.pure, Except.ok.injEq] at hu
                  subst hu
                  exact C51_unit _
              rw [hu] at h
              simp only at h
              have hmul := mul_isUnit _ _ hq hd
              split_ifs at h with h3
              · simp only [pure, Except.pure, Except.ok.injEq] at h
                subst h
                exact toRotationMatrix_rotation _ hmul
              · exact ih _ _ _ _ _ r hmul h

/-- Whatever the problem, a run from a rigid pose ends with a rigid pose. -/
theorem run_rigid (nth : Nth) (llt : Llt) (make : Problem) (maxIter : ℤ) (initial : Pose)
    (hR : IsRotation initial.linear) (r : Result) (h : run nth llt make maxIter initial = .ok r) :
    IsRotation r.pose.linear := by
  have hq := (C71_matrix_to_quaternion _ hR).1
  unfold run at h
  simp only at h
  split_ifs at h
  · simp only [Except.ok.injEq] at h
    subst h
    exact toRotationMatrix_rotation _ hq
  · exact runLoop_rigid nth llt make _ _ _ _ _ _ r hq h

/-- The pose of an output. -/
def Output.poseOf {K : Type} : Output K → Pose
  | .pose _ _ p _ => p
  | .transform _ _ _ p => p

variable {K Scan : Type} [CommRing K] [LinearOrder K] [IsStrictOrderedRing K]

/-- All poses in the node are rigid. -/
def AllRigid (n : Node K Scan) : Prop :=
  Inv n ∧ (∀ e ∈ n.store, IsRotation e.2.linear) ∧
  (∀ m prior, n.pc = .got m prior ∨ n.pc = .removed m prior → IsRotation prior.2.linear) ∧
  ∀ o ∈ n.outputs, IsRotation o.poseOf.linear

theorem deref_mem {V : Type} {s : Store K V} {i : ℕ} {e : K × V} (h : deref s i = .ok e) : e ∈ s := by
  unfold deref at h
  split at h
  · rename_i e' he
    simp only [Except.ok.injEq] at h
    subst h
    exact List.mem_of_getElem? he
  · cases h

theorem getClosest_mem {V : Type} {t : K} {s : Store K V} {e : K × V} (h : getClosest t s = .ok e) : e ∈ s := by
  unfold getClosest at h
  simp only [bind, Except.bind] at h
  split_ifs at h with h1 h2
  · cases hp : prev s.length with
    | error e => rw [hp] at h; simp at h
    | ok i => rw [hp] at h; exact deref_mem h
  · exact deref_mem h
  · cases hp : prev (lowerBound t s) with
    | error e => rw [hp] at h; simp at h
    | ok i =>
      rw [hp] at h
      simp only at h
      cases h0 : deref s i with
      | error e => rw [h0] at h; simp at h
      | ok e0 =>
        rw [h0] at h
        simp only at h
        cases h3 : deref s (lowerBound t s) with
        | error e => rw [h3] at h; simp at h
        | ok e1 =>
          rw [h3] at h
          simp only [Except.ok.injEq] at h
          split_ifs at h
          · subst h
            exact deref_mem h0
          · subst h
            exact deref_mem h3

variable (run : Scan → Pose → Res Result) (second : K)

theorem allRigid_step (hrun : ∀ scan p r, IsRotation p.linear → run scan p = .ok r → IsRotation r.pose.linear)
    (n : Node K Scan) (a : Act K Scan) (ha : ∀ t p, a = .insert t p → IsRotation p.linear) (n' : Node K Scan)
    (hi : AllRigid n) (h : step run second n a = .ok n') : AllRigid n' := by
  obtain ⟨hinv, hs, hp, ho⟩ := hi
  refine ⟨inv_step run second n a n' hinv h, ?_⟩
  cases a with
  | insert t p =>
    simp only [step] at h
    cases h
    refine ⟨fun e he => ?_, hp, ho⟩
    rw [mem_insert hinv.1] at he
    rcases he with rfl | ⟨he, -⟩
    · exact ha _ _ rfl
    · exact hs e he
  | size m =>
    simp only [step] at h
    split at h
    · split_ifs at h with h0
      · cases h; exact ⟨hs, hp, ho⟩
      · cases h
        exact ⟨hs, fun m prior hc => by simp at hc, ho⟩
    · cases h; exact ⟨hs, hp, ho⟩
  | closest =>
    simp only [step] at h
    split at h
    · rename_i m hpc
      cases hg : getClosest m.stamp n.store with
      | error e => rw [hg] at h; simp [bind, Except.bind] at h
      | ok prior =>
        rw [hg] at h
        simp only [bind, Except.bind] at h
        cases h
        refine ⟨hs, fun m' prior' hc => ?_, ho⟩
        simp only [Pc.got.injEq, reduceCtorEq, or_false] at hc
        obtain ⟨-, rfl⟩ := hc
        exact hs _ (getClosest_mem hg)
    · cases h; exact ⟨hs, hp, ho⟩
  | remove =>
    simp only [step] at h
    split at h
    · rename_i m prior hpc
      cases hg : removeOlderThan (m.stamp + second) n.store with
      | error e => rw [hg] at h; simp [bind, Except.bind] at h
      | ok s' =>
        rw [hg] at h
        simp only [bind, Except.bind] at h
        cases h
        refine ⟨fun e he => ?_, fun m' prior' hc => ?_, ho⟩
        · rw [removeOlderThan_eq hinv.1] at hg
          split_ifs at hg
          cases hg
          exact hs e (List.mem_filter.1 he).1
        · simp only [Pc.removed.injEq, reduceCtorEq, false_or] at hc
          obtain ⟨-, rfl⟩ := hc
          exact hp _ _ (Or.inl hpc)
    · cases h; exact ⟨hs, hp, ho⟩
  | publish =>
    simp only [step] at h
    split at h
    · rename_i m prior hpc
      cases hg : (n.localizer.init prior.2).update run m.scan with
      | error e => rw [hg] at h; simp [bind, Except.bind] at h
      | ok r =>
        rw [hg] at h
        simp only [bind, Except.bind] at h
        cases h
        refine ⟨hs, fun m' prior' hc => by simp at hc, fun o hmem => ?_⟩
        have hr : IsRotation r.1.get.linear := by
          unfold Localizer.update at hg
          simp only [bind, Except.bind] at hg
          cases hres : run m.scan (n.localizer.init prior.2).pose with
          | error e => rw [hres] at hg; simp at hg
          | ok res =>
            rw [hres] at hg
            simp only [Except.ok.injEq] at hg
            subst hg
            exact hrun _ _ _ (hp _ _ (Or.inr hpc)) hres
        rcases List.mem_append.1 hmem with h1 | h1
        · exact ho o h1
        · simp only [List.mem_cons, List.not_mem_nil, or_false] at h1
          rcases h1 with rfl | rfl <;> exact hr
    · cases h; exact ⟨hs, hp, ho⟩

/-- C97, for prior messages with unit quaternions: under every interleaving every published pose is rigid,
whatever the scans, the maps, the problem that is solved and the solver. Missing: prior messages with
other quaternions, for which the claim is false (`C97_scaled_violated`). -/
theorem C97_rigid_partial (nth : Nth) (llt : Llt) (problemOf : Scan → Problem) (maxIter : ℤ)
    (sched : List (Act K Scan)) (hsched : ∀ t p, Act.insert t p ∈ sched → ∃ m : PoseMsg, m.IsUnit ∧ p = getIsometry3d m)
    (n : Node K Scan)
    (h : exec (fun scan p => Opt.run nth llt (problemOf scan) maxIter p) second (Node.new K Scan) sched = .ok n) :
    ∀ o ∈ n.outputs, IsRotation o.poseOf.linear := by
  have key : ∀ (sched : List (Act K Scan)) (n0 n : Node K Scan),
      (∀ t p, Act.insert t p ∈ sched → IsRotation p.linear) → AllRigid n0 →
      exec (fun scan p => Opt.run nth llt (problemOf scan) maxIter p) second n0 sched = .ok n → AllRigid n := by
    intro sched
    induction sched with
    | nil =>
      intro n0 n _ hn h
      cases h
      exact hn
    | cons a rest ih =>
      intro n0 n hs hn h
      simp only [exec, bind] at h
      cases hst : step (fun scan p => Opt.run nth llt (problemOf scan) maxIter p) second n0 a with
      | error e => rw [hst] at h; simp [Except.bind] at h
      | ok n1 =>
        rw [hst] at h
        refine ih n1 n (fun t p hm => hs t p (List.mem_cons_of_mem _ hm)) ?_ h
        refine allRigid_step _ second ?_ n0 a (fun t p ha => hs t p (ha ▸ List.mem_cons_self)) n1 hn hst
        exact fun scan p r hp hr => run_rigid nth llt _ maxIter p hp r hr
  refine (key sched _ n (fun t p hm => ?_) ⟨inv_new, by simp [Node.new], by simp [Node.new], by simp [Node.new]⟩ h).2.2.2
  obtain ⟨m, hu, rfl⟩ := hsched t p hm
  exact (C96_reads m hu 0).1

/-- A prior at rest, and a scan. -/
example (nth : Nth) (llt : Llt) (problemOf : Unit → Problem) (n : Node ℤ Unit)
    (h : exec (fun scan p => Opt.run nth llt (problemOf scan) 40 p) 1000000000 (Node.new ℤ Unit)
      [.insert 0 (getIsometry3d ⟨⟨1, 2, 3⟩, ⟨0, 0, 3 / 5, 4 / 5⟩⟩), .size ⟨1, ()⟩, .closest, .remove, .publish] = .ok n) :
    ∀ o ∈ n.outputs, IsRotation o.poseOf.linear := by
  refine C97_rigid_partial 1000000000 nth llt problemOf 40 _ (fun t p hm => ?_) n h
  simp only [List.mem_cons, Act.insert.injEq, reduceCtorEq, List.not_mem_nil, or_false] at hm
  obtain ⟨-, rfl⟩ := hm
  refine ⟨_, ?_, rfl⟩
  unfold PoseMsg.IsUnit
  norm_num

/-- C97 is false for a prior message whose quaternion is not normalised: for a scan without features the
node publishes a pose that stretches space sevenfold. -/
theorem C97_scaled_violated (nth : Nth) (llt : Llt) :
    ∃ n : Node ℤ Unit, exec (fun _ p => Opt.run nth llt (fun _ => .ok ([], [])) 40 p) 1000000000 (Node.new ℤ Unit)
        [.insert 0 (getIsometry3d ⟨⟨0, 0, 0⟩, ⟨0, 0, 2, 0⟩⟩), .size ⟨1, ()⟩, .closest, .remove, .publish] = .ok n ∧
      ∃ o ∈ n.outputs, o.poseOf.linear *ᵥ ![1, 0, 0] = ![-7, 0, 0] := by
  have hl : (getIsometry3d ⟨⟨0, 0, 0⟩, ⟨0, 0, 2, 0⟩⟩).linear = !![-7, 0, 0; 0, -7, 0; 0, 0, 1] := by
    ext i j
    fin_cases i <;> fin_cases j <;>
      simp [getIsometry3d, makePose, toQuaterniond, Quat.toRotationMatrix] <;> norm_num
  have hq : Quat.ofMatrix !![-7, 0, 0; 0, -7, 0; 0, 0, 1] = ⟨0, 0, 0, 2⟩ := by
    have h16 : Real.sqrt 16 = 4 := by
      rw [show (16 : ℝ) = 4 ^ 2 by norm_num, Real.sqrt_sq (by norm_num)]
    have h22 : (!![-7, 0, 0; 0, -7, 0; 0, 0, 1] : Matrix (Fin 3) (Fin 3) ℝ) 2 2 = 1 := rfl
    have h00 : (!![-7, 0, 0; 0, -7, 0; 0, 0, 1] : Matrix (Fin 3) (Fin 3) ℝ) 0 0 = -7 := rfl
    have h11 : (!![-7, 0, 0; 0, -7, 0; 0, 0, 1] : Matrix (Fin 3) (Fin 3) ℝ) 1 1 = -7 := rfl
    have h01 : (!![-7, 0, 0; 0, -7, 0; 0, 0, 1] : Matrix (Fin 3) (Fin 3) ℝ) 0 1 = 0 := rfl
    have h10 : (!![-7, 0, 0; 0, -7, 0; 0, 0, 1] : Matrix (Fin 3) (Fin 3) ℝ) 1 0 = 0 := rfl
    have h02 : (!![-7, 0, 0; 0, -7, 0; 0, 0, 1] : Matrix (Fin 3) (Fin 3) ℝ) 0 2 = 0 := rfl
    have h20 : (!![-7, 0, 0; 0, -7, 0; 0, 0, 1] : Matrix (Fin 3) (Fin 3) ℝ) 2 0 = 0 := rfl
    have h12 : (!![-7, 0, 0; 0, -7, 0; 0, 0, 1] : Matrix (Fin 3) (Fin 3) ℝ) 1 2 = 0 := rfl
    have h21 : (!![-7, 0, 0; 0, -7, 0; 0, 0, 1] : Matrix (Fin 3) (Fin 3) ℝ) 2 1 = 0 := rfl
    generalize (!![-7, 0, 0; 0, -7, 0; 0, 0, 1] : Matrix (Fin 3) (Fin 3) ℝ) = R at *
    have ht : ¬ (0 < R 0 0 + R 1 1 + R 2 2) := by rw [h00, h11, h22]; norm_num
    have ha : ¬ (R 0 0 < R 1 1) := by rw [h00, h11]; norm_num
    have hb : R 0 0 < R 2 2 := by rw [h00, h22]; norm_num
    simp only [Quat.ofMatrix, if_neg ht, if_neg ha, if_pos hb]
    simp [h00, h11, h22, h01, h10, h02, h20, h12, h21]
    norm_num [h16]
  have hrun : Opt.run nth llt (fun _ => .ok ([], [])) 40 (getIsometry3d ⟨⟨0, 0, 0⟩, ⟨0, 0, 2, 0⟩⟩) =
      .ok ⟨makePose ⟨0, 0, 0, 2⟩ (getIsometry3d ⟨⟨0, 0, 0⟩, ⟨0, 0, 2, 0⟩⟩).translation, .emptyInput, 0, 0, 0, false⟩ := by
    unfold Opt.run
    simp only [hl, hq]
    rw [if_neg (by norm_num)]
    rfl
  refine ⟨⟨[(0, getIsometry3d ⟨⟨0, 0, 0⟩, ⟨0, 0, 2, 0⟩⟩)], ⟨true, makePose ⟨0, 0, 0, 2⟩ (getIsometry3d ⟨⟨0, 0, 0⟩, ⟨0, 0, 2, 0⟩⟩).translation⟩, .idle,
      [.pose 1 "map" (makePose ⟨0, 0, 0, 2⟩ (getIsometry3d ⟨⟨0, 0, 0⟩, ⟨0, 0, 2, 0⟩⟩).translation) [1, 1, 1, 1 / 10, 1 / 10, 1 / 10],
       .transform 1 "map" "lidar_feature_base_link" (makePose ⟨0, 0, 0, 2⟩ (getIsometry3d ⟨⟨0, 0, 0⟩, ⟨0, 0, 2, 0⟩⟩).translation)]⟩, ?_,
    Output.pose 1 "map" (makePose ⟨0, 0, 0, 2⟩ (getIsometry3d ⟨⟨0, 0, 0⟩, ⟨0, 0, 2, 0⟩⟩).translation)
      [1, 1, 1, 1 / 10, 1 / 10, 1 / 10], ?_, ?_⟩
  · simp [exec, step, Node.new, insert, size, getClosest, removeOlderThan, lowerBound, upperBound, prev, deref, bind, Except.bind,
      Localizer.update, Localizer.init, Localizer.get, hrun]
  · simp
  · show (makePose ⟨0, 0, 0, 2⟩ _).linear *ᵥ _ = _
    funext i
    fin_cases i <;> simp [makePose, Quat.toRotationMatrix, mulVec, dotProduct, Fin.sum_univ_succ]
    norm_num

end Verif.Store
