/-
C150: a message with NaN does no harm to what the localizer publishes.

Pose and twist messages do none to x, y, yaw and speed, whatever in them is NaN. The initial pose is
not checked: NaN in it loses the vehicle until the next one, and NaN in its covariance makes every
measurement refused. Height, roll and pitch are lost to a single message, for ever.
-/
import Verif.Lemmas.EkfNaNRefines
import Verif.Props.C69

set_option autoImplicit false

namespace Verif.EkfNaN

open Verif.Kalman Verif.Ekf
open Verif.Extraction.NaN (Number)

variable {N : ℕ}

/-! ### Specification -/

/-- The pose that is published, in the transform or in the odometry. -/
def Output.pose : Output → Estimate
  | .transform _ _ _ e => e
  | .odometry _ _ _ e _ _ _ _ => e

/-- Position in the plane, heading, speeds and covariances are numbers. -/
def Output.Numbers : Output → Prop
  | .transform _ _ _ e => e.x.isSome ∧ e.y.isSome ∧ e.yaw.isSome
  | .odometry _ _ _ e pc vx wz tc => e.x.isSome ∧ e.y.isSome ∧ e.yaw.isSome ∧ (∀ i, (pc i).isSome) ∧
      vx.isSome ∧ wz.isSome ∧ ∀ i, (tc i).isSome

/-- Nothing of it is a number but for the covariances. -/
def Output.Lost : Output → Prop
  | .transform _ _ _ e => e.x = none ∧ e.y = none ∧ e.yaw = none
  | .odometry _ _ _ e _ vx wz _ => e.x = none ∧ e.y = none ∧ e.yaw = none ∧ vx = none ∧ wz = none

/-- The speeds are reported as zero. -/
def Output.AtRest : Output → Prop
  | .transform _ _ _ _ => True
  | .odometry _ _ _ _ _ vx wz _ => vx = some 0 ∧ wz = some 0

/-- The covariances of the pose in the plane and of the speeds are NaN throughout. -/
def Output.CovarianceLost : Output → Prop
  | .transform _ _ _ _ => True
  | .odometry _ _ _ _ pc _ _ tc =>
      (∀ i ∈ ([0, 1, 5, 6, 7, 11, 30, 31, 35] : List (Fin 36)), pc i = none) ∧
      ∀ i ∈ ([0, 5, 30, 35] : List (Fin 36)), tc i = none

/-- An initial pose. -/
def Event.isInitialPose : Event → Prop
  | .initialPose _ _ => True
  | _ => False

/-- The initial pose gives numbers for x, y, yaw and their variances, and so does the transform that
is looked up for the yaw. -/
def Event.NumbersIfInitial (tf : Tf2) : Event → Prop
  | .initialPose m tries => m.px.isSome ∧ m.py.isSome ∧ (tf.getYaw m.ori).isSome ∧
      (∀ parent child i t, tries parent child i = some t → (tf.getYaw t.rot).isSome) ∧
      (m.cov 0).isSome ∧ (m.cov 7).isSome ∧ (m.cov 35).isSome
  | _ => True

/-! ### The filter -/

/-- All that is stored are numbers. -/
def Filter.Numbers (f : Filter N) : Prop := (∀ i, (f.x i).isSome) ∧ ∀ i j, (f.P i j).isSome

/-- Variable `k` is NaN in every stored state. -/
def Filter.LostAt (k : ℕ) (f : Filter N) : Prop := ∀ i, i.val % 6 = k → f.x i = none

/-- The speeds are zero in every stored state. -/
def Filter.Still (f : Filter N) : Prop := ∀ i, i.val % 6 = 4 ∨ i.val % 6 = 5 → f.x i = some 0

theorem numbers_iff {f : Filter N} : f.Numbers ↔ ∃ g, f = ofFilter g := by
  constructor
  · rintro ⟨hx, hP⟩
    obtain ⟨x, ex⟩ := exists_ofVec hx
    obtain ⟨P, eP⟩ := exists_ofMat hP
    exact ⟨⟨x, P⟩, by rw [ofFilter, ← ex, ← eP]⟩
  · rintro ⟨g, rfl⟩
    exact ⟨fun _ => rfl, fun _ _ => rfl⟩

theorem predict_numbers (hN : 0 < N) (p : EkfParams) (dt : ℝ) (f : Filter N) (hf : f.Numbers) :
    (predictStep hN p dt f).Numbers := by
  obtain ⟨g, rfl⟩ := numbers_iff.1 hf
  exact numbers_iff.2 ⟨_, predictStep_of hN p dt g⟩

theorem update_numbers {h : ℕ} {lib : Inverse} {f f' : Filter N} {y : Vec h} {C : Mat h 6}
    {R : Mat h h} {δ : ℤ} (hf : f.Numbers) (hy : ∀ i, (y i).isSome) (hC : ∀ i j, (C i j).isSome)
    (hok : f.update lib y C R δ = .ok f') : f'.Numbers := by
  obtain ⟨-, -, G, -, hG, hx, hP⟩ := update_ok hok
  have hD := makeMeasurementMatrix_isSome (N := N) hC δ.toNat
  constructor
  · intro i
    rw [hx]
    exact add_isSome (hf.1 i)
      (mulVec_isSome hG (fun j => sub_isSome (hy j) (mulVec_isSome hD hf.1 j)) i)
  · intro i j
    rw [hP]
    exact sub_isSome (hf.2 i j) (mulMat_isSome (mulMat_isSome hG hD) hf.2 i j)

theorem processMeasurement_numbers {h : ℕ} (lib : Inverse) (hN : 0 < N) (sing : Bool)
    (stateOf : Vec 6 → Vec h) (covOf : Mat 6 6 → Mat h h) (C : Mat h 6)
    (hC : ∀ i j, (C i j).isSome) (gateDist : ℝ) (now : ℤ) (dt : ℝ) (stamp : ℤ) (y : Vec h)
    (R : Mat h h) (f f' : Filter N) (hf : f.Numbers)
    (hok : processMeasurement lib hN sing stateOf covOf C gateDist now dt stamp y R f = .ok f') :
    f'.Numbers := by
  rcases processMeasurement_cases _ _ _ _ _ _ _ _ _ _ _ _ _ _ hok with rfl | ⟨δ, x, hy, -, -, hu⟩
  · exact hf
  · exact update_numbers hf hy hC hu

theorem make_numbers {x : Vec 6} {P : Mat 6 6} (hx : ∀ i, (x i).isSome)
    (hP : ∀ i j, (P i j).isSome) : (Filter.make x P N).Numbers := by
  obtain ⟨x, rfl⟩ := exists_ofVec hx
  obtain ⟨P, rfl⟩ := exists_ofMat hP
  exact numbers_iff.2 ⟨_, make_of x P⟩

theorem lookupLoop_mem {T : Type} (tries : ℕ → Option T) (t : T) :
    ∀ fuel i, lookupLoop tries fuel i = some t → ∃ j, tries j = some t := by
  intro fuel
  induction fuel with
  | zero => intro i h; cases h
  | succ fuel ih =>
    intro i h
    rw [lookupLoop] at h
    cases hi : tries i with
    | none => rw [hi] at h; exact ih _ h
    | some t' =>
      rw [hi] at h
      injection h with h
      exact ⟨i, h ▸ hi⟩

theorem initial_numbers (tf : Tf2) (p : EkfParams) (msg : PoseMsg)
    (tries : List Char → List Char → ℕ → Option Transform)
    (hmsg : (Event.initialPose msg tries).NumbersIfInitial tf) (s s' : NodeState N) (f : Filter N)
    (hcb : initialPoseCallback tf p s msg tries = .ok s') (hf : s'.ekf = some f) : f.Numbers := by
  obtain ⟨parent, child, t, -, -, hlk, hekf, -⟩ := initialPose_ok tf p s s' msg tries hcb
  rw [hekf] at hf
  injection hf with hf
  subst hf
  obtain ⟨h1, h2, h3, h4, h5, h6, h7⟩ := hmsg
  obtain ⟨j, hj⟩ := lookupLoop_mem _ _ _ _ hlk
  refine make_numbers (fun i => ?_) fun i j => ?_
  · have hyaw := add_isSome h3 (h4 _ _ _ _ hj)
    have hx := add_isSome h1 (b := some t.tx) rfl
    have hy := add_isSome h2 (b := some t.ty) rfl
    unfold initState
    fin_cases i <;> first | exact hx | exact hy | exact hyaw | rfl
  · unfold initCovariance
    split
    · fin_cases i <;> first | exact h5 | exact h6 | exact h7 | rfl
    · rfl

theorem run_numbers (lib : Inverse) (hN : 0 < N) (tf : Tf2) (p : EkfParams)
    (es : List Event) (hes : ∀ e ∈ es, e.NumbersIfInitial tf) (s s' : NodeState N) (os : List Output)
    (hs : ∀ f, s.ekf = some f → f.Numbers)
    (hrun : run lib hN tf p s es = .ok (s', os)) : ∀ o ∈ os, o.Numbers := by
  obtain ⟨-, ho⟩ := run_filter lib hN tf p Filter.Numbers Filter.Numbers es
    (fun msg tries he s s' f hcb hf => initial_numbers tf p msg tries (hes _ he) s s' f hcb hf)
    (fun dt f hf => predict_numbers hN p dt f hf)
    (fun sp now dt msg f f' hf hok =>
      processMeasurement_numbers _ _ _ _ _ _ (fun _ _ => rfl) _ _ _ _ _ _ f f' hf hok)
    (fun st now dt msg f f' hf hok =>
      processMeasurement_numbers _ _ _ _ _ _ (fun _ _ => rfl) _ _ _ _ _ _ f f' hf hok)
    (fun f hf => hf) s s' os hs hrun
  intro o hmem
  obtain ⟨s1, f, t4, t5, ⟨hx, hP⟩, hpub⟩ := ho o hmem
  have hc : ∀ i, (poseMessageCovariance (f.getLatestP hN) i).isSome := by
    intro i
    unfold poseMessageCovariance Filter.getLatestP
    fin_cases i <;> first | exact hP _ _ | rfl
  have ht : ∀ i, (twistMessageCovariance (f.getLatestP hN) i).isSome := by
    intro i
    unfold twistMessageCovariance Filter.getLatestP
    fin_cases i <;> first | exact hP _ _ | rfl
  unfold publish at hpub
  simp only [List.mem_cons, List.not_mem_nil, or_false] at hpub
  rcases hpub with rfl | rfl
  · exact ⟨hx _, hx _, add_isSome (hx _) (hx _)⟩
  · exact ⟨hx _, hx _, add_isSome (hx _) (hx _), hc, hx _, hx _, ht⟩

/-- C150, the part that holds: if the initial poses are numbers, everything published about position,
heading, speeds and their covariances is numbers, in every execution from the start, whatever in the
pose and twist messages is NaN. Missing: the same for initial poses with NaN, and for height, roll and
pitch, for which it is false (below). -/
theorem C150_numbers_partial (lib : Inverse) (hN : 0 < N) (tf : Tf2) (p : EkfParams)
    (es : List Event) (hes : ∀ e ∈ es, e.NumbersIfInitial tf) (s' : NodeState N) (os : List Output)
    (hrun : run lib hN tf p (NodeState.make N p) es = .ok (s', os)) : ∀ o ∈ os, o.Numbers :=
  run_numbers lib hN tf p es hes _ s' os (fun f hf => by cases hf) hrun

/-- C150: whatever came before, an initial pose of numbers makes all of it numbers again. -/
theorem C150_recovers (lib : Inverse) (hN : 0 < N) (tf : Tf2) (p : EkfParams) (s s' : NodeState N)
    (msg : PoseMsg) (tries : List Char → List Char → ℕ → Option Transform) (es : List Event)
    (os : List Output) (hes : ∀ e ∈ Event.initialPose msg tries :: es, e.NumbersIfInitial tf)
    (hrun : run lib hN tf p s (.initialPose msg tries :: es) = .ok (s', os)) :
    ∀ o ∈ os, o.Numbers := by
  rw [run, step] at hrun
  cases hcb : initialPoseCallback tf p s msg tries with
  | error e => rw [hcb] at hrun; cases hrun
  | ok s1 =>
    rw [hcb] at hrun
    simp only [bind, Except.bind, pure, Except.pure] at hrun
    cases hr : run lib hN tf p s1 es with
    | error e => rw [hr] at hrun; cases hrun
    | ok r =>
      obtain ⟨s2, os2⟩ := r
      rw [hr] at hrun
      simp only [List.nil_append] at hrun
      injection hrun with hrun
      rw [Prod.mk.injEq] at hrun
      obtain ⟨rfl, rfl⟩ := hrun
      exact run_numbers lib hN tf p es (fun e he => hes e (List.mem_cons_of_mem _ he)) s1 s2 os2
        (fun f hf => initial_numbers tf p msg tries (hes _ List.mem_cons_self) s s1 f hcb hf) hr

/-- C150: a pose message with NaN for x, y or the heading leaves the filter as it was. -/
theorem C150_pose_coordinates (lib : Inverse) (hN : 0 < N) (tf : Tf2) (sp : PoseMsg → Bool)
    (gateDist : ℝ) (smoothing now : ℤ) (dt : ℝ) (msg : PoseMsg) (f f' : Filter N)
    (hbad : msg.px = none ∨ msg.py = none ∨ tf.getYaw msg.ori = none)
    (hok : processPose lib hN tf sp gateDist smoothing now dt msg f = .ok f') : f' = f := by
  rcases processMeasurement_cases _ _ _ _ _ _ _ _ _ _ _ _ _ _ hok with h | ⟨δ, x, hy, -⟩
  · exact h
  · exfalso
    rcases hbad with h | h | h
    · have := hy 0
      simp [poseMeasurementVector, h] at this
    · have := hy 1
      simp [poseMeasurementVector, h] at this
    · have := hy 2
      simp [poseMeasurementVector, h] at this

/-- The same of a twist message with NaN for one of the two speeds. -/
theorem C150_twist_speeds (lib : Inverse) (hN : 0 < N) (st : TwistMsg → Bool)
    (gateDist : ℝ) (smoothing now : ℤ) (dt : ℝ) (msg : TwistMsg) (f f' : Filter N)
    (hbad : msg.vx = none ∨ msg.wz = none)
    (hok : processTwist lib hN st gateDist smoothing now dt msg f = .ok f') : f' = f := by
  rcases processMeasurement_cases _ _ _ _ _ _ _ _ _ _ _ _ _ _ hok with h | ⟨δ, x, hy, -⟩
  · exact h
  · exfalso
    rcases hbad with h | h
    · have := hy 0
      simp [twistMeasurementVector, h] at this
    · have := hy 1
      simp [twistMeasurementVector, h] at this

/-- C150: a pose message with NaN in an entry of the covariance that the filter reads leaves the filter
as it was. -/
theorem C150_pose_covariance (lib : Inverse) (hN : 0 < N) (tf : Tf2) (sp : PoseMsg → Bool)
    (gateDist : ℝ) (smoothing now : ℤ) (dt : ℝ) (msg : PoseMsg) (f f' : Filter N)
    (hbad : ∃ i ∈ ([0, 1, 5, 6, 7, 11, 30, 31, 35] : List (Fin 36)), msg.cov i = none)
    (hok : processPose lib hN tf sp gateDist smoothing now dt msg f = .ok f') : f' = f := by
  have hR : ∃ i j, poseMeasurementCovariance msg.cov (toSizeT smoothing) i j = none := by
    obtain ⟨i, hi, hnone⟩ := hbad
    simp only [List.mem_cons, List.not_mem_nil, or_false] at hi
    unfold poseMeasurementCovariance
    rcases hi with rfl | rfl | rfl | rfl | rfl | rfl | rfl | rfl | rfl
    · exact ⟨0, 0, by simp [hnone]⟩
    · exact ⟨0, 1, by simp [hnone]⟩
    · exact ⟨0, 2, by simp [hnone]⟩
    · exact ⟨1, 0, by simp [hnone]⟩
    · exact ⟨1, 1, by simp [hnone]⟩
    · exact ⟨1, 2, by simp [hnone]⟩
    · exact ⟨2, 0, by simp [hnone]⟩
    · exact ⟨2, 1, by simp [hnone]⟩
    · exact ⟨2, 2, by simp [hnone]⟩
  rcases processMeasurement_cases _ _ _ _ _ _ _ _ _ _ _ _ _ _ hok with h | ⟨δ, x, -, -, -, hu⟩
  · exact h
  · exfalso
    obtain ⟨-, -, G, rfl, hG, -, -⟩ := update_ok hu
    obtain ⟨i, j, hij⟩ := hR
    obtain ⟨r, hr⟩ := lib.nan _ (addMat (poseMeasurementCovariance msg.cov (toSizeT smoothing))
      (mulMat (makeMeasurementMatrix (ofMat poseMeasurementMatrix) N δ.toNat)
        (mulMat f.P (transpose (makeMeasurementMatrix (ofMat poseMeasurementMatrix) N δ.toNat)))))
      i j (by unfold addMat; rw [hij, none_add]) 0
    have h0 := hG ⟨0, by omega⟩ 0
    unfold calcKalmanGain at h0
    rw [mulMat_none_right hr] at h0
    cases h0

/-- The same of twist messages. -/
theorem C150_twist_covariance (lib : Inverse) (hN : 0 < N) (st : TwistMsg → Bool)
    (gateDist : ℝ) (smoothing now : ℤ) (dt : ℝ) (msg : TwistMsg) (f f' : Filter N)
    (hbad : ∃ i ∈ ([0, 5, 30, 35] : List (Fin 36)), msg.cov i = none)
    (hok : processTwist lib hN st gateDist smoothing now dt msg f = .ok f') : f' = f := by
  have hR : ∃ i j, twistMeasurementCovariance msg.cov (toSizeT smoothing) i j = none := by
    obtain ⟨i, hi, hnone⟩ := hbad
    simp only [List.mem_cons, List.not_mem_nil, or_false] at hi
    unfold twistMeasurementCovariance
    rcases hi with rfl | rfl | rfl | rfl
    · exact ⟨0, 0, by simp [hnone]⟩
    · exact ⟨0, 1, by simp [hnone]⟩
    · exact ⟨1, 0, by simp [hnone]⟩
    · exact ⟨1, 1, by simp [hnone]⟩
  rcases processMeasurement_cases _ _ _ _ _ _ _ _ _ _ _ _ _ _ hok with h | ⟨δ, x, -, -, -, hu⟩
  · exact h
  · exfalso
    obtain ⟨-, -, G, rfl, hG, -, -⟩ := update_ok hu
    obtain ⟨i, j, hij⟩ := hR
    obtain ⟨r, hr⟩ := lib.nan _ (addMat (twistMeasurementCovariance msg.cov (toSizeT smoothing))
      (mulMat (makeMeasurementMatrix (ofMat twistMeasurementMatrix) N δ.toNat)
        (mulMat f.P (transpose (makeMeasurementMatrix (ofMat twistMeasurementMatrix) N δ.toNat)))))
      i j (by unfold addMat; rw [hij, none_add]) 0
    have h0 := hG ⟨0, by omega⟩ 0
    unfold calcKalmanGain at h0
    rw [mulMat_none_right hr] at h0
    cases h0

/-! ### NaN in the initial pose -/

theorem predict_lost (hN : 0 < N) (p : EkfParams) (dt : ℝ) (f : Filter N) (k : ℕ) (hk : k < 6)
    (hf : f.LostAt k) : (predictStep hN p dt f).LostAt k := by
  intro i hi
  show updateX f.x (predictNextState (f.getLatestX hN) dt) i = none
  unfold updateX
  split
  · rename_i hlt
    have hlat : ∀ j : Fin 6, j.val = k → f.getLatestX hN j = none :=
      fun j hj => hf ⟨j.val, _⟩ (by simp only; omega)
    have hik : i.val = k := by omega
    generalize f.getLatestX hN = X at hlat ⊢
    obtain ⟨iv, hiN⟩ := i
    simp only at hik hlt ⊢
    subst hik
    unfold predictNextState
    have hX := hlat ⟨iv, hlt⟩ rfl
    interval_cases iv
    all_goals simp only [Fin.reduceFinMk, Fin.zero_eta, Fin.mk_one] at hX
    all_goals simp [hX]
  · exact hf _ (by simp only; omega)

theorem predict_still (hN : 0 < N) (p : EkfParams) (dt : ℝ) (f : Filter N) (hf : f.Still) :
    (predictStep hN p dt f).Still := by
  intro i hi
  show updateX f.x (predictNextState (f.getLatestX hN) dt) i = some 0
  unfold updateX
  split
  · rename_i hlt
    have h4 : f.getLatestX hN 4 = some 0 := hf _ (.inl rfl)
    have h5 : f.getLatestX hN 5 = some 0 := hf _ (.inr rfl)
    generalize f.getLatestX hN = X at h4 h5 ⊢
    obtain ⟨iv, hiN⟩ := i
    simp only at hi hlt ⊢
    unfold predictNextState
    rcases (show iv = 4 ∨ iv = 5 by omega) with rfl | rfl
    · exact h4
    · exact h5
  · exact hf _ (by simp only; omega)

theorem gate_nan {n : ℕ} (lib : Inverse) (sing : Bool) (dist : ℝ) (x y : Vec n) (C : Mat n n)
    (k : Fin n) (hx : x k = none) : mahalanobisGate lib sing dist x y C = false := by
  have hd : subVec x y k = none := by unfold subVec; rw [hx, none_sub]
  unfold mahalanobisGate squaredMahalanobis
  simp only
  rw [sum_none k (by rw [hd, none_mul])]
  simp only [Bool.and_eq_false_imp, decide_eq_false_iff_not]
  intro _ hall
  have := hall k
  rw [hd] at this
  cases this

theorem getX_lost {f : Filter N} {δ : ℤ} {x : Vec 6} (hx : f.getX δ = .ok x) (k : Fin 6)
    (hf : f.LostAt k.val) : x k = none := by
  unfold Filter.getX at hx
  split at hx
  · injection hx with hx
    subst hx
    exact hf _ (by simp only; omega)
  · cases hx

theorem pose_refused (lib : Inverse) (hN : 0 < N) (tf : Tf2) (sp : PoseMsg → Bool) (gateDist : ℝ)
    (smoothing now : ℤ) (dt : ℝ) (msg : PoseMsg) (f f' : Filter N) (k : Fin 3)
    (hf : f.LostAt k.val) (hok : processPose lib hN tf sp gateDist smoothing now dt msg f = .ok f') :
    f' = f := by
  rcases processMeasurement_cases _ _ _ _ _ _ _ _ _ _ _ _ _ _ hok with h | ⟨δ, x, -, hx, hg, -⟩
  · exact h
  · exfalso
    rw [gate_nan _ _ _ _ _ _ k (getX_lost hx ⟨k.val, by omega⟩ hf)] at hg
    cases hg

theorem twist_loses (lib : Inverse) (hN : 0 < N) (st : TwistMsg → Bool) (gateDist : ℝ)
    (smoothing now : ℤ) (dt : ℝ) (msg : TwistMsg) (f f' : Filter N) (i : Fin (N * 6))
    (hi : f.x i = none) (hok : processTwist lib hN st gateDist smoothing now dt msg f = .ok f') :
    f' = f ∨ ∀ j, f'.x j = none := by
  rcases processMeasurement_cases _ _ _ _ _ _ _ _ _ _ _ _ _ _ hok with h | ⟨δ, x, -, -, -, hu⟩
  · exact .inl h
  · right
    obtain ⟨-, -, G, -, hG, hx, -⟩ := update_ok hu
    intro j
    rw [hx]
    unfold updateState addVec
    rw [mulVec_none (l := 0) (by unfold subVec; rw [mulVec_none hi, sub_none]), add_none]

/-- C150 is violated: an initial pose with NaN for x, y or the heading is taken as it is, and from then
on until the next initial pose, whatever arrives, that coordinate is NaN in everything published, pose
messages are of no effect, and the first twist message that is used makes all of position, heading and
speeds NaN; until then the speeds are reported as zero. -/
theorem C150_initial_violated (lib : Inverse) (hN : 0 < N) (tf : Tf2) (p : EkfParams)
    (s s' : NodeState N) (msg : PoseMsg) (tries : List Char → List Char → ℕ → Option Transform)
    (es : List Event) (os : List Output)
    (hbad : msg.px = none ∨ msg.py = none ∨ tf.getYaw msg.ori = none)
    (hno : ∀ e ∈ es, ¬ e.isInitialPose)
    (hrun : run lib hN tf p s (.initialPose msg tries :: es) = .ok (s', os)) :
    ∀ o ∈ os, (msg.px = none → o.pose.x = none) ∧ (msg.py = none → o.pose.y = none) ∧
      (tf.getYaw msg.ori = none → o.pose.yaw = none) ∧ (o.AtRest ∨ o.Lost) := by
  rw [run] at hrun
  cases hst : step lib hN tf p s (.initialPose msg tries) with
  | error e => rw [hst] at hrun; cases hrun
  | ok r =>
    rw [hst] at hrun
    rw [step] at hst
    cases hcb : initialPoseCallback tf p s msg tries with
    | error e => rw [hcb] at hst; cases hst
    | ok s1 =>
      rw [hcb] at hst
      simp only [bind, Except.bind, pure, Except.pure] at hst hrun
      injection hst with hst
      subst hst
      simp only at hrun
      cases hr : run lib hN tf p s1 es with
      | error e => rw [hr] at hrun; cases hrun
      | ok r =>
        obtain ⟨s2, os2⟩ := r
        rw [hr] at hrun
        simp only [List.nil_append] at hrun
        injection hrun with hrun
        rw [Prod.mk.injEq] at hrun
        obtain ⟨rfl, rfl⟩ := hrun
        let I : Filter N → Prop := fun f => (msg.px = none → f.LostAt 0) ∧
          (msg.py = none → f.LostAt 1) ∧ (tf.getYaw msg.ori = none → f.LostAt 2) ∧
          (f.Still ∨ ∀ i, f.x i = none)
        have hsome : ∀ f, I f → ∃ k : Fin 3, f.LostAt k.val := by
          rintro f ⟨h0, h1, h2, -⟩
          rcases hbad with h | h | h
          · exact ⟨0, h0 h⟩
          · exact ⟨1, h1 h⟩
          · exact ⟨2, h2 h⟩
        obtain ⟨-, ho⟩ := run_filter lib hN tf p I I es
          (fun m t he => absurd trivial (hno _ he))
          (by
            rintro dt f ⟨h0, h1, h2, h3⟩
            refine ⟨fun h => predict_lost hN p dt f 0 (by omega) (h0 h),
              fun h => predict_lost hN p dt f 1 (by omega) (h1 h),
              fun h => predict_lost hN p dt f 2 (by omega) (h2 h), ?_⟩
            rcases h3 with h3 | h3
            · exact .inl (predict_still hN p dt f h3)
            · exact .inr fun i => predict_lost hN p dt f (i.val % 6) (Nat.mod_lt _ (by omega))
                (fun j _ => h3 j) i rfl)
          (by
            intro sp now dt m f f' hI hok
            obtain ⟨k, hk⟩ := hsome f hI
            rw [pose_refused lib hN tf sp _ _ _ _ _ _ _ k hk hok]
            exact hI)
          (by
            intro st now dt m f f' hI hok
            obtain ⟨k, hk⟩ := hsome f hI
            rcases twist_loses lib hN st _ _ _ _ _ _ _ ⟨k.val, by omega⟩
              (hk _ (by simp only; omega)) hok with h | h
            · rw [h]; exact hI
            · exact ⟨fun _ i _ => h i, fun _ i _ => h i, fun _ i _ => h i, .inr h⟩)
          (fun f hf => hf) s1 s2 os2
          (by
            intro f hf
            obtain ⟨parent, child, t, -, -, -, hekf, -⟩ := initialPose_ok tf p s s1 msg tries hcb
            rw [hekf] at hf
            injection hf with hf
            subst hf
            have hx : ∀ i : Fin (N * 6), ∀ k : Fin 6, i.val % 6 = k.val →
                (Filter.make (initState (add msg.px (some t.tx)) (add msg.py (some t.ty))
                  (add (tf.getYaw msg.ori) (tf.getYaw t.rot))) (initCovariance msg.cov) N).x i =
                initState (add msg.px (some t.tx)) (add msg.py (some t.ty))
                  (add (tf.getYaw msg.ori) (tf.getYaw t.rot)) k := by
              intro i k hk
              unfold Filter.make initX
              simp only [hk, Fin.eta]
            refine ⟨fun h i hi => ?_, fun h i hi => ?_, fun h i hi => ?_, .inl fun i hi => ?_⟩
            · rw [hx i 0 hi, h]; rfl
            · rw [hx i 1 hi, h]; rfl
            · rw [hx i 2 hi, h]; rfl
            · rcases hi with hi | hi
              · rw [hx i 4 hi]; rfl
              · rw [hx i 5 hi]; rfl)
          hr
        intro o hmem
        obtain ⟨s3, f, t4, t5, ⟨h0, h1, h2, h3⟩, hpub⟩ := ho o hmem
        have e0 : msg.px = none → f.getLatestX hN 0 = none := fun h => h0 h _ rfl
        have e1 : msg.py = none → f.getLatestX hN 1 = none := fun h => h1 h _ rfl
        have e2 : tf.getYaw msg.ori = none →
            add (f.getLatestX hN 2) (f.getLatestX hN 3) = none := by
          intro h
          rw [show f.getLatestX hN 2 = none from h2 h _ rfl, none_add]
        unfold publish at hpub
        simp only [List.mem_cons, List.not_mem_nil, or_false] at hpub
        rcases hpub with rfl | rfl
        · refine ⟨e0, e1, e2, .inl trivial⟩
        · refine ⟨e0, e1, e2, ?_⟩
          rcases h3 with h3 | h3
          · exact .inl ⟨h3 _ (.inl rfl), h3 _ (.inr rfl)⟩
          · exact .inr ⟨h3 _, h3 _, by rw [show f.getLatestX hN 2 = none from h3 _, none_add], h3 _,
              h3 _⟩

/-! ### NaN in the covariance of the initial pose -/

theorem predict_latestP (hN : 0 < N) (p : EkfParams) (dt : ℝ) (f : Filter N) (k : Fin 6)
    (hf : f.getLatestP hN k k = none) (i j : Fin 6) :
    (predictStep hN p dt f).getLatestP hN i j = none := by
  unfold Filter.getLatestP predictStep Filter.predict updateP
  have hi := i.isLt
  have hj := j.isLt
  simp only [hi, hj, dite_true]
  unfold addMat
  refine (congrArg (fun a => add a _) ?_).trans (none_add _)
  exact mulMat_none_left (l := k) (mulMat_none_right (l := k) hf i) _

theorem gate_nan_covariance {n : ℕ} (lib : Inverse) (sing : Bool) (dist : ℝ) (x y : Vec n)
    (C : Mat n n) (k : Fin n) (hC : ∀ i j, C i j = none) :
    mahalanobisGate lib sing dist x y C = false := by
  have hnum : allNumbers C = false := by
    rw [Bool.eq_false_iff]
    intro h
    have := allNumbers_iff.1 h k k
    rw [hC] at this
    cases this
  obtain ⟨r, hr⟩ := lib.nan n C k k (hC k k) k
  unfold mahalanobisGate squaredMahalanobis
  simp only
  rw [sum_none r (by rw [show mulVec (lib.inv n C) (subVec x y) r = none from
    sum_none k (by rw [hr, none_mul]), mul_none])]
  simp [hnum]

theorem predict_latestX (hN : 0 < N) (p : EkfParams) (dt : ℝ) (f : Filter N) :
    (predictStep hN p dt f).getLatestX hN = predictNextState (f.getLatestX hN) dt := by
  funext k
  show updateX f.x (predictNextState (f.getLatestX hN) dt) _ = _
  unfold updateX
  have hk := k.isLt
  simp only [hk, dite_true]

/-- C150 is violated: NaN for one of the three variances read from an initial pose, the pose itself
being numbers, and no measurement is ever used again. Whatever arrives until the next initial pose, the
vehicle is reported to stand where it was put, with covariances of NaN. -/
theorem C150_variance_violated (lib : Inverse) (hN : 0 < N) (tf : Tf2) (p : EkfParams)
    (s s' : NodeState N) (msg : PoseMsg) (tries : List Char → List Char → ℕ → Option Transform)
    (es : List Event) (os : List Output) (parent child : List Char) (t : Transform)
    (px py yaw yawT : ℝ) (hparent : eraseBeginSlash p.poseFrame = .ok parent)
    (hchild : eraseBeginSlash msg.frame = .ok child)
    (ht : lookupTransform (tries parent child) = some t)
    (hpx : msg.px = some px) (hpy : msg.py = some py) (hyaw : tf.getYaw msg.ori = some yaw)
    (hyawT : tf.getYaw t.rot = some yawT)
    (hbad : msg.cov 0 = none ∨ msg.cov 7 = none ∨ msg.cov 35 = none)
    (hno : ∀ e ∈ es, ¬ e.isInitialPose)
    (hrun : run lib hN tf p s (.initialPose msg tries :: es) = .ok (s', os)) :
    ∀ o ∈ os, o.pose.x = some (px + t.tx) ∧ o.pose.y = some (py + t.ty) ∧
      o.pose.yaw = some (normalizeYaw (yaw + yawT)) ∧ o.AtRest ∧ o.CovarianceLost := by
  rw [run] at hrun
  cases hst : step lib hN tf p s (.initialPose msg tries) with
  | error e => rw [hst] at hrun; cases hrun
  | ok r =>
    rw [hst] at hrun
    rw [step] at hst
    cases hcb : initialPoseCallback tf p s msg tries with
    | error e => rw [hcb] at hst; cases hst
    | ok s1 =>
      rw [hcb] at hst
      simp only [bind, Except.bind, pure, Except.pure] at hst hrun
      injection hst with hst
      subst hst
      simp only at hrun
      cases hr : run lib hN tf p s1 es with
      | error e => rw [hr] at hrun; cases hrun
      | ok r =>
        obtain ⟨s2, os2⟩ := r
        rw [hr] at hrun
        simp only [List.nil_append] at hrun
        injection hrun with hrun
        rw [Prod.mk.injEq] at hrun
        obtain ⟨rfl, rfl⟩ := hrun
        let X : ℝ → Vec 6 := fun θ => initState (some (px + t.tx)) (some (py + t.ty)) (some θ)
        let I : Filter N → Prop := fun f => (∃ k, f.getLatestP hN k k = none) ∧
          ∃ θ, normalizeYaw θ = normalizeYaw (yaw + yawT) ∧ f.getLatestX hN = X θ
        let J : Filter N → Prop := fun f => (∀ i j, f.getLatestP hN i j = none) ∧
          f.getLatestX hN = X (normalizeYaw (yaw + yawT))
        obtain ⟨-, ho⟩ := run_filter lib hN tf p I J es
          (fun m t he => absurd trivial (hno _ he))
          (by
            rintro dt f ⟨⟨k, hk⟩, θ, hθ, hX⟩
            refine ⟨predict_latestP hN p dt f k hk, ?_⟩
            rw [predict_latestX, hX, ← hθ]
            funext i
            simp only [X, initState, predictNextState]
            fin_cases i <;> simp)
          (by
            rintro sp now dt m f f' ⟨hP, hX⟩ hok
            rcases processMeasurement_cases _ _ _ _ _ _ _ _ _ _ _ _ _ _ hok with
              h | ⟨δ, x, -, -, hg, -⟩
            · rw [h]; exact ⟨hP, hX⟩
            · rw [gate_nan_covariance _ _ _ _ _ (poseCovariance (f.getLatestP hN)) 0 fun i j => hP _ _] at hg
              cases hg)
          (by
            rintro sp now dt m f f' ⟨hP, hX⟩ hok
            rcases processMeasurement_cases _ _ _ _ _ _ _ _ _ _ _ _ _ _ hok with
              h | ⟨δ, x, -, -, hg, -⟩
            · rw [h]; exact ⟨hP, hX⟩
            · rw [gate_nan_covariance _ _ _ _ _ (twistCovariance (f.getLatestP hN)) 0 fun i j => hP _ _] at hg
              cases hg)
          (fun f hf => ⟨⟨0, hf.1 0 0⟩, _, C38_idempotent _, hf.2⟩) s1 s2 os2
          (by
            intro f hf
            obtain ⟨parent', child', t', g1, g2, g3, hekf, -⟩ :=
              initialPose_ok tf p s s1 msg tries hcb
            rw [hparent] at g1
            rw [hchild] at g2
            injection g1 with g1
            injection g2 with g2
            subst g1 g2
            rw [ht] at g3
            injection g3 with g3
            subst g3
            rw [hekf] at hf
            injection hf with hf
            subst hf
            have hP : ∀ k : Fin 6, (Filter.make (initState (add msg.px (some t.tx))
                (add msg.py (some t.ty)) (add (tf.getYaw msg.ori) (tf.getYaw t.rot)))
                (initCovariance msg.cov) N).getLatestP hN k k = initCovariance msg.cov k k := by
              intro k
              unfold Filter.getLatestP Filter.make initP
              have hk := k.isLt
              simp only [Nat.mod_eq_of_lt hk, Fin.eta, if_true]
            refine ⟨?_, yaw + yawT, rfl, ?_⟩
            · rcases hbad with h | h | h
              · exact ⟨0, by rw [hP]; simp [initCovariance, h]⟩
              · exact ⟨1, by rw [hP]; simp [initCovariance, h]⟩
              · exact ⟨2, by rw [hP]; simp [initCovariance, h]⟩
            · rw [hpx, hpy, hyaw, hyawT]
              funext k
              unfold Filter.getLatestX Filter.make initX
              have hk := k.isLt
              simp only [Nat.mod_eq_of_lt hk, Fin.eta]
              rfl)
          hr
        intro o hmem
        obtain ⟨s3, f, t4, t5, ⟨hP, hX⟩, hpub⟩ := ho o hmem
        have e0 : f.getLatestX hN 0 = some (px + t.tx) := by rw [hX]; rfl
        have e1 : f.getLatestX hN 1 = some (py + t.ty) := by rw [hX]; rfl
        have e2 : add (f.getLatestX hN 2) (f.getLatestX hN 3) =
            some (normalizeYaw (yaw + yawT)) := by
          rw [hX]
          show some (normalizeYaw (yaw + yawT) + 0) = _
          rw [add_zero]
        have e4 : f.getLatestX hN 4 = some 0 := by rw [hX]; rfl
        have e5 : f.getLatestX hN 5 = some 0 := by rw [hX]; rfl
        unfold publish at hpub
        simp only [List.mem_cons, List.not_mem_nil, or_false] at hpub
        rcases hpub with rfl | rfl
        · exact ⟨e0, e1, e2, trivial, trivial⟩
        · refine ⟨e0, e1, e2, ⟨e4, e5⟩, ?_, ?_⟩
          · intro i hi
            simp only [List.mem_cons, List.not_mem_nil, or_false] at hi
            rcases hi with rfl | rfl | rfl | rfl | rfl | rfl | rfl | rfl | rfl <;> exact hP _ _
          · intro i hi
            simp only [List.mem_cons, List.not_mem_nil, or_false] at hi
            rcases hi with rfl | rfl | rfl | rfl <;> exact hP _ _

/-! ### Height -/

/-- C150 is violated: once a height, or the variance of one, has come with NaN, every pose published
afterwards has NaN for its height, new initial poses notwithstanding. -/
theorem C150_height_violated (lib : Inverse) (hN : 0 < N) (tf : Tf2) (p : EkfParams)
    (s s' : NodeState N) (msg : PoseMsg) (es : List Event) (os : List Output)
    (hbad : msg.pz = none ∨ s.z.initialized = true ∧ msg.cov 14 = none)
    (hrun : run lib hN tf p s (.pose msg :: es) = .ok (s', os)) :
    ∀ o ∈ os, o.pose.z = none := by
  have hupd : ∀ (z : Simple1DFilter) (obs sd : Number) (tm : ℤ), z.initialized = true →
      z.x = none ∨ obs = none ∨ sd = none →
      (z.update obs sd tm).initialized = true ∧ (z.update obs sd tm).x = none := by
    intro z obs sd tm hz hx
    unfold Simple1DFilter.update
    rw [hz]
    simp only [Bool.not_true, Bool.false_eq_true, if_false]
    cases hs : z.stddev with
    | none => cases sd <;> exact ⟨rfl, rfl⟩
    | some a =>
      cases sd with
      | none => exact ⟨rfl, rfl⟩
      | some b =>
        simp only
        split
        · exact ⟨rfl, rfl⟩
        · refine ⟨rfl, ?_⟩
          rcases hx with h | h | h
          · simp [h]
          · cases hzx : z.x <;> simp [h]
          · cases h
  have hfirst : (s.z.update msg.pz (sqrt (msg.cov 14)) msg.stamp).initialized = true ∧
      (s.z.update msg.pz (sqrt (msg.cov 14)) msg.stamp).x = none := by
    by_cases hz : s.z.initialized = true
    · refine hupd _ _ _ _ hz (.inr ?_)
      rcases hbad with h | ⟨-, h⟩
      · exact .inl h
      · exact .inr (by rw [h]; rfl)
    · rcases hbad with h | ⟨h, -⟩
      · unfold Simple1DFilter.update
        simp only [hz]
        exact ⟨rfl, h⟩
      · exact absurd h hz
  rw [run, step] at hrun
  simp only [bind, Except.bind] at hrun
  cases hr : run lib hN tf p (updateSimple1DFilters tf { s with poseQ := s.poseQ.push msg } msg) es with
  | error e => rw [hr] at hrun; cases hrun
  | ok r =>
    obtain ⟨s2, os2⟩ := r
    rw [hr] at hrun
    simp only [pure, Except.pure, List.nil_append] at hrun
    injection hrun with hrun
    rw [Prod.mk.injEq] at hrun
    obtain ⟨rfl, rfl⟩ := hrun
    refine (run_ind lib hN tf p (fun s => s.z.initialized = true ∧ s.z.x = none)
      (fun o => o.pose.z = none) es ?_ _ s2 os2 hfirst hr).2
    intro e he a a' o ⟨hi, hx⟩ hst
    cases e with
    | initialPose m tries =>
      rw [step] at hst
      cases h1 : initialPoseCallback tf p a m tries with
      | error er => rw [h1] at hst; cases hst
      | ok s1 =>
        rw [h1] at hst
        simp only [bind, Except.bind, pure, Except.pure] at hst
        injection hst with hst
        rw [Prod.mk.injEq] at hst
        obtain ⟨rfl, rfl⟩ := hst
        obtain ⟨-, -, -, -, -, -, -, hz⟩ := initialPose_ok tf p a s1 m tries h1
        rw [hz]
        exact ⟨hupd _ _ _ _ hi (.inl hx), by simp⟩
    | pose m =>
      injection hst with hst
      rw [Prod.mk.injEq] at hst
      obtain ⟨rfl, rfl⟩ := hst
      exact ⟨hupd _ _ _ _ hi (.inl hx), by simp⟩
    | twist m =>
      injection hst with hst
      rw [Prod.mk.injEq] at hst
      obtain ⟨rfl, rfl⟩ := hst
      exact ⟨⟨hi, hx⟩, by simp⟩
    | timer t1 t2 t3 t4 t5 sp st =>
      rcases timer_cases lib hN tf p a a' o t1 t2 t3 t4 t5 sp st hst with
        ⟨-, rfl, hz, -⟩ | ⟨f, f1, f2, dt, q1, q2, -, -, -, -, rfl, hz, -⟩
      · rw [hz]; exact ⟨⟨hi, hx⟩, by simp⟩
      · rw [hz]
        refine ⟨⟨hi, hx⟩, fun q hq => ?_⟩
        unfold publish at hq
        simp only [List.mem_cons, List.not_mem_nil, or_false] at hq
        rcases hq with rfl | rfl <;> exact hx

/-! ### On numbers -/

/-- C150: as long as all messages are numbers, this is the node all the other properties are about. -/
theorem C150_refines (lib : Inverse) (hN : 0 < N) (tf : Tf2) (p : EkfParams) :
    ∀ (es : List Ekf.Event) (s s' : Ekf.NodeState N) (os : List Ekf.Output),
      Ekf.run hN tf p s es = .ok (s', os) →
      run lib hN tf p (ofNode s) (es.map ofEvent) = .ok (ofNode s', os.map ofOutput) := by
  intro es
  induction es with
  | nil =>
    intro s s' os h
    injection h with h
    rw [Prod.mk.injEq] at h
    obtain ⟨rfl, rfl⟩ := h
    rfl
  | cons e es ih =>
    intro s s' os h
    rw [Ekf.run] at h
    cases h1 : Ekf.step hN tf p s e with
    | error er => rw [h1] at h; cases h
    | ok r =>
      obtain ⟨s1, o1⟩ := r
      rw [h1] at h
      simp only [bind, Except.bind] at h
      cases h2 : Ekf.run hN tf p s1 es with
      | error er => rw [h2] at h; cases h
      | ok r =>
        obtain ⟨s2, o2⟩ := r
        rw [h2] at h
        simp only [pure, Except.pure] at h
        injection h with h
        rw [Prod.mk.injEq] at h
        obtain ⟨rfl, rfl⟩ := h
        have hstep : step lib hN tf p (ofNode s) (ofEvent e) = .ok (ofNode s1, o1.map ofOutput) := by
          cases e with
          | initialPose m tries =>
            rw [Ekf.step] at h1
            cases hc : Ekf.initialPoseCallback tf p s m tries with
            | error er => rw [hc] at h1; cases h1
            | ok s3 =>
              rw [hc] at h1
              simp only [bind, Except.bind, pure, Except.pure] at h1
              injection h1 with h1
              rw [Prod.mk.injEq] at h1
              obtain ⟨rfl, rfl⟩ := h1
              rw [ofEvent, step, initialPose_of tf p s s3 m tries hc]
              rfl
          | pose m =>
            injection h1 with h1
            rw [Prod.mk.injEq] at h1
            obtain ⟨rfl, rfl⟩ := h1
            rw [ofEvent, step]
            simp [updateSimple1DFilters, Ekf.updateSimple1DFilters, ofNode, mapQueue, AgedQueue.push,
              ofPose, sqrt_of]
          | twist m =>
            injection h1 with h1
            rw [Prod.mk.injEq] at h1
            obtain ⟨rfl, rfl⟩ := h1
            rw [ofEvent, step]
            simp [ofNode, mapQueue, AgedQueue.push]
          | timer t1 t2 t3 t4 t5 sp st =>
            rw [Ekf.step] at h1
            rw [ofEvent, step, timer_of, h1]
            rfl
        rw [List.map_cons, run, hstep]
        simp only [bind, Except.bind, pure, Except.pure]
        rw [ih s1 s2 o2 h2]
        simp


/-! ### Cases -/

/-- An inverse as specified. -/
noncomputable def someInverse : Inverse where
  inv n M := by
    classical
    exact if h : ∃ A : Matrix (Fin n) (Fin n) ℝ, M = ofMat A ∧ A.det ≠ 0 then ofMat h.choose⁻¹
      else fun _ _ => none
  regular n M hM := by
    have h : ∃ A : Matrix (Fin n) (Fin n) ℝ, ofMat M = ofMat A ∧ A.det ≠ 0 := ⟨M, rfl, hM⟩
    have he : h.choose = M := by
      have := h.choose_spec.1
      funext i j
      exact (Option.some.inj (congrFun (congrFun this i) j)).symm
    rw [dif_pos h, he]
  singular n M hM := by
    have h : ¬ ∃ A : Matrix (Fin n) (Fin n) ℝ, ofMat M = ofMat A ∧ A.det ≠ 0 := by
      rintro ⟨A, hA, hdet⟩
      refine hdet ?_
      rw [← hM]
      congr 1
      funext i j
      exact (Option.some.inj (congrFun (congrFun hA i) j)).symm
    rw [dif_neg h]
    cases n with
    | zero => rw [Matrix.det_fin_zero] at hM; exact absurd hM one_ne_zero
    | succ n => exact ⟨0, 0, rfl⟩
  nan n M i j hij l := by
    have h : ¬ ∃ A : Matrix (Fin n) (Fin n) ℝ, M = ofMat A ∧ A.det ≠ 0 := by
      rintro ⟨A, rfl, -⟩
      cases hij
    rw [dif_neg h]
    exact ⟨i, rfl⟩

/-- Level orientations only. -/
def someTf : Tf2 := ⟨fun _ => some 0, fun _ => some 0, fun _ => some 0⟩

/-- Some parameters. -/
noncomputable def someParams : EkfParams := ⟨50, ['m'], 1, 10, 10, 1, 1, false, 0, 1, 1⟩

/-- The transform between a frame and itself. -/
def someTries : List Char → List Char → ℕ → Option Transform :=
  fun _ _ _ => some ⟨0, 0, 0, ⟨1, 0, 0, 0⟩⟩

/-- A pose message at time zero. -/
def somePose (px pz : Number) (cov : Fin 36 → Number) : PoseMsg :=
  ⟨['m'], 0, px, some 0, pz, ⟨1, 0, 0, 0⟩, cov⟩

/-- A twist message of a vehicle at rest. -/
noncomputable def someTwist : TwistMsg :=
  ⟨['b'], 0, some 0, some 0, fun i => some (if i = 0 ∨ i = 35 then 1 else 0)⟩

/-- The first tick. -/
def someTick : Event := .timer 0 0 0 0 0 (fun _ => true) fun _ => true

/-- The node runs on and publishes two messages at the tick, whatever in the initial pose is NaN. -/
theorem C150_runs (lib : Inverse) (px pz : Number) (cov : Fin 36 → Number) :
    ∃ s' os, run lib (N := 1) one_pos someTf someParams (NodeState.make 1 someParams)
      [.initialPose (somePose px pz cov) someTries, someTick] = .ok (s', os) ∧ os.length = 2 := by
  refine ⟨_, _, rfl, rfl⟩

/-- A case of `C150_numbers_partial`: covariances of NaN in the message that follows. -/
example : ∀ e ∈ [Event.initialPose (somePose (some 3) (some 0) fun _ => some 1) someTries,
    .pose (somePose none none fun _ => none), someTick], e.NumbersIfInitial someTf := by
  simp [Event.NumbersIfInitial, somePose, someTf, someTick]

/-- A case of `C150_initial_violated`. -/
example : (somePose none (some 0) fun _ => some 1).px = none ∧
    ∀ e ∈ [someTick], ¬ e.isInitialPose := ⟨rfl, by simp [someTick, Event.isInitialPose]⟩

/-- A case of `C150_variance_violated`. -/
example : eraseBeginSlash someParams.poseFrame = .ok ['m'] ∧
    lookupTransform (someTries ['m'] ['m']) = some ⟨0, 0, 0, ⟨1, 0, 0, 0⟩⟩ ∧
    (somePose (some 3) (some 0) fun _ => none).cov 7 = none := ⟨rfl, rfl, rfl⟩

/-- A filter at the origin, the x coordinate as given. -/
noncomputable def someFilter (px : Number) : Filter 1 :=
  Filter.make (initState (add px (some 0)) (add (some 0) (some 0)) (add (some 0) (some 0)))
    (initCovariance fun _ => some 1) 1

theorem someFilter_P (px : Number) (dt : ℝ) : ∃ P : Matrix (Fin (1 * 6)) (Fin (1 * 6)) ℝ,
    P.PosSemidef ∧ (predictStep one_pos someParams dt (someFilter px)).P = ofMat P := by
  have h1 : (predictStep one_pos someParams dt (someFilter px)).P =
      (predictStep one_pos someParams dt (someFilter (some 0))).P := rfl
  have h2 : someFilter (some 0) = ofFilter (TimeDelayKalmanFilter.make (Ekf.initState 0 0 0)
      (Ekf.initCovariance fun _ => 1) 1) := by
    rw [← make_of, ← initState_of, ← initCovariance_of, someFilter, add_some, add_zero]
  rw [h1, h2, predictStep_of]
  refine ⟨_, predictStep_psd (n := 0) someParams dt _ (initP_psd (N := 1) _ ?_), rfl⟩
  rw [Ekf.initCovariance, Matrix.posSemidef_diagonal_iff]
  intro i
  fin_cases i <;> norm_num

/-- A case in which all is lost: NaN for x in the initial pose, then a twist message of a vehicle at
rest, then the first tick. -/
theorem C150_spread (lib : Inverse) :
    ∃ s' os, run lib (N := 1) one_pos someTf someParams (NodeState.make 1 someParams)
      [.initialPose (somePose none (some 0) fun _ => some 1) someTries, .twist someTwist, someTick] =
        .ok (s', os) ∧ os.length = 2 ∧ ∀ o ∈ os, o.Lost := by
  let dt : ℝ := computeInterval ((50 : ℝ) : WithTop ℝ)
  let f := predictStep one_pos someParams dt (someFilter none)
  obtain ⟨P, hP, hfP⟩ : ∃ P : Matrix (Fin (1 * 6)) (Fin (1 * 6)) ℝ,
    P.PosSemidef ∧ f.P = ofMat P := someFilter_P none dt
  have hdt : dt ≠ 0 := by
    show (1 / max (50 : ℝ) (1 / 10)) ≠ 0
    norm_num
  have hproc : ∃ f', processTwist lib one_pos (fun _ => true) 10 1 0 dt someTwist f = .ok f' ∧
      ∀ j, f'.x j = none := by
    have hdelay : computeDelayStep (computeDelayTime 0 someTwist.stamp : ℝ) dt = .ok 0 := by
      have : (computeDelayTime 0 someTwist.stamp : ℝ) = 0 := by
        simp [computeDelayTime, someTwist]
      rw [this]
      unfold computeDelayStep
      rw [if_neg hdt]
      norm_num [roundHalfAway]
    have hx : f.x 0 = none := rfl
    have hgate : mahalanobisGate lib true 10 (getTwistState fun k => f.x ⟨0 * 6 + k.val, by omega⟩)
        (twistMeasurementVector someTwist) (twistCovariance (f.getLatestP one_pos)) = true := by
      have e1 : (getTwistState fun k => f.x ⟨0 * 6 + k.val, by omega⟩) = ofVec 0 := by
        funext i
        fin_cases i <;> rfl
      have e2 : twistMeasurementVector someTwist = ofVec 0 := by
        funext i
        fin_cases i <;> rfl
      have e3 : twistCovariance (f.getLatestP one_pos) =
          ofMat (Ekf.twistCovariance fun k l => P ⟨k.val, by omega⟩ ⟨l.val, by omega⟩) := by
        unfold twistCovariance Filter.getLatestP
        rw [hfP]
        rfl
      rw [e1, e2, e3, gate_of]
      unfold Ekf.mahalanobisGate Ekf.squaredMahalanobis
      split
      · rfl
      · rename_i v hv
        split_ifs at hv
        injection hv with hv
        rw [← hv]
        simp
    have hupd : ∃ f', f.update lib (twistMeasurementVector someTwist) (ofMat twistMeasurementMatrix)
        (twistMeasurementCovariance someTwist.cov (toSizeT 1)) 0 = .ok f' := by
      unfold Filter.update
      rw [if_neg (by norm_num), if_neg (by norm_num)]
      have hR : twistMeasurementCovariance someTwist.cov (toSizeT 1) =
          ofMat (1 : Matrix (Fin 2) (Fin 2) ℝ) := by
        funext i j
        fin_cases i <;> fin_cases j <;>
          simp [twistMeasurementCovariance, someTwist, toSizeT, ofMat]
      simp only [hfP, makeMeasurementMatrix_of, hR]
      generalize Kalman.makeMeasurementMatrix twistMeasurementMatrix 1 (0 : ℤ).toNat = D
      have hpd : ((1 : Matrix (Fin 2) (Fin 2) ℝ) + D * (P * D.transpose)).PosDef := by
        refine Matrix.PosDef.one.add_posSemidef ?_
        rw [← Matrix.mul_assoc, ← Matrix.conjTranspose_eq_transpose_of_trivial]
        exact hP.mul_mul_conjTranspose_same _
      rw [calcKalmanGain_regular lib _ _ _ ((Matrix.isUnit_iff_isUnit_det _).1 hpd.isUnit).ne_zero,
        allNumbers_of, if_pos rfl]
      exact ⟨_, rfl⟩
    obtain ⟨f', hf'⟩ := hupd
    have hok : processTwist lib one_pos (fun _ => true) 10 1 0 dt someTwist f = .ok f' := by
      unfold processTwist processMeasurement
      rw [hdelay]
      simp only [bind, Except.bind]
      have hc : (!checkDelayStep 0 ((1 : ℕ) : ℤ)) = false := by simp [checkDelayStep]
      have hy : ∀ i, (twistMeasurementVector someTwist i).isSome := by
        intro i
        fin_cases i <;> rfl
      rw [hc, if_neg (by simp), if_neg (not_not.2 hy)]
      have hg : f.getX 0 = .ok fun k => f.x ⟨0 * 6 + k.val, by omega⟩ := rfl
      rw [hg]
      simp only
      rw [hgate, hf']
      rfl
    refine ⟨f', hok, ?_⟩
    obtain ⟨-, -, G, -, -, hx', -⟩ := update_ok hf'
    intro j
    rw [hx']
    unfold updateState addVec
    rw [mulVec_none (l := 0) (by unfold subVec; rw [mulVec_none hx, sub_none]), add_none]
  obtain ⟨f', hok, hlost⟩ := hproc
  have hall : updateAll (processTwist lib one_pos (fun _ => true) 10 1 0 dt)
      (⟨1, [someTwist], [0]⟩ : AgedQueue TwistMsg) f = .ok (f', ⟨1, [], []⟩) := by
    show (do
      let f'' ← processTwist lib one_pos (fun _ => true) 10 1 0 dt someTwist f
      updateLoop (processTwist lib one_pos (fun _ => true) 10 1 0 dt) 0 1 ⟨1, [], []⟩ f'') = _
    rw [hok]
    rfl
  have hrun : ∀ r, updateAll (processTwist lib one_pos (fun _ => true) 10 1 0 dt)
      (⟨1, [someTwist], [0]⟩ : AgedQueue TwistMsg) f = .ok r →
      ∃ s' s1, run lib (N := 1) one_pos someTf someParams (NodeState.make 1 someParams)
        [.initialPose (somePose none (some 0) fun _ => some 1) someTries, .twist someTwist, someTick] =
          .ok (s', publish one_pos someParams s1 r.1 0 0) := by
    intro r hr
    let s1 : NodeState 1 := ⟨some (someFilter none), UpdateInterval.make 50, AgedQueue.make 1,
      ⟨1, [someTwist], [0]⟩, (Simple1DFilter.make 1).update (some 0) (sqrt (some 1)) 0,
      (Simple1DFilter.make (1 / 10)).update (some 0) (sqrt (some 1)) 0,
      (Simple1DFilter.make (1 / 10)).update (some 0) (sqrt (some 1)) 0⟩
    have ha : step lib one_pos someTf someParams (NodeState.make 1 someParams)
        (.initialPose (somePose none (some 0) fun _ => some 1) someTries) =
        .ok ({ s1 with twistQ := ⟨1, [], []⟩ }, []) := rfl
    have hb : step lib one_pos someTf someParams { s1 with twistQ := ⟨1, [], []⟩ } (.twist someTwist) =
        .ok (s1, []) := rfl
    have hc : step lib one_pos someTf someParams s1 someTick =
        .ok (({ s1 with
                ekf := some r.1
                interval := ⟨50, some (((0 : ℤ) : ℝ) / 1000000000)⟩
                twistQ := r.2 } : NodeState 1), publish one_pos someParams s1 r.1 0 0) := by
      show ((updateAll (processTwist lib one_pos (fun _ => true) 10 1 0 dt)
        (⟨1, [someTwist], [0]⟩ : AgedQueue TwistMsg) f).bind fun r => _) = _
      rw [hr]
      rfl
    refine ⟨{ s1 with
                ekf := some r.1
                interval := ⟨50, some (((0 : ℤ) : ℝ) / 1000000000)⟩
                twistQ := r.2 }, s1, ?_⟩
    rw [run, ha]
    simp only [bind, Except.bind]
    rw [run, hb]
    simp only [bind, Except.bind]
    rw [run, hc]
    rfl
  obtain ⟨s', s1, hr⟩ := hrun _ hall
  refine ⟨s', _, hr, rfl, ?_⟩
  intro o ho
  unfold publish at ho
  simp only [List.mem_cons, List.not_mem_nil, or_false] at ho
  have hx : ∀ k, f'.getLatestX one_pos k = none := fun k => hlost _
  have hy : add (f'.getLatestX one_pos 2) (f'.getLatestX one_pos 3) = none := by rw [hx, none_add]
  rcases ho with rfl | rfl
  · exact ⟨hx _, hx _, hy⟩
  · exact ⟨hx _, hx _, hy, hx _, hx _⟩

/-- Cases of `C150_pose_covariance`, `C150_twist_covariance` and `C150_height_violated`. -/
example : (∃ i ∈ ([0, 1, 5, 6, 7, 11, 30, 31, 35] : List (Fin 36)),
      (somePose (some 3) none fun i => if i = 7 then none else some 1).cov i = none) ∧
    (∃ i ∈ ([0, 5, 30, 35] : List (Fin 36)),
      ({ someTwist with cov := fun _ => none } : TwistMsg).cov i = none) ∧
    (somePose (some 3) none fun _ => some 1).pz = none :=
  ⟨⟨7, by simp, by simp [somePose]⟩, ⟨0, by simp, rfl⟩, rfl⟩

end Verif.EkfNaN
