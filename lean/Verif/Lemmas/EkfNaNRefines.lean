/-
On numbers proper the filter of `Model/EkfNaN` is that of `Model/Kalman`, and so the node.
-/
import Verif.Lemmas.EkfNaN

set_option autoImplicit false

namespace Verif.EkfNaN

open Verif.Kalman Verif.Ekf Matrix
open Verif.Extraction.NaN (Number)

variable {k m n N h : ℕ}

theorem mulVec_of (A : Matrix (Fin m) (Fin n) ℝ) (x : Fin n → ℝ) :
    mulVec (ofMat A) (ofVec x) = ofVec (A *ᵥ x) := by
  funext i
  exact sum_some fun j => A i j * x j

theorem mulMat_of (A : Matrix (Fin m) (Fin n) ℝ) (B : Matrix (Fin n) (Fin k) ℝ) :
    mulMat (ofMat A) (ofMat B) = ofMat (A * B) := by
  funext i l
  refine (sum_some fun j => A i j * B j l).trans ?_
  rw [ofMat, Matrix.mul_apply]

theorem transpose_of (A : Matrix (Fin m) (Fin n) ℝ) : transpose (ofMat A) = ofMat Aᵀ := rfl

theorem addMat_of (A B : Matrix (Fin m) (Fin n) ℝ) :
    addMat (ofMat A) (ofMat B) = ofMat (A + B) := rfl

theorem subMat_of (A B : Matrix (Fin m) (Fin n) ℝ) :
    subMat (ofMat A) (ofMat B) = ofMat (A - B) := rfl

theorem addVec_of (x y : Fin n → ℝ) : addVec (ofVec x) (ofVec y) = ofVec (x + y) := rfl

theorem subVec_of (x y : Fin n → ℝ) : subVec (ofVec x) (ofVec y) = ofVec (x - y) := rfl

theorem exists_ofVec {x : Vec n} (hx : ∀ i, (x i).isSome) : ∃ y, x = ofVec y :=
  ⟨fun i => (x i).get (hx i), by funext i; simp [ofVec]⟩

theorem exists_ofMat {A : Mat m n} (hA : ∀ i j, (A i j).isSome) : ∃ B, A = ofMat B :=
  ⟨fun i j => (A i j).get (hA i j), by funext i j; simp [ofMat]⟩

theorem predictNextState_of (X : Fin 6 → ℝ) (dt : ℝ) :
    predictNextState (ofVec X) dt = ofVec (Ekf.predictNextState X dt) := by
  funext i
  fin_cases i <;> rfl

theorem createStateTransitionMatrix_of (X : Fin 6 → ℝ) (dt : ℝ) :
    createStateTransitionMatrix (ofVec X) dt = ofMat (Ekf.createStateTransitionMatrix X dt) := by
  funext i j
  fin_cases i <;> fin_cases j <;> rfl

/-- The filter on numbers proper as one on numbers that may be NaN. -/
def ofFilter (f : TimeDelayKalmanFilter ℝ N 6) : Filter N := ⟨ofVec f.x, ofMat f.P⟩

theorem initP_of (P0 : Matrix (Fin 6) (Fin 6) ℝ) :
    initP (ofMat P0) N = ofMat (Kalman.initP P0 N) := by
  funext i j
  unfold initP ofMat Kalman.initP
  simp only
  split <;> rfl

theorem make_of (x : Fin 6 → ℝ) (P : Matrix (Fin 6) (Fin 6) ℝ) :
    Filter.make (ofVec x) (ofMat P) N = ofFilter (TimeDelayKalmanFilter.make x P N) := by
  unfold Filter.make ofFilter TimeDelayKalmanFilter.make
  rw [initP_of]
  rfl

theorem updateX_of {a b : ℕ} (x : Fin a → ℝ) (y : Fin b → ℝ) :
    updateX (ofVec x) (ofVec y) = ofVec (Kalman.updateX x y) := by
  funext i
  unfold updateX ofVec Kalman.updateX
  split <;> rfl

theorem updateP_of {a b : ℕ} (hb : b ≤ a) (P : Matrix (Fin a) (Fin a) ℝ)
    (A Q : Matrix (Fin b) (Fin b) ℝ) :
    updateP hb (ofMat P) (ofMat A) (ofMat Q) = ofMat (Kalman.updateP hb P A Q) := by
  have h1 : ∀ B : Matrix (Fin b) (Fin b) ℝ,
      addMat (mulMat (mulMat (ofMat A) (ofMat B)) (transpose (ofMat A))) (ofMat Q) =
        ofMat (A * B * Aᵀ + Q) := by
    intro B
    rw [mulMat_of, transpose_of, mulMat_of, addMat_of]
  funext i j
  show _ = some (Kalman.updateP hb P A Q i j)
  unfold updateP Kalman.updateP
  by_cases hi : i.val < b <;> by_cases hj : j.val < b
  · simp only [hi, hj, dite_true]
    exact congrFun (congrFun (h1 _) _) _
  · simp only [hi, hj, dite_true, dite_false]
    exact congrFun (congrFun (mulMat_of A _) _) _
  · simp only [hi, hj, dite_true, dite_false]
    exact congrFun (congrFun (mulMat_of _ Aᵀ) _) _
  · simp only [hi, hj, dite_false]
    rfl

theorem predict_of (hN : 0 < N) (f : TimeDelayKalmanFilter ℝ N 6) (xNext : Fin 6 → ℝ)
    (A Q : Matrix (Fin 6) (Fin 6) ℝ) :
    (ofFilter f).predict hN (ofVec xNext) (ofMat A) (ofMat Q) = ofFilter (f.predict hN xNext A Q) := by
  unfold Filter.predict ofFilter TimeDelayKalmanFilter.predict
  simp only [updateX_of, updateP_of]

theorem predictStep_of (hN : 0 < N) (p : EkfParams) (dt : ℝ) (f : TimeDelayKalmanFilter ℝ N 6) :
    predictStep hN p dt (ofFilter f) = ofFilter (Ekf.predictStep hN p dt f) := by
  have h1 : (ofFilter f).getLatestX hN = ofVec (f.getLatestX hN) := rfl
  unfold predictStep Ekf.predictStep
  simp only [h1, predictNextState_of, createStateTransitionMatrix_of, predict_of]

theorem getX_of (f : TimeDelayKalmanFilter ℝ N 6) (δ : ℤ) :
    (ofFilter f).getX δ = (f.getX δ).map ofVec := by
  unfold Filter.getX TimeDelayKalmanFilter.getX
  split <;> rfl

theorem makeMeasurementMatrix_of (C : Matrix (Fin h) (Fin 6) ℝ) (δ : ℕ) :
    makeMeasurementMatrix (ofMat C) N δ = ofMat (Kalman.makeMeasurementMatrix C N δ) := by
  funext i j
  show _ = some (Kalman.makeMeasurementMatrix C N δ i j)
  unfold makeMeasurementMatrix Kalman.makeMeasurementMatrix
  split <;> rfl

theorem allNumbers_of (A : Matrix (Fin m) (Fin n) ℝ) : allNumbers (ofMat A) = true :=
  allNumbers_iff.2 fun _ _ => rfl

theorem calcKalmanGain_regular (lib : Inverse) (P : Matrix (Fin n) (Fin n) ℝ)
    (C : Matrix (Fin h) (Fin n) ℝ) (R : Matrix (Fin h) (Fin h) ℝ)
    (hdet : (R + C * (P * Cᵀ)).det ≠ 0) :
    calcKalmanGain lib (ofMat P) (ofMat C) (ofMat R) = ofMat (P * Cᵀ * (R + C * (P * Cᵀ))⁻¹) := by
  unfold calcKalmanGain
  simp only [transpose_of, mulMat_of, addMat_of]
  rw [lib.regular _ _ hdet, mulMat_of]

theorem calcKalmanGain_singular (lib : Inverse) (P : Matrix (Fin n) (Fin n) ℝ)
    (C : Matrix (Fin h) (Fin n) ℝ) (R : Matrix (Fin h) (Fin h) ℝ) (hn : 0 < n)
    (hdet : (R + C * (P * Cᵀ)).det = 0) :
    allNumbers (calcKalmanGain lib (ofMat P) (ofMat C) (ofMat R)) = false := by
  rw [Bool.eq_false_iff]
  intro hall
  rw [allNumbers_iff] at hall
  obtain ⟨i, j, hij⟩ := lib.singular _ _ hdet
  have h1 := hall ⟨0, hn⟩ j
  unfold calcKalmanGain at h1
  simp only [transpose_of, mulMat_of, addMat_of] at h1
  rw [mulMat_none_right hij] at h1
  cases h1

theorem update_of (lib : Inverse) (hN : 0 < N) (f : TimeDelayKalmanFilter ℝ N 6) (y : Fin h → ℝ)
    (C : Matrix (Fin h) (Fin 6) ℝ) (R : Matrix (Fin h) (Fin h) ℝ) (δ : ℤ) :
    (ofFilter f).update lib (ofVec y) (ofMat C) (ofMat R) δ = (f.update y C R δ).map ofFilter := by
  have hP : (ofFilter f).P = ofMat f.P := rfl
  have hx : (ofFilter f).x = ofVec f.x := rfl
  unfold Filter.update TimeDelayKalmanFilter.update
  by_cases h1 : δ ≥ N
  · rw [if_pos h1, if_pos h1]; rfl
  rw [if_neg h1, if_neg h1]
  by_cases h2 : δ < 0
  · rw [if_pos h2, if_pos h2]; rfl
  rw [if_neg h2, if_neg h2]
  simp only [makeMeasurementMatrix_of, hP, hx]
  generalize Kalman.makeMeasurementMatrix C N δ.toNat = D
  unfold Kalman.calcKalmanGain
  simp only
  by_cases hdet : (R + D * (f.P * Dᵀ)).det = 0
  · rw [calcKalmanGain_singular lib _ _ _ (by omega) hdet, if_pos hdet]
    rfl
  · rw [calcKalmanGain_regular lib _ _ _ hdet, allNumbers_of, if_neg hdet, if_pos rfl]
    unfold updateState updateCovariance Kalman.updateState Kalman.updateCovariance
    simp only [mulVec_of, mulMat_of, subVec_of, addVec_of, subMat_of]
    rfl

theorem gate_of (lib : Inverse) (sing : Bool) (dist : ℝ) (x y : Fin n → ℝ)
    (C : Matrix (Fin n) (Fin n) ℝ) :
    mahalanobisGate lib sing dist (ofVec x) (ofVec y) (ofMat C) =
      Ekf.mahalanobisGate sing dist x y C := by
  unfold mahalanobisGate Ekf.mahalanobisGate squaredMahalanobis Ekf.squaredMahalanobis
  simp only [subVec_of]
  by_cases hdet : C.det = 0
  · obtain ⟨i, j, hij⟩ := lib.singular _ _ hdet
    have h1 : (sum fun i => mul (ofVec (x - y) i) (mulVec (lib.inv n (ofMat C)) (ofVec (x - y)) i))
        = none := by
      refine sum_none i ?_
      rw [show mulVec (lib.inv n (ofMat C)) (ofVec (x - y)) i = none from
        sum_none j (by rw [hij, none_mul]), mul_none]
    rw [h1, if_pos hdet, allNumbers_of]
    simp [ofVec]
  · rw [lib.regular _ _ hdet, if_neg hdet, mulVec_of]
    rw [show (sum fun i => mul (ofVec (x - y) i) (ofVec (C⁻¹ *ᵥ (x - y)) i)) =
      some ((x - y) ⬝ᵥ (C⁻¹ *ᵥ (x - y))) from sum_some fun i => (x - y) i * (C⁻¹ *ᵥ (x - y)) i]

theorem processMeasurement_of (lib : Inverse) (hN : 0 < N) (sing : Bool)
    (stateOf : (Fin 6 → ℝ) → (Fin h → ℝ)) (stateOf' : Vec 6 → Vec h)
    (covOf : Matrix (Fin 6) (Fin 6) ℝ → Matrix (Fin h) (Fin h) ℝ) (covOf' : Mat 6 6 → Mat h h)
    (hs : ∀ x, stateOf' (ofVec x) = ofVec (stateOf x))
    (hc : ∀ P, covOf' (ofMat P) = ofMat (covOf P))
    (C : Matrix (Fin h) (Fin 6) ℝ) (gateDist : ℝ) (now : ℤ) (dt : ℝ) (stamp : ℤ)
    (y : Fin h → Option ℝ) (R : Matrix (Fin h) (Fin h) ℝ) (f : TimeDelayKalmanFilter ℝ N 6) :
    processMeasurement lib hN sing stateOf' covOf' (ofMat C) gateDist now dt stamp y (ofMat R)
        (ofFilter f) =
      (Ekf.processMeasurement hN sing stateOf covOf C gateDist now dt stamp y R f).map ofFilter := by
  unfold processMeasurement Ekf.processMeasurement
  cases computeDelayStep (computeDelayTime now stamp : ℝ) dt with
  | error e => rfl
  | ok δ =>
    simp only [bind, Except.bind]
    by_cases h1 : (!checkDelayStep δ N) = true
    · rw [if_pos h1, if_pos h1]; rfl
    rw [if_neg h1, if_neg h1]
    unfold allFinite
    by_cases h2 : ∀ i, (y i).isSome
    · rw [if_neg (not_not.2 h2), dif_pos h2]
      have hy : y = ofVec fun i => (y i).get (h2 i) := by funext i; simp [ofVec]
      simp only
      generalize (fun i => (y i).get (h2 i)) = z at hy
      subst hy
      rw [getX_of]
      cases f.getX δ with
      | error e => rfl
      | ok x =>
        have hP : (ofFilter f).getLatestP hN = ofMat (f.getLatestP hN) := rfl
        simp only [Except.map]
        rw [hs, hP, hc, gate_of, update_of lib hN]
        split
        · rfl
        · cases f.update z C R δ with
          | error e => cases e <;> rfl
          | ok f' => rfl
    · rw [if_pos h2, dif_neg h2]
      rfl

/-! ### The node -/

/-- A pose message of numbers. -/
def ofPose (m : Ekf.PoseMsg) : PoseMsg :=
  ⟨m.frame, m.stamp, m.px, m.py, m.pz, m.ori, fun i => some (m.cov i)⟩

/-- A twist message of numbers. -/
def ofTwist (m : Ekf.TwistMsg) : TwistMsg :=
  ⟨m.frame, m.stamp, m.vx, m.wz, fun i => some (m.cov i)⟩

/-- Back again. -/
def toPose (m : PoseMsg) : Ekf.PoseMsg :=
  ⟨m.frame, m.stamp, m.px, m.py, m.pz, m.ori, fun i => (m.cov i).getD 0⟩

/-- Back again. -/
def toTwist (m : TwistMsg) : Ekf.TwistMsg :=
  ⟨m.frame, m.stamp, m.vx, m.wz, fun i => (m.cov i).getD 0⟩

/-- A queue of other messages. -/
def mapQueue {α β : Type} (g : α → β) (q : AgedQueue α) : AgedQueue β :=
  ⟨q.maxAge, q.msgs.map g, q.ages⟩

/-- The node of `Model/EkfNode` as one of `Model/EkfNaN`. -/
def ofNode (s : Ekf.NodeState N) : NodeState N :=
  ⟨s.ekf.map ofFilter, s.interval, mapQueue ofPose s.poseQ, mapQueue ofTwist s.twistQ, s.z, s.roll,
    s.pitch⟩

/-- The events likewise. -/
def ofEvent : Ekf.Event → Event
  | .initialPose m tries => .initialPose (ofPose m) tries
  | .pose m => .pose (ofPose m)
  | .twist m => .twist (ofTwist m)
  | .timer t1 t2 t3 t4 t5 sp st => .timer t1 t2 t3 t4 t5 (fun m => sp (toPose m)) fun m => st (toTwist m)

/-- The poses likewise. -/
def ofEstimate (e : Ekf.Estimate) : Estimate :=
  ⟨some e.x, some e.y, e.z, e.roll, e.pitch, some e.yaw⟩

/-- The output likewise. -/
def ofOutput : Ekf.Output → Output
  | .transform t f c e => .transform t f c (ofEstimate e)
  | .odometry t f c e pc vx wz tc =>
    .odometry t f c (ofEstimate e) (fun i => some (pc i)) (some vx) (some wz) fun i => some (tc i)

theorem pop_of {α β : Type} (g : α → β) (q : AgedQueue α) :
    (mapQueue g q).pop = q.pop.map fun r => (g r.1, mapQueue g r.2) := by
  obtain ⟨ma, ms, as⟩ := q
  unfold AgedQueue.pop mapQueue
  cases ms with
  | nil => rfl
  | cons m ms =>
    cases as with
    | nil => rfl
    | cons a as =>
      simp only [List.map_cons]
      split <;> simp [Except.map]

theorem updateLoop_of {α β F G : Type} (g : α → β) (l : F → G) (process : α → F → Res F)
    (process' : β → G → Res G) (hp : ∀ m f, process' (g m) (l f) = (process m f).map l) :
    ∀ (fuel i : ℕ) (q : AgedQueue α) (f : F),
      updateLoop process' fuel i (mapQueue g q) (l f) =
        (updateLoop process fuel i q f).map fun r => (l r.1, mapQueue g r.2) := by
  intro fuel
  induction fuel with
  | zero => intro i q f; rfl
  | succ fuel ih =>
    intro i q f
    rw [updateLoop, updateLoop]
    have hsz : (mapQueue g q).size = q.size := by simp [AgedQueue.size, mapQueue]
    rw [hsz, pop_of]
    by_cases hi : i < q.size
    · rw [if_pos hi, if_pos hi]
      cases q.pop with
      | error e => rfl
      | ok r =>
        simp only [Except.map, bind, Except.bind]
        rw [hp]
        cases process r.1 f with
        | error e => rfl
        | ok f' =>
          simp only [Except.map]
          exact ih _ _ _
    · rw [if_neg hi, if_neg hi]; rfl

theorem updateAll_of {α β F G : Type} (g : α → β) (l : F → G) (process : α → F → Res F)
    (process' : β → G → Res G) (hp : ∀ m f, process' (g m) (l f) = (process m f).map l)
    (q : AgedQueue α) (f : F) :
    updateAll process' (mapQueue g q) (l f) =
      (updateAll process q f).map fun r => (l r.1, mapQueue g r.2) := by
  unfold updateAll
  rw [show (mapQueue g q).size = q.size by simp [AgedQueue.size, mapQueue]]
  exact updateLoop_of g l process process' hp _ _ _ _

theorem poseMeasurementCovariance_of (c : Fin 36 → ℝ) (n : ℕ) :
    poseMeasurementCovariance (fun i => some (c i)) n = ofMat (Ekf.poseMeasurementCovariance c n) := by
  funext i j
  unfold poseMeasurementCovariance Ekf.poseMeasurementCovariance ofMat
  rw [Matrix.smul_apply, smul_eq_mul, mul_comm]
  fin_cases i <;> fin_cases j <;> rfl

theorem twistMeasurementCovariance_of (c : Fin 36 → ℝ) (n : ℕ) :
    twistMeasurementCovariance (fun i => some (c i)) n =
      ofMat (Ekf.twistMeasurementCovariance c n) := by
  funext i j
  unfold twistMeasurementCovariance Ekf.twistMeasurementCovariance ofMat
  rw [Matrix.smul_apply, smul_eq_mul, mul_comm]
  fin_cases i <;> fin_cases j <;> rfl

theorem processPose_of (lib : Inverse) (hN : 0 < N) (tf : Tf2) (sp : Ekf.PoseMsg → Bool)
    (gateDist : ℝ) (smoothing now : ℤ) (dt : ℝ) (m : Ekf.PoseMsg) (f : TimeDelayKalmanFilter ℝ N 6) :
    processPose lib hN tf (fun m => sp (toPose m)) gateDist smoothing now dt (ofPose m) (ofFilter f) =
      (Ekf.processPose hN tf sp gateDist smoothing now dt m f).map ofFilter := by
  unfold processPose Ekf.processPose
  have h1 : (ofPose m).cov = fun i => some (m.cov i) := rfl
  have h2 : poseMeasurementVector tf (ofPose m) = Ekf.poseMeasurementVector tf m := rfl
  rw [h1, h2, poseMeasurementCovariance_of]
  exact processMeasurement_of lib hN (sp m) _ _ _ _ (fun x => rfl) (fun P => rfl) _ _ _ _ _ _ _ _

theorem processTwist_of (lib : Inverse) (hN : 0 < N) (st : Ekf.TwistMsg → Bool)
    (gateDist : ℝ) (smoothing now : ℤ) (dt : ℝ) (m : Ekf.TwistMsg) (f : TimeDelayKalmanFilter ℝ N 6) :
    processTwist lib hN (fun m => st (toTwist m)) gateDist smoothing now dt (ofTwist m) (ofFilter f) =
      (Ekf.processTwist hN st gateDist smoothing now dt m f).map ofFilter := by
  unfold processTwist Ekf.processTwist
  have h1 : (ofTwist m).cov = fun i => some (m.cov i) := rfl
  have h2 : twistMeasurementVector (ofTwist m) = Ekf.twistMeasurementVector m := rfl
  rw [h1, h2, twistMeasurementCovariance_of]
  refine processMeasurement_of lib hN (st m) _ _ _ _ (fun x => ?_) (fun P => rfl) _ _ _ _ _ _ _ _
  funext i
  fin_cases i <;> rfl

set_option maxRecDepth 4000 in
theorem publish_of (hN : 0 < N) (p : EkfParams) (s : Ekf.NodeState N)
    (f : TimeDelayKalmanFilter ℝ N 6) (t4 t5 : ℤ) :
    publish hN p (ofNode s) (ofFilter f) t4 t5 = (Ekf.publish hN p s f t4 t5).map ofOutput := by
  have h1 : poseMessageCovariance ((ofFilter f).getLatestP hN) =
      fun i => some (ekfCovarianceToPoseMessageCovariance (f.getLatestP hN) i) := by
    funext i
    fin_cases i <;> rfl
  have h2 : twistMessageCovariance ((ofFilter f).getLatestP hN) =
      fun i => some (ekfCovarianceToTwistMessageCovariance (f.getLatestP hN) i) := by
    funext i
    fin_cases i <;> rfl
  unfold publish Ekf.publish
  simp only [h1, h2, List.map_cons, List.map_nil]
  rfl

theorem timer_of (lib : Inverse) (hN : 0 < N) (tf : Tf2) (p : EkfParams) (s : Ekf.NodeState N)
    (t1 t2 t3 t4 t5 : ℤ) (sp : Ekf.PoseMsg → Bool) (st : Ekf.TwistMsg → Bool) :
    timerCallback lib hN tf p (ofNode s) t1 t2 t3 t4 t5 (fun m => sp (toPose m))
        (fun m => st (toTwist m)) =
      (Ekf.timerCallback hN tf p s t1 t2 t3 t4 t5 sp st).map
        fun r => (ofNode r.1, r.2.map ofOutput) := by
  unfold timerCallback Ekf.timerCallback
  have h1 : (ofNode s).ekf = s.ekf.map ofFilter := rfl
  have h2 : (ofNode s).interval = s.interval := rfl
  have h3 : (ofNode s).poseQ = mapQueue ofPose s.poseQ := rfl
  have h4 : (ofNode s).twistQ = mapQueue ofTwist s.twistQ := rfl
  rw [h1, h2]
  cases hf : s.ekf with
  | none => rfl
  | some f =>
    simp only [Option.map_some]
    cases hc : s.interval.compute ((t1 : ℝ) / 1000000000) with
    | mk r iv =>
      cases r with
      | error e =>
        cases e <;> rfl
      | ok dt =>
        simp only [h3, h4, bind, Except.bind]
        rw [predictStep_of, updateAll_of ofPose ofFilter _ _
          (processPose_of lib hN tf sp p.poseGate p.poseSmoothing t2 dt)]
        cases updateAll (Ekf.processPose hN tf sp p.poseGate p.poseSmoothing t2 dt) s.poseQ
            (Ekf.predictStep hN p dt f) with
        | error e => rfl
        | ok r1 =>
          simp only [Except.map]
          rw [updateAll_of ofTwist ofFilter _ _
            (processTwist_of lib hN st p.twistGate p.twistSmoothing t3 dt)]
          cases updateAll (Ekf.processTwist hN st p.twistGate p.twistSmoothing t3 dt) s.twistQ r1.1 with
          | error e => rfl
          | ok r2 =>
            simp only [Except.map, pure, Except.pure, publish_of]
            rfl

theorem initState_of (x y yaw : ℝ) :
    initState (some x) (some y) (some yaw) = ofVec (Ekf.initState x y yaw) := by
  funext i
  fin_cases i <;> rfl

theorem initCovariance_of (c : Fin 36 → ℝ) :
    initCovariance (fun i => some (c i)) = ofMat (Ekf.initCovariance c) := by
  funext i j
  unfold initCovariance Ekf.initCovariance ofMat
  by_cases hij : i = j
  · subst hij
    rw [if_pos rfl, Matrix.diagonal_apply_eq]
    fin_cases i <;> rfl
  · rw [if_neg hij, Matrix.diagonal_apply_ne _ hij]

theorem sqrt_of (a : ℝ) : sqrt (some a) = sqrtOpt a := rfl

theorem initialPose_of (tf : Tf2) (p : EkfParams) (s s' : Ekf.NodeState N) (m : Ekf.PoseMsg)
    (tries : List Char → List Char → ℕ → Option Transform)
    (hok : Ekf.initialPoseCallback tf p s m tries = .ok s') :
    initialPoseCallback tf p (ofNode s) (ofPose m) tries = .ok (ofNode s') := by
  unfold Ekf.initialPoseCallback at hok
  unfold initialPoseCallback
  have h0 : (ofPose m).frame = m.frame := rfl
  rw [h0]
  cases h1 : eraseBeginSlash p.poseFrame with
  | error e => rw [h1] at hok; cases hok
  | ok parent =>
    cases h2 : eraseBeginSlash m.frame with
    | error e => rw [h1, h2] at hok; cases hok
    | ok child =>
      rw [h1, h2] at hok
      simp only [bind, Except.bind] at hok ⊢
      cases h3 : lookupTransform (tries parent child) with
      | none => rw [h3] at hok; cases hok
      | some t =>
        rw [h3] at hok
        simp only at hok ⊢
        have e1 : (ofPose m).px = m.px := rfl
        have e2 : (ofPose m).py = m.py := rfl
        have e3 : (ofPose m).ori = m.ori := rfl
        have e4 : (ofPose m).cov = fun i => some (m.cov i) := rfl
        rw [e1, e2, e3, e4, initCovariance_of]
        cases g1 : m.px with
        | none => simp [g1] at hok
        | some px =>
          cases g2 : m.py with
          | none => simp [g1, g2] at hok
          | some py =>
            cases g3 : tf.getYaw m.ori with
            | none => simp [g1, g2, g3] at hok
            | some y1 =>
              cases g4 : tf.getYaw t.rot with
              | none => simp [g1, g2, g3, g4] at hok
              | some y2 =>
                rw [g1, g2, g3, g4] at hok
                simp only [pure, Except.pure] at hok
                injection hok with hok
                subst hok
                simp only [add_some, initState_of, make_of]
                rfl

end Verif.EkfNaN
