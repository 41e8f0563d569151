/-
C139: filter and localizer, feeding each other, stay where the vehicle stands.
-/
import Verif.Model.Loop
import Verif.Props.C138
import Verif.Props.C117
import Verif.Props.C54
import Verif.Props.C83

set_option autoImplicit false

namespace Verif.Loop

open Matrix Verif.Rot Verif.Opt Verif.Ekf Verif.Loc

/-- Specification: the position and the angles describe the rigid pose `T`, with the angles in their
usual ranges and the vehicle not pointing almost straight up or down. -/
structure IsPlaceOf (a : Place) (T : Pose) : Prop where
  x : a.x = T.translation 0
  y : a.y = T.translation 1
  z : a.z = T.translation 2
  linear : T.linear = rotZ a.yaw * rotY a.pitch * rotX a.roll
  angles : AnglesOK a.roll a.pitch a.yaw
  level : |Real.sin a.pitch| < 99999 / 100000

/-- Specification: started at the pose `T`, scan matching of the scan returns `T`. -/
def FitsAt {Scan : Type} (run : Scan → Pose → Res Result) (T : Pose) (scan : Scan) : Prop :=
  ∃ r, run scan T = .ok r ∧ r.pose = T

/-- Specification: all that comes from outside agrees with a vehicle standing at the place: initial
poses and poses from elsewhere say that it is there, twists that it does not move, priors from elsewhere
are the pose, and scans fit the map there. -/
def Agrees {Scan : Type} (run : Scan → Pose → Res Result) (a : Place) (T : Pose) : Event Scan → Prop
  | .filter e => a.Agrees tf2 e
  | .localizer (.insert _ pose) => pose = T
  | .localizer (.size m) => FitsAt run T m.scan
  | .localizer _ => True
  | .toFilter _ => True
  | .toLocalizer _ => True

/-- Specification: the pose of a message of the localizer. -/
def messagePose : Store.Output ℤ → Pose
  | .pose _ _ pose _ => pose
  | .transform _ _ _ pose => pose

/-- Every pose that does not point almost straight up or down is a place. -/
theorem C139_place (T : Pose) (hT : IsRotation T.linear) (hv : |T.linear 2 0| < 99999 / 100000) :
    ∃ a, IsPlaceOf a T := by
  obtain ⟨h1, h2⟩ := message_quat (fun _ => false) T hT
  obtain ⟨r, p, y, ha, hs, -, -, -, hl⟩ := C138_rebuild _ h1 (by rw [h2]; exact hv)
  refine ⟨⟨T.translation 0, T.translation 1, T.translation 2, r, p, y⟩, rfl, rfl, rfl, ?_, ha, hs⟩
  rw [← h2, hl]
  exact (C50_rpy r p y).2.2

/-- The invariant of the localizer. -/
structure LocRest {Scan : Type} (run : Scan → Pose → Res Result) (T : Pose) (n : Store.Node ℤ Scan) :
    Prop where
  inv : Store.Inv n
  store : ∀ e ∈ n.store, e.2 = T
  scan : ∀ m, n.pc.scan? = some m → FitsAt run T m.scan
  prior : ∀ m e, n.pc = .got m e ∨ n.pc = .removed m e → e.2 = T
  outputs : ∀ o ∈ n.outputs, messagePose o = T ∧
    ∀ stamp frame pose cov, o = .pose stamp frame pose cov → cov = [1, 1, 1, 1 / 10, 1 / 10, 1 / 10]

section
variable {Scan : Type} {run : Scan → Pose → Res Result} {T : Pose}

theorem mem_insert_value {s : Store.Store ℤ Pose} {t : ℤ} {v : Pose} {e : ℤ × Pose}
    (h : e ∈ Store.insert t v s) : e.2 = v ∨ e ∈ s := by
  induction s with
  | nil => simp only [Store.insert, List.mem_singleton] at h; left; rw [h]
  | cons x rest ih =>
    simp only [Store.insert] at h
    split_ifs at h
    · rcases List.mem_cons.1 h with h | h
      · left; rw [h]
      · exact .inr h
    · rcases List.mem_cons.1 h with h | h
      · right; rw [h]; exact List.mem_cons_self
      · rcases ih h with h | h
        · exact .inl h
        · exact .inr (List.mem_cons_of_mem _ h)
    · rcases List.mem_cons.1 h with h | h
      · left; rw [h]
      · exact .inr (List.mem_cons_of_mem _ h)

theorem locRest_step {n n' : Store.Node ℤ Scan} (hn : LocRest run T n) {a : Store.Act ℤ Scan}
    (ha : ∀ b : Place, Agrees run b T (.localizer a))
    (h : Store.step run 1000000000 n a = .ok n') : LocRest run T n' := by
  have hinv := Store.inv_step run 1000000000 n a n' hn.inv h
  cases a with
  | insert t v =>
    simp only [Store.step] at h
    injection h with h
    subst h
    have hv : v = T := ha ⟨0, 0, 0, 0, 0, 0⟩
    refine ⟨hinv, fun e he => ?_, hn.scan, hn.prior, hn.outputs⟩
    rcases mem_insert_value he with h | h
    · rw [h, hv]
    · exact hn.store e h
  | size m =>
    have hf : FitsAt run T m.scan := ha ⟨0, 0, 0, 0, 0, 0⟩
    simp only [Store.step] at h
    split at h
    · split_ifs at h
      · injection h with h; subst h; exact hn
      · injection h with h; subst h
        refine ⟨hinv, hn.store, fun m' hm => ?_, fun m' e hm => ?_, hn.outputs⟩
        · simp only [Store.Pc.scan?, Option.some.injEq] at hm
          rw [← hm]; exact hf
        · rcases hm with hm | hm <;> simp only [reduceCtorEq] at hm
    · injection h with h; subst h; exact hn
  | closest =>
    simp only [Store.step] at h
    split at h
    · rename_i m hpc
      obtain ⟨e, he, heq, -⟩ := Store.getClosest_spec hn.inv.1 (hn.inv.2 (by rw [hpc]; simp)) m.stamp
      rw [heq] at h
      simp only [bind, Except.bind] at h
      injection h with h; subst h
      refine ⟨hinv, hn.store, fun m' hm => ?_, fun m' e' hm => ?_, hn.outputs⟩
      · simp only [Store.Pc.scan?, Option.some.injEq] at hm
        subst hm
        exact hn.scan m (by rw [hpc]; rfl)
      · rcases hm with hm | hm
        · simp only [Store.Pc.got.injEq] at hm
          rw [← hm.2]
          exact hn.store e he
        · simp only [reduceCtorEq] at hm
    · injection h with h; subst h; exact hn
  | remove =>
    simp only [Store.step] at h
    split at h
    · rename_i m prior hpc
      rw [Store.removeOlderThan_eq hn.inv.1] at h
      split_ifs at h with hc
      · simp only [bind, Except.bind, reduceCtorEq] at h
      · simp only [bind, Except.bind] at h
        injection h with h; subst h
        refine ⟨hinv, fun e he => hn.store e (List.mem_filter.1 he).1, fun m' hm => ?_,
          fun m' e' hm => ?_, hn.outputs⟩
        · simp only [Store.Pc.scan?, Option.some.injEq] at hm
          subst hm
          exact hn.scan m (by rw [hpc]; rfl)
        · rcases hm with hm | hm
          · simp only [reduceCtorEq] at hm
          · simp only [Store.Pc.removed.injEq] at hm
            rw [← hm.2]
            exact hn.prior m prior (.inl hpc)
    · injection h with h; subst h; exact hn
  | publish =>
    simp only [Store.step] at h
    split at h
    · rename_i m prior hpc
      obtain ⟨r, hr, hrT⟩ := hn.scan m (by rw [hpc]; rfl)
      have hp := hn.prior m prior (.inr hpc)
      simp only [Store.Localizer.update, Store.Localizer.init, bind, Except.bind, hp, hr] at h
      injection h with h; subst h
      refine ⟨hinv, hn.store, fun m' hm => ?_, fun m' e' hm => ?_, fun o ho => ?_⟩
      · simp only [Store.Pc.scan?, reduceCtorEq] at hm
      · rcases hm with hm | hm <;> simp only [reduceCtorEq] at hm
      · rcases List.mem_append.1 ho with ho | ho
        · exact hn.outputs o ho
        · simp only [List.mem_cons, List.not_mem_nil, or_false] at ho
          rcases ho with rfl | rfl
          · refine ⟨hrT, fun s f q c hc => ?_⟩
            injection hc with _ _ _ hc
            exact hc.symm
          · refine ⟨hrT, fun s f q c hc => ?_⟩
            simp only [reduceCtorEq] at hc
    · injection h with h; subst h; exact hn

theorem locRest_new : LocRest run T (Store.Node.new ℤ Scan) :=
  ⟨Store.inv_new, fun e he => by simp [Store.Node.new] at he,
    fun m hm => by simp [Store.Node.new, Store.Pc.scan?] at hm,
    fun m e hm => by simp [Store.Node.new] at hm, fun o ho => by simp [Store.Node.new] at ho⟩

end

theorem isPlaceOf_rotation {a : Place} {T : Pose} (h : IsPlaceOf a T) : IsRotation T.linear := by
  rw [h.linear]; exact rpy_rotation _ _ _

/-- What the filter reads of a message with the pose. -/
theorem seen_of_pose {a : Place} {T : Pose} (h : IsPlaceOf a T) (flip : Rot.Quat → Bool)
    (init : Fin 36 → ℝ) {o : Store.Output ℤ} {m : Ekf.PoseMsg} (hm : poseOf flip init o = some m)
    (ho : messagePose o = T ∧ ∀ stamp frame pose cov, o = .pose stamp frame pose cov →
      cov = [1, 1, 1, 1 / 10, 1 / 10, 1 / 10]) : a.Seen tf2 m := by
  obtain ⟨hT, hc⟩ := ho
  cases o with
  | transform stamp frame child pose => simp only [poseOf, reduceCtorEq] at hm
  | pose stamp frame pose cov =>
    have hcov := hc _ _ _ _ rfl
    subst hcov
    simp only [messagePose] at hT
    subst hT
    simp only [poseOf, Option.some.injEq] at hm
    subst hm
    obtain ⟨q1, q2⟩ := message_quat flip pose (isPlaceOf_rotation h)
    obtain ⟨r1, r2, r3⟩ := C138_read h.angles _ q1 (q2.trans h.linear)
    have hcv := (Msg.C96_covariance flip init pose (isPlaceOf_rotation h)
      (Matrix.diagonal ![1, 1, 1, 1 / 10, 1 / 10, 1 / 10]) stamp frame).2.2.1
    refine ⟨by rw [h.x]; rfl, by rw [h.y]; rfl, by rw [h.z]; rfl, r1, r2, ⟨a.yaw, 0, r3 h.level, by simp⟩,
      ?_, ?_, ?_⟩
    · have := hcv 2 2 14 (by decide)
      simp only at this ⊢
      rw [this]; simp
    · have := hcv 3 3 21 (by decide)
      simp only at this ⊢
      rw [this]; simp
    · have := hcv 4 4 28 (by decide)
      simp only at this ⊢
      rw [this]; simp

/-- What the localizer reads of a message that shows the place. -/
theorem odometry_of_shown {a : Place} {T : Pose} (h : IsPlaceOf a T) (flip : Rot.Quat → Bool)
    {o : Ekf.Output} (ho : a.Shown o) {stamp : ℤ} {m : Option Msg.PoseMsg}
    (hm : odometryOf flip o = some (stamp, m)) : ∃ m', m = some m' ∧ Msg.getIsometry3d m' = T := by
  cases o with
  | transform => simp only [odometryOf, reduceCtorEq] at hm
  | odometry s f c pose pc vx wz tc =>
    obtain ⟨hp, -, -⟩ := ho
    subst hp
    simp only [odometryOf, makePoseFromXYZRPY, Option.map_some, Option.some.injEq, Prod.mk.injEq] at hm
    refine ⟨_, hm.2.symm, ?_⟩
    have e : (⟨(rpyToQuaternionXYZ a.roll a.pitch a.yaw).toRotationMatrix, ![a.x, a.y, a.z]⟩ : Pose) = T := by
      apply Pose.ext
      · rw [h.linear]; exact (C50_rpy _ _ _).2.2
      · rw [h.x, h.y, h.z]
        funext i
        fin_cases i <;> rfl
    rw [e]
    exact (Msg.C96_round_trip flip T (isPlaceOf_rotation h)).2

section
variable {N : ℕ} {Scan : Type} (hN : 0 < N) (p : Ekf.EkfParams)
variable (run : Scan → Pose → Res Result) (flip : Rot.Quat → Bool) (init : Fin 36 → ℝ)

/-- The invariant of the loop. -/
structure LoopRest (a : Place) (T : Pose) (s : State N Scan) : Prop where
  filter : AtRest tf2 a s.filter
  sent : ∀ o ∈ s.sent, a.Shown o
  localizer : LocRest run T s.localizer

theorem atRest_make (a : Place) : AtRest tf2 a (NodeState.make N p) :=
  ⟨fun f hf => (by simp only [NodeState.make, reduceCtorEq] at hf), fun hc => (by cases hc),
    fun hc => (by cases hc), fun hc => (by cases hc),
    fun m hm => (by simp [NodeState.make, AgedQueue.make] at hm),
    fun m hm => (by simp [NodeState.make, AgedQueue.make] at hm)⟩

variable {a : Place} {T : Pose}

theorem localizerStep_rest {s s' : State N Scan} (hs : LoopRest run a T s) {b : Store.Act ℤ Scan}
    (hb : ∀ c : Place, Agrees run c T (.localizer b)) (h : localizerStep run s b = .ok s') :
    LoopRest run a T s' := by
  simp only [localizerStep, bind, Except.bind] at h
  cases h1 : Store.step run 1000000000 s.localizer b with
  | error x => rw [h1] at h; simp only [reduceCtorEq] at h
  | ok r =>
    rw [h1] at h
    simp only [pure, Except.pure] at h
    injection h with h
    subst h
    exact ⟨hs.filter, hs.sent, locRest_step hs.localizer hb h1⟩

variable (hp : IsPlaceOf a T)
include hp

theorem filterStep_rest {s s' : State N Scan} (hs : LoopRest run a T s) {e : Ekf.Event}
    (he : a.Agrees tf2 e) (h : filterStep hN tf2 p s e = .ok s') : LoopRest run a T s' := by
  simp only [filterStep, bind, Except.bind] at h
  cases h1 : Ekf.step hN tf2 p s.filter e with
  | error x => rw [h1] at h; simp only [reduceCtorEq] at h
  | ok r =>
    rw [h1] at h
    simp only [pure, Except.pure] at h
    injection h with h
    subst h
    obtain ⟨g1, g2⟩ := step_rest hN tf2 p hp.angles.yaw hs.filter he h1
    refine ⟨g1, fun o ho => ?_, hs.localizer⟩
    rcases List.mem_append.1 ho with ho | ho
    · exact hs.sent o ho
    · exact g2 o ho

theorem loopStep_rest {s s' : State N Scan} (hs : LoopRest run a T s) {e : Event Scan}
    (he : Agrees run a T e) (h : step hN tf2 p run flip init s e = .ok s') : LoopRest run a T s' := by
  cases e with
  | filter e => exact filterStep_rest hN p run hp hs he h
  | localizer b =>
    refine localizerStep_rest run hs (fun c => ?_) h
    cases b <;> exact he
  | toFilter i =>
    simp only [step] at h
    split at h
    · injection h with h; subst h; exact hs
    · rename_i o ho
      split at h
      · injection h with h; subst h; exact hs
      · rename_i m hm
        exact filterStep_rest hN p run hp hs (e := .pose m)
          (seen_of_pose hp flip init hm (hs.localizer.outputs o (List.mem_of_getElem? ho))) h
  | toLocalizer i =>
    simp only [step] at h
    split at h
    · injection h with h; subst h; exact hs
    · rename_i o ho
      split at h
      · injection h with h; subst h; exact hs
      · simp only [reduceCtorEq] at h
      · rename_i stamp m hm
        obtain ⟨m', h1, h2⟩ := odometry_of_shown hp flip (hs.sent o (List.mem_of_getElem? ho)) hm
        injection h1 with h1
        subst h1
        exact localizerStep_rest run hs (b := .insert stamp (Msg.getIsometry3d m)) (fun c => h2) h

theorem loop_rest (es : List (Event Scan)) (hes : ∀ e ∈ es, Agrees run a T e) {s s' : State N Scan}
    (hs : LoopRest run a T s) (h : exec hN tf2 p run flip init s es = .ok s') : LoopRest run a T s' := by
  induction es generalizing s with
  | nil => simp only [exec] at h; injection h with h; subst h; exact hs
  | cons e es ih =>
    simp only [exec, bind, Except.bind] at h
    cases h1 : step hN tf2 p run flip init s e with
    | error x => rw [h1] at h; simp only [reduceCtorEq] at h
    | ok s1 =>
      rw [h1] at h
      exact ih (fun e' he' => hes e' (List.mem_cons_of_mem _ he'))
        (loopStep_rest hN p run flip init hp hs (hes e List.mem_cons_self) h1) h

/-- C139: if all that comes from outside agrees with a vehicle standing at a place, then whatever the
order of events, and however messages between the two nodes are delayed, repeated, reordered or lost,
every message of the filter says that the vehicle stands there and every message of the localizer carries
exactly that pose. -/
theorem C139_at_rest (es : List (Event Scan)) (hes : ∀ e ∈ es, Agrees run a T e) {s : State N Scan}
    (h : exec hN tf2 p run flip init (State.new N p Scan) es = .ok s) :
    (∀ o ∈ s.sent, a.Shown o) ∧ ∀ o ∈ s.localizer.outputs, messagePose o = T := by
  have hr := loop_rest hN p run flip init hp es hes
    (⟨atRest_make p a, fun o ho => by simp [State.new] at ho, locRest_new⟩ :
      LoopRest run a T (State.new N p Scan)) h
  exact ⟨hr.sent, fun o ho => (hr.localizer.outputs o ho).1⟩

theorem loop_reached (es : List (Event Scan)) (hes : ∀ e ∈ es, Agrees run a T e) {s : State N Scan}
    (h : exec hN tf2 p run flip init (State.new N p Scan) es = .ok s) : LoopRest run a T s :=
  loop_rest hN p run flip init hp es hes
    (⟨atRest_make p a, fun o ho => by simp [State.new] at ho, locRest_new⟩ :
      LoopRest run a T (State.new N p Scan)) h

/-- C139: deliveries between the two nodes never fail, nor does scan matching. What can fail is what can
fail in the filter by itself (see `C70`), and handling a scan when all priors are more than a second newer
(see `C55`). -/
theorem C139_failures (es : List (Event Scan)) (hes : ∀ e ∈ es, Agrees run a T e) {s : State N Scan}
    (h : exec hN tf2 p run flip init (State.new N p Scan) es = .ok s) (e : Event Scan)
    (err : Err) (hf : step hN tf2 p run flip init s e = .error err) :
    (∃ e', e = .filter e' ∧ Ekf.step hN tf2 p s.filter e' = .error err) ∨
    (e = .localizer .remove ∧ err = .undefinedBehaviour ∧ ∃ m prior, s.localizer.pc = .got m prior ∧
      ∀ q ∈ s.localizer.store, m.stamp + 1000000000 < q.1) := by
  have hr := loop_reached hN p run flip init hp es hes h
  cases e with
  | filter e =>
    left
    refine ⟨e, rfl, ?_⟩
    simp only [step, filterStep, bind, Except.bind] at hf
    cases h1 : Ekf.step hN tf2 p s.filter e with
    | error x =>
      rw [h1] at hf
      simp only at hf
      injection hf with hf
      rw [hf]
    | ok r => rw [h1] at hf; simp only [pure, Except.pure, reduceCtorEq] at hf
  | toFilter i =>
    simp only [step] at hf
    split at hf
    · simp only [reduceCtorEq] at hf
    · split at hf
      · simp only [reduceCtorEq] at hf
      · simp only [filterStep, Ekf.step, bind, Except.bind, pure, Except.pure, reduceCtorEq] at hf
  | toLocalizer i =>
    simp only [step] at hf
    split at hf
    · simp only [reduceCtorEq] at hf
    · rename_i o ho
      split at hf
      · simp only [reduceCtorEq] at hf
      · rename_i stamp hm
        obtain ⟨m', h1, -⟩ := odometry_of_shown hp flip (hr.sent o (List.mem_of_getElem? ho)) hm
        simp only [reduceCtorEq] at h1
      · simp only [localizerStep, Store.step, bind, Except.bind, pure, Except.pure, reduceCtorEq] at hf
  | localizer b =>
    right
    obtain ⟨hs, hne⟩ := hr.localizer.inv
    have hst : Store.step run 1000000000 s.localizer b = .error err := by
      simp only [step, localizerStep, bind, Except.bind] at hf
      cases h1 : Store.step run 1000000000 s.localizer b with
      | error x =>
        rw [h1] at hf
        simp only at hf
        injection hf with hf
        rw [hf]
      | ok r => rw [h1] at hf; simp only [pure, Except.pure, reduceCtorEq] at hf
    cases b with
    | insert t v => simp only [Store.step, reduceCtorEq] at hst
    | size m =>
      simp only [Store.step] at hst
      split at hst
      · split_ifs at hst
      · simp only [reduceCtorEq] at hst
    | closest =>
      simp only [Store.step] at hst
      split at hst
      · rename_i m hpc
        obtain ⟨e, _, heq, _⟩ := Store.getClosest_spec hs (hne (by rw [hpc]; simp)) m.stamp
        rw [heq] at hst
        simp only [bind, Except.bind, reduceCtorEq] at hst
      · simp only [reduceCtorEq] at hst
    | remove =>
      simp only [Store.step] at hst
      split at hst
      · rename_i m prior hpc
        rw [Store.removeOlderThan_eq hs] at hst
        split_ifs at hst with hc
        · simp only [bind, Except.bind] at hst
          injection hst with hst
          exact ⟨rfl, hst.symm, m, prior, hpc, hc.2⟩
        · simp only [bind, Except.bind, reduceCtorEq] at hst
      · simp only [reduceCtorEq] at hst
    | publish =>
      simp only [Store.step] at hst
      split at hst
      · rename_i m prior hpc
        obtain ⟨r, hrun, -⟩ := hr.localizer.scan m (by rw [hpc]; rfl)
        have hp' := hr.localizer.prior m prior (.inr hpc)
        simp only [Store.Localizer.update, Store.Localizer.init, bind, Except.bind, hp', hrun,
          reduceCtorEq] at hst
      · simp only [reduceCtorEq] at hst

/-- C139: the loop goes on: when the localizer is not busy, and odometry of the filter reaches it that is
not more than a second newer than the next scan, the scan is handled and the pose published. -/
theorem C139_progress (es : List (Event Scan)) (hes : ∀ e ∈ es, Agrees run a T e) {s : State N Scan}
    (h : exec hN tf2 p run flip init (State.new N p Scan) es = .ok s) (hidle : s.localizer.pc = .idle)
    (i : ℕ) {stamp : ℤ} {frame child : List Char} {pose : Estimate} {c1 c2 : Fin 36 → ℝ} {vx wz : ℝ}
    (hi : s.sent[i]? = some (.odometry stamp frame child pose c1 vx wz c2))
    (m : Store.ScanMsg ℤ Scan) (hm : FitsAt run T m.scan) (ht : stamp ≤ m.stamp + 1000000000) :
    ∃ s', exec hN tf2 p run flip init s [.toLocalizer i, .localizer (.size m), .localizer .closest,
        .localizer .remove, .localizer .publish] = .ok s' ∧
      s'.localizer.outputs = s.localizer.outputs ++
        [.pose m.stamp "map" T [1, 1, 1, 1 / 10, 1 / 10, 1 / 10],
         .transform m.stamp "map" "lidar_feature_base_link" T] ∧
      s'.localizer.pc = .idle ∧ s'.filter = s.filter ∧ s'.sent = s.sent := by
  have hr := loop_reached hN p run flip init hp es hes h
  obtain ⟨r, hrun, hrT⟩ := hm
  have hshown := hr.sent _ (List.mem_of_getElem? hi)
  -- the odometry is stored
  obtain ⟨o, hoT⟩ : ∃ o : Msg.PoseMsg, odometryOf flip (.odometry stamp frame child pose c1 vx wz c2) =
      some (stamp, some o) ∧ Msg.getIsometry3d o = T := by
    have hd : odometryOf flip (.odometry stamp frame child pose c1 vx wz c2) =
      some (stamp, (makePoseFromXYZRPY pose).map (Msg.makePoseMsg flip)) := rfl
    obtain ⟨m', h1, h2⟩ := odometry_of_shown hp flip hshown hd
    exact ⟨m', by rw [hd, h1], h2⟩
  have e1 : step hN tf2 p run flip init s (.toLocalizer i) =
      .ok { s with localizer := { s.localizer with store := Store.insert stamp T s.localizer.store } } := by
    simp only [step, hi, hoT.1, localizerStep, Store.step, hoT.2, bind, Except.bind, pure, Except.pure]
  have hsorted : Store.Sorted (Store.insert stamp T s.localizer.store) :=
    Store.sorted_insert hr.localizer.inv.1 _ _
  have hne : Store.insert stamp T s.localizer.store ≠ [] := Store.insert_ne_nil _ _ _
  have hval : ∀ e ∈ Store.insert stamp T s.localizer.store, e.2 = T := by
    intro e he
    rcases mem_insert_value he with h | h
    · exact h
    · exact hr.localizer.store e h
  have hmem : (stamp, T) ∈ Store.insert stamp T s.localizer.store := by
    rw [Store.mem_insert hr.localizer.inv.1]; exact .inl rfl
  obtain ⟨e, he, heq, -⟩ := Store.getClosest_spec hsorted hne m.stamp
  have hrm : Store.removeOlderThan (m.stamp + 1000000000) (Store.insert stamp T s.localizer.store) =
      .ok ((Store.insert stamp T s.localizer.store).filter
        fun e => decide (e.1 ≤ m.stamp + 1000000000)) := by
    rw [Store.removeOlderThan_eq hsorted, if_neg]
    rintro ⟨-, hall⟩
    exact absurd (hall _ hmem) (not_lt.2 ht)
  have hsize : ¬ Store.size (Store.insert stamp T s.localizer.store) = 0 := by
    simpa [Store.size] using hne
  have heT := hval e he
  refine ⟨⟨s.filter, s.sent, ⟨(Store.insert stamp T s.localizer.store).filter
      fun e => decide (e.1 ≤ m.stamp + 1000000000), ⟨true, T⟩, .idle, s.localizer.outputs ++
        [.pose m.stamp "map" T [1, 1, 1, 1 / 10, 1 / 10, 1 / 10],
         .transform m.stamp "map" "lidar_feature_base_link" T]⟩⟩, ?_, rfl, rfl, rfl, rfl⟩
  rw [exec, e1]
  simp only [exec, bind, Except.bind, step, localizerStep, Store.step, hidle, hsize, if_false, heq, hrm, Store.Localizer.update, Store.Localizer.init, heT, hrun, Store.Localizer.get, hrT, pure,
    Except.pure]

end

/-- C139 with the optimiser and the problem of the localizer: a scan fits at a pose if every edge point,
moved by the pose, is on a line with its neighbours in the map, and every point of the downsampled surface
scan on a plane with its neighbours (`C85`). -/
theorem C139_scans {nth : Nth} (hn : Lib.IsNthElement nth) {llt : Llt} (hllt : LltSpec llt)
    {L : Loam.Libs} (hk : Loam.KnnSpec L.knn) (he : Loam.EigSpec L.eig) (hqr : Loam.QrSpec L.qr)
    (edgeMap surfaceMap : List Loam.V3) (maxIter : ℤ) (h1 : 1 ≤ maxIter) (T : Pose) (hR : IsRotation T.linear)
    (scan : List Loam.V3 × List Loam.V3) (hne : scan.1 ≠ [] ∨ L.downsample scan.2 ≠ [])
    (hE : ∀ p ∈ scan.1, ∃ X, Loam.nearestKSearch L.knn edgeMap (T.apply p) Loam.nNeighbors = .ok X ∧
      Loam.EdgeFits X T p)
    (hS : ∀ p ∈ L.downsample scan.2, ∃ X,
      Loam.nearestKSearch L.knn surfaceMap (T.apply p) Loam.nNeighbors = .ok X ∧ Loam.SurfaceFits X T p) :
    FitsAt (fun (scan : List Loam.V3 × List Loam.V3) pose => Opt.run nth llt
      (Loam.make L edgeMap surfaceMap Loam.nNeighbors scan.1 scan.2) maxIter pose) T scan := by
  obtain ⟨r, h2, h3, -⟩ := Loam.C85_true_pose hn hllt hk he hqr edgeMap surfaceMap scan.1 scan.2 maxIter h1 T hR
    hne hE hS
  exact ⟨r, h2, h3⟩

/-! ### Cases -/

/-- Events of the filter alone. -/
theorem exec_filter {N : ℕ} {Scan : Type} (hN : 0 < N) (p : Ekf.EkfParams)
    (run : Scan → Pose → Res Result) (flip : Rot.Quat → Bool) (init : Fin 36 → ℝ) (es : List Ekf.Event)
    (s : State N Scan) {f : NodeState N} {out : List Ekf.Output}
    (h : Ekf.run hN tf2 p s.filter es = .ok (f, out)) :
    exec hN tf2 p run flip init s (es.map .filter) = .ok ⟨f, s.sent ++ out, s.localizer⟩ := by
  induction es generalizing s f out with
  | nil =>
    simp only [Ekf.run] at h
    injection h with h
    injection h with h1 h2
    subst h1; subst h2
    simp [exec]
  | cons e es ih =>
    simp only [Ekf.run, bind, Except.bind] at h
    cases h1 : Ekf.step hN tf2 p s.filter e with
    | error x => rw [h1] at h; simp only [reduceCtorEq] at h
    | ok r =>
      rw [h1] at h
      simp only at h
      cases h2 : Ekf.run hN tf2 p r.1 es with
      | error x => rw [h2] at h; simp only [reduceCtorEq] at h
      | ok r2 =>
        rw [h2] at h
        simp only [pure, Except.pure] at h
        injection h with h
        injection h with h3 h4
        subst h3; subst h4
        simp only [List.map_cons, exec, step, filterStep, h1, bind, Except.bind, pure, Except.pure]
        have := ih ⟨r.1, s.sent ++ r.2, s.localizer⟩ (f := r2.1) (out := r2.2) h2
        simp only [List.append_assoc] at this
        exact this

/-- Height 10, level, facing along the x axis. -/
def exPlace : Place := ⟨0, 0, 10, 0, 0, 0⟩
def exPose : Pose := ⟨1, ![0, 0, 10]⟩

theorem exPlace_exPose : IsPlaceOf exPlace exPose := by
  have := Real.pi_pos
  refine ⟨rfl, rfl, rfl, ?_, ⟨⟨?_, ?_⟩, ⟨?_, ?_⟩, ⟨?_, ?_⟩⟩, ?_⟩
  · simp only [exPose, exPlace]
    ext i j
    fin_cases i <;> fin_cases j <;> simp [rotX, rotY, rotZ, Matrix.mul_apply, Fin.sum_univ_succ]
  all_goals simp only [exPlace]
  · linarith
  · linarith
  · linarith
  · linarith
  · linarith
  · linarith
  · norm_num

theorem tf2_identity : tf2.getRoll ⟨1, 0, 0, 0⟩ = some 0 ∧ tf2.getPitch ⟨1, 0, 0, 0⟩ = some 0 ∧
    tf2.getYaw ⟨1, 0, 0, 0⟩ = some 0 := by
  obtain ⟨h1, h2, h3⟩ := C138_read exPlace_exPose.angles ⟨1, 0, 0, 0⟩
    (by simp [Rot.Quat.IsUnit, Quat.toRot])
    (by
      have := exPlace_exPose.linear
      rw [← this]
      simp only [exPose]
      ext i j
      fin_cases i <;> fin_cases j <;> simp [Rot.Quat.toRotationMatrix, Quat.toRot])
  exact ⟨h1, h2, h3 exPlace_exPose.level⟩

/-- An initial pose and a tick; then the odometry of that tick, stamped 5, reaches the localizer, which
handles a scan stamped 7; its pose reaches the filter. -/
def exStart : List Ekf.Event :=
  [.initialPose (poseAt 10 0) identityTries, .timer 0 0 0 5 5 (fun _ => true) (fun _ => true)]

theorem exStart_agrees : ∀ e ∈ exStart, exPlace.Agrees tf2 e := by
  intro e he
  simp only [exStart, List.mem_cons, List.not_mem_nil, or_false] at he
  rcases he with rfl | rfl
  · refine ⟨rfl, tf2_identity.1, tf2_identity.2.1, by simp [poseAt], fun parent child t ht => ?_⟩
    have : t = ⟨0, 0, 0, ⟨1, 0, 0, 0⟩⟩ := by
      simpa [lookupTransform, lookupLoop, identityTries] using ht.symm
    subst this
    simp [poseAt, tf2_identity.2.2, exPlace]
  · trivial

example (run : Unit → Pose → Res Result) (hrun : FitsAt run exPose ()) (flip : Rot.Quat → Bool)
    (init : Fin 36 → ℝ) :
    ∃ s : State 3 Unit, exec (by norm_num) tf2 defaultParams run flip init (State.new 3 defaultParams Unit)
        (exStart.map .filter ++ [.toLocalizer 1, .localizer (.size ⟨7, ()⟩), .localizer .closest,
          .localizer .remove, .localizer .publish]) = .ok s ∧
      s.sent.length = 2 ∧ s.localizer.outputs =
        [.pose 7 "map" exPose [1, 1, 1, 1 / 10, 1 / 10, 1 / 10],
         .transform 7 "map" "lidar_feature_base_link" exPose] := by
  obtain ⟨f, out, h1, h2⟩ := C70_no_failure (N := 3) (by norm_num) tf2 defaultParams (1 / 50)
    (by norm_num) (by norm_num) (by norm_num [defaultParams]) (by simp [defaultParams]) exStart
    ⟨by
      intro e he
      simp only [exStart, List.mem_cons, List.not_mem_nil, or_false] at he
      rcases he with rfl | rfl
      · refine ⟨by simp [poseAt], rfl, rfl, rfl, fun a b => ⟨⟨0, by norm_num, rfl⟩, fun k t _ => rfl⟩⟩
      · trivial,
    by change List.Pairwise _ [0]; simp,
    by
      intro e he t1 t2 t3 t4 t5 sp st hee stamp hst
      simp [exStart, Event.poseStamp] at hst,
    by
      intro e he t1 t2 t3 t4 t5 sp st hee stamp hst
      simp [exStart, Event.twistStamp] at hst⟩
  have hE := exec_filter (Scan := Unit) (by norm_num) defaultParams run flip init exStart
    (State.new 3 defaultParams Unit) h1
  have hl : out.length = 2 := by
    have := congrArg List.length h2
    rw [List.length_map] at this
    rw [this]
    rfl
  match out, hl with
  | [o1, o2], _ =>
    have h3 : Output.header o2 = (false, 5, "map".toList, "base_link".toList) := by
      have := congrArg (fun l => l[1]?) h2
      exact Option.some.inj this
    cases o2 with
    | transform => simp [Output.header] at h3
    | odometry stamp frame child pose c1 vx wz c2 =>
      have hst : stamp = 5 := by
        simp only [Output.header, Prod.mk.injEq] at h3
        exact h3.2.1
      subst hst
      obtain ⟨s', g1, g2, -, -, g3⟩ := C139_progress (by norm_num) defaultParams run flip init exPlace_exPose
        (exStart.map .filter) (by
          intro e he
          obtain ⟨e', he', rfl⟩ := List.mem_map.1 he
          exact exStart_agrees e' he') hE rfl 1 rfl ⟨7, ()⟩ hrun (by norm_num)
      refine ⟨s', ?_, by rw [g3]; rfl, g2⟩
      have happ : ∀ (xs ys : List (Event Unit)) (s s1 : State 3 Unit),
          exec (by norm_num) tf2 defaultParams run flip init s xs = .ok s1 →
          exec (by norm_num) tf2 defaultParams run flip init s (xs ++ ys) =
            exec (by norm_num) tf2 defaultParams run flip init s1 ys := by
        intro xs ys
        induction xs with
        | nil => intro s s1 h; simp only [exec] at h; injection h with h; subst h; rfl
        | cons x xs ih =>
          intro s s1 h
          simp only [exec, bind, Except.bind, List.cons_append] at h ⊢
          cases hx : step (by norm_num) tf2 defaultParams run flip init s x with
          | error _ => rw [hx] at h; simp only [reduceCtorEq] at h
          | ok s2 => rw [hx] at h; exact ih s2 s1 h
      rw [happ _ _ _ _ hE]
      exact g1

end Verif.Loop
