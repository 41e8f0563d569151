/-
C44 the optimiser loop, C75 success on degenerate problems, C76 the reported error.
-/
import Verif.Props.C46

set_option autoImplicit false

namespace Verif.Opt

open Matrix Verif.Rot

/-! ### Specification -/

/-- A problem whose blocks are well formed at every pose. -/
def problem (blocks : Pose → List Block) : Problem := fun p =>
  .ok ((blocks p).map Block.jac, (blocks p).map Block.res)

/-- Squared lengths of the residuals. -/
def errorsOf (bs : List Block) : List ℝ := bs.map fun b => sqLen b.r

/-- `s` is the scale of the errors: `1.4826...` times the median absolute deviation. -/
def IsScale (es : List ℝ) (s : ℝ) : Prop :=
  ∃ m d, Lib.IsMedian es m ∧ Lib.IsMedian (es.map fun x => |x - m|) d ∧ s = 1.482602218505602 * d

/-- The Huber weights of the blocks at scale `s`. -/
noncomputable def weightsOf (bs : List Block) (s : ℝ) : List ℝ :=
  (errorsOf bs).map fun e => huberDerivative (e / (s + 1 / 10 ^ 16)) 1.345

/-- Some direction is hardly observed. -/
def Degenerate (bs : List Block) : Prop := ∃ l, IsEigenvalue (gram bs) l ∧ |l| < 1 / 10

/-- `dx` is the step at orientation `q`: zero for degenerate problems, otherwise the unique minimiser of
the weighted linearised cost. -/
def IsStep (q : Quat) (bs : List Block) (ws : List ℝ) (dx : Fin 6 → ℝ) : Prop :=
  (Degenerate bs → dx = 0) ∧
  (¬ Degenerate bs → ∀ dy, dy ≠ dx → cost (makeM q) (ws.zip bs) dx < cost (makeM q) (ws.zip bs) dy)

/-- An iterate: orientation and position. -/
abbrev Iterate := Quat × (Fin 3 → ℝ)

/-- The pose of an iterate. -/
def Iterate.pose (x : Iterate) : Pose := makePose x.1 x.2

/-- One update from `x` to `y`: `e` and `s` are total error and scale at `x`; `small` says whether the
update is below the convergence thresholds. -/
def Update (blocks : Pose → List Block) (x y : Iterate) (e s : ℝ) (small : Prop) : Prop :=
  ∃ dx : Fin 6 → ℝ, blocks x.pose ≠ [] ∧ e = (errorsOf (blocks x.pose)).sum ∧
    IsScale (errorsOf (blocks x.pose)) s ∧
    IsStep x.1 (blocks x.pose) (weightsOf (blocks x.pose) s) dx ∧
    y.1 = x.1.mul (angleAxisToQuaternion ![dx 0, dx 1, dx 2]) ∧ y.2 = x.2 + ![dx 3, dx 4, dx 5] ∧
    (small ↔ Loc.len (angleAxisToQuaternion ![dx 0, dx 1, dx 2]).vec < 1 / 1000 ∧
      Loc.len ![dx 3, dx 4, dx 5] < 1 / 1000)

/-- The result `r` of a run of at most `n` updates that begins at `x0` with loop counter `i0` and the
previous error `e0` and scale `s0`. `X 0, …, X k` are the iterates, `E (i + 1)` and `S (i + 1)` error and
scale at `X i`. -/
def IsRun (blocks : Pose → List Block) (n : ℕ) (i0 : ℤ) (x0 : Iterate) (s0 e0 : ℝ) (r : Result) : Prop :=
  ∃ (k : ℕ) (X : ℕ → Iterate) (E S : ℕ → ℝ) (small : ℕ → Prop),
    X 0 = x0 ∧ E 0 = e0 ∧ S 0 = s0 ∧ k ≤ n ∧
    (∀ i < k, Update blocks (X i) (X (i + 1)) (E (i + 1)) (S (i + 1)) (small i) ∧
      E (i + 1) ≤ E i ∧ S (i + 1) ≤ S i) ∧
    (∀ i, i + 1 < k → ¬ small i) ∧
    r.pose = (X k).pose ∧
    match r.message with
    | .emptyInput => k < n ∧ (∀ i < k, ¬ small i) ∧ blocks (X k).pose = [] ∧
        r.iteration = i0 + k ∧ r.error = 0 ∧ r.errorScale = 0 ∧ r.success = false
    | .largerError => k < n ∧ (∀ i < k, ¬ small i) ∧ blocks (X k).pose ≠ [] ∧
        r.iteration = i0 + k ∧ r.error = (errorsOf (blocks (X k).pose)).sum ∧
        IsScale (errorsOf (blocks (X k).pose)) r.errorScale ∧ E k < r.error ∧ r.success = true
    | .largerScale => k < n ∧ (∀ i < k, ¬ small i) ∧ blocks (X k).pose ≠ [] ∧
        r.iteration = i0 + k ∧ r.error = (errorsOf (blocks (X k).pose)).sum ∧
        IsScale (errorsOf (blocks (X k).pose)) r.errorScale ∧ r.error ≤ E k ∧ S k < r.errorScale ∧
        r.success = true
    | .converged => 0 < k ∧ small (k - 1) ∧ r.iteration = i0 + k - 1 ∧ r.error = E k ∧
        r.errorScale = S k ∧ r.success = true
    | .maximumIteration => k = n ∧ (∀ i < k, ¬ small i) ∧ r.iteration = i0 + n ∧ r.error = E k ∧
        r.errorScale = S k ∧ r.success = false

/-! ### Lemmas -/

theorem computeErrors_blocks (bs : List Block) : computeErrors (bs.map Block.res) = errorsOf bs := by
  simp only [computeErrors, errorsOf, List.map_map]
  refine List.map_congr_left fun b _ => ?_
  simp only [Function.comp, Block.res, sqLen_eq]
  rfl

theorem isStep_exists {llt : Llt} (hllt : LltSpec llt) (q : Quat) (hq : q.IsUnit) (bs : List Block)
    (s : ℝ) : ∃ dx, weightedUpdate llt (makeM q) (weightsOf bs s) (bs.map Block.jac)
      (bs.map Block.res) = .ok dx ∧ IsStep q bs (weightsOf bs s) dx := by
  have hl : (weightsOf bs s).length = bs.length := by simp [weightsOf, errorsOf]
  by_cases hd : Degenerate bs
  · exact ⟨0, C46_degenerate llt _ _ bs hl hd, fun _ => rfl, fun h => absurd hd h⟩
  · obtain ⟨dx, h1, -, h2⟩ := C46_step hllt q hq (weightsOf bs s) bs hl (by
      intro w hw
      obtain ⟨e, -, rfl⟩ := List.mem_map.1 hw
      exact ((C45_weight _ (by norm_num)).1 _).1) hd
    exact ⟨dx, h1, fun h => absurd h hd, fun _ => h2⟩

/-- A sequence with a new first element. -/
def consSeq {α : Type*} (a : α) (f : ℕ → α) : ℕ → α
  | 0 => a
  | n + 1 => f n

theorem isRun_cons {blocks : Pose → List Block} {n : ℕ} {i0 : ℤ} {x y : Iterate} {s0 e0 s e : ℝ}
    {r : Result} {small0 : Prop} (hupd : Update blocks x y e s small0) (hns : ¬ small0) (he : e ≤ e0)
    (hs : s ≤ s0) (h : IsRun blocks n (i0 + 1) y s e r) : IsRun blocks (n + 1) i0 x s0 e0 r := by
  obtain ⟨k, X, E, S, small, hX, hE, hS, hk, hall, hsm, hpose, hmsg⟩ := h
  have hsm' : (∀ i < k, ¬ small i) → ∀ i < k + 1, ¬ consSeq small0 small i := by
    intro h i hi
    cases i with
    | zero => exact hns
    | succ i => exact h i (by omega)
  refine ⟨k + 1, consSeq x X, consSeq e0 E, consSeq s0 S, consSeq small0 small, rfl, rfl, rfl,
    by omega, ?_, ?_, hpose, ?_⟩
  · intro i hi
    cases i with
    | zero =>
      refine ⟨?_, ?_, ?_⟩
      · change Update blocks x (X 0) (E 0) (S 0) small0
        rw [hX, hE, hS]
        exact hupd
      · change E 0 ≤ e0
        rw [hE]; exact he
      · change S 0 ≤ s0
        rw [hS]; exact hs
    | succ i => exact hall i (by omega)
  · intro i hi
    cases i with
    | zero => exact hns
    | succ i => exact hsm i (by omega)
  · cases hrm : r.message with
    | emptyInput =>
      rw [hrm] at hmsg
      obtain ⟨h1, h2, h3, h4, h5⟩ := hmsg
      exact ⟨by omega, hsm' h2, h3, by rw [h4]; push_cast; ring, h5⟩
    | largerError =>
      rw [hrm] at hmsg
      obtain ⟨h1, h2, h3, h4, h5⟩ := hmsg
      exact ⟨by omega, hsm' h2, h3, by rw [h4]; push_cast; ring, h5⟩
    | largerScale =>
      rw [hrm] at hmsg
      obtain ⟨h1, h2, h3, h4, h5⟩ := hmsg
      exact ⟨by omega, hsm' h2, h3, by rw [h4]; push_cast; ring, h5⟩
    | converged =>
      rw [hrm] at hmsg
      obtain ⟨h1, h2, h3, h4⟩ := hmsg
      obtain ⟨j, rfl⟩ : ∃ j, k = j + 1 := ⟨k - 1, by omega⟩
      exact ⟨by omega, h2, by rw [h3]; push_cast; ring, h4⟩
    | maximumIteration =>
      rw [hrm] at hmsg
      obtain ⟨h1, h2, h3, h4⟩ := hmsg
      exact ⟨by omega, hsm' h2, by rw [h3]; push_cast; ring, h4⟩

open Classical in
theorem runLoop_isRun {nth : Nth} (hn : Lib.IsNthElement nth) {llt : Llt} (hllt : LltSpec llt)
    (blocks : Pose → List Block) (n : ℕ) (iter : ℤ) (q : Quat) (hq : q.IsUnit) (t : Fin 3 → ℝ)
    (ps pe : ℝ) :
    ∃ r, runLoop nth llt (problem blocks) n iter q t ps pe = .ok r ∧
      IsRun blocks n iter (q, t) ps pe r := by
  induction n generalizing iter q t ps pe with
  | zero =>
    refine ⟨_, rfl, 0, fun _ => (q, t), fun _ => pe, fun _ => ps, fun _ => False, rfl, rfl, rfl, le_rfl,
      fun i hi => absurd hi (by omega), fun i hi => absurd hi (by omega), rfl, rfl,
      fun i hi => absurd hi (by omega), ?_, rfl, rfl, rfl⟩
    simp
  | succ n ih =>
    by_cases hb : blocks (makePose q t) = []
    · refine ⟨⟨makePose q t, .emptyInput, iter, 0, 0, false⟩, ?_, 0, fun _ => (q, t), fun _ => pe,
        fun _ => ps, fun _ => False, rfl, rfl, rfl, by omega, fun i hi => absurd hi (by omega),
        fun i hi => absurd hi (by omega), rfl, by omega, fun i hi => absurd hi (by omega), hb, ?_, rfl,
        rfl, rfl⟩
      · simp [runLoop, problem, hb, bind, Except.bind, pure, Except.pure]
      · simp
    · set bs := blocks (makePose q t) with hbs
      have hlen : ¬ (bs.map Block.res).length = 0 := by simpa using hb
      have hes : errorsOf bs ≠ [] := by simpa [errorsOf] using hb
      obtain ⟨m, d, s, hm, hd, hs, hs', -⟩ := (C73_scale hn (errorsOf bs)).2 hes
      have hscale : IsScale (errorsOf bs) s := ⟨m, d, hm, hd, hs'⟩
      have hnorm : normalizeErrorScale nth (errorsOf bs) =
          .ok ((errorsOf bs).map fun e => e / (s + 1 / 10 ^ 16), s) := by
        simp [normalizeErrorScale, hs, bind, Except.bind, pure, Except.pure]
      have hunfold : runLoop nth llt (problem blocks) (n + 1) iter q t ps pe =
          (if pe < (errorsOf bs).sum then
            .ok ⟨makePose q t, .largerError, iter, (errorsOf bs).sum, s, true⟩
          else if ps < s then .ok ⟨makePose q t, .largerScale, iter, (errorsOf bs).sum, s, true⟩
          else do
            let (dq, dt) ← calcUpdate llt q (weightsOf bs s) (bs.map Block.jac) (bs.map Block.res)
            let q := q.mul dq
            let t := t + dt
            if checkConvergence dq dt then
              return ⟨makePose q t, .converged, iter, (errorsOf bs).sum, s, true⟩
            runLoop nth llt (problem blocks) n (iter + 1) q t s (errorsOf bs).sum) := by
        rw [runLoop]
        simp only [problem, bind, Except.bind, ← hbs]
        rw [if_neg hlen]
        simp only [computeErrors_blocks, hnorm]
        have hw : computeWeights ((errorsOf bs).map fun e => e / (s + 1 / 10 ^ 16)) = weightsOf bs s := by
          simp [computeWeights, weightsOf, huberK, Function.comp_def]
        simp only [hw]
        rfl
      by_cases he : pe < (errorsOf bs).sum
      · refine ⟨⟨makePose q t, .largerError, iter, (errorsOf bs).sum, s, true⟩, ?_, 0, fun _ => (q, t),
          fun _ => pe, fun _ => ps, fun _ => False, rfl, rfl, rfl, by omega,
          fun i hi => absurd hi (by omega), fun i hi => absurd hi (by omega), rfl, by omega,
          fun i hi => absurd hi (by omega), hb, ?_, rfl, hscale, he, rfl⟩
        · rw [hunfold, if_pos he]
        · simp
      · by_cases hsc : ps < s
        · refine ⟨⟨makePose q t, .largerScale, iter, (errorsOf bs).sum, s, true⟩, ?_, 0, fun _ => (q, t),
            fun _ => pe, fun _ => ps, fun _ => False, rfl, rfl, rfl, by omega,
            fun i hi => absurd hi (by omega), fun i hi => absurd hi (by omega), rfl, by omega,
            fun i hi => absurd hi (by omega), hb, ?_, rfl, hscale, not_lt.1 he, hsc, rfl⟩
          · rw [hunfold, if_neg he, if_pos hsc]
          · simp
        · obtain ⟨dx, hdx, hstep⟩ := isStep_exists hllt q hq bs s
          set dq := angleAxisToQuaternion ![dx 0, dx 1, dx 2] with hdq
          set dt : Fin 3 → ℝ := ![dx 3, dx 4, dx 5] with hdt
          have hcalc : calcUpdate llt q (weightsOf bs s) (bs.map Block.jac) (bs.map Block.res) =
              .ok (dq, dt) := by
            have e1 : (fun i : Fin 3 => dx (Fin.castAdd 3 i)) = ![dx 0, dx 1, dx 2] := by
              funext i; fin_cases i <;> rfl
            have e2 : (fun i : Fin 3 => dx (Fin.natAdd 3 i)) = ![dx 3, dx 4, dx 5] := by
              funext i; fin_cases i <;> rfl
            simp only [calcUpdate, hdx, bind, Except.bind, pure, Except.pure, e1, e2]
            rfl
          have hupd : Update blocks (q, t) (q.mul dq, t + dt) (errorsOf bs).sum s
              (checkConvergence dq dt) := ⟨dx, hb, rfl, hscale, hstep, rfl, rfl, Iff.rfl⟩
          rw [hunfold, if_neg he, if_neg hsc, hcalc]
          simp only [bind, Except.bind]
          by_cases hconv : checkConvergence dq dt
          · rw [if_pos hconv]
            refine ⟨_, rfl, 1, fun i => if i = 0 then (q, t) else (q.mul dq, t + dt),
              fun i => if i = 0 then pe else (errorsOf bs).sum, fun i => if i = 0 then ps else s,
              fun _ => True, rfl, rfl, rfl, by omega, ?_, fun i hi => absurd hi (by omega), rfl, by omega,
              trivial, ?_, rfl, rfl, rfl⟩
            · intro i hi
              obtain rfl : i = 0 := by omega
              refine ⟨?_, not_lt.1 he, not_lt.1 hsc⟩
              obtain ⟨dx', h1, h2, h3, h4, h5, h6, h7⟩ := hupd
              exact ⟨dx', h1, h2, h3, h4, h5, h6, ⟨fun _ => h7.1 hconv, fun _ => trivial⟩⟩
            · simp
          · rw [if_neg hconv]
            obtain ⟨r, hr, hrun⟩ :=
              ih (iter + 1) (q.mul dq) (mul_isUnit q dq hq (C51_unit _)) (t + dt) s (errorsOf bs).sum
            exact ⟨r, hr, isRun_cons hupd hconv (not_lt.1 he) (not_lt.1 hsc) hrun⟩

/-- The first iterate of a run. -/
noncomputable def start (initial : Pose) : Iterate := (Quat.ofMatrix initial.linear, initial.translation)

/-! ### C44 -/

/-- C44: a run always ends, without failure, after at most `max_iter` updates; the iterates, the reason
for stopping, the iteration count and the reported numbers are those of the specification `IsRun`. -/
theorem C44_run {nth : Nth} (hn : Lib.IsNthElement nth) {llt : Llt} (hllt : LltSpec llt)
    (blocks : Pose → List Block) (maxIter : ℤ) (h0 : 0 ≤ maxIter) (initial : Pose)
    (hR : IsRotation initial.linear) :
    ∃ r, run nth llt (problem blocks) maxIter initial = .ok r ∧
      IsRun blocks maxIter.toNat 0 (start initial) dblMax dblMax r := by
  unfold run
  simp only
  rw [if_neg (not_lt.2 h0)]
  exact runLoop_isRun hn hllt blocks _ 0 _ (C71_matrix_to_quaternion _ hR).1 _ _ _

/-- C44: the run succeeds exactly when it stopped because of convergence, growing error or growing
scale. -/
theorem C44_success {nth : Nth} (hn : Lib.IsNthElement nth) {llt : Llt} (hllt : LltSpec llt)
    (blocks : Pose → List Block) (maxIter : ℤ) (initial : Pose) (hR : IsRotation initial.linear)
    (r : Result) (h : run nth llt (problem blocks) maxIter initial = .ok r) :
    (r.success = true ↔ r.message = .converged ∨ r.message = .largerError ∨ r.message = .largerScale) ∧
    (0 ≤ maxIter → 0 ≤ r.iteration ∧ r.iteration ≤ maxIter ∧
      (r.iteration = maxIter ↔ r.message = .maximumIteration)) := by
  by_cases h0 : 0 ≤ maxIter
  · obtain ⟨r', hr', k, X, E, S, small, -, -, -, hk, -, -, -, hmsg⟩ :=
      C44_run hn hllt blocks maxIter h0 initial hR
    rw [h] at hr'
    injection hr' with hr'
    subst hr'
    cases hm : r.message <;> rw [hm] at hmsg
    · obtain ⟨h1, -, -, h2, -, -, h3⟩ := hmsg
      refine ⟨by simp [h3], fun _ => ⟨by omega, by omega, ?_⟩⟩
      simp only [reduceCtorEq, iff_false]
      omega
    · obtain ⟨h1, -, -, h2, -, -, -, h3⟩ := hmsg
      refine ⟨by simp [h3], fun _ => ⟨by omega, by omega, ?_⟩⟩
      simp only [reduceCtorEq, iff_false]
      omega
    · obtain ⟨h1, -, -, h2, -, -, -, -, h3⟩ := hmsg
      refine ⟨by simp [h3], fun _ => ⟨by omega, by omega, ?_⟩⟩
      simp only [reduceCtorEq, iff_false]
      omega
    · obtain ⟨h1, -, h2, -, -, h3⟩ := hmsg
      refine ⟨by simp [h3], fun _ => ⟨by omega, by omega, ?_⟩⟩
      simp only [reduceCtorEq, iff_false]
      omega
    · obtain ⟨h1, -, h2, -, -, h3⟩ := hmsg
      refine ⟨by simp [h3], fun _ => ⟨by omega, by omega, ?_⟩⟩
      simp only [iff_true]
      omega
  · unfold run at h
    simp only at h
    rw [if_pos (not_le.1 h0)] at h
    injection h with h
    subst h
    exact ⟨by simp, fun h' => absurd h' h0⟩

/-- C44: empty input and non-positive iteration limits return the initial pose unchanged and report
no success. -/
theorem C44_unchanged (nth : Nth) (llt : Llt) (blocks : Pose → List Block) (maxIter : ℤ)
    (initial : Pose) (hR : IsRotation initial.linear)
    (h : maxIter ≤ 0 ∨ blocks initial = []) :
    ∃ r, run nth llt (problem blocks) maxIter initial = .ok r ∧ r.pose = initial ∧ r.success = false := by
  have hp : makePose (Quat.ofMatrix initial.linear) initial.translation = initial := by
    unfold makePose
    rw [(C71_matrix_to_quaternion _ hR).2]
  unfold run
  simp only
  by_cases h0 : maxIter < 0
  · rw [if_pos h0]
    exact ⟨_, rfl, hp, rfl⟩
  · rw [if_neg h0]
    cases hn : maxIter.toNat with
    | zero => exact ⟨_, rfl, hp, rfl⟩
    | succ n =>
      have hb : blocks initial = [] := by
        rcases h with h | h
        · omega
        · exact h
      refine ⟨⟨initial, .emptyInput, 0, 0, 0, false⟩, ?_, rfl, rfl⟩
      simp [runLoop, problem, hp, hb, bind, Except.bind, pure, Except.pure]

/-- C44: the orientation stays a unit quaternion at every iterate. -/
theorem run_unit {blocks : Pose → List Block} {k : ℕ} {X : ℕ → Iterate} {E S : ℕ → ℝ}
    {small : ℕ → Prop} (h0 : (X 0).1.IsUnit)
    (h : ∀ i < k, Update blocks (X i) (X (i + 1)) (E (i + 1)) (S (i + 1)) (small i)) :
    ∀ i ≤ k, (X i).1.IsUnit := by
  intro i
  induction i with
  | zero => exact fun _ => h0
  | succ i ih =>
    intro hi
    obtain ⟨dx, -, -, -, -, h5, -⟩ := h i (by omega)
    rw [h5]
    exact mul_isUnit _ _ (ih (by omega)) (C51_unit _)

/-- C44: the returned pose is rigid: its linear part is a rotation. -/
theorem C44_rigid {nth : Nth} (hn : Lib.IsNthElement nth) {llt : Llt} (hllt : LltSpec llt)
    (blocks : Pose → List Block) (maxIter : ℤ) (initial : Pose) (hR : IsRotation initial.linear)
    (r : Result) (h : run nth llt (problem blocks) maxIter initial = .ok r) :
    IsRotation r.pose.linear := by
  have hu := (C71_matrix_to_quaternion _ hR).1
  by_cases h0 : 0 ≤ maxIter
  · obtain ⟨r', hr', k, X, E, S, small, hX, -, -, hk, hall, -, hpose, -⟩ :=
      C44_run hn hllt blocks maxIter h0 initial hR
    rw [h] at hr'
    injection hr' with hr'
    subst hr'
    rw [hpose]
    refine toRotationMatrix_rotation _ (run_unit (E := E) (S := S) (small := small) ?_
      (fun i hi => (hall i hi).1) k le_rfl)
    rw [hX]
    exact hu
  · obtain ⟨r', hr', hp, -⟩ := C44_unchanged nth llt blocks maxIter initial hR (Or.inl (by omega))
    rw [h] at hr'
    injection hr' with hr'
    subst hr'
    rw [hp]
    exact hR

/-- C44: the errors of the iterates from which an update was made never grow, and never exceed the
error of the initial pose; unless the run stops because of a larger error, the reported error
does not exceed the error of the initial pose either. -/
theorem C44_descent_partial {nth : Nth} (hn : Lib.IsNthElement nth) {llt : Llt} (hllt : LltSpec llt)
    (blocks : Pose → List Block) (maxIter : ℤ) (h1 : 1 ≤ maxIter) (initial : Pose)
    (hR : IsRotation initial.linear) (hE : (errorsOf (blocks initial)).sum ≤ dblMax)
    (hne : blocks initial ≠ [])
    (r : Result) (h : run nth llt (problem blocks) maxIter initial = .ok r)
    (hm : r.message ≠ .largerError) :
    r.error ≤ (errorsOf (blocks initial)).sum := by
  obtain ⟨r', hr', k, X, E, S, small, hX, hE0, hS0, hk, hall, -, hpose, hmsg⟩ :=
    C44_run hn hllt blocks maxIter (by omega) initial hR
  rw [h] at hr'
  injection hr' with hr'
  subst hr'
  have hp : (X 0).pose = initial := by
    rw [hX]
    unfold Iterate.pose start makePose
    simp only
    rw [(C71_matrix_to_quaternion _ hR).2]
  have hnn : 0 ≤ (errorsOf (blocks initial)).sum := List.sum_nonneg (by
    intro x hx
    obtain ⟨b, -, rfl⟩ := List.mem_map.1 hx
    exact sqLen_nonneg _)
  have hmono : ∀ i, 1 ≤ i → i ≤ k → E i ≤ (errorsOf (blocks initial)).sum := by
    intro i hi
    induction i, hi using Nat.le_induction with
    | base =>
      intro hk1
      obtain ⟨⟨dx, -, h2, -⟩, -⟩ := hall 0 (by omega)
      rw [h2, hp]
    | succ i hi ih =>
      intro hk1
      exact (hall i (by omega)).2.1.trans (ih (by omega))
  cases hm' : r.message <;> rw [hm'] at hmsg
  · rw [hmsg.2.2.2.2.1]
    exact hnn
  · exact absurd hm' hm
  · obtain ⟨-, -, -, -, h5, -, h7, -⟩ := hmsg
    by_cases hk0 : k = 0
    · subst hk0
      rw [h5, hp]
    · exact h7.trans (hmono k (by omega) le_rfl)
  · obtain ⟨h2, -, -, h5, -⟩ := hmsg
    rw [h5]
    exact hmono k (by omega) le_rfl
  · obtain ⟨h2, -, -, h5, -⟩ := hmsg
    rw [h5]
    exact hmono k (by omega) le_rfl

/-- C44, the clause about never returning a worse pose is false: whenever a run stops because of a
larger error (and that is after at least one update), it returns, as a success, a pose whose error is
larger than that of the iterate before. -/
theorem C44_larger_error {nth : Nth} (hn : Lib.IsNthElement nth) {llt : Llt} (hllt : LltSpec llt)
    (blocks : Pose → List Block) (maxIter : ℤ) (initial : Pose)
    (hR : IsRotation initial.linear)
    (r : Result) (h : run nth llt (problem blocks) maxIter initial = .ok r)
    (hm : r.message = .largerError) (hi : 0 < r.iteration) :
    r.success = true ∧ ∃ x : Iterate, blocks x.pose ≠ [] ∧
      (errorsOf (blocks x.pose)).sum < (errorsOf (blocks r.pose)).sum ∧
      ∃ (y : Iterate) (s : ℝ) (small : Prop), y.pose = r.pose ∧
        Update blocks x y (errorsOf (blocks x.pose)).sum s small := by
  have h0 : 0 ≤ maxIter := by
    by_contra h0
    unfold run at h
    simp only at h
    rw [if_pos (not_le.1 h0)] at h
    injection h with h
    subst h
    cases hm
  obtain ⟨r', hr', k, X, E, S, small, hX, hE0, hS0, hk, hall, -, hpose, hmsg⟩ :=
    C44_run hn hllt blocks maxIter h0 initial hR
  rw [h] at hr'
  injection hr' with hr'
  subst hr'
  rw [hm] at hmsg
  obtain ⟨-, -, -, h4, h5, -, h7, h8⟩ := hmsg
  obtain ⟨j, rfl⟩ : ∃ j, k = j + 1 := ⟨k - 1, by omega⟩
  have hj := (hall j (by omega)).1
  obtain ⟨dx, h9, h10, -⟩ := id hj
  refine ⟨h8, X j, h9, ?_, X (j + 1), S (j + 1), small j, hpose.symm, ?_⟩
  · rw [← h10, hpose, ← h5]
    exact h7
  · rw [← h10]
    exact hj

/-! ### C75 -/

/-- C75 is false: every run that begins at a pose where the problem is degenerate reports success at
once, with the initial pose and whatever error it has. -/
theorem C75_degenerate_success {nth : Nth} (hn : Lib.IsNthElement nth) {llt : Llt}
    (hllt : LltSpec llt) (blocks : Pose → List Block) (maxIter : ℤ) (h1 : 1 ≤ maxIter) (initial : Pose)
    (hR : IsRotation initial.linear) (hne : blocks initial ≠ []) (hd : Degenerate (blocks initial))
    (hE : (errorsOf (blocks initial)).sum ≤ dblMax)
    (hS : ∀ s, IsScale (errorsOf (blocks initial)) s → s ≤ dblMax) :
    ∃ r, run nth llt (problem blocks) maxIter initial = .ok r ∧ r.success = true ∧
      r.message = .converged ∧ r.pose = initial ∧ r.error = (errorsOf (blocks initial)).sum := by
  obtain ⟨r, hr, k, X, E, S, small, hX, hE0, hS0, hk, hall, hsm, hpose, hmsg⟩ :=
    C44_run hn hllt blocks maxIter (by omega) initial hR
  have hp : (X 0).pose = initial := by
    rw [hX]
    unfold Iterate.pose start makePose
    simp only
    rw [(C71_matrix_to_quaternion _ hR).2]
  have hk0 : k ≠ 0 := by
    rintro rfl
    rw [hp] at hmsg
    cases hm : r.message <;> rw [hm] at hmsg
    · exact hne hmsg.2.2.1
    · obtain ⟨-, -, -, -, h5, -, h7, -⟩ := hmsg
      rw [hE0, h5] at h7
      exact absurd h7 (not_lt.2 hE)
    · obtain ⟨-, -, -, -, -, h6, -, h8, -⟩ := hmsg
      rw [hS0] at h8
      exact absurd h8 (not_lt.2 (hS _ h6))
    · exact absurd hmsg.1 (by omega)
    · have := hmsg.1
      omega
  obtain ⟨dx, h2, h3, h4, h5, h6, h7, h8⟩ := (hall 0 (by omega)).1
  rw [hp] at h3 h5
  have hdx : dx = 0 := h5.1 hd
  have hz : (![dx 0, dx 1, dx 2] : Fin 3 → ℝ) = 0 := by
    rw [hdx]; ext i; fin_cases i <;> rfl
  have hz' : (![dx 3, dx 4, dx 5] : Fin 3 → ℝ) = 0 := by
    rw [hdx]; ext i; fin_cases i <;> rfl
  have hid : angleAxisToQuaternion 0 = ⟨1, 0, 0, 0⟩ := C51_near_zero 0 (by
    simp [Rot.norm])
  rw [hz, hid] at h6 h8
  rw [hz'] at h7 h8
  have hsmall : small 0 := by
    rw [h8]
    have hv : Quat.vec ⟨1, 0, 0, 0⟩ = 0 := by ext i; fin_cases i <;> rfl
    rw [hv]
    simp [Loc.len]
  have hk1 : k = 1 := by
    by_contra hne'
    exact hsm 0 (by omega) hsmall
  subst hk1
  have hX1 : X 1 = X 0 := by
    refine Prod.ext ?_ ?_
    · rw [h6]; simp [Quat.mul]
    · rw [h7, add_zero]
  refine ⟨r, hr, ?_⟩
  rw [hpose, hX1, hp]
  cases hm : r.message <;> rw [hm] at hmsg
  · exact absurd hsmall (hmsg.2.1 0 (by omega))
  · exact absurd hsmall (hmsg.2.1 0 (by omega))
  · exact absurd hsmall (hmsg.2.1 0 (by omega))
  · exact ⟨hmsg.2.2.2.2.2, rfl, rfl, by rw [hmsg.2.2.2.1]; exact h3⟩
  · exact absurd hsmall (hmsg.2.1 0 (by omega))

theorem isMedian_singleton {x m : ℝ} (h : Lib.IsMedian [x] m) : m = x := by
  obtain ⟨a, b, ha, hb, rfl⟩ := h
  have h1 : a = x := by simpa using ha.1
  have h2 : b = x := by simpa using hb.1
  rw [h1, h2]
  ring

theorem isScale_singleton {x s : ℝ} (h : IsScale [x] s) : s = 0 := by
  obtain ⟨m, d, hm, hd, rfl⟩ := h
  rw [isMedian_singleton hm] at hd
  have h : d = |x - x| := isMedian_singleton hd
  rw [h]
  simp

theorem dblMax_large : (1000 : ℝ) ≤ dblMax := by
  unfold dblMax
  have h : (1 : ℝ) ≤ 2 ^ 971 := one_le_pow₀ (by norm_num)
  have h2 : (1000 : ℝ) ≤ 2 ^ 53 - 1 := by norm_num
  calc (1000 : ℝ) = 1000 * 1 := by norm_num
    _ ≤ (2 ^ 53 - 1) * 2 ^ 971 := mul_le_mul h2 h (by norm_num) (by norm_num)

/-- C75: a concrete degenerate problem: one residual that no motion can change. -/
theorem C75_degenerate_violated {nth : Nth} (hn : Lib.IsNthElement nth) {llt : Llt}
    (hllt : LltSpec llt) :
    Degenerate [⟨1, 0, fun _ => 5⟩] ∧
    ∃ r, run nth llt (problem fun _ => [⟨1, 0, fun _ => 5⟩]) 40 ⟨1, 0⟩ = .ok r ∧ r.success = true ∧
      r.message = .converged ∧ r.pose = ⟨1, 0⟩ ∧ r.error = 25 := by
  have hd : Degenerate [⟨1, 0, fun _ => 5⟩] := by
    refine ⟨0, ⟨fun _ => 1, ?_, ?_⟩, by norm_num⟩
    · intro h
      have := congrFun h 0
      simp at this
    · simp [gram]
  have he : errorsOf [⟨1, 0, fun _ => 5⟩] = [25] := by
    simp [errorsOf, sqLen]
    norm_num
  refine ⟨hd, ?_⟩
  obtain ⟨r, h1, h2, h3, h4, h5⟩ := C75_degenerate_success hn hllt (fun _ => [⟨1, 0, fun _ => 5⟩]) 40
    (by norm_num) ⟨1, 0⟩ ⟨by simp, by simp⟩ (by simp) hd (by
      have := dblMax_large
      rw [he]
      simp
      linarith) (by
      intro s hs
      rw [he] at hs
      rw [isScale_singleton hs]
      linarith [dblMax_large])
  refine ⟨r, h1, h2, h3, h4, ?_⟩
  rw [h5, he]
  simp

/-! ### Witnesses for C44 and C76 -/

/-- A problem with one residual along the z axis: `a` at the origin, `b` elsewhere. -/
noncomputable def jump (a b : ℝ) (p : Pose) : List Block :=
  open Classical in
  if p.translation = 0 then [⟨7, 1, Pi.single 6 a⟩] else [⟨7, 1, Pi.single 6 b⟩]

theorem errorsOf_jump (a : ℝ) : errorsOf [⟨7, 1, Pi.single 6 a⟩] = [a ^ 2] := by
  simp [errorsOf, sqLen, Pi.single_apply]

theorem not_degenerate_one (v : Fin 7 → ℝ) : ¬ Degenerate [⟨7, 1, v⟩] := by
  rintro ⟨l, ⟨v, hv, hl⟩, hlt⟩
  have hg : gram [⟨7, 1, v⟩] = 1 := by simp [gram]
  simp only [gram, List.map_cons, List.map_nil, List.sum_cons, List.sum_nil, add_zero, transpose_one,
    mul_one, one_mulVec] at hl
  obtain ⟨i, hi⟩ := Function.ne_iff.1 hv
  have h1 := congrFun hl i
  simp only [Pi.smul_apply, smul_eq_mul] at h1
  have h2 : l = 1 := by
    have : (l - 1) * v i = 0 := by linarith
    rcases mul_eq_zero.1 this with h | h
    · linarith
    · exact absurd h hi
  rw [h2] at hlt
  norm_num at hlt

theorem jump_origin (a b : ℝ) (q : Quat) :
    jump a b (Iterate.pose (q, 0)) = [⟨7, 1, Pi.single 6 a⟩] := by
  unfold jump
  have h : (Iterate.pose (q, 0)).translation = 0 := rfl
  rw [if_pos h]

/-- The update of the witness problem at the origin. -/
theorem jump_update (a b : ℝ) (q : Quat) (y : Iterate) (e s : ℝ) (small : Prop)
    (h : Update (jump a b) (q, 0) y e s small) :
    y = (q, ![0, 0, -a]) ∧ e = a ^ 2 ∧ (small ↔ |a| < 1 / 1000) := by
  obtain ⟨dx, -, h2, h3, h4, h5, h6, h7⟩ := h
  have hb : jump a b (Iterate.pose (q, 0)) = [⟨7, 1, Pi.single 6 a⟩] := by
    exact jump_origin a b q
  rw [hb] at h2 h3 h4
  have hdx : dx = Pi.single 5 (-a) := by
    by_contra hne
    have h8 := h4.2 (not_degenerate_one _) (Pi.single 5 (-a)) (Ne.symm hne)
    have h9 : cost (makeM q) ((weightsOf [⟨7, 1, Pi.single 6 a⟩] s).zip [⟨7, 1, Pi.single 6 a⟩])
        (Pi.single 5 (-a)) = 0 := by
      have hM : makeM q *ᵥ (Pi.single 5 (-a)) + Pi.single 6 a = 0 := by
        rw [makeM_mulVec]
        funext j
        refine Fin.addCases (m := 4) (n := 3) (fun j => ?_) (fun j => ?_) j
        · simp only [Loc.coords, Pi.add_apply, Fin.append_left]
          fin_cases j <;> simp [toWXYZ, Quat.mul, Pi.single_apply] <;> decide
        · simp only [Loc.coords, Pi.add_apply, Fin.append_right]
          fin_cases j
          · simp [Pi.single_apply]
          · simp [Pi.single_apply]
          · have e1 : (Fin.natAdd 3 (2 : Fin 3) : Fin (3 + 3)) = 5 := rfl
            have e2 : (Fin.natAdd 4 (2 : Fin 3) : Fin 7) = 6 := rfl
            simp [e1, e2]
      simp only [cost, weightsOf, errorsOf, List.map_cons, List.map_nil, List.zip_cons_cons,
        List.zip_nil_right, List.sum_cons, List.sum_nil, one_mulVec, hM]
      simp [sqLen]
    have h10 : 0 ≤ cost (makeM q) ((weightsOf [⟨7, 1, Pi.single 6 a⟩] s).zip
        [⟨7, 1, Pi.single 6 a⟩]) dx := by
      refine List.sum_nonneg ?_
      intro x hx
      obtain ⟨⟨w, b⟩, hp, rfl⟩ := List.mem_map.1 hx
      refine mul_nonneg ?_ (sqLen_nonneg _)
      obtain ⟨e, -, rfl⟩ := List.mem_map.1 (List.of_mem_zip hp).1
      exact ((C45_weight _ (by norm_num)).1 _).1.le
    rw [h9] at h8
    exact absurd h8 (not_lt.2 h10)
  have hz : (![dx 0, dx 1, dx 2] : Fin 3 → ℝ) = 0 := by
    rw [hdx]; ext i; fin_cases i <;> simp [Pi.single_apply] <;> decide
  have hz' : (![dx 3, dx 4, dx 5] : Fin 3 → ℝ) = ![0, 0, -a] := by
    rw [hdx]; ext i; fin_cases i <;> simp [Pi.single_apply] <;> decide
  have hid : angleAxisToQuaternion 0 = ⟨1, 0, 0, 0⟩ := C51_near_zero 0 (by simp [Rot.norm])
  rw [hz, hid] at h5 h7
  rw [hz'] at h6 h7
  refine ⟨Prod.ext ?_ ?_, ?_, ?_⟩
  · rw [h5]; simp [Quat.mul]
  · rw [h6]; simp
  · rw [h2, errorsOf_jump]; simp
  · rw [h7]
    have hv : Quat.vec ⟨1, 0, 0, 0⟩ = 0 := by ext i; fin_cases i <;> rfl
    rw [hv]
    have hl : Loc.len ![0, 0, -a] = |a| := by
      simp [Loc.len, dotProduct, Fin.sum_univ_succ, Real.sqrt_mul_self_eq_abs]
    rw [hl]
    simp [Loc.len]

theorem start_id : start ⟨1, 0⟩ = (Quat.ofMatrix 1, 0) := rfl

theorem jump_elsewhere (a b : ℝ) (ha : a ≠ 0) (q : Quat) :
    jump a b (Iterate.pose (q, ![0, 0, -a])) = [⟨7, 1, Pi.single 6 b⟩] := by
  unfold jump
  rw [if_neg]
  intro h
  have := congrFun h 2
  simp [Iterate.pose, makePose] at this
  exact ha this

/-- C44: a concrete run that returns, as a success, a pose with error 4 although it had accepted a pose
with error 1. -/
theorem C44_larger_error_violated {nth : Nth} (hn : Lib.IsNthElement nth) {llt : Llt}
    (hllt : LltSpec llt) :
    ∃ r, run nth llt (problem (jump 1 2)) 40 ⟨1, 0⟩ = .ok r ∧ r.success = true ∧
      (errorsOf (jump 1 2 ⟨1, 0⟩)).sum = 1 ∧ (errorsOf (jump 1 2 r.pose)).sum = 4 := by
  have hR : IsRotation (1 : Matrix (Fin 3) (Fin 3) ℝ) := ⟨by simp, by simp⟩
  obtain ⟨r, hr, k, X, E, S, small, hX, hE0, hS0, hk, hall, hsm, hpose, hmsg⟩ :=
    C44_run hn hllt (jump 1 2) 40 (by norm_num) ⟨1, 0⟩ hR
  have hb0 : ∀ q, jump 1 2 (Iterate.pose (q, 0)) = [⟨7, 1, Pi.single 6 1⟩] := by
    exact jump_origin _ _
  rw [start_id] at hX
  have hk0 : k ≠ 0 := by
    rintro rfl
    rw [hX, hb0, errorsOf_jump] at hmsg
    cases hm : r.message <;> rw [hm] at hmsg
    · simp at hmsg
    · obtain ⟨-, -, -, -, h5, -, h7, -⟩ := hmsg
      rw [hE0, h5] at h7
      have := dblMax_large
      simp at h7
      linarith
    · obtain ⟨-, -, -, -, -, h6, -, h8, -⟩ := hmsg
      rw [hS0, isScale_singleton h6] at h8
      linarith [dblMax_large]
    · exact absurd hmsg.1 (by omega)
    · have := hmsg.1
      omega
  have hu0 := (hall 0 (by omega)).1
  rw [hX] at hu0
  obtain ⟨hX1, hE1, hsmall⟩ := jump_update 1 2 _ _ _ _ _ hu0
  simp only [zero_add] at hX1 hE1
  have hns : ¬ small 0 := by
    rw [hsmall]; norm_num
  have hb1 : jump 1 2 (X 1).pose = [⟨7, 1, Pi.single 6 2⟩] := by
    rw [hX1]
    exact jump_elsewhere 1 2 one_ne_zero _
  have hk1 : k = 1 := by
    by_contra hne
    obtain ⟨⟨dx, -, h2, -⟩, h3, -⟩ := hall 1 (by omega)
    rw [hb1, errorsOf_jump] at h2
    rw [h2, hE1] at h3
    norm_num at h3
  subst hk1
  have hfirst : (errorsOf (jump 1 2 ⟨1, 0⟩)).sum = 1 := by
    have : jump 1 2 ⟨1, 0⟩ = [⟨7, 1, Pi.single 6 1⟩] := by
      unfold jump
      rw [if_pos rfl]
    rw [this, errorsOf_jump]
    simp
  refine ⟨r, hr, ?_, hfirst, ?_⟩
  · rw [hb1, errorsOf_jump] at hmsg
    cases hm : r.message <;> rw [hm] at hmsg
    · simp at hmsg
    · exact hmsg.2.2.2.2.2.2.2
    · obtain ⟨-, -, -, -, h5, -, h7, -⟩ := hmsg
      rw [h5, hE1] at h7
      norm_num at h7
    · exact absurd hmsg.2.1 hns
    · have := hmsg.1
      omega
  · rw [hpose, hb1, errorsOf_jump]
    norm_num

/-! ### C76 -/

/-- C76, the part that holds: when the run stops because of a larger error or scale, the reported error
is the error of the returned pose. Missing: convergence and exhausted iterations, where the
reported error is the one before the last update (see the theorem after this). -/
theorem C76_reported_error_partial {nth : Nth} (hn : Lib.IsNthElement nth) {llt : Llt}
    (hllt : LltSpec llt) (blocks : Pose → List Block) (maxIter : ℤ) (initial : Pose)
    (hR : IsRotation initial.linear)
    (r : Result) (h : run nth llt (problem blocks) maxIter initial = .ok r)
    (hm : r.message = .largerError ∨ r.message = .largerScale) :
    r.error = (errorsOf (blocks r.pose)).sum := by
  have h0 : 0 ≤ maxIter := by
    by_contra h0
    unfold run at h
    simp only at h
    rw [if_pos (not_le.1 h0)] at h
    injection h with h
    subst h
    rcases hm with hm | hm <;> cases hm
  obtain ⟨r', hr', k, X, E, S, small, -, -, -, hk, -, -, hpose, hmsg⟩ :=
    C44_run hn hllt blocks maxIter h0 initial hR
  rw [h] at hr'
  injection hr' with hr'
  subst hr'
  rw [hpose]
  rcases hm with hm | hm <;> rw [hm] at hmsg <;> exact hmsg.2.2.2.2.1

/-- C76 is false for converged runs: a run that reports convergence with error 1/4000000 returns a pose
with error 25. -/
theorem C76_reported_error_violated {nth : Nth} (hn : Lib.IsNthElement nth) {llt : Llt}
    (hllt : LltSpec llt) :
    ∃ r, run nth llt (problem (jump (1 / 2000) 5)) 40 ⟨1, 0⟩ = .ok r ∧ r.success = true ∧
      r.message = .converged ∧ r.error = 1 / 4000000 ∧
      (errorsOf (jump (1 / 2000) 5 r.pose)).sum = 25 := by
  have hR : IsRotation (1 : Matrix (Fin 3) (Fin 3) ℝ) := ⟨by simp, by simp⟩
  obtain ⟨r, hr, k, X, E, S, small, hX, hE0, hS0, hk, hall, hsm, hpose, hmsg⟩ :=
    C44_run hn hllt (jump (1 / 2000) 5) 40 (by norm_num) ⟨1, 0⟩ hR
  have hb0 : ∀ q, jump (1 / 2000) 5 (Iterate.pose (q, 0)) = [⟨7, 1, Pi.single 6 (1 / 2000)⟩] := by
    exact jump_origin _ _
  rw [start_id] at hX
  have hk0 : k ≠ 0 := by
    rintro rfl
    rw [hX, hb0, errorsOf_jump] at hmsg
    cases hm : r.message <;> rw [hm] at hmsg
    · simp at hmsg
    · obtain ⟨-, -, -, -, h5, -, h7, -⟩ := hmsg
      rw [hE0, h5] at h7
      have := dblMax_large
      norm_num at h7
      linarith
    · obtain ⟨-, -, -, -, -, h6, -, h8, -⟩ := hmsg
      rw [hS0, isScale_singleton h6] at h8
      linarith [dblMax_large]
    · exact absurd hmsg.1 (by omega)
    · have := hmsg.1
      omega
  have hu0 := (hall 0 (by omega)).1
  rw [hX] at hu0
  obtain ⟨hX1, hE1, hsmall⟩ := jump_update _ _ _ _ _ _ _ hu0
  simp only [zero_add] at hX1 hE1
  have hs : small 0 := by
    rw [hsmall, abs_of_pos (by norm_num)]; norm_num
  have hk1 : k = 1 := by
    by_contra hne
    exact hsm 0 (by omega) hs
  subst hk1
  have hb1 : jump (1 / 2000) 5 (X 1).pose = [⟨7, 1, Pi.single 6 5⟩] := by
    rw [hX1]
    exact jump_elsewhere _ _ (by norm_num) _
  have hlast : (errorsOf (jump (1 / 2000) 5 r.pose)).sum = 25 := by
    rw [hpose, hb1, errorsOf_jump]
    norm_num
  refine ⟨r, hr, ?_⟩
  cases hm : r.message <;> rw [hm] at hmsg
  · exact absurd hs (hmsg.2.1 0 (by omega))
  · exact absurd hs (hmsg.2.1 0 (by omega))
  · exact absurd hs (hmsg.2.1 0 (by omega))
  · refine ⟨hmsg.2.2.2.2.2, rfl, ?_, hlast⟩
    rw [hmsg.2.2.2.1, hE1]
    norm_num
  · exact absurd hs (hmsg.2.1 0 (by omega))

end Verif.Opt
