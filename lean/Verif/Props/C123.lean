/-
C123: a quantity that was measured is known at least as well as it was measured.
-/
import Verif.Props.C69

set_option autoImplicit false

namespace Verif.Kalman

open Matrix

variable {N d h : ℕ}

theorem transpose_eq_conjTranspose {a b : ℕ} (M : Matrix (Fin a) (Fin b) ℝ) : Mᵀ = Mᴴ :=
  (Matrix.conjTranspose_eq_transpose_of_trivial M).symm

/-- The facts behind C123: with `S = R + M`, `M` the covariance of the predicted measurement. -/
theorem update_measured (f f' : TimeDelayKalmanFilter ℝ N d) (y : Fin h → ℝ)
    (C : Matrix (Fin h) (Fin d) ℝ) (R : Matrix (Fin h) (Fin h) ℝ) (δ : Fin N)
    (hu : f.update y C R (δ.val : ℤ) = .ok f') :
    let S := R + C * blk f.P δ δ * Cᵀ
    S.det ≠ 0 ∧ y - C *ᵥ blkX f'.x δ = R *ᵥ (S⁻¹ *ᵥ (y - C *ᵥ blkX f.x δ)) ∧
      R - C * blk f'.P δ δ * Cᵀ = R * S⁻¹ * R := by
  intro S
  obtain ⟨h1, h2⟩ := C33_blocks f y C R δ
  have hd : S.det ≠ 0 := by
    intro h0
    rw [h1 h0] at hu
    cases hu
  obtain ⟨f1, e1, e2, e3⟩ := h2 hd
  rw [e1] at hu
  injection hu with hu
  subst hu
  have hSu : IsUnit S.det := hd.isUnit
  have hM : C * blk f.P δ δ * Cᵀ = S - R := by simp [S]
  refine ⟨hd, ?_, ?_⟩
  · rw [e2 δ, Matrix.mulVec_add, Matrix.mulVec_mulVec]
    have : C * (blk f.P δ δ * Cᵀ * S⁻¹) = 1 - R * S⁻¹ := by
      rw [← Matrix.mul_assoc, ← Matrix.mul_assoc, hM, Matrix.sub_mul, Matrix.mul_nonsing_inv _ hSu]
    change y - (C *ᵥ blkX f.x δ + (C * (blk f.P δ δ * Cᵀ * S⁻¹)) *ᵥ (y - C *ᵥ blkX f.x δ)) = _
    rw [this, Matrix.sub_mulVec, Matrix.one_mulVec, Matrix.mulVec_mulVec]
    abel
  · rw [e3 δ δ]
    have : C * (blk f.P δ δ - blk f.P δ δ * Cᵀ * S⁻¹ * C * blk f.P δ δ) * Cᵀ =
        (C * blk f.P δ δ * Cᵀ) - (C * blk f.P δ δ * Cᵀ) * S⁻¹ * (C * blk f.P δ δ * Cᵀ) := by
      simp only [Matrix.mul_sub, Matrix.sub_mul, Matrix.mul_assoc]
    change R - C * (blk f.P δ δ - blk f.P δ δ * Cᵀ * S⁻¹ * C * blk f.P δ δ) * Cᵀ = _
    rw [this, hM, Matrix.sub_mul S R, Matrix.mul_nonsing_inv _ hSu, Matrix.sub_mul, Matrix.one_mul,
      Matrix.mul_sub, Matrix.mul_assoc R, Matrix.nonsing_inv_mul _ hSu, Matrix.mul_one]
    abel

/-- C123, variances: after a measurement was used the covariance of what was measured, at the time it was
measured, is at most that of the measurement. -/
theorem C123_variance (f f' : TimeDelayKalmanFilter ℝ N d) (y : Fin h → ℝ)
    (C : Matrix (Fin h) (Fin d) ℝ) (R : Matrix (Fin h) (Fin h) ℝ) (δ : Fin N)
    (hf : f.P.PosSemidef) (hR : R.PosSemidef) (hu : f.update y C R (δ.val : ℤ) = .ok f') :
    (R - C * blk f'.P δ δ * Cᵀ).PosSemidef := by
  obtain ⟨-, -, h3⟩ := update_measured f f' y C R δ hu
  have hb : (blk f.P δ δ).PosSemidef := hf.submatrix fun k => slot δ k
  have hM : (C * blk f.P δ δ * Cᵀ).PosSemidef := by
    rw [transpose_eq_conjTranspose]; exact hb.mul_mul_conjTranspose_same C
  have hS := hR.add hM
  rw [h3]
  have := hS.inv.mul_mul_conjTranspose_same R
  rwa [hR.isHermitian.eq] at this

/-- C123, residuals: the difference to the measurement that is left lies in the ball whose diameter is the
difference before (in the norm of the measurement's covariance): the estimate moves towards the
measurement and not beyond it. -/
theorem C123_residual (f f' : TimeDelayKalmanFilter ℝ N d) (y : Fin h → ℝ)
    (C : Matrix (Fin h) (Fin d) ℝ) (R : Matrix (Fin h) (Fin h) ℝ) (δ : Fin N)
    (hf : f.P.PosSemidef) (hR : R.PosDef) (hu : f.update y C R (δ.val : ℤ) = .ok f') :
    let r := y - C *ᵥ blkX f.x δ
    let r' := y - C *ᵥ blkX f'.x δ
    0 ≤ r' ⬝ᵥ (R⁻¹ *ᵥ (r - r')) ∧ r' ⬝ᵥ (R⁻¹ *ᵥ r') ≤ r ⬝ᵥ (R⁻¹ *ᵥ r) := by
  intro r r'
  obtain ⟨hd, h2, -⟩ := update_measured f f' y C R δ hu
  set S := R + C * blk f.P δ δ * Cᵀ with hS
  have hSu : IsUnit S.det := hd.isUnit
  have hRu : IsUnit R.det := (isUnit_iff_isUnit_det _).1 hR.isUnit
  have hb : (blk f.P δ δ).PosSemidef := hf.submatrix fun k => slot δ k
  have hM : (C * blk f.P δ δ * Cᵀ).PosSemidef := by
    rw [transpose_eq_conjTranspose]; exact hb.mul_mul_conjTranspose_same C
  have hRs : Rᵀ = R := by rw [transpose_eq_conjTranspose]; exact hR.isHermitian.eq
  have hRi : (R⁻¹)ᵀ = R⁻¹ := by rw [Matrix.transpose_nonsing_inv, hRs]
  set v := S⁻¹ *ᵥ r with hv
  have hr' : r' = R *ᵥ v := h2
  have hr : r = S *ᵥ v := by
    rw [hv, Matrix.mulVec_mulVec, Matrix.mul_nonsing_inv _ hSu, Matrix.one_mulVec]
  have hdiff : r - r' = (C * blk f.P δ δ * Cᵀ) *ᵥ v := by
    rw [hr, hr', ← Matrix.sub_mulVec, hS, add_sub_cancel_left]
  -- `r'` against anything, in the norm of the measurement
  have hdot : ∀ z, r' ⬝ᵥ (R⁻¹ *ᵥ z) = v ⬝ᵥ z := by
    intro z
    rw [Matrix.dotProduct_mulVec, ← Matrix.mulVec_transpose, hRi, hr', Matrix.mulVec_mulVec,
      Matrix.nonsing_inv_mul _ hRu, Matrix.one_mulVec]
  have hpos : 0 ≤ r' ⬝ᵥ (R⁻¹ *ᵥ (r - r')) := by
    rw [hdot, hdiff]
    have := hM.dotProduct_mulVec_nonneg v
    simpa using this
  refine ⟨hpos, ?_⟩
  have hsq : 0 ≤ (r - r') ⬝ᵥ (R⁻¹ *ᵥ (r - r')) := by
    have := hR.posSemidef.inv.dotProduct_mulVec_nonneg (r - r')
    simpa using this
  have hsym : (r - r') ⬝ᵥ (R⁻¹ *ᵥ r') = r' ⬝ᵥ (R⁻¹ *ᵥ (r - r')) := by
    rw [Matrix.dotProduct_mulVec, ← Matrix.mulVec_transpose, hRi, dotProduct_comm]
  have hexp : r ⬝ᵥ (R⁻¹ *ᵥ r) = r' ⬝ᵥ (R⁻¹ *ᵥ r') + 2 * (r' ⬝ᵥ (R⁻¹ *ᵥ (r - r'))) +
      (r - r') ⬝ᵥ (R⁻¹ *ᵥ (r - r')) := by
    have e : r = r' + (r - r') := by abel
    conv_lhs => rw [e]
    rw [Matrix.mulVec_add, add_dotProduct, dotProduct_add, dotProduct_add, hsym]
    ring
  rw [hexp]
  linarith

end Verif.Kalman

namespace Verif.Ekf

open Matrix Verif.Kalman

variable {n : ℕ}

/-- What processing a message does to the covariance: nothing, or an update. -/
theorem processMeasurement_decreases {h : ℕ} (sing : Bool) (stateOf : (Fin 6 → ℝ) → (Fin h → ℝ))
    (covOf : Matrix (Fin 6) (Fin 6) ℝ → Matrix (Fin h) (Fin h) ℝ) (C : Matrix (Fin h) (Fin 6) ℝ)
    (gateDist : ℝ) (now : ℤ) (dt : ℝ) (stamp : ℤ) (y : Fin h → Option ℝ)
    (R : Matrix (Fin h) (Fin h) ℝ) (hR : R.PosSemidef) (f f' : TimeDelayKalmanFilter ℝ (n + 1) 6)
    (hf : f.P.PosSemidef)
    (hp : processMeasurement n.succ_pos sing stateOf covOf C gateDist now dt stamp y R f = .ok f') :
    (f.P - f'.P).PosSemidef := by
  have h0 : f' = f → (f.P - f'.P).PosSemidef := by
    intro e
    rw [e, sub_self]
    exact Matrix.PosSemidef.zero
  unfold processMeasurement at hp
  simp only [bind, Except.bind] at hp
  cases hd : computeDelayStep (computeDelayTime now stamp : ℝ) dt with
  | error e => rw [hd] at hp; cases hp
  | ok s =>
    rw [hd] at hp
    simp only at hp
    split_ifs at hp with hc
    · injection hp with hp; exact h0 hp.symm
    · cases hy : allFinite y with
      | none => rw [hy] at hp; injection hp with hp; exact h0 hp.symm
      | some yv =>
        rw [hy] at hp
        simp only at hp
        cases hx : f.getX s with
        | error e => rw [hx] at hp; cases hp
        | ok x =>
          rw [hx] at hp
          simp only at hp
          split_ifs at hp with hg
          · injection hp with hp; exact h0 hp.symm
          · cases hu : f.update yv C R s with
            | ok f1 =>
              rw [hu] at hp
              injection hp with hp
              rw [← hp]
              exact C34_update_decreases f f1 yv C R s hf hR hu
            | error e =>
              rw [hu] at hp
              cases e <;> first
                | (cases hp; done)
                | (injection hp with hp; exact h0 hp.symm)

/-- A message that changes the filter does so by an update. -/
theorem processMeasurement_used {h : ℕ} {sing : Bool} {stateOf : (Fin 6 → ℝ) → (Fin h → ℝ)}
    {covOf : Matrix (Fin 6) (Fin 6) ℝ → Matrix (Fin h) (Fin h) ℝ} {C : Matrix (Fin h) (Fin 6) ℝ}
    {gateDist : ℝ} {now : ℤ} {dt : ℝ} {stamp : ℤ} {y : Fin h → Option ℝ}
    {R : Matrix (Fin h) (Fin h) ℝ} {f f' : TimeDelayKalmanFilter ℝ (n + 1) 6} (hdt : 0 < dt) {δ : ℤ}
    (hδ : computeDelayStep (computeDelayTime now stamp : ℝ) dt = .ok δ)
    (hp : processMeasurement n.succ_pos sing stateOf covOf C gateDist now dt stamp y R f = .ok f')
    (hne : f' ≠ f) : ∃ yv : Fin h → ℝ, f.update yv C R δ = .ok f' := by
  rcases C36_outcome n.succ_pos sing stateOf covOf C gateDist now dt stamp y R f hdt δ hδ with
    h1 | ⟨yv, x, f1, -, -, -, -, -, hu, h1⟩
  · rw [h1] at hp
    injection hp with hp
    exact absurd hp.symm hne
  · rw [h1] at hp
    injection hp with hp
    rw [hp] at hu
    exact ⟨yv, hu⟩

/-- Going through messages keeps a covariance one and never enlarges it. -/
theorem messages_decrease {α : Type}
    (process : α → TimeDelayKalmanFilter ℝ (n + 1) 6 → Res (TimeDelayKalmanFilter ℝ (n + 1) 6))
    (J : α → Prop)
    (hp : ∀ m f f', J m → f.P.PosSemidef → process m f = .ok f' →
      f'.P.PosSemidef ∧ (f.P - f'.P).PosSemidef) :
    ∀ (ms : List α) (f f' : TimeDelayKalmanFilter ℝ (n + 1) 6), (∀ m ∈ ms, J m) → f.P.PosSemidef →
      ms.foldlM (fun f m => process m f) f = .ok f' → f'.P.PosSemidef ∧ (f.P - f'.P).PosSemidef := by
  intro ms
  induction ms with
  | nil =>
    intro f f' _ hf h
    injection h with h
    rw [← h, sub_self]
    exact ⟨hf, Matrix.PosSemidef.zero⟩
  | cons m ms ih =>
    intro f f' hJ hf h
    rw [List.foldlM_cons] at h
    simp only [bind, Except.bind] at h
    cases hm : process m f with
    | error e => rw [hm] at h; cases h
    | ok f1 =>
      rw [hm] at h
      obtain ⟨a1, a2⟩ := hp m f f1 (hJ m List.mem_cons_self) hf hm
      obtain ⟨b1, b2⟩ := ih f1 f' (fun m hm => hJ m (List.mem_cons_of_mem _ hm)) a1 h
      refine ⟨b1, ?_⟩
      have := a2.add b2
      rwa [sub_add_sub_cancel] at this

theorem tickLoop_mem {α : Type} : ∀ (fuel i : ℕ) (q q' : AgedQueue α) (ms : List α),
    AgedQueue.tickLoop fuel i q = .ok (ms, q') → ∀ m ∈ ms, m ∈ q.msgs := by
  intro fuel
  induction fuel with
  | zero =>
    intro i q q' ms h m hm
    simp only [AgedQueue.tickLoop] at h
    injection h with h
    rw [Prod.mk.injEq] at h
    rw [← h.1] at hm
    cases hm
  | succ fuel ih =>
    intro i q q' ms h m hm
    rw [AgedQueue.tickLoop] at h
    by_cases hi : i < q.size
    · rw [if_pos hi] at h
      cases hp : q.pop with
      | error e => rw [hp] at h; cases h
      | ok r =>
        obtain ⟨m1, q1⟩ := r
        rw [hp] at h
        simp only [bind, Except.bind] at h
        have hr : m1 ∈ q.msgs ∧ ∀ x ∈ q1.msgs, x ∈ q.msgs := by
          unfold AgedQueue.pop at hp
          split at hp
          · rename_i m ms a as e1 e2
            simp only at hp
            split_ifs at hp
            · injection hp with hp
              rw [Prod.mk.injEq] at hp
              rw [← hp.1, ← hp.2, e1]
              refine ⟨List.mem_cons_self, fun x hx => ?_⟩
              simp only [List.mem_append, List.mem_singleton] at hx
              rcases hx with hx | rfl
              · exact List.mem_cons_of_mem _ hx
              · exact List.mem_cons_self
            · injection hp with hp
              rw [Prod.mk.injEq] at hp
              rw [← hp.1, ← hp.2, e1]
              exact ⟨List.mem_cons_self, fun x hx => List.mem_cons_of_mem _ hx⟩
          · cases hp
        cases ht : AgedQueue.tickLoop fuel (i + 1) q1 with
        | error e => rw [ht] at h; cases h
        | ok r =>
          obtain ⟨ms', q2⟩ := r
          rw [ht] at h
          simp only [pure, Except.pure] at h
          injection h with h
          rw [Prod.mk.injEq] at h
          rw [← h.1] at hm
          rcases List.mem_cons.1 hm with rfl | hm
          · exact hr.1
          · exact hr.2 m (ih (i + 1) q1 q2 ms' ht m hm)
    · rw [if_neg hi] at h
      injection h with h
      rw [Prod.mk.injEq] at h
      rw [← h.1] at hm
      cases hm

/-- The loop over a queue goes through the messages of `AgedQueue.tick`. -/
theorem updateAll_messages {α F : Type} {process : α → F → Res F} {q q1 : AgedQueue α} {f f' : F}
    (h : updateAll process q f = .ok (f', q1)) {ms : List α} {q' : AgedQueue α}
    (ht : q.tick = .ok (ms, q')) : ms.foldlM (fun f m => process m f) f = .ok f' ∧ q1 = q' := by
  unfold updateAll at h
  rw [updateLoop_eq process _ _ _ _ _ _ ht] at h
  cases hm : ms.foldlM (fun f m => process m f) f with
  | error e => rw [hm] at h; cases h
  | ok f1 =>
    rw [hm] at h
    simp only [Except.map, Except.ok.injEq, Prod.mk.injEq] at h
    exact ⟨by rw [h.1], h.2.symm⟩

/-- A tick that publishes goes through the prediction and both queues. -/
theorem timer_published {tf : Tf2} {p : EkfParams} {s s' : NodeState (n + 1)} {o : List Output}
    {t1 t2 t3 t4 t5 : ℤ} {sp : PoseMsg → Bool} {st : TwistMsg → Bool}
    {f : TimeDelayKalmanFilter ℝ (n + 1) 6} {dt : ℝ}
    (h : step n.succ_pos tf p s (.timer t1 t2 t3 t4 t5 sp st) = .ok (s', o)) (hf : s.ekf = some f)
    (hdt : (s.interval.compute ((t1 : ℝ) / 1000000000)).1 = .ok dt) :
    ∃ f1 f2 q1 q2, updateAll (processPose n.succ_pos tf sp p.poseGate p.poseSmoothing t2 dt) s.poseQ
        (predictStep n.succ_pos p dt f) = .ok (f1, q1) ∧
      updateAll (processTwist n.succ_pos st p.twistGate p.twistSmoothing t3 dt) s.twistQ f1 =
        .ok (f2, q2) ∧ o = publish n.succ_pos p s f2 t4 t5 := by
  simp only [step, timerCallback] at h
  rw [hf] at h
  simp only at h
  cases hc : s.interval.compute ((t1 : ℝ) / 1000000000) with
  | mk r iv =>
    rw [hc] at h hdt
    simp only at hdt
    subst hdt
    simp only [bind, Except.bind] at h
    cases hu : updateAll (processPose n.succ_pos tf sp p.poseGate p.poseSmoothing t2 dt) s.poseQ
        (predictStep n.succ_pos p dt f) with
    | error e => rw [hu] at h; cases h
    | ok u =>
      rw [hu] at h
      simp only at h
      cases hv : updateAll (processTwist n.succ_pos st p.twistGate p.twistSmoothing t3 dt)
          s.twistQ u.1 with
      | error e => rw [hv] at h; cases h
      | ok v =>
        rw [hv] at h
        simp only [pure, Except.pure, Except.ok.injEq, Prod.mk.injEq] at h
        exact ⟨u.1, v.1, u.2, v.2, rfl, hv, h.2.symm⟩

theorem processPose_psd {tf : Tf2} {sp : PoseMsg → Bool} {p : EkfParams} {t2 : ℤ} {dt : ℝ} (m : PoseMsg)
    (g g' : TimeDelayKalmanFilter ℝ (n + 1) 6) (hm : CovPsd m.cov) (hg : g.P.PosSemidef)
    (h : processPose n.succ_pos tf sp p.poseGate p.poseSmoothing t2 dt m g = .ok g') :
    g'.P.PosSemidef ∧ (g.P - g'.P).PosSemidef :=
  ⟨processMeasurement_psd _ _ _ _ _ _ _ _ _ _
      (C43_measurement_psd m.cov (toSizeT p.poseSmoothing) hm).1 g g' hg h,
    processMeasurement_decreases _ _ _ _ _ _ _ _ _ _
      (C43_measurement_psd m.cov (toSizeT p.poseSmoothing) hm).1 g g' hg h⟩

theorem processTwist_psd {st : TwistMsg → Bool} {p : EkfParams} {t3 : ℤ} {dt : ℝ} (m : TwistMsg)
    (g g' : TimeDelayKalmanFilter ℝ (n + 1) 6) (hm : CovPsd m.cov) (hg : g.P.PosSemidef)
    (h : processTwist n.succ_pos st p.twistGate p.twistSmoothing t3 dt m g = .ok g') :
    g'.P.PosSemidef ∧ (g.P - g'.P).PosSemidef :=
  ⟨processMeasurement_psd _ _ _ _ _ _ _ _ _ _
      (C43_measurement_psd m.cov (toSizeT p.twistSmoothing) hm).2 g g' hg h,
    processMeasurement_decreases _ _ _ _ _ _ _ _ _ _
      (C43_measurement_psd m.cov (toSizeT p.twistSmoothing) hm).2 g g' hg h⟩

/-- The newest state's part of the order of covariances. -/
theorem latest_le {h : ℕ} {f f' : TimeDelayKalmanFilter ℝ (n + 1) 6} (hle : (f.P - f'.P).PosSemidef)
    {C : Matrix (Fin h) (Fin 6) ℝ} {R : Matrix (Fin h) (Fin h) ℝ}
    (hb : (R - C * blk f.P 0 0 * Cᵀ).PosSemidef) :
    (R - C * f'.getLatestP n.succ_pos * Cᵀ).PosSemidef := by
  have e : f'.getLatestP n.succ_pos = blk f'.P 0 0 := by
    funext k l
    simp only [TimeDelayKalmanFilter.getLatestP, blk]
    rw [emb_slot_zero, emb_slot_zero]
  have h1 : (blk f.P 0 0 - blk f'.P 0 0).PosSemidef := hle.submatrix fun k => slot 0 k
  have h2 := h1.mul_mul_conjTranspose_same C
  rw [← transpose_eq_conjTranspose] at h2
  have h3 := hb.add h2
  rw [e]
  have : R - C * blk f.P 0 0 * Cᵀ + C * (blk f.P 0 0 - blk f'.P 0 0) * Cᵀ =
      R - C * blk f'.P 0 0 * Cᵀ := by
    rw [Matrix.mul_sub, Matrix.sub_mul]
    abel
  rwa [this] at h3

/-- The invariant of C69 after any execution. -/
theorem run_psd {tf : Tf2} {p : EkfParams} : ∀ {es : List Event} {s s' : NodeState (n + 1)}
    {out : List Output}, s.Psd → (∀ e ∈ es, e.CovPsd) → run n.succ_pos tf p s es = .ok (s', out) →
    s'.Psd
  | [], s, s', out, hs, _, h => by
    simp only [run] at h
    injection h with h
    rw [Prod.mk.injEq] at h
    rw [← h.1]
    exact hs
  | e :: es, s, s', out, hs, he, h => by
    simp only [run, bind, Except.bind] at h
    cases h1 : step n.succ_pos tf p s e with
    | error e => rw [h1] at h; cases h
    | ok r =>
      rw [h1] at h
      simp only at h
      cases h2 : run n.succ_pos tf p r.1 es with
      | error e => rw [h2] at h; cases h
      | ok r2 =>
        rw [h2] at h
        simp only [pure, Except.pure, Except.ok.injEq, Prod.mk.injEq] at h
        have := run_psd (step_psd tf p s r.1 e r.2 hs (he _ List.mem_cons_self) h1).1
          (fun e' he' => he e' (List.mem_cons_of_mem _ he')) h2
        rwa [h.1] at this

theorem make_psd (p : EkfParams) : (NodeState.make (n + 1) p).Psd :=
  ⟨fun f hf => by simp [NodeState.make] at hf, fun m hm => by simp [NodeState.make, AgedQueue.make] at hm,
    fun m hm => by simp [NodeState.make, AgedQueue.make] at hm⟩

/-- C123 for the node, poses: if a tick uses a pose message that is not delayed (it changes the filter),
whatever other messages come before and after it, then the covariance of x, y and yaw published at that
tick is at most that of the message times the number of times it is used. -/
theorem C123_published_pose (tf : Tf2) (p : EkfParams) (es : List Event) (hes : ∀ e ∈ es, e.CovPsd)
    {s s' : NodeState (n + 1)} {out o : List Output}
    (hrun : run n.succ_pos tf p (NodeState.make (n + 1) p) es = .ok (s, out))
    {t1 t2 t3 t4 t5 : ℤ} {sp : PoseMsg → Bool} {st : TwistMsg → Bool}
    (h : step n.succ_pos tf p s (.timer t1 t2 t3 t4 t5 sp st) = .ok (s', o))
    {f : TimeDelayKalmanFilter ℝ (n + 1) 6} {dt : ℝ} (hf : s.ekf = some f) (hpos : 0 < dt)
    (hdt : (s.interval.compute ((t1 : ℝ) / 1000000000)).1 = .ok dt)
    {before after : List PoseMsg} {m : PoseMsg} {q' : AgedQueue PoseMsg}
    (hq : s.poseQ.tick = .ok (before ++ m :: after, q'))
    {g g' : TimeDelayKalmanFilter ℝ (n + 1) 6}
    (hbefore : before.foldlM (fun f m => processPose n.succ_pos tf sp p.poseGate p.poseSmoothing t2 dt m f)
      (predictStep n.succ_pos p dt f) = .ok g)
    (hm : processPose n.succ_pos tf sp p.poseGate p.poseSmoothing t2 dt m g = .ok g')
    (hdelay : computeDelayStep (computeDelayTime t2 m.stamp : ℝ) dt = .ok 0) (hused : g' ≠ g) :
    ∃ stamp frame child pose pc vx wz tc, Output.odometry stamp frame child pose pc vx wz tc ∈ o ∧
      (Matrix.of fun i j : Fin 3 => (toSizeT p.poseSmoothing : ℝ) * entry m.cov (poseSlot i) (poseSlot j) -
        entry pc (poseSlot i) (poseSlot j)).PosSemidef := by
  obtain ⟨hs1, hs2, hs3⟩ := run_psd (make_psd p) hes hrun
  obtain ⟨f1, f2, q1, q2, hu, hv, ho⟩ := timer_published h hf hdt
  have hmem := tickLoop_mem _ _ _ _ _ hq
  obtain ⟨hall, -⟩ := updateAll_messages hu hq
  rw [List.foldlM_append, hbefore] at hall
  simp only [bind, Except.bind] at hall
  rw [List.foldlM_cons, hm] at hall
  simp only [bind, Except.bind] at hall
  have hg := (messages_decrease _ (fun m : PoseMsg => CovPsd m.cov)
    (fun m g g' => processPose_psd m g g') before _ _
    (fun m hm => hs2 m (hmem m (List.mem_append_left _ hm)))
    (predictStep_psd p dt f (hs1 f hf)) hbefore).1
  have hmc : CovPsd m.cov := hs2 m (hmem m (List.mem_append_right _ List.mem_cons_self))
  have hg' := (processPose_psd m g g' hmc hg hm).1
  obtain ⟨hf1, hle1⟩ := messages_decrease _ (fun m : PoseMsg => CovPsd m.cov)
    (fun m g g' => processPose_psd m g g') after _ _
    (fun m hm => hs2 m (hmem m (List.mem_append_right _ (List.mem_cons_of_mem _ hm)))) hg' hall
  have hle2 : (f1.P - f2.P).PosSemidef := by
    have := updateLoop_inv _ (fun g => g.P.PosSemidef ∧ (f1.P - g.P).PosSemidef)
      (fun m : TwistMsg => CovPsd m.cov)
      (fun m g g' hm hg hpr => by
        obtain ⟨a1, a2⟩ := processTwist_psd m g g' hm hg.1 hpr
        refine ⟨a1, ?_⟩
        have := hg.2.add a2
        rwa [sub_add_sub_cancel] at this) _ _ _ _ _ _
      ⟨hf1, by rw [sub_self]; exact Matrix.PosSemidef.zero⟩ hs3 hv
    exact this.1.2
  have hle : (g'.P - f2.P).PosSemidef := by
    have := hle1.add hle2
    rwa [sub_add_sub_cancel] at this
  obtain ⟨y, hy⟩ := processMeasurement_used hpos hdelay hm hused
  have hb := C123_variance g g' y poseMeasurementMatrix _ (0 : Fin (n + 1)) hg
    (C43_measurement_psd m.cov (toSizeT p.poseSmoothing) hmc).1 hy
  have hfin := latest_le hle hb
  rw [ho]
  refine ⟨_, _, _, _, _, _, _, _, List.mem_cons_of_mem _ List.mem_cons_self, ?_⟩
  convert hfin using 1
  ext i j
  fin_cases i <;> fin_cases j <;>
    simp [poseMeasurementCovariance, poseMeasurementMatrix, poseSlot, entry,
      ekfCovarianceToPoseMessageCovariance, Matrix.mul_apply, Matrix.vecMul, dotProduct, Fin.sum_univ_succ]

/-- C123 for the node, twists: the same for the forward and turning speed. -/
theorem C123_published_twist (tf : Tf2) (p : EkfParams) (es : List Event) (hes : ∀ e ∈ es, e.CovPsd)
    {s s' : NodeState (n + 1)} {out o : List Output}
    (hrun : run n.succ_pos tf p (NodeState.make (n + 1) p) es = .ok (s, out))
    {t1 t2 t3 t4 t5 : ℤ} {sp : PoseMsg → Bool} {st : TwistMsg → Bool}
    (h : step n.succ_pos tf p s (.timer t1 t2 t3 t4 t5 sp st) = .ok (s', o))
    {f f1 : TimeDelayKalmanFilter ℝ (n + 1) 6} {dt : ℝ} (hf : s.ekf = some f) (hpos : 0 < dt)
    (hdt : (s.interval.compute ((t1 : ℝ) / 1000000000)).1 = .ok dt) {q1 : AgedQueue PoseMsg}
    (hposes : updateAll (processPose n.succ_pos tf sp p.poseGate p.poseSmoothing t2 dt) s.poseQ
      (predictStep n.succ_pos p dt f) = .ok (f1, q1))
    {before after : List TwistMsg} {m : TwistMsg} {q' : AgedQueue TwistMsg}
    (hq : s.twistQ.tick = .ok (before ++ m :: after, q'))
    {g g' : TimeDelayKalmanFilter ℝ (n + 1) 6}
    (hbefore : before.foldlM (fun f m => processTwist n.succ_pos st p.twistGate p.twistSmoothing t3 dt m f)
      f1 = .ok g)
    (hm : processTwist n.succ_pos st p.twistGate p.twistSmoothing t3 dt m g = .ok g')
    (hdelay : computeDelayStep (computeDelayTime t3 m.stamp : ℝ) dt = .ok 0) (hused : g' ≠ g) :
    ∃ stamp frame child pose pc vx wz tc, Output.odometry stamp frame child pose pc vx wz tc ∈ o ∧
      (Matrix.of fun i j : Fin 2 => (toSizeT p.twistSmoothing : ℝ) * entry m.cov (twistSlot i) (twistSlot j) -
        entry tc (twistSlot i) (twistSlot j)).PosSemidef := by
  obtain ⟨hs1, hs2, hs3⟩ := run_psd (make_psd p) hes hrun
  obtain ⟨f1', f2, q1', q2, hu, hv, ho⟩ := timer_published h hf hdt
  rw [hposes] at hu
  injection hu with hu
  rw [Prod.mk.injEq] at hu
  obtain ⟨rfl, rfl⟩ := hu
  have hmem := tickLoop_mem _ _ _ _ _ hq
  obtain ⟨hall, -⟩ := updateAll_messages hv hq
  rw [List.foldlM_append, hbefore] at hall
  simp only [bind, Except.bind] at hall
  rw [List.foldlM_cons, hm] at hall
  simp only [bind, Except.bind] at hall
  have hf1 : f1.P.PosSemidef :=
    (updateLoop_inv _ (fun g => g.P.PosSemidef) (fun m : PoseMsg => CovPsd m.cov)
      (fun m g g' hm hg hpr => (processPose_psd m g g' hm hg hpr).1) _ _ _ _ _ _
      (predictStep_psd p dt f (hs1 f hf)) hs2 hposes).1
  have hg := (messages_decrease _ (fun m : TwistMsg => CovPsd m.cov)
    (fun m g g' => processTwist_psd m g g') before _ _
    (fun m hm => hs3 m (hmem m (List.mem_append_left _ hm))) hf1 hbefore).1
  have hmc : CovPsd m.cov := hs3 m (hmem m (List.mem_append_right _ List.mem_cons_self))
  have hg' := (processTwist_psd m g g' hmc hg hm).1
  have hle := (messages_decrease _ (fun m : TwistMsg => CovPsd m.cov)
    (fun m g g' => processTwist_psd m g g') after _ _
    (fun m hm => hs3 m (hmem m (List.mem_append_right _ (List.mem_cons_of_mem _ hm)))) hg' hall).2
  obtain ⟨y, hy⟩ := processMeasurement_used hpos hdelay hm hused
  have hb := C123_variance g g' y twistMeasurementMatrix _ (0 : Fin (n + 1)) hg
    (C43_measurement_psd m.cov (toSizeT p.twistSmoothing) hmc).2 hy
  have hfin := latest_le hle hb
  rw [ho]
  refine ⟨_, _, _, _, _, _, _, _, List.mem_cons_of_mem _ List.mem_cons_self, ?_⟩
  convert hfin using 1
  ext i j
  fin_cases i <;> fin_cases j <;>
    simp [twistMeasurementCovariance, twistMeasurementMatrix, twistSlot, entry,
      ekfCovarianceToTwistMessageCovariance, Matrix.mul_apply, Matrix.vecMul, dotProduct, Fin.sum_univ_succ]

/-- An update whose predicted measurement is uncertain in every direction does change the filter. -/
theorem update_changes {N d h : ℕ} (f f' : TimeDelayKalmanFilter ℝ N d) (y : Fin (h + 1) → ℝ)
    (C : Matrix (Fin (h + 1)) (Fin d) ℝ) (R : Matrix (Fin (h + 1)) (Fin (h + 1)) ℝ) (δ : Fin N)
    (hu : f.update y C R (δ.val : ℤ) = .ok f') (hM : (C * blk f.P δ δ * Cᵀ).det ≠ 0) : f' ≠ f := by
  intro e
  subst e
  obtain ⟨hd, -, h3⟩ := update_measured _ _ y C R δ hu
  set M := C * blk f'.P δ δ * Cᵀ with hMdef
  have hSu : IsUnit (R + M).det := hd.isUnit
  have h0 : M * (R + M)⁻¹ * M = 0 := by
    have e1 : R = (R + M) - M := by abel
    have e2 : R * (R + M)⁻¹ * R = R - M + M * (R + M)⁻¹ * M := by
      conv_lhs => rw [e1]
      rw [sub_add_cancel, Matrix.sub_mul, Matrix.mul_nonsing_inv _ hSu, Matrix.sub_mul, Matrix.one_mul,
        Matrix.mul_sub, Matrix.mul_assoc M, Matrix.nonsing_inv_mul _ hSu, Matrix.mul_one]
      abel
    rw [e2] at h3
    have := congrArg (fun X => X - (R - M)) h3
    simpa using this.symm
  have := congrArg Matrix.det h0
  rw [Matrix.det_mul, Matrix.det_mul, Matrix.det_zero] at this
  have hi : ((R + M)⁻¹).det ≠ 0 := by
    rw [Matrix.det_nonsing_inv]
    exact (hSu.ringInverse).ne_zero
  simp only [mul_eq_zero] at this
  tauto

/-- A filter without history at the origin with the initial covariance of `poseAt`. -/
noncomputable def startFilter : TimeDelayKalmanFilter ℝ 1 6 :=
  TimeDelayKalmanFilter.make (initState 0 0 0) (initCovariance fun _ => 1) 1

theorem startFilter_blk : blk startFilter.P 0 0 = initCovariance fun _ => 1 := by
  ext k l
  exact (initP_slot _ 0 0 k l).trans (if_pos rfl)

theorem startFilter_latest : startFilter.getLatestX Nat.one_pos = 0 := by
  funext i
  fin_cases i <;> rfl

/-- Its prediction over a fiftieth of a second: the state stays, the covariance of x, y, yaw. -/
theorem startFilter_predicted :
    blkX (predictStep Nat.one_pos defaultParams (1 / 50) startFilter).x 0 = 0 ∧
    poseCovariance (blk (predictStep Nat.one_pos defaultParams (1 / 50) startFilter).P 0 0) =
      Matrix.diagonal ![1 + 1 / 250000, 1, 1 + 1 / 250000 + 1 / 100000000] := by
  unfold predictStep
  rw [startFilter_latest]
  constructor
  · refine (updateX_blk_zero (n := 0) _ _).trans ?_
    funext i
    have h0 : normalizeYaw 0 = 0 := by
      have : (⟨1, 0⟩ : ℂ) = 1 := rfl
      simp [normalizeYaw, atan2, this]
    fin_cases i <;> simp [predictNextState, h0]
  · have := updateP_blk_00 (n := 0) (by norm_num) startFilter.P (createStateTransitionMatrix 0 (1 / 50))
      (processNoiseCovariance (defaultParams.variance.timeScaledVariances (1 / 50)))
    rw [startFilter_blk] at this
    refine (congrArg poseCovariance this).trans ?_
    have key : ∀ (A : Matrix (Fin 6) (Fin 6) ℝ) (v : Fin 6 → ℝ) (i j : Fin 6),
        (A * Matrix.diagonal v * Aᵀ) i j = ∑ k, A i k * v k * A j k := by
      intro A v i j
      rw [Matrix.mul_apply]
      simp only [Matrix.mul_diagonal, Matrix.transpose_apply]
    ext i j
    simp only [poseCovariance, Matrix.add_apply, initCovariance]
    rw [key]
    fin_cases i <;> fin_cases j <;>
      norm_num [createStateTransitionMatrix, Fin.sum_univ_succ, processNoiseCovariance,
        DefaultVariance.timeScaledVariances, timeScaledVariance, Matrix.diagonal, defaultParams,
        EkfParams.variance]

theorem covPsd_one : CovPsd fun _ => 1 := by
  have : (Matrix.of fun i j => entry (fun _ => (1 : ℝ)) i j) =
      Matrix.vecMulVec (fun _ : Fin 6 => (1 : ℝ)) (star fun _ => 1) := by
    ext i j
    simp [entry, Matrix.vecMulVec]
  unfold CovPsd
  rw [this]
  exact Matrix.posSemidef_vecMulVec_self_star _

/-- Using the message `poseAt 10 0` at the first tick. -/
theorem startFilter_update : ∃ g', processPose Nat.one_pos flatTf (fun _ => true) defaultParams.poseGate
      defaultParams.poseSmoothing 0 (1 / 50) (poseAt 10 0)
      (predictStep Nat.one_pos defaultParams (1 / 50) startFilter) = .ok g' ∧
    g' ≠ predictStep Nat.one_pos defaultParams (1 / 50) startFilter := by
  obtain ⟨hx, hP⟩ := startFilter_predicted
  set g := predictStep Nat.one_pos defaultParams (1 / 50) startFilter with hg
  have hMd : (poseCovariance (blk g.P 0 0)).PosDef := by
    rw [hP]
    refine Matrix.PosDef.diagonal fun i => ?_
    fin_cases i <;> norm_num
  have hC : poseMeasurementMatrix * blk g.P 0 0 * poseMeasurementMatrixᵀ = poseCovariance (blk g.P 0 0) := by
    ext i j
    fin_cases i <;> fin_cases j <;>
      simp [poseMeasurementMatrix, poseCovariance, Matrix.mul_apply, Matrix.vecMul, dotProduct,
        Fin.sum_univ_succ]
  have hR := (C43_measurement_psd (fun _ => 1) (toSizeT defaultParams.poseSmoothing) covPsd_one).1
  have hdet : (poseCovariance (blk g.P 0 0)).det ≠ 0 := ((isUnit_iff_isUnit_det _).1 hMd.isUnit).ne_zero
  have hS : (poseMeasurementCovariance (fun _ => 1) (toSizeT defaultParams.poseSmoothing) +
      poseMeasurementMatrix * blk g.P 0 0 * poseMeasurementMatrixᵀ).det ≠ 0 := by
    rw [hC]
    exact ((isUnit_iff_isUnit_det _).1 (hMd.posSemidef_add hR).isUnit).ne_zero
  obtain ⟨g', hu, -⟩ := (C33_blocks g 0 poseMeasurementMatrix _ 0).2 hS
  refine ⟨g', ?_, update_changes g g' _ _ _ 0 hu (by rw [hC]; exact hdet)⟩
  have hd : computeDelayStep (computeDelayTime 0 (poseAt 10 0).stamp : ℝ) (1 / 50) = .ok 0 := by
    have h2 : ⌊(2⁻¹ : ℝ)⌋ = 0 := by rw [Int.floor_eq_zero_iff]; norm_num
    simp [computeDelayStep, computeDelayTime, poseAt, roundHalfAway, h2]
  have hy : allFinite (poseMeasurementVector flatTf (poseAt 10 0)) = some 0 := by
    have h0 : normalizeYaw 0 = 0 := by
      have : (⟨1, 0⟩ : ℂ) = 1 := rfl
      simp [normalizeYaw, atan2, this]
    have e : poseMeasurementVector flatTf (poseAt 10 0) = fun _ => some 0 := by
      funext i
      fin_cases i <;> simp [poseMeasurementVector, flatTf, poseAt, h0]
    rw [e]
    simp only [allFinite, Option.isSome_some, implies_true, dif_pos, Option.get_some]
    rfl
  have hgx : g.getX 0 = .ok 0 := by
    simp only [TimeDelayKalmanFilter.getX]
    rw [dif_pos (by norm_num)]
    congr 1
    refine Eq.trans ?_ hx
    funext k
    simp only [blkX]
    congr 1
    apply Fin.ext
    simp [slot_val]
  have hl : g.getLatestP Nat.one_pos = blk g.P 0 0 := by
    funext k l
    simp only [TimeDelayKalmanFilter.getLatestP, blk]
    rw [emb_slot_zero (n := 0), emb_slot_zero (n := 0)]
  have hgate : mahalanobisGate true defaultParams.poseGate (getPoseState 0) 0
      (poseCovariance (g.getLatestP Nat.one_pos)) = true := by
    rw [hl]
    unfold mahalanobisGate squaredMahalanobis
    rw [if_neg hdet]
    have : getPoseState 0 - 0 = 0 := by funext i; simp [getPoseState]
    rw [this]
    simp only [zero_dotProduct, decide_eq_true_eq]
    exact mul_self_nonneg _
  have hu' : g.update 0 poseMeasurementMatrix (poseMeasurementCovariance (poseAt 10 0).cov
      (toSizeT defaultParams.poseSmoothing)) 0 = .ok g' := hu
  simp only [processPose, processMeasurement, bind, Except.bind, hd, hy, hgx, hgate, hu', checkDelayStep]
  simp [pure, Except.pure]

example : ∃ (s s' : NodeState 1) (out o : List Output) (f g' : TimeDelayKalmanFilter ℝ 1 6)
    (q' : AgedQueue PoseMsg),
    (∀ e ∈ [Event.initialPose (poseAt 10 0) identityTries, .pose (poseAt 10 0)], e.CovPsd) ∧
    run Nat.one_pos flatTf defaultParams (NodeState.make 1 defaultParams)
      [.initialPose (poseAt 10 0) identityTries, .pose (poseAt 10 0)] = .ok (s, out) ∧
    step Nat.one_pos flatTf defaultParams s (.timer 0 0 0 0 0 (fun _ => true) fun _ => true) =
      .ok (s', o) ∧
    s.ekf = some f ∧ (s.interval.compute (((0 : ℤ) : ℝ) / 1000000000)).1 = .ok (1 / 50) ∧
    s.poseQ.tick = .ok ([] ++ poseAt 10 0 :: [], q') ∧
    processPose Nat.one_pos flatTf (fun _ => true) defaultParams.poseGate defaultParams.poseSmoothing 0
      (1 / 50) (poseAt 10 0) (predictStep Nat.one_pos defaultParams (1 / 50) f) = .ok g' ∧
    computeDelayStep (computeDelayTime 0 (poseAt 10 0).stamp : ℝ) (1 / 50) = .ok 0 ∧
    g' ≠ predictStep Nat.one_pos defaultParams (1 / 50) f := by
  obtain ⟨g', hg, hne⟩ := startFilter_update
  have hs : ∃ (s : NodeState 1) (out : List Output),
      run Nat.one_pos flatTf defaultParams (NodeState.make 1 defaultParams)
        [.initialPose (poseAt 10 0) identityTries, .pose (poseAt 10 0)] = .ok (s, out) ∧
      s.ekf = some startFilter ∧ s.interval = UpdateInterval.make 50 ∧
      s.poseQ = (AgedQueue.make 5).push (poseAt 10 0) ∧ s.twistQ = AgedQueue.make 2 := by
    refine ⟨_, _, rfl, ?_, rfl, rfl, rfl⟩
    simp [updateSimple1DFilters, startFilter, poseAt]
  obtain ⟨s, out, hrun, he, hi, hq, ht⟩ := hs
  have hc : s.interval.compute (((0 : ℤ) : ℝ) / 1000000000) = (.ok (1 / 50), ⟨50, some 0⟩) := by
    rw [hi]
    norm_num [UpdateInterval.make, UpdateInterval.compute, computeInterval]
  have hd : computeDelayStep (computeDelayTime 0 (poseAt 10 0).stamp : ℝ) (1 / 50) = .ok 0 := by
    have h2 : ⌊(2⁻¹ : ℝ)⌋ = 0 := by rw [Int.floor_eq_zero_iff]; norm_num
    simp [computeDelayStep, computeDelayTime, poseAt, roundHalfAway, h2]
  have htick : s.poseQ.tick = .ok ([poseAt 10 0], (AgedQueue.mk 5 [poseAt 10 0] [1])) := by
    rw [hq]; rfl
  have hu : updateAll (processPose Nat.one_pos flatTf (fun _ => true) defaultParams.poseGate
      defaultParams.poseSmoothing 0 (1 / 50)) s.poseQ
      (predictStep Nat.one_pos defaultParams (1 / 50) startFilter) =
      .ok (g', AgedQueue.mk 5 [poseAt 10 0] [1]) := by
    unfold updateAll
    rw [updateLoop_eq _ _ _ _ _ _ _ htick, List.foldlM_cons, hg]
    rfl
  have hv : updateAll (processTwist Nat.one_pos (fun _ => true) defaultParams.twistGate
      defaultParams.twistSmoothing 0 (1 / 50)) s.twistQ g' = .ok (g', AgedQueue.make 2) := by
    rw [ht]; rfl
  have hstep : ∃ s' o, step Nat.one_pos flatTf defaultParams s
      (.timer 0 0 0 0 0 (fun _ => true) fun _ => true) = .ok (s', o) := by
    simp only [step, timerCallback, he, hc, hu, hv, bind, Except.bind, pure, Except.pure,
      Except.ok.injEq, Prod.mk.injEq]
    exact ⟨_, _, rfl, rfl⟩
  obtain ⟨s', o, hstep⟩ := hstep
  refine ⟨s, s', out, o, startFilter, g', _, ?_, hrun, hstep, he, by rw [hc], htick, hg, hd, hne⟩
  intro e he
  simp only [List.mem_cons, List.not_mem_nil, or_false] at he
  rcases he with rfl | rfl <;> exact covPsd_one

end Verif.Ekf
