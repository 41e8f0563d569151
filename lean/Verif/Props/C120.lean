/-
C120: warnings that are asked for again and again are shown from time to time.
-/
import Verif.Props.C119

set_option autoImplicit false

namespace Verif.Ekf

open Matrix Verif.Kalman

/-! ### The throttle over a whole run -/

/-- The entries follow one another as the throttle allows, from the state `t` to the state `t'`. -/
inductive Obeys : Throttle → List Entry → Throttle → Prop
  | nil (t : Throttle) : Obeys t [] t
  | always {t t' : Throttle} {es : List Entry} (x y : List Char) :
      Obeys t es t' → Obeys t (⟨.always x, none, some y⟩ :: es) t'
  | shown {t t' : Throttle} {es : List Entry} (ms v : ℤ) (x y : List Char) :
      t.last + t.limit ms ≤ v → Obeys ⟨some (t.limit ms), v⟩ es t' →
      Obeys t (⟨.throttled ms x, some v, some y⟩ :: es) t'
  | hidden {t t' : Throttle} {es : List Entry} (ms v : ℤ) (x : List Char) :
      v < t.last + t.limit ms → Obeys ⟨some (t.limit ms), t.last⟩ es t' →
      Obeys t (⟨.throttled ms x, some v, none⟩ :: es) t'

theorem Obeys.append {t t1 t2 : Throttle} {a b : List Entry} (h1 : Obeys t a t1) (h2 : Obeys t1 b t2) :
    Obeys t (a ++ b) t2 := by
  induction h1 with
  | nil t => exact h2
  | always x y _ ih => exact .always x y (ih h2)
  | shown ms v x y hv _ ih => exact .shown ms v x y hv (ih h2)
  | hidden ms v x hv _ ih => exact .hidden ms v x hv (ih h2)

theorem Obeys.reading {t t' : Throttle} {E : List Entry} (h : Obeys t E t') :
    ∀ e ∈ E, ∀ ms x, e.request = .throttled ms x → e.reading.isSome := by
  induction h with
  | nil t => simp
  | always x y _ ih =>
    intro e he ms x hr
    rcases List.mem_cons.1 he with rfl | he
    · cases hr
    · exact ih e he ms x hr
  | shown ms v x y _ _ ih =>
    intro e he ms x hr
    rcases List.mem_cons.1 he with rfl | he
    · rfl
    · exact ih e he ms x hr
  | hidden ms v x _ _ ih =>
    intro e he ms x hr
    rcases List.mem_cons.1 he with rfl | he
    · rfl
    · exact ih e he ms x hr

theorem Log.addAll_obeys {clk : ℕ → ℤ} {l l' : Log} {rs : List Request} (h : l.addAll clk rs = .ok l') :
    ∃ es, l'.entries = l.entries ++ es ∧ es.map Entry.request = rs ∧ Obeys l.throttle es l'.throttle ∧
      ∀ e ∈ es, ∀ v, e.reading = some v → ∃ k, v = clk k := by
  induction rs generalizing l with
  | nil =>
    injection h with h
    rw [h]
    exact ⟨[], by simp, rfl, .nil _, by simp⟩
  | cons r rs ih =>
    simp only [Log.addAll, bind, Except.bind] at h
    cases h1 : l.add clk r with
    | error e => rw [h1] at h; cases h
    | ok l1 =>
      rw [h1] at h
      obtain ⟨es, e1, e2, e3, e4⟩ := ih h
      cases r with
      | always x =>
        simp only [Log.add, bind, Except.bind] at h1
        split at h1
        · cases h1
        · rename_i y hy
          injection h1 with h1
          rw [← h1] at e1 e3
          refine ⟨⟨.always x, none, some y⟩ :: es, ?_, ?_, .always x y e3, ?_⟩
          · rw [e1, List.append_assoc]
            rfl
          · rw [List.map_cons, e2]
          · intro e he v hv
            rcases List.mem_cons.1 he with rfl | he
            · cases hv
            · exact e4 e he v hv
      | throttled ms x =>
        simp only [Log.add, bind, Except.bind] at h1
        rcases lt_or_ge (clk l.readings) (l.throttle.last + l.throttle.limit ms) with hlt | hge
        · rw [Throttle.warn_hidden x hlt] at h1
          injection h1 with h1
          rw [← h1] at e1 e3
          refine ⟨⟨.throttled ms x, some (clk l.readings), none⟩ :: es, ?_, ?_, .hidden ms _ x hlt e3, ?_⟩
          · rw [e1, List.append_assoc]
            rfl
          · rw [List.map_cons, e2]
          · intro e he v hv
            rcases List.mem_cons.1 he with rfl | he
            · exact ⟨l.readings, (Option.some.inj hv).symm⟩
            · exact e4 e he v hv
        · rw [Throttle.warn_shown x hge] at h1
          cases hp : printf x with
          | error e =>
            rw [hp] at h1
            cases h1
          | ok y =>
            rw [hp] at h1
            simp only [Except.bind] at h1
            injection h1 with h1
            rw [← h1] at e1 e3
            refine ⟨⟨.throttled ms x, some (clk l.readings), some y⟩ :: es, ?_, ?_, .shown ms _ x y hge e3, ?_⟩
            · rw [e1, List.append_assoc]
              rfl
            · rw [List.map_cons, e2]
            · intro e he v hv
              rcases List.mem_cons.1 he with rfl | he
              · exact ⟨l.readings, (Option.some.inj hv).symm⟩
              · exact e4 e he v hv

/-! ### Specification -/

/-- The duration, in nanoseconds, of the first throttled request in a list. -/
def firstDuration (E : List Entry) : Option ℤ :=
  (E.filterMap fun e => match e.request with
    | .throttled ms _ => some (ms * 1000000)
    | .always _ => none).head?

/-- The clock reading of the last throttled line shown in a list; zero if there is none. -/
def lastShown (E : List Entry) : ℤ :=
  ((E.filterMap fun e => if e.line.isSome then e.reading else none).getLast?).getD 0

/-- The same with another value in case there is none. -/
def lastShownFrom (u : ℤ) (E : List Entry) : ℤ :=
  ((E.filterMap fun e => if e.line.isSome then e.reading else none).getLast?).getD u

theorem lastShownFrom_cons_shown (u v ms : ℤ) (x y : List Char) (E : List Entry) :
    lastShownFrom u (⟨.throttled ms x, some v, some y⟩ :: E) = lastShownFrom v E := by
  unfold lastShownFrom
  simp only [List.filterMap_cons, Option.isSome_some, if_true]
  rw [List.getLast?_cons]
  simp

theorem lastShownFrom_cons_other (u : ℤ) (e : Entry) (E : List Entry)
    (h : (if e.line.isSome then e.reading else none) = none) :
    lastShownFrom u (e :: E) = lastShownFrom u E := by
  unfold lastShownFrom
  rw [List.filterMap_cons, h]

theorem Obeys.iff {t t' : Throttle} {E : List Entry} (h : Obeys t E t') :
    ∀ (d : ℤ), t.duration.or (firstDuration E) = some d → ∀ (pre post : List Entry) (e : Entry) (v : ℤ),
      E = pre ++ e :: post → e.reading = some v →
      (e.line.isSome ↔ lastShownFrom t.last pre + d ≤ v) := by
  induction h with
  | nil t => intro d _ pre post e v hE; simp at hE
  | @always t t' es x y _ ih =>
    intro d hd pre post e v hE hv
    cases pre with
    | nil =>
      simp only [List.nil_append, List.cons.injEq] at hE
      rw [← hE.1] at hv
      cases hv
    | cons e' pre =>
      simp only [List.cons_append, List.cons.injEq] at hE
      rw [← hE.1, lastShownFrom_cons_other _ _ _ rfl]
      exact ih d hd pre post e v hE.2 hv
  | @shown t t' es ms v0 x y hv0 _ ih =>
    intro d hd pre post e v hE hv
    have hdl : t.limit ms = d := by
      unfold Throttle.limit
      cases ht : t.duration with
      | none =>
        rw [ht] at hd
        simpa [firstDuration] using hd
      | some d' =>
        rw [ht] at hd
        simpa using hd
    rw [hdl] at hv0 ih
    cases pre with
    | nil =>
      simp only [List.nil_append, List.cons.injEq] at hE
      rw [← hE.1] at hv ⊢
      injection hv with hv
      rw [← hv]
      exact ⟨fun _ => hv0, fun _ => rfl⟩
    | cons e' pre =>
      simp only [List.cons_append, List.cons.injEq] at hE
      rw [← hE.1, lastShownFrom_cons_shown]
      exact ih d rfl pre post e v hE.2 hv
  | @hidden t t' es ms v0 x hv0 _ ih =>
    intro d hd pre post e v hE hv
    have hdl : t.limit ms = d := by
      unfold Throttle.limit
      cases ht : t.duration with
      | none =>
        rw [ht] at hd
        simpa [firstDuration] using hd
      | some d' =>
        rw [ht] at hd
        simpa using hd
    rw [hdl] at hv0 ih
    cases pre with
    | nil =>
      simp only [List.nil_append, List.cons.injEq] at hE
      rw [← hE.1] at hv ⊢
      injection hv with hv
      rw [← hv]
      refine ⟨fun h => by simp at h, fun h => absurd (lt_of_lt_of_le hv0 h) (lt_irrefl _)⟩
    | cons e' pre =>
      simp only [List.cons_append, List.cons.injEq] at hE
      rw [← hE.1, lastShownFrom_cons_other _ _ _ rfl]
      exact ih d rfl pre post e v hE.2 hv

/-! ### The node -/

section Node
variable {N : ℕ} (fmt : Fmt) (hN : 0 < N) (tf : Tf2) (p : EkfParams)

/-- The requests of a callback. -/
theorem stepLogged_addAll {clk : ℕ → ℤ} {s s' : NodeState N} {t : Throttle} {e : Event} {l : Log}
    {o : List Output} (Q : List Request → Prop) (hQ0 : Q []) (hQ : ∀ a b, Q a → Q b → Q (a ++ b))
    (hQj : ∀ a b, Q [jumpBackWarning fmt a b])
    (hQp : ∀ m ∈ s.poseQ.msgs, ∀ now rs, AskedFor (N := N) fmt m.frame p.poseFrame now m.stamp rs → Q rs)
    (hQt : ∀ m ∈ s.twistQ.msgs, ∀ now rs, AskedFor (N := N) fmt m.frame "base_link".toList now m.stamp rs →
      Q rs)
    (h : stepLogged fmt clk hN tf p s t e = .ok (s', o, l)) :
    ∃ rs, (⟨t, 0, []⟩ : Log).addAll clk rs = .ok l ∧ Q rs := by
  have other : ∀ r : Res (NodeState N × List Output),
      r.bind (fun r => Except.ok (r.1, r.2, (⟨t, 0, []⟩ : Log))) = .ok (s', o, l) →
      ∃ rs, (⟨t, 0, []⟩ : Log).addAll clk rs = .ok l ∧ Q rs := by
    intro r h
    cases r with
    | error x => cases h
    | ok r =>
      simp only [Except.bind, Except.ok.injEq, Prod.mk.injEq] at h
      exact ⟨[], by rw [← h.2.2]; rfl, hQ0⟩
  cases e with
  | initialPose m tries => exact other (step hN tf p s (.initialPose m tries)) h
  | pose m => exact other (step hN tf p s (.pose m)) h
  | twist m => exact other (step hN tf p s (.twist m)) h
  | timer t1 t2 t3 t4 t5 sp st =>
    simp only [stepLogged] at h
    obtain ⟨rs, ha, hq, -⟩ := timerLogged_addAll fmt hN tf p Q hQ0 hQ (fun a b _ => hQj a b)
      (fun m hm rs => hQp m hm t2 rs) (fun m hm rs => hQt m hm t3 rs) h
    exact ⟨rs, ha, hq⟩

/-- A throttled request has a duration of one or two seconds. -/
def Durations (rs : List Request) : Prop :=
  ∀ r ∈ rs, ∀ ms x, r = .throttled ms x → ms = 1000 ∨ ms = 2000

theorem AskedFor.durations {frame expected : List Char} {now stamp : ℤ} {rs : List Request}
    (h : AskedFor (N := N) fmt frame expected now stamp rs) : Durations rs := by
  obtain ⟨rest, rfl, h⟩ := h
  intro r hr ms x hrx
  subst hrx
  simp only [List.mem_append] at hr
  rcases hr with (hr | hr) | hr
  · split_ifs at hr
    · simp only [frameIdWarning, List.mem_singleton, Request.throttled.injEq] at hr
      exact Or.inr hr.1
    · cases hr
  · split_ifs at hr
    · simp only [delayTimeWarning, List.mem_singleton, Request.throttled.injEq] at hr
      exact Or.inl hr.1
    · cases hr
  · rcases h with rfl | ⟨δ, rfl⟩ | rfl | rfl | rfl
    · cases hr
    · simp only [delayStepWarning, List.mem_singleton, Request.throttled.injEq] at hr
      exact Or.inl hr.1
    · simp only [nanInfWarning, List.mem_singleton, reduceCtorEq] at hr
    · simp only [mahalanobisGateWarning, List.mem_singleton, Request.throttled.injEq] at hr
      exact Or.inr hr.1
    · simp only [List.mem_singleton, reduceCtorEq] at hr

theorem runLogged_obeys (es : List (Event × (ℕ → ℤ))) {s s' : NodeState N} {t : Throttle}
    {out : List Output} {logs : List Log} (h : runLogged fmt hN tf p s t es = .ok (s', out, logs)) :
    (∃ t', Obeys t (logs.flatMap Log.entries) t') ∧
      Durations ((logs.flatMap Log.entries).map Entry.request) := by
  induction es generalizing s s' t out logs with
  | nil =>
    simp only [runLogged, Except.ok.injEq, Prod.mk.injEq] at h
    rw [← h.2.2]
    exact ⟨⟨t, .nil t⟩, by simp [Durations]⟩
  | cons e es ih =>
    obtain ⟨e, clk⟩ := e
    simp only [runLogged, bind, Except.bind] at h
    cases h1 : stepLogged fmt clk hN tf p s t e with
    | error x => rw [h1] at h; simp only [reduceCtorEq] at h
    | ok r =>
      obtain ⟨s1, o1, l1⟩ := r
      rw [h1] at h
      simp only at h
      cases h2 : runLogged fmt hN tf p s1 l1.throttle es with
      | error x => rw [h2] at h; simp only [reduceCtorEq] at h
      | ok r2 =>
        obtain ⟨s2, o2, ls⟩ := r2
        rw [h2] at h
        simp only [pure, Except.pure, Except.ok.injEq, Prod.mk.injEq] at h
        rw [← h.2.2]
        obtain ⟨⟨t', ht'⟩, hd'⟩ := ih h2
        obtain ⟨rs, ha, hq⟩ := stepLogged_addAll fmt hN tf p Durations (by simp [Durations])
          (fun a b ha hb r hr => by
            rcases List.mem_append.1 hr with hr | hr
            · exact ha r hr
            · exact hb r hr)
          (fun a b r hr ms x hrx => by
            rw [List.mem_singleton] at hr
            rw [hr] at hrx
            simp only [jumpBackWarning, reduceCtorEq] at hrx)
          (fun m _ now rs hA => AskedFor.durations fmt hA) (fun m _ now rs hA => AskedFor.durations fmt hA) h1
        obtain ⟨es', e1, e2, e3, -⟩ := Log.addAll_obeys ha
        simp only [List.nil_append] at e1
        rw [List.flatMap_cons, e1]
        refine ⟨⟨t', e3.append ht'⟩, ?_⟩
        rw [List.map_append, e2]
        intro r hr
        rcases List.mem_append.1 hr with hr | hr
        · exact hq r hr
        · exact hd' r hr

/-- C120, what holds of the whole log: a throttled warning is shown if and only if the last throttled
warning shown, of whatever kind, is as long ago as the first throttled warning of the process asked for
(and so is time zero). Missing: a throttle of its own for each warning, with the duration it asks for. -/
theorem C120_throttle_partial (es : List (Event × (ℕ → ℤ))) {s s' : NodeState N} {out : List Output}
    {logs : List Log} (h : runLogged fmt hN tf p s Throttle.init es = .ok (s', out, logs))
    (pre post : List Entry) (e : Entry) (v d : ℤ)
    (hE : logs.flatMap Log.entries = pre ++ e :: post) (hv : e.reading = some v)
    (hd : firstDuration (logs.flatMap Log.entries) = some d) :
    e.line.isSome ↔ lastShown pre + d ≤ v := by
  obtain ⟨⟨t', ht'⟩, -⟩ := runLogged_obeys fmt hN tf p es h
  exact ht'.iff d hd pre post e v hE hv

/-- C120, the part that holds: the log does not fall silent. When a throttled warning is asked for, two
seconds or more after time zero, then it is shown or another one has been less than two seconds ago. -/
theorem C120_not_silent_partial (es : List (Event × (ℕ → ℤ))) {s s' : NodeState N} {out : List Output}
    {logs : List Log} (h : runLogged fmt hN tf p s Throttle.init es = .ok (s', out, logs))
    (pre post : List Entry) (e : Entry) (v : ℤ)
    (hE : logs.flatMap Log.entries = pre ++ e :: post) (hv : e.reading = some v)
    (hv2 : 2000000000 ≤ v) (hline : e.line = none) :
    ∃ e' ∈ pre, ∃ u, e'.reading = some u ∧ e'.line.isSome ∧ v < u + 2000000000 := by
  obtain ⟨⟨t', ht'⟩, hdur⟩ := runLogged_obeys fmt hN tf p es h
  have hreq : ∀ {t t' : Throttle} {E : List Entry}, Obeys t E t' → ∀ e ∈ E, ∀ v, e.reading = some v →
      ∃ ms x, e.request = .throttled ms x := by
    intro t t' E hE
    induction hE with
    | nil t => simp
    | always x y _ ih =>
      intro e he v hv
      rcases List.mem_cons.1 he with rfl | he
      · cases hv
      · exact ih e he v hv
    | shown ms v x y _ _ ih =>
      intro e he v hv
      rcases List.mem_cons.1 he with rfl | he
      · exact ⟨_, _, rfl⟩
      · exact ih e he v hv
    | hidden ms v x _ _ ih =>
      intro e he v hv
      rcases List.mem_cons.1 he with rfl | he
      · exact ⟨_, _, rfl⟩
      · exact ih e he v hv
  obtain ⟨ms0, x0, he0⟩ := hreq ht' e (by rw [hE]; simp) v hv
  have hfd : ∃ d, firstDuration (logs.flatMap Log.entries) = some d ∧ d ≤ 2000000000 := by
    have hmem : ms0 * 1000000 ∈ (logs.flatMap Log.entries).filterMap (fun e => match e.request with
        | .throttled ms _ => some (ms * 1000000)
        | .always _ => none) :=
      List.mem_filterMap.2 ⟨e, by rw [hE]; simp, by rw [he0]⟩
    cases hc : (logs.flatMap Log.entries).filterMap (fun e => match e.request with
        | .throttled ms _ => some (ms * 1000000)
        | .always _ => none) with
    | nil => rw [hc] at hmem; cases hmem
    | cons d ds =>
      refine ⟨d, by unfold firstDuration; rw [hc]; rfl, ?_⟩
      have hd : d ∈ (logs.flatMap Log.entries).filterMap (fun e => match e.request with
        | .throttled ms _ => some (ms * 1000000)
        | .always _ => none) := by rw [hc]; exact List.mem_cons_self
      obtain ⟨e1, he1, hr1⟩ := List.mem_filterMap.1 hd
      cases hr : e1.request with
      | always x => rw [hr] at hr1; cases hr1
      | throttled ms x =>
        rw [hr] at hr1
        injection hr1 with hr1
        have := hdur _ (List.mem_map_of_mem he1) ms x hr
        omega
  obtain ⟨d, hd, hd2⟩ := hfd
  have hiff := C120_throttle_partial fmt hN tf p es h pre post e v d hE hv hd
  have hlt : v < lastShown pre + d := by
    by_contra hc
    have := hiff.2 (not_lt.1 hc)
    rw [hline] at this
    cases this
  cases hc : (pre.filterMap fun e => if e.line.isSome then e.reading else none).getLast? with
  | none =>
    have : lastShown pre = 0 := by unfold lastShown; rw [hc]; rfl
    omega
  | some u =>
    have hu : lastShown pre = u := by unfold lastShown; rw [hc]; rfl
    obtain ⟨e', he', hr'⟩ := List.mem_filterMap.1 (List.mem_of_getLast? hc)
    by_cases hl : e'.line.isSome
    · rw [if_pos hl] at hr'
      exact ⟨e', he', u, hr', hl, by omega⟩
    · rw [if_neg hl] at hr'
      cases hr'

/-! The violation. -/

/-- Specification: a request on the frame of a message. -/
def IsFrameWarning (r : Request) : Prop := ∃ a b, r = frameIdWarning a b

/-- Whether a request is throttled. -/
def Request.isThrottled : Request → Bool
  | .throttled .. => true
  | .always _ => false

/-- The first throttled request, if there is one, is on a frame. -/
def FrameFirst (rs : List Request) : Prop :=
  ∀ r, rs.find? Request.isThrottled = some r → IsFrameWarning r

/-- Durations are positive. -/
def Throttle.Pos (t : Throttle) : Prop := ∀ d, t.duration = some d → 0 < d

theorem obeys_closed {c : ℤ} {t t' : Throttle} {E : List Entry} (h : Obeys t E t')
    (hc : ∀ e ∈ E, ∀ v, e.reading = some v → v = c) (d : ℤ) (hd : t.duration = some d)
    (hlt : c < t.last + d) : (∀ e ∈ E, e.reading.isSome → e.line = none) ∧ t'.duration = some d := by
  induction h with
  | nil t => exact ⟨by simp, hd⟩
  | always x y _ ih =>
    obtain ⟨h1, h2⟩ := ih (fun e he => hc e (List.mem_cons_of_mem _ he)) hd hlt
    refine ⟨fun e he hr => ?_, h2⟩
    rcases List.mem_cons.1 he with rfl | he
    · cases hr
    · exact h1 e he hr
  | @shown t t' es ms v x y hv _ ih =>
    exfalso
    have hv' : v = c := hc _ List.mem_cons_self v rfl
    have : t.limit ms = d := by unfold Throttle.limit; rw [hd]
    omega
  | @hidden t t' es ms v x hv _ ih =>
    have hl : t.limit ms = d := by unfold Throttle.limit; rw [hd]
    rw [hl] at ih
    obtain ⟨h1, h2⟩ := ih (fun e he => hc e (List.mem_cons_of_mem _ he)) rfl hlt
    refine ⟨fun e he hr => ?_, h2⟩
    rcases List.mem_cons.1 he with rfl | he
    · rfl
    · exact h1 e he hr

theorem obeys_frameFirst {c : ℤ} {t t' : Throttle} {E : List Entry} (h : Obeys t E t')
    (hc : ∀ e ∈ E, ∀ v, e.reading = some v → v = c) (ht : t.Pos)
    (hQ : FrameFirst (E.map Entry.request)) :
    (∀ e ∈ E, e.reading.isSome → e.line.isSome → IsFrameWarning e.request) ∧ t'.Pos := by
  induction h with
  | nil t => exact ⟨by simp, ht⟩
  | always x y _ ih =>
    obtain ⟨h1, h2⟩ := ih (fun e he => hc e (List.mem_cons_of_mem _ he)) ht (fun r hr => hQ r (by
      simpa [Request.isThrottled] using hr))
    refine ⟨fun e he hr => ?_, h2⟩
    rcases List.mem_cons.1 he with rfl | he
    · cases hr
    · exact h1 e he hr
  | @shown t t' es ms v x y hv hrest ih =>
    have hf : IsFrameWarning (.throttled ms x) := hQ _ rfl
    have hms : ms = 2000 := by
      obtain ⟨a, b, hab⟩ := hf
      injection hab
    have hpos : 0 < t.limit ms := by
      unfold Throttle.limit
      cases hd : t.duration with
      | none => simp only; omega
      | some d => exact ht d hd
    have hv' : v = c := hc _ List.mem_cons_self v rfl
    obtain ⟨h1, h2⟩ := obeys_closed hrest (fun e he => hc e (List.mem_cons_of_mem _ he)) _ rfl
      (by simp only; omega)
    refine ⟨fun e he hr hl => ?_, fun d hd => ?_⟩
    · rcases List.mem_cons.1 he with rfl | he
      · exact hf
      · rw [h1 e he hr] at hl
        cases hl
    · rw [h2] at hd
      injection hd with hd
      omega
  | @hidden t t' es ms v x hv hrest ih =>
    have hf : IsFrameWarning (.throttled ms x) := hQ _ rfl
    have hms : ms = 2000 := by
      obtain ⟨a, b, hab⟩ := hf
      injection hab
    have hpos : 0 < t.limit ms := by
      unfold Throttle.limit
      cases hd : t.duration with
      | none => simp only; omega
      | some d => exact ht d hd
    have hv' : v = c := hc _ List.mem_cons_self v rfl
    obtain ⟨h1, h2⟩ := obeys_closed hrest (fun e he => hc e (List.mem_cons_of_mem _ he)) _ rfl
      (by simp only; omega)
    refine ⟨fun e he hr hl => ?_, fun d hd => ?_⟩
    · rcases List.mem_cons.1 he with rfl | he
      · exact hf
      · rw [h1 e he hr] at hl
        cases hl
    · rw [h2] at hd
      injection hd with hd
      omega

/-- The waiting messages are poses, in other frames than the expected one. -/
def NodeState.Foreign (s : NodeState N) : Prop :=
  (∀ m ∈ s.poseQ.msgs, m.frame ≠ p.poseFrame) ∧ s.twistQ.msgs = []

/-- Specification: an event other than a twist or a pose message in the expected frame. -/
def Event.Foreign (p : EkfParams) : Event → Prop
  | .pose m => m.frame ≠ p.poseFrame
  | .twist _ => False
  | _ => True

theorem step_foreign {s s' : NodeState N} {e : Event} {o : List Output} (hs : s.Foreign p)
    (he : e.Foreign p) (h : step hN tf p s e = .ok (s', o)) : s'.Foreign p := by
  cases e with
  | initialPose m tries =>
    simp only [step, bind, Except.bind] at h
    cases hi : initialPoseCallback tf p s m tries with
    | error x =>
      rw [hi] at h
      simp only [reduceCtorEq] at h
    | ok s1 =>
      rw [hi] at h
      simp only [pure, Except.pure, Except.ok.injEq, Prod.mk.injEq] at h
      rw [← h.1]
      simp only [initialPoseCallback, bind, Except.bind, pure, Except.pure] at hi
      repeat' (split at hi)
      all_goals cases hi
      exact ⟨fun m' hm' => (by cases hm'), rfl⟩
  | pose m =>
    simp only [step] at h
    injection h with h
    injection h with h h'
    subst h
    refine ⟨fun m' hm' => ?_, hs.2⟩
    simp only [updateSimple1DFilters, AgedQueue.push, List.mem_append, List.mem_singleton] at hm'
    rcases hm' with hm' | rfl
    · exact hs.1 _ hm'
    · exact he
  | twist m => exact he.elim
  | timer t1 t2 t3 t4 t5 sp st =>
    simp only [step, timerCallback] at h
    cases hekf : s.ekf with
    | none =>
      rw [hekf] at h
      simp only [Except.ok.injEq, Prod.mk.injEq] at h
      rw [← h.1]
      exact hs
    | some f =>
      rw [hekf] at h
      simp only at h
      rcases hc : s.interval.compute ((t1 : ℝ) / 1000000000) with ⟨r, iv⟩
      rw [hc] at h
      cases r with
      | error x =>
        cases x with
        | invalidArgument =>
          simp only [Except.ok.injEq, Prod.mk.injEq] at h
          rw [← h.1]
          exact hs
        | _ => simp only [reduceCtorEq] at h
      | ok dt =>
        simp only [bind, Except.bind] at h
        cases h1 : updateAll (processPose hN tf sp p.poseGate p.poseSmoothing t2 dt) s.poseQ
            (predictStep hN p dt f) with
        | error x => rw [h1] at h; simp only [reduceCtorEq] at h
        | ok r1 =>
          rw [h1] at h
          simp only at h
          cases h2 : updateAll (processTwist hN st p.twistGate p.twistSmoothing t3 dt) s.twistQ
              r1.1 with
          | error x => rw [h2] at h; simp only [reduceCtorEq] at h
          | ok r2 =>
            rw [h2] at h
            simp only [pure, Except.pure, Except.ok.injEq, Prod.mk.injEq] at h
            have k1 := updateLoop_inv _ (fun _ => True) (fun m : PoseMsg => m.frame ≠ p.poseFrame)
              (fun _ _ _ _ _ _ => trivial) _ _ _ _ _ _ trivial hs.1 h1
            have k2 := updateLoop_inv _ (fun _ => True) (fun _ : TwistMsg => False)
              (fun _ _ _ _ _ _ => trivial) _ _ _ _ _ _ trivial
              (fun m hm => by rw [hs.2] at hm; cases hm) h2
            rw [← h.1]
            exact ⟨k1.2, List.eq_nil_iff_forall_not_mem.2 k2.2⟩

/-- C120, violation in every execution: as long as all poses come from another frame than the expected
one (and there are no twists), none of the other throttled warnings is ever shown, neither that stamps
are in the future, nor that measurements are too old, nor that they are too far from the estimate: the
warning on the frame comes first in each tick and uses up the throttle. This is for clocks that stand
still during a callback, as in simulation. -/
theorem C120_hidden_violated (es : List (Event × (ℕ → ℤ))) (hes : ∀ e ∈ es, e.1.Foreign p)
    (hclk : ∀ e ∈ es, ∀ k, e.2 k = e.2 0) {s' : NodeState N} {out : List Output} {logs : List Log}
    (h : runLogged fmt hN tf p (NodeState.make N p) Throttle.init es = .ok (s', out, logs)) :
    ∀ l ∈ logs, ∀ e ∈ l.entries, e.reading.isSome → e.line.isSome → IsFrameWarning e.request := by
  have gen : ∀ (es : List (Event × (ℕ → ℤ))) (s s' : NodeState N) (t : Throttle) (out : List Output)
      (logs : List Log), s.Foreign p → t.Pos → (∀ e ∈ es, e.1.Foreign p) →
      (∀ e ∈ es, ∀ k, e.2 k = e.2 0) → runLogged fmt hN tf p s t es = .ok (s', out, logs) →
      ∀ l ∈ logs, ∀ e ∈ l.entries, e.reading.isSome → e.line.isSome → IsFrameWarning e.request := by
    intro es
    induction es with
    | nil =>
      intro s s' t out logs _ _ _ _ h
      simp only [runLogged, Except.ok.injEq, Prod.mk.injEq] at h
      rw [← h.2.2]
      simp
    | cons e es ih =>
      intro s s' t out logs hs ht hes hclk h
      obtain ⟨e, clk⟩ := e
      simp only [runLogged, bind, Except.bind] at h
      cases h1 : stepLogged fmt clk hN tf p s t e with
      | error x => rw [h1] at h; simp only [reduceCtorEq] at h
      | ok r =>
        obtain ⟨s1, o1, l1⟩ := r
        rw [h1] at h
        simp only at h
        cases h2 : runLogged fmt hN tf p s1 l1.throttle es with
        | error x => rw [h2] at h; simp only [reduceCtorEq] at h
        | ok r2 =>
          obtain ⟨s2, o2, ls⟩ := r2
          rw [h2] at h
          simp only [pure, Except.pure, Except.ok.injEq, Prod.mk.injEq] at h
          obtain ⟨rs, ha, hq⟩ := stepLogged_addAll fmt hN tf p FrameFirst (fun r hr => by cases hr)
            (fun a b ha hb r hr => by
              rw [List.find?_append] at hr
              cases hfa : a.find? Request.isThrottled with
              | none =>
                rw [hfa] at hr
                exact hb r hr
              | some r' =>
                rw [hfa] at hr
                exact ha r (hfa.trans hr))
            (fun a b r hr => by
              simp only [jumpBackWarning, List.find?_cons, Request.isThrottled, List.find?_nil,
                reduceCtorEq] at hr)
            (fun m hm now rs hA => by
              obtain ⟨rest, rfl, -⟩ := hA
              intro r hr
              rw [if_pos (hs.1 m hm)] at hr
              simp only [List.cons_append, List.find?_cons, frameIdWarning, Request.isThrottled,
                Option.some.injEq] at hr
              exact ⟨m.frame, p.poseFrame, hr.symm⟩)
            (fun m hm => by rw [hs.2] at hm; cases hm) h1
          obtain ⟨es', e1, e2, e3, e4⟩ := Log.addAll_obeys ha
          simp only [List.nil_append] at e1
          obtain ⟨g1, g2⟩ := obeys_frameFirst (c := clk 0) e3
            (fun e he v hv => by
              obtain ⟨k, hk⟩ := e4 e he v hv
              rw [hk]
              exact hclk (_, clk) List.mem_cons_self k) ht (by rw [e2]; exact hq)
          have hs1 := step_foreign hN tf p hs (hes _ List.mem_cons_self)
            (stepLogged_forget fmt hN tf p h1)
          have h3 := ih s1 s2 l1.throttle o2 ls hs1 g2 (fun e he => hes e (List.mem_cons_of_mem _ he))
            (fun e he => hclk e (List.mem_cons_of_mem _ he)) h2
          rw [← h.2.2]
          intro l hl
          rcases List.mem_cons.1 hl with rfl | hl
          · rw [e1]
            exact g1
          · exact h3 l hl
  exact gen es _ s' _ out logs
    ⟨by simp [NodeState.make, AgedQueue.make], rfl⟩ (fun d hd => by cases hd) hes hclk h

end Node

/-- A pose from another frame, stamped 20 s after time zero. -/
def futurePose : PoseMsg := { poseAt 0 20000000000 with frame := "odom".toList }

/-- An initial pose, such a pose, and a tick 10 s after time zero. -/
def futureEvents : List (Event × (ℕ → ℤ)) :=
  [(.initialPose (poseAt 10 0) identityTries, fun _ => 0), (.pose futurePose, fun _ => 0),
    (.timer 10000000000 10000000000 10000000000 10000000000 10000000000 (fun _ => true) (fun _ => true),
      fun _ => 10000000000)]

/-- C120, violation: ten seconds after time zero the node asks to show that a stamp is in the future, has
never shown this, and does not show it. -/
theorem C120_starved_violated : ∃ (s : NodeState 1) (out : List Output) (logs : List Log),
    runLogged zeroFmt Nat.one_pos flatTf defaultParams (NodeState.make 1 defaultParams) Throttle.init
      futureEvents = .ok (s, out, logs) ∧
    (∃ e ∈ logs.flatMap Log.entries, e.request = delayTimeWarning zeroFmt (-10) ∧
      e.reading = some 10000000000) ∧
    ∀ e ∈ logs.flatMap Log.entries, e.request = delayTimeWarning zeroFmt (-10) → e.line = none := by
  have hw : WellFormed flatTf (1 / 50) (futureEvents.map Prod.fst) := by
    refine ⟨?_, ?_, ?_, ?_⟩
    · intro e he
      simp only [futureEvents, List.map_cons, List.map_nil, List.mem_cons, List.not_mem_nil, or_false] at he
      rcases he with rfl | rfl | rfl
      · exact ⟨by simp [poseAt], rfl, rfl, rfl, fun a b => ⟨⟨0, by norm_num, rfl⟩, fun k t _ => rfl⟩⟩
      all_goals trivial
    · change List.Pairwise _ [(10000000000 : ℤ)]
      simp
    · intro e he t1 t2 t3 t4 t5 sp st hee stamp hst
      simp only [futureEvents, List.map_cons, List.map_nil, List.mem_cons, List.not_mem_nil, or_false] at he
      have : 20000000000 = stamp := by
        simpa [futureEvents, futurePose, Event.poseStamp, poseAt] using hst
      subst this
      rcases he with rfl | rfl | rfl <;> cases hee
      norm_num
    · intro e he t1 t2 t3 t4 t5 sp st hee stamp hst
      simp [futureEvents, Event.twistStamp] at hst
  have hplain : zeroFmt.Plain := ⟨fun _ => by simp [zeroFmt, Plain], fun _ => by simp [zeroFmt, Plain],
    fun _ => by simp [zeroFmt, Plain]⟩
  obtain ⟨s, out, logs, h, -⟩ := C118_no_failure_partial zeroFmt Nat.one_pos flatTf defaultParams (1 / 50)
    (by norm_num) (by norm_num) (by norm_num [defaultParams]) (by simp [defaultParams]) hplain
    (by simp [defaultParams, Plain]) futureEvents
    (by
      intro e he
      simp only [futureEvents, List.mem_cons, List.not_mem_nil, or_false] at he
      rcases he with rfl | rfl | rfl
      · trivial
      · simp [Event.PlainFrame, futurePose, Plain]
      · trivial) hw Throttle.init
  refine ⟨s, out, logs, h, ?_, ?_⟩
  · obtain ⟨s1, f, hs1, hf, hiv, hq, htq⟩ : ∃ (s1 : NodeState 1) (f : TimeDelayKalmanFilter ℝ 1 6),
        step Nat.one_pos flatTf defaultParams (NodeState.make 1 defaultParams)
          (.initialPose (poseAt 10 0) identityTries) = .ok (s1, []) ∧ s1.ekf = some f ∧
        s1.interval.lastTime = none ∧ s1.poseQ = ⟨5, [], []⟩ ∧ s1.twistQ.msgs = [] :=
      ⟨_, _, rfl, rfl, rfl, rfl, rfl⟩
    have hs2 : ∃ s2 : NodeState 1, step Nat.one_pos flatTf defaultParams s1 (.pose futurePose) = .ok (s2, []) ∧
        s2.ekf = some f ∧ s2.interval.lastTime = none ∧ s2.poseQ = ⟨5, [futurePose], [0]⟩ ∧
        s2.twistQ.msgs = [] := by
      refine ⟨_, rfl, hf, hiv, ?_, htq⟩
      change s1.poseQ.push _ = _
      rw [hq]
      rfl
    obtain ⟨s2, hs2, hf2, hiv2, hq2, htq2⟩ := hs2
    simp only [futureEvents, runLogged, stepLogged, bind, Except.bind, hs1, hs2, pure, Except.pure] at h
    cases ht : timerLogged zeroFmt (fun _ => 10000000000) Nat.one_pos flatTf defaultParams s2
        ⟨Throttle.init, 0, []⟩ 10000000000 10000000000 10000000000 10000000000 10000000000
        (fun _ => true) (fun _ => true) with
    | error x =>
      rw [ht] at h
      simp only [reduceCtorEq] at h
    | ok r =>
      obtain ⟨s3, o3, l3⟩ := r
      rw [ht] at h
      simp only [Except.ok.injEq, Prod.mk.injEq] at h
      have hmem : ∀ rs, AskedFor (N := 1) zeroFmt futurePose.frame defaultParams.poseFrame 10000000000
          futurePose.stamp rs → ∃ r rest, rs = r :: delayTimeWarning zeroFmt (-10) :: rest := by
        rintro rs ⟨rest, rfl, -⟩
        rw [if_pos (by simp [futurePose, defaultParams]), if_pos (by norm_num [futurePose, poseAt])]
        have hd : (((10000000000 - futurePose.stamp : ℤ) : ℝ) / 1000000000) = -10 := by
          norm_num [futurePose, poseAt]
        rw [hd]
        exact ⟨_, _, rfl⟩
      obtain ⟨rs, ha, hQ, hsil⟩ := timerLogged_addAll zeroFmt Nat.one_pos flatTf defaultParams
        (fun rs => rs = [] ∨ ∃ r rest, rs = r :: delayTimeWarning zeroFmt (-10) :: rest) (Or.inl rfl)
        (by
          rintro a b (rfl | ⟨r, rest, rfl⟩) hb
          · exact hb
          · exact Or.inr ⟨r, rest ++ b, rfl⟩)
        (fun a b hb => by rw [hiv2] at hb; cases hb)
        (fun m hm rs hA => by
          rw [hq2, List.mem_singleton] at hm
          rw [hm] at hA
          exact Or.inr (hmem rs hA))
        (fun m hm => by rw [htq2] at hm; cases hm) ht
      rcases hQ with h0 | ⟨r, rest, hr⟩
      · exfalso
        obtain ⟨dt, f1, f2, -, -, hg, -⟩ := hsil h0 f hf2
        have := hg (fun _ _ => .error .notModelled) (fun m f f' hm hu => by
          rw [hq2, List.mem_singleton] at hm
          rw [hm] at hu
          exact absurd hu.1 (by simp [futurePose, defaultParams]))
        rw [hq2] at this
        simp [updateAll, updateLoop, AgedQueue.size, AgedQueue.pop, bind, Except.bind] at this
      · obtain ⟨es, e1, e2, e3, e4⟩ := Log.addAll_obeys ha
        rw [hr] at e2
        match es, e2 with
        | x1 :: x2 :: es', e2 =>
          simp only [List.map_cons, List.cons.injEq] at e2
          have hx2 : x2 ∈ l3.entries := by
            rw [e1]
            simp
          have hrd : x2.reading = some 10000000000 := by
            have h1 := e3.reading x2 (by simp) 1000 _ e2.2.1
            obtain ⟨v, hv⟩ := Option.isSome_iff_exists.1 h1
            obtain ⟨k, hk⟩ := e4 x2 (by simp) v hv
            rw [hv, hk]
          refine ⟨x2, ?_, e2.2.1, hrd⟩
          rw [← h.2.2]
          exact List.mem_flatMap.2 ⟨l3, by simp, hx2⟩
  · intro e he hr
    have hforeign := C120_hidden_violated zeroFmt Nat.one_pos flatTf defaultParams futureEvents
      (by
        intro e he
        simp only [futureEvents, List.mem_cons, List.not_mem_nil, or_false] at he
        rcases he with rfl | rfl | rfl
        · trivial
        · simp [Event.Foreign, futurePose, defaultParams]
        · trivial)
      (by
        intro e he
        simp only [futureEvents, List.mem_cons, List.not_mem_nil, or_false] at he
        rcases he with rfl | rfl | rfl <;> exact fun _ => rfl) h
    obtain ⟨l, hl, hel⟩ := List.mem_flatMap.1 he
    obtain ⟨⟨t', ht'⟩, -⟩ := runLogged_obeys zeroFmt Nat.one_pos flatTf defaultParams futureEvents h
    have hread := ht'.reading e he 1000 _ hr
    by_contra hline
    obtain ⟨a, b, hab⟩ := hforeign l hl e hel hread (Option.isSome_iff_ne_none.2 hline)
    rw [hr] at hab
    simp only [delayTimeWarning, frameIdWarning, Request.throttled.injEq] at hab
    exact absurd hab.1 (by norm_num)

end Verif.Ekf
