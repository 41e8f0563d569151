/-
C109: the poses published by the localization program, from the two cloud topics and the prior poses.
-/
import Verif.Props.C54
import Verif.Props.C108

set_option autoImplicit false

namespace Verif.Store

open Verif Verif.Rot Verif.Opt

section

variable {K Scan : Type} [CommRing K] [LinearOrder K] [IsStrictOrderedRing K]

/-! ### Specification -/

/-- Where a callback that runs through its four steps is after one more step: `0` is outside. Priors
may arrive at any time; anything else out of order is not a run of callbacks. -/
def next : ℕ → Act K Scan → Option ℕ
  | k, .insert _ _ => some k
  | 0, .size _ => some 1
  | 1, .closest => some 2
  | 2, .remove => some 3
  | 3, .publish => some 0
  | _, _ => none

/-- A schedule of complete callbacks, one after the other, with priors arriving in between and in
the middle of them; `some 0` after the last. -/
def stage (sched : List (Act K Scan)) : Option ℕ :=
  sched.foldl (fun s a => s.bind fun k => next k a) (some 0)

/-- Whether a prior arrives. -/
def isPrior : Act K Scan → Bool
  | .insert _ _ => true
  | _ => false

/-- The scans that are handled after the first prior has arrived. -/
def scansAfterPrior (sched : List (Act K Scan)) : List (ScanMsg K Scan) :=
  scans (sched.dropWhile fun a => !isPrior a)

/-- What was done for a scan: the prior used and the optimiser's result. -/
structure Done (K Scan : Type) where
  scan : ScanMsg K Scan
  prior : K × Pose
  result : Result

/-! ### Lemmas -/

theorem stage_append (as : List (Act K Scan)) (a : Act K Scan) :
    stage (as ++ [a]) = (stage as).bind fun k => next k a := by
  simp [stage, List.foldl_append]

theorem dropWhile_of_any {α : Type} {p : α → Bool} (as : List α) (a : α)
    (h : ∃ x ∈ as, p x = false) : (as ++ [a]).dropWhile p = as.dropWhile p ++ [a] := by
  induction as with
  | nil => simp at h
  | cons y ys ih =>
    by_cases hy : p y = true
    · simp only [List.cons_append, List.dropWhile_cons, hy, if_true]
      apply ih
      obtain ⟨x, hx, hp⟩ := h
      rcases List.mem_cons.1 hx with rfl | hx
      · rw [hy] at hp; cases hp
      · exact ⟨x, hx, hp⟩
    · simp [List.dropWhile_cons, hy]

theorem dropWhile_of_all {α : Type} {p : α → Bool} (as : List α) (a : α)
    (h : ∀ x ∈ as, p x = true) : (as ++ [a]).dropWhile p = if p a then [] else [a] := by
  induction as with
  | nil => simp [List.dropWhile_cons]
  | cons y ys ih =>
    simp only [List.cons_append, List.dropWhile_cons, h y List.mem_cons_self, if_true]
    exact ih fun x hx => h x (List.mem_cons_of_mem _ hx)

theorem dropWhile_nil {α : Type} {p : α → Bool} (as : List α) (h : ∀ x ∈ as, p x = true) :
    as.dropWhile p = [] := by
  induction as with
  | nil => rfl
  | cons y ys ih =>
    rw [List.dropWhile_cons, if_pos (h y List.mem_cons_self)]
    exact ih fun x hx => h x (List.mem_cons_of_mem _ hx)

theorem mem_received {t : K} {p : Pose} (sched : List (Act K Scan)) :
    (t, p) ∈ received sched ↔ Act.insert t p ∈ sched := by
  induction sched with
  | nil => simp [received]
  | cons a rest ih =>
    cases a with
    | insert t' p' =>
      simp only [received, List.mem_cons, ih, Prod.mk.injEq, Act.insert.injEq]
    | size m => simp [received, ih]
    | closest => simp [received, ih]
    | remove => simp [received, ih]
    | publish => simp [received, ih]

theorem scansAfterPrior_append (as : List (Act K Scan)) (a : Act K Scan) :
    scansAfterPrior (as ++ [a]) =
      scansAfterPrior as ++ if received as = [] then [] else scans [a] := by
  unfold scansAfterPrior
  by_cases h : received as = []
  · have hall : ∀ x ∈ as, (!isPrior x) = true := by
      intro x hx
      cases x with
      | insert t p =>
        have := (mem_received as).2 hx
        rw [h] at this
        simp at this
      | _ => rfl
    have hnil : as.dropWhile (fun a => !isPrior a) = [] := by
      exact dropWhile_nil as hall
    rw [dropWhile_of_all as a hall, if_pos h, hnil]
    cases a <;> simp [isPrior, scans]
  · have hany : ∃ x ∈ as, (!isPrior x) = false := by
      obtain ⟨⟨t, p⟩, ht⟩ := List.exists_mem_of_ne_nil _ h
      exact ⟨_, (mem_received as).1 ht, rfl⟩
    rw [dropWhile_of_any as a hany, scans_append, if_neg h]

/-- The prior held by a callback in progress. -/
def Pc.prior? {V : Type} : Pc K V Scan → Option (K × V)
  | .idle => none
  | .sized _ => none
  | .got _ p => some p
  | .removed _ p => some p

/-- The place of a callback in progress. -/
def Pc.stage {V : Type} : Pc K V Scan → ℕ
  | .idle => 0
  | .sized _ => 1
  | .got _ _ => 2
  | .removed _ _ => 3

variable (run : Scan → Pose → Res Result) (second : K)

/-- The state after a schedule of callbacks. -/
structure Trace (sched : List (Act K Scan)) (n : Node K Scan) (D : List (Done K Scan)) : Prop where
  outputs : n.outputs = D.flatMap fun d => messages d.scan.stamp d.result.pose
  scans : D.map Done.scan ++ n.pc.scan?.toList = scansAfterPrior sched
  results : ∀ d ∈ D, run d.scan.scan d.prior.2 = .ok d.result ∧ d.prior ∈ received sched
  store : ∀ e ∈ n.store, e ∈ received sched
  prior : ∀ p, n.pc.prior? = some p → p ∈ received sched
  empty : n.store = [] → received sched = []
  place : ∀ k, stage sched = some k → n.pc.stage = 0 ∨ n.pc.stage = k

theorem trace (sched : List (Act K Scan)) (n : Node K Scan)
    (h : exec run second (Node.new K Scan) sched = .ok n) (hd : (stage sched).isSome = true) :
    ∃ D, Trace run sched n D := by
  induction sched using List.reverseRecOn generalizing n with
  | nil =>
    cases h
    exact ⟨[], rfl, rfl, by simp, by simp [Node.new], by simp [Node.new, Pc.prior?],
      fun _ => rfl, fun k hk => Or.inl rfl⟩
  | append_singleton as a ih =>
    rw [exec_append] at h
    cases hn : exec run second (Node.new K Scan) as with
    | error e => rw [hn] at h; simp [Except.bind] at h
    | ok n0 =>
      rw [hn] at h
      simp only [Except.bind, exec, bind] at h
      cases hst : step run second n0 a with
      | error e => rw [hst] at h; simp at h
      | ok n1 =>
        rw [hst] at h
        simp only at h
        cases h
        rw [stage_append] at hd
        cases hk : stage as with
        | none => rw [hk] at hd; simp at hd
        | some k =>
        rw [hk, Option.bind_some] at hd
        obtain ⟨D, hD⟩ := ih n0 hn (by rw [hk]; rfl)
        have hinv := inv_exec run second as n0 hn
        have hplace := hD.place k hk
        have hrec : ∀ e ∈ received as, e ∈ received (as ++ [a]) := by
          intro e he; rw [received_append]; exact List.mem_append_left _ he
        have hres : ∀ d ∈ D, run d.scan.scan d.prior.2 = .ok d.result ∧
            d.prior ∈ received (as ++ [a]) :=
          fun d hd => ⟨(hD.results d hd).1, hrec _ (hD.results d hd).2⟩
        have hnext : ∀ k', stage (as ++ [a]) = some k' → next k a = some k' := by
          intro k' h'; rwa [stage_append, hk] at h'
        -- an action without effect
        have hidle : n = n0 → scans [a] = [] ∨ received as = [] → (∀ t p, a ≠ .insert t p) →
            n0.pc.stage = 0 → ∃ D, Trace run (as ++ [a]) n D := by
          intro he hs hni h0
          subst he
          have hr : received (as ++ [a]) = received as := by
            rw [received_append]
            cases a with
            | insert t p => exact absurd rfl (hni t p)
            | _ => simp [received]
          refine ⟨D, hD.outputs, ?_, hres, ?_, ?_, ?_, fun _ _ => Or.inl h0⟩
          · rw [hD.scans, scansAfterPrior_append]
            rcases hs with hs | hs
            · rw [hs]; simp
            · rw [if_pos hs]; simp
          · rw [hr]; exact hD.store
          · rw [hr]; exact hD.prior
          · rw [hr]; exact hD.empty
        cases a with
        | insert t p =>
          simp only [step] at hst
          cases hst
          refine ⟨D, hD.outputs, ?_, hres, ?_, fun p hp => hrec _ (hD.prior p hp),
            fun h0 => absurd h0 (insert_ne_nil _ _ _), ?_⟩
          · rw [hD.scans, scansAfterPrior_append]
            simp [scans]
          · intro e he
            rw [received_append]
            rcases (mem_insert hinv.1 t p e).1 he with rfl | ⟨he, _⟩
            · simp [received]
            · exact List.mem_append_left _ (hD.store e he)
          · intro k' h'
            have := hnext k' h'
            simp only [next, Option.some.injEq] at this
            exact this ▸ hplace
        | size m =>
          have hk0 : k = 0 := by
            match k, hd with
            | 0, _ => rfl
          subst hk0
          have hpc : n0.pc = .idle := by
            have : n0.pc.stage = 0 := by rcases hplace with h | h <;> exact h
            cases hp : n0.pc <;> rw [hp] at this <;> first | rfl | cases this
          simp only [step, hpc] at hst
          split_ifs at hst with h0
          · cases hst
            refine hidle rfl (Or.inr (hD.empty ?_)) (by simp) (by rw [hpc]; rfl)
            exact List.eq_nil_of_length_eq_zero h0
          · cases hst
            have hr0 : received as ≠ [] := by
              intro hnil
              apply h0
              have : n0.store = [] := by
                rw [List.eq_nil_iff_forall_not_mem]
                intro e he
                have := hD.store e he
                rw [hnil] at this
                simp at this
              simp [size, this]
            have hr : received (as ++ [.size m]) = received as := by
              rw [received_append]; simp [received]
            refine ⟨D, hD.outputs, ?_, hres, by rw [hr]; exact hD.store, by simp [Pc.prior?],
              by rw [hr]; exact hD.empty, ?_⟩
            · rw [scansAfterPrior_append, if_neg hr0, ← hD.scans, hpc]
              simp [Pc.scan?, scans]
            · intro k' h'
              have := hnext k' h'
              simp only [next, Option.some.injEq] at this
              exact Or.inr this
        | closest =>
          have hk0 : k = 1 := by
            match k, hd with
            | 1, _ => rfl
          subst hk0
          have hr : received (as ++ [Act.closest]) = received as := by
            rw [received_append]; simp [received]
          cases hp : n0.pc with
          | idle =>
            simp only [step, hp] at hst
            cases hst
            exact hidle rfl (Or.inl rfl) (by simp) (by rw [hp]; rfl)
          | sized m =>
            simp only [step, hp] at hst
            obtain ⟨e, hes, he, _⟩ := getClosest_spec hinv.1 (hinv.2 (by rw [hp]; simp)) m.stamp
            rw [he] at hst
            simp only [bind, Except.bind] at hst
            cases hst
            refine ⟨D, hD.outputs, ?_, hres, by rw [hr]; exact hD.store, ?_,
              by rw [hr]; exact hD.empty, ?_⟩
            · rw [scansAfterPrior_append, ← hD.scans, hp]
              simp [Pc.scan?, scans]
            · intro p hpp
              simp only [Pc.prior?, Option.some.injEq] at hpp
              rw [hr, ← hpp]
              exact hD.store e hes
            · intro k' h'
              have := hnext k' h'
              simp only [next, Option.some.injEq] at this
              exact Or.inr this
          | got m p => rw [hp] at hplace; simp [Pc.stage] at hplace
          | removed m p => rw [hp] at hplace; simp [Pc.stage] at hplace
        | remove =>
          have hk0 : k = 2 := by
            match k, hd with
            | 2, _ => rfl
          subst hk0
          have hr : received (as ++ [Act.remove]) = received as := by
            rw [received_append]; simp [received]
          cases hp : n0.pc with
          | idle =>
            simp only [step, hp] at hst
            cases hst
            exact hidle rfl (Or.inl rfl) (by simp) (by rw [hp]; rfl)
          | sized m => rw [hp] at hplace; simp [Pc.stage] at hplace
          | got m p =>
            simp only [step, hp] at hst
            cases hg : removeOlderThan (m.stamp + second) n0.store with
            | error e => rw [hg] at hst; simp [bind, Except.bind] at hst
            | ok s' =>
              rw [hg] at hst
              simp only [bind, Except.bind] at hst
              cases hst
              have hne := removeOlderThan_ne_nil hinv.1 (hinv.2 (by rw [hp]; simp)) hg
              refine ⟨D, hD.outputs, ?_, hres, ?_, ?_, fun h0 => absurd h0 hne, ?_⟩
              · rw [scansAfterPrior_append, ← hD.scans, hp]
                simp [Pc.scan?, scans]
              · intro e he
                rw [removeOlderThan_eq hinv.1] at hg
                split_ifs at hg
                cases hg
                rw [hr]
                exact hD.store e (List.mem_of_mem_filter he)
              · intro p' hpp
                rw [hr]
                exact hD.prior p' (by rw [hp]; exact hpp)
              · intro k' h'
                have := hnext k' h'
                simp only [next, Option.some.injEq] at this
                exact Or.inr this
          | removed m p => rw [hp] at hplace; simp [Pc.stage] at hplace
        | publish =>
          have hk0 : k = 3 := by
            match k, hd with
            | 3, _ => rfl
          subst hk0
          have hr : received (as ++ [Act.publish]) = received as := by
            rw [received_append]; simp [received]
          cases hp : n0.pc with
          | idle =>
            simp only [step, hp] at hst
            cases hst
            exact hidle rfl (Or.inl rfl) (by simp) (by rw [hp]; rfl)
          | sized m => rw [hp] at hplace; simp [Pc.stage] at hplace
          | got m p => rw [hp] at hplace; simp [Pc.stage] at hplace
          | removed m p =>
            simp only [step, hp, Localizer.update, Localizer.init] at hst
            cases hg : run m.scan p.2 with
            | error e => rw [hg] at hst; simp [bind, Except.bind] at hst
            | ok r =>
              rw [hg] at hst
              simp only [bind, Except.bind] at hst
              cases hst
              refine ⟨D ++ [⟨m, p, r⟩], ?_, ?_, ?_, by rw [hr]; exact hD.store,
                by simp [Pc.prior?], by rw [hr]; exact hD.empty, fun _ _ => Or.inl rfl⟩
              · simp [hD.outputs, messages, Localizer.get]
              · rw [scansAfterPrior_append, ← hD.scans, hp]
                simp [Pc.scan?, scans]
              · intro d hd
                rcases List.mem_append.1 hd with hd | hd
                · exact hres d hd
                · rw [List.mem_singleton] at hd
                  subst hd
                  exact ⟨hg, by rw [hr]; exact hD.prior p (by rw [hp]; rfl)⟩

/-! ### The claim -/

/-- C109: for every schedule of complete callbacks with priors arriving at any time, if nothing fails
the messages published are, in order, a pose and a transform for every scan handled after the first
prior arrived, and none for any other: each is the optimiser's result for that scan started from one
of the priors received. -/
theorem C109_every_scan_published (sched : List (Act K Scan)) (n : Node K Scan)
    (h : exec run second (Node.new K Scan) sched = .ok n) (hd : stage sched = some 0) :
    ∃ D : List (Done K Scan),
      n.outputs = (D.flatMap fun d => messages d.scan.stamp d.result.pose) ∧
      D.map Done.scan = scansAfterPrior sched ∧
      ∀ d ∈ D, run d.scan.scan d.prior.2 = .ok d.result ∧ d.prior ∈ received sched := by
  obtain ⟨D, hD⟩ := trace run second sched n h (by rw [hd]; rfl)
  refine ⟨D, hD.outputs, ?_, hD.results⟩
  rw [← hD.scans]
  have : n.pc.stage = 0 := by rcases hD.place 0 hd with h | h <;> exact h
  cases hp : n.pc with
  | idle => simp [Pc.scan?]
  | sized m => rw [hp] at this; cases this
  | got m p => rw [hp] at this; cases this
  | removed m p => rw [hp] at this; cases this

end

/-- The stamps of the poses among the messages published. -/
def poseStamps {K : Type} (out : List (Output K)) : List K :=
  out.filterMap fun | .pose t _ _ _ => some t | .transform _ _ _ _ => none

theorem poseStamps_messages {K Scan : Type} (D : List (Done K Scan)) :
    poseStamps (D.flatMap fun d => messages d.scan.stamp d.result.pose) =
      D.map fun d => d.scan.stamp := by
  induction D with
  | nil => rfl
  | cons d D ih =>
    rw [List.flatMap_cons, poseStamps, List.filterMap_append]
    simp only [poseStamps] at ih
    rw [ih]
    rfl

/-- A pair of clouds as handed to the callback. -/
def toScan {A B : Type} (c : ℤ × A × B) : ScanMsg ℤ (A × B) := ⟨c.1, c.2⟩

theorem scans_sublist {K Scan : Type} (sched : List (Act K Scan)) :
    (scansAfterPrior sched).Sublist (scans sched) := by
  have key : ∀ (p : Act K Scan → Bool) (s : List (Act K Scan)),
      (scans (s.dropWhile p)).Sublist (scans s) := by
    intro p s
    induction s with
    | nil => exact List.Sublist.refl _
    | cons a s ih =>
      rw [List.dropWhile_cons]
      split_ifs
      · refine ih.trans ?_
        cases a with
        | size m => exact List.sublist_cons_self _ _
        | _ => exact List.Sublist.refl _
      · exact List.Sublist.refl _
  exact key _ _

/-- C109, from topics to poses: whenever the stamps on each of the two cloud topics increase, the
stamps of the poses published increase strictly; each is the stamp of an edge and a surface cloud
received, and its pose is the optimiser's result for exactly those two clouds. -/
theorem C109_topics_to_poses {A B : Type} (run : A × B → Pose → Res Result) (second : ℤ)
    (evs : List (Sync.Event A B)) (hl : (Sync.leftStamps evs).Pairwise (· < ·))
    (hr : (Sync.rightStamps evs).Pairwise (· < ·)) (sched : List (Act ℤ (A × B)))
    (hsched : scans sched = (Sync.calls Sync.localizationQueue [] evs).map toScan)
    (n : Node ℤ (A × B)) (h : exec run second (Node.new ℤ (A × B)) sched = .ok n)
    (hd : stage sched = some 0) :
    (poseStamps n.outputs).Pairwise (· < ·) ∧
    (∀ t frame pose cov, Output.pose t frame pose cov ∈ n.outputs →
      ∃ a b prior r, Sync.Event.left t a ∈ evs ∧ Sync.Event.right t b ∈ evs ∧
        prior ∈ received sched ∧ run (a, b) prior.2 = .ok r ∧ pose = r.pose) := by
  obtain ⟨D, hout, hscans, hres⟩ := C109_every_scan_published run second sched n h hd
  have hsub : (D.map Done.scan).Sublist
      ((Sync.calls Sync.localizationQueue [] evs).map toScan) := by
    rw [hscans, ← hsched]; exact scans_sublist sched
  constructor
  · rw [hout, poseStamps_messages]
    have h1 := Sync.C108_increasing Sync.localizationQueue evs hl hr
    have h2 : ((Sync.calls Sync.localizationQueue [] evs).map toScan).Pairwise
        fun c d => c.stamp < d.stamp := by
      rw [List.pairwise_map]; exact h1
    have h3 := h2.sublist hsub
    rw [List.pairwise_map] at h3 ⊢
    exact h3
  · intro t frame pose cov hmem
    rw [hout, List.mem_flatMap] at hmem
    obtain ⟨d, hdD, hm⟩ := hmem
    have hmem : d.scan ∈ (Sync.calls Sync.localizationQueue [] evs).map toScan :=
      hsub.subset (List.mem_map.2 ⟨d, hdD, rfl⟩)
    obtain ⟨c, hc, hcd⟩ := List.mem_map.1 hmem
    obtain ⟨h1, h2⟩ := Sync.C107_pairs_share_stamp _ evs c hc
    simp only [messages, List.mem_cons, Output.pose.injEq, reduceCtorEq, List.not_mem_nil,
      or_false] at hm
    obtain ⟨rfl, _, rfl, _⟩ := hm
    obtain ⟨hrun, hprior⟩ := hres d hdD
    rw [← hcd] at hrun ⊢
    exact ⟨c.2.1, c.2.2, d.prior, d.result, h1, h2, hprior, hrun, rfl⟩

/-- Non-vacuity: a scan before the first prior, then a prior in the middle of a callback. -/
def exSchedule : List (Act ℤ (ℕ × ℕ)) :=
  [.size ⟨1, (10, 100)⟩, .closest, .insert 1 ⟨1, 0⟩, .remove, .publish,
    .size ⟨2, (20, 200)⟩, .closest, .insert 2 ⟨1, 0⟩, .remove, .publish]

example : stage exSchedule = some 0 ∧ (scansAfterPrior exSchedule).map ScanMsg.stamp = [2] ∧
    scans exSchedule = (Sync.calls Sync.localizationQueue []
      [.left 1 10, .left 2 20, .right 1 100, .right 2 200]).map toScan := ⟨rfl, rfl, rfl⟩

example : ∃ n, exec (fun _ p => .ok ⟨p, .converged, 0, 0, 0, true⟩) 1 (Node.new ℤ (ℕ × ℕ))
    exSchedule = .ok n ∧ poseStamps n.outputs = [2] := ⟨_, rfl, rfl⟩

end Verif.Store
