/-
C147: with noise and priors further away the localizer follows the vehicle, under every interleaving.
-/
import Verif.Props.C146
import Verif.Props.C142

set_option autoImplicit false

namespace Verif.Loam

open Matrix Verif.Rot Verif.Opt Verif.Loc Verif.Align Verif.Store

section
variable {K : Type} [CommRing K] [LinearOrder K] [IsStrictOrderedRing K]

/-- Whenever the node looks for a prior for a scan, the closest one that it has is wrong by at most `D` and `τ`,
and not more than a second newer than the scan. `truth` is the true pose at a time. -/
def Guided {Scan : Type} (run : Scan → Pose → Res Result) (second : K) (truth : K → Pose) (D τ : ℝ)
    (sched : List (Act K Scan)) : Prop :=
  ∀ before after n m e, sched = before ++ after → exec run second (Node.new K Scan) before = .ok n →
    n.pc = .sized m → Closest (· ∈ n.store) m.stamp e → Close (truth m.stamp) D τ e.2 ∧ e.1 ≤ m.stamp + second

/-- The stamp and the pose of a published message. -/
def published : Output K → K × Pose
  | .pose stamp _ p _ => (stamp, p)
  | .transform stamp _ _ p => (stamp, p)

/-- What holds after every action. -/
structure Tracking {Scan : Type} (second : K) (truth : K → Pose) (D τ d' τ' : ℝ) (sched : List (Act K Scan))
    (n : Node K Scan) : Prop where
  inv : Inv n
  sized : ∀ m, n.pc = .sized m → Act.size m ∈ sched
  got : ∀ m prior, n.pc = .got m prior → Act.size m ∈ sched ∧ Close (truth m.stamp) D τ prior.2 ∧
    ∃ e ∈ n.store, e.1 ≤ m.stamp + second
  removed : ∀ m prior, n.pc = .removed m prior → Act.size m ∈ sched ∧ Close (truth m.stamp) D τ prior.2
  outputs : ∀ o ∈ n.outputs, Close (truth (published o).1) d' τ' (published o).2

theorem tracking {Scan : Type} (run : Scan → Pose → Res Result) (second : K) (truth : K → Pose) (D τ d' τ' : ℝ)
    (sched : List (Act K Scan)) (hg : Guided run second truth D τ sched)
    (hrun : ∀ m, Act.size m ∈ sched → ∀ T, Close (truth m.stamp) D τ T →
      ∃ r, run m.scan T = .ok r ∧ Close (truth m.stamp) d' τ' r.pose)
    (before after : List (Act K Scan)) (hs : sched = before ++ after) :
    ∃ n, exec run second (Node.new K Scan) before = .ok n ∧ Tracking second truth D τ d' τ' sched n := by
  induction before using List.reverseRecOn generalizing after with
  | nil =>
    exact ⟨_, rfl, inv_new, fun m h => by simp [Node.new] at h, fun m p h => by simp [Node.new] at h,
      fun m p h => by simp [Node.new] at h, fun o h => by simp [Node.new] at h⟩
  | append_singleton before a ih =>
    obtain ⟨n, hn, ht⟩ := ih (a :: after) (by rw [hs]; simp)
    have ha : a ∈ sched := by rw [hs]; simp
    suffices h : ∃ n', step run second n a = .ok n' ∧ Tracking second truth D τ d' τ' sched n' by
      obtain ⟨n', h1, h2⟩ := h
      refine ⟨n', ?_, h2⟩
      rw [exec_append, hn]
      simp only [Except.bind, exec, bind, h1]
    suffices h : ∃ n', step run second n a = .ok n' ∧
        (∀ m, n'.pc = .sized m → Act.size m ∈ sched) ∧
        (∀ m prior, n'.pc = .got m prior → Act.size m ∈ sched ∧ Close (truth m.stamp) D τ prior.2 ∧
          ∃ e ∈ n'.store, e.1 ≤ m.stamp + second) ∧
        (∀ m prior, n'.pc = .removed m prior → Act.size m ∈ sched ∧ Close (truth m.stamp) D τ prior.2) ∧
        ∀ o ∈ n'.outputs, Close (truth (published o).1) d' τ' (published o).2 by
      obtain ⟨n', h1, h2, h3, h4, h5⟩ := h
      exact ⟨n', h1, inv_step run second n a n' ht.inv h1, h2, h3, h4, h5⟩
    cases a with
    | insert t p =>
      refine ⟨_, rfl, ht.sized, fun m prior h => ?_, ht.removed, ht.outputs⟩
      obtain ⟨g1, g2, e, he, hle⟩ := ht.got m prior h
      refine ⟨g1, g2, ?_⟩
      by_cases het : e.1 = t
      · exact ⟨(t, p), (mem_insert ht.inv.1 _ _ _).2 (Or.inl rfl), by rw [← het]; exact hle⟩
      · exact ⟨e, (mem_insert ht.inv.1 _ _ _).2 (Or.inr ⟨he, het⟩), hle⟩
    | size m =>
      simp only [step]
      split
      · split_ifs
        · exact ⟨n, rfl, ht.sized, ht.got, ht.removed, ht.outputs⟩
        · refine ⟨_, rfl, fun m' h => ?_, fun m' p h => by simp at h, fun m' p h => by simp at h, ht.outputs⟩
          cases h
          exact ha
      · exact ⟨n, rfl, ht.sized, ht.got, ht.removed, ht.outputs⟩
    | closest =>
      simp only [step]
      split
      · rename_i m hpc
        obtain ⟨-, e, he, hc⟩ := C56_query_nonempty run second before n hn m hpc
        obtain ⟨w1, w2⟩ := hg before _ n m e (by rw [hs]; simp; rfl) hn hpc hc
        rw [he]
        refine ⟨_, rfl, fun m' h => by simp at h, fun m' p h => ?_, fun m' p h => by simp at h, ht.outputs⟩
        cases h
        exact ⟨ht.sized _ hpc, w1, e, hc.1, w2⟩
      · exact ⟨n, rfl, ht.sized, ht.got, ht.removed, ht.outputs⟩
    | remove =>
      simp only [step]
      split
      · rename_i m prior hpc
        obtain ⟨g1, g2, e, he, hle⟩ := ht.got m prior hpc
        rw [removeOlderThan_eq ht.inv.1, if_neg (fun hcon => absurd hle (not_le.2 (hcon.2 e he)))]
        refine ⟨_, rfl, fun m' h => by simp at h, fun m' p h => by simp at h, fun m' p h => ?_, ht.outputs⟩
        cases h
        exact ⟨g1, g2⟩
      · exact ⟨n, rfl, ht.sized, ht.got, ht.removed, ht.outputs⟩
    | publish =>
      simp only [step]
      split
      · rename_i m prior hpc
        obtain ⟨g1, g2⟩ := ht.removed m prior hpc
        obtain ⟨r, r1, r2⟩ := hrun m g1 prior.2 g2
        have hu : (n.localizer.init prior.2).update run m.scan = .ok (⟨true, r.pose⟩, r.success) := by
          simp only [Localizer.update, Localizer.init, r1, bind, Except.bind]
        rw [hu]
        refine ⟨_, rfl, fun m' h => by simp at h, fun m' p h => by simp at h, fun m' p h => by simp at h, ?_⟩
        intro o ho
        rcases List.mem_append.1 ho with ho | ho
        · exact ht.outputs o ho
        · simp only [List.mem_cons, List.not_mem_nil, or_false] at ho
          rcases ho with rfl | rfl <;> exact r2
      · exact ⟨n, rfl, ht.sized, ht.got, ht.removed, ht.outputs⟩

/-- The surroundings of a scan: a scene in whose neighbourhood of the true pose the theorems of C146 hold, and one
step from its edge is at most `d'` and `τ'` from the truth. -/
def Surrounded (L : Libs) (edgeMap surfaceMap : List V3) (scan : List V3 × List V3) (S : Pose)
    (D τ d' τ' : ℝ) : Prop :=
  ∃ (c : Scene) (η ρ κ μ : ℝ), c.edges = scan.1 ∧ c.surfaces = L.downsample scan.2 ∧
    c.Basin L.knn edgeMap surfaceMap S D τ η ρ κ μ ∧ c.turnAfter η ρ κ μ D ≤ d' ∧ c.shiftAfter η ρ κ μ D ≤ τ'

theorem turned_le_first {c : Scene} {knn : Knn} {edgeMap surfaceMap : List V3} {S : Pose} {D τ η ρ κ μ : ℝ}
    (h : c.Basin knn edgeMap surfaceMap S D τ η ρ κ μ) {k : ℕ} (hk : 1 ≤ k) :
    c.turned D η ρ κ μ k ≤ c.turnAfter η ρ κ μ D ∧ c.shifted D τ η ρ κ μ k ≤ c.shiftAfter η ρ κ μ D := by
  obtain ⟨k, rfl⟩ : ∃ i, k = i + 1 := ⟨k - 1, by omega⟩
  obtain ⟨hη, hρ⟩ := h.bounds
  obtain ⟨h0, h1⟩ := h.turned_le k
  rw [turned_succ]
  exact ⟨turnAfter_mono hη hρ h0 h1, shiftAfter_mono hρ h0 h1⟩

theorem matching_improves {nth : Nth} (hn : Lib.IsNthElement nth) {llt : Llt} (hllt : LltSpec llt) {L : Libs}
    (he : EigSpec L.eig) (hqr : QrSpec L.qr) {edgeMap surfaceMap : List V3} {maxIter : ℕ} (hmax : 1 ≤ maxIter)
    {scan : List V3 × List V3} {S : Pose} {D τ d' τ' : ℝ}
    (h : Surrounded L edgeMap surfaceMap scan S D τ d' τ') {T : Pose} (hT : Close S D τ T) :
    ∃ r, matching nth llt L edgeMap surfaceMap maxIter scan T = .ok r ∧ Close S d' τ' r.pose := by
  obtain ⟨c, η, ρ, κ, μ, h1, h2, h3, h4, h5⟩ := h
  obtain ⟨r, k, r1, r2, -, r4, -⟩ := C146_arrives hn hllt he hqr edgeMap surfaceMap scan.2 c h2.symm S D τ η ρ κ μ h3
    T hT maxIter hmax
  rw [h1] at r1
  obtain ⟨a1, a2⟩ := turned_le_first h3 r2
  exact ⟨r, r1, r4.mono (a1.trans h4) (a2.trans h5)⟩

/-- C147: for every interleaving of priors and scans in which the prior that the node finds for a scan is wrong by
at most `D` and `τ`, in surroundings where one step from there leaves at most `d'` and `τ'`, the node never fails,
and every pose and every transform it publishes is within `d'` and `τ'` of the true pose at the stamp that the
message carries. -/
theorem C147_tracks {nth : Nth} (hn : Lib.IsNthElement nth) {llt : Llt} (hllt : LltSpec llt) {L : Libs}
    (he : EigSpec L.eig) (hqr : QrSpec L.qr) (edgeMap surfaceMap : List V3) (maxIter : ℕ) (hmax : 1 ≤ maxIter)
    (second : K) (truth : K → Pose) (D τ d' τ' : ℝ) (sched : List (Act K (List V3 × List V3)))
    (hg : Guided (matching nth llt L edgeMap surfaceMap maxIter) second truth D τ sched)
    (hs : ∀ m, Act.size m ∈ sched → Surrounded L edgeMap surfaceMap m.scan (truth m.stamp) D τ d' τ') :
    ∃ n, exec (matching nth llt L edgeMap surfaceMap maxIter) second (Node.new K _) sched = .ok n ∧
      (∀ stamp frame p cov, Output.pose stamp frame p cov ∈ n.outputs → Close (truth stamp) d' τ' p) ∧
      ∀ stamp frame child p, Output.transform stamp frame child p ∈ n.outputs → Close (truth stamp) d' τ' p := by
  obtain ⟨n, h1, h2⟩ := tracking _ second truth D τ d' τ' sched hg
    (fun m hm T hT => matching_improves hn hllt he hqr hmax (hs m hm) hT) sched [] (by simp)
  exact ⟨n, h1, fun stamp frame p cov h => h2.outputs _ h, fun stamp frame child p h => h2.outputs _ h⟩

/-- Priors that are all near the truth at the time of every scan are such. -/
theorem C147_guided {Scan : Type} (run : Scan → Pose → Res Result) (second : K) (truth : K → Pose) (D τ : ℝ)
    (sched : List (Act K Scan))
    (h : ∀ t p m, Act.insert t p ∈ sched → Act.size m ∈ sched → Close (truth m.stamp) D τ p ∧ t ≤ m.stamp + second) :
    Guided run second truth D τ sched := by
  suffices key : ∀ before n, (∀ a ∈ before, a ∈ sched) → exec run second (Node.new K Scan) before = .ok n →
      (∀ e ∈ n.store, Act.insert e.1 e.2 ∈ sched) ∧ ∀ m, n.pc = .sized m → Act.size m ∈ sched by
    intro before after n m e hs hn hpc hc
    obtain ⟨k1, k2⟩ := key before n (fun a ha => by rw [hs]; simp [ha]) hn
    exact h e.1 e.2 m (k1 e hc.1) (k2 m hpc)
  intro before
  induction before using List.reverseRecOn with
  | nil =>
    intro n _ hn
    cases hn
    exact ⟨fun e he => by simp [Node.new] at he, fun m hm => by simp [Node.new] at hm⟩
  | append_singleton before a ih =>
    intro n' hmem hn
    rw [exec_append] at hn
    cases hb : exec run second (Node.new K Scan) before with
    | error e => rw [hb] at hn; simp [Except.bind] at hn
    | ok n =>
      have hinv := inv_exec run second before n hb
      obtain ⟨k1, k2⟩ := ih n (fun a ha => hmem a (by simp [ha])) hb
      have ha : a ∈ sched := hmem a (by simp)
      have hst : step run second n a = .ok n' := by
        rw [hb] at hn
        simp only [Except.bind, exec, bind] at hn
        cases hc : step run second n a with
        | error e => rw [hc] at hn; simp at hn
        | ok n1 => rw [hc] at hn; simpa using hn
      cases a with
      | insert t p =>
        cases hst
        refine ⟨fun e he => ?_, k2⟩
        rcases (mem_insert hinv.1 _ _ _).1 he with rfl | he
        · exact ha
        · exact k1 e he.1
      | size m =>
        simp only [step] at hst
        split at hst
        · split_ifs at hst
          · cases hst
            exact ⟨k1, k2⟩
          · cases hst
            refine ⟨k1, fun m' h => ?_⟩
            cases h
            exact ha
        · cases hst
          exact ⟨k1, k2⟩
      | closest =>
        simp only [step] at hst
        split at hst
        · rename_i m hpc
          cases hc : getClosest m.stamp n.store with
          | error e => rw [hc] at hst; simp [bind, Except.bind] at hst
          | ok prior =>
            rw [hc] at hst
            simp only [bind, Except.bind] at hst
            cases hst
            exact ⟨k1, fun m' h => by simp at h⟩
        · cases hst
          exact ⟨k1, k2⟩
      | remove =>
        simp only [step] at hst
        split at hst
        · rename_i m prior hpc
          cases hc : removeOlderThan (m.stamp + second) n.store with
          | error e => rw [hc] at hst; simp [bind, Except.bind] at hst
          | ok s' =>
            rw [hc] at hst
            simp only [bind, Except.bind] at hst
            cases hst
            refine ⟨fun e he => k1 e ?_, fun m' h => by simp at h⟩
            rw [removeOlderThan_eq hinv.1] at hc
            split_ifs at hc
            cases hc
            exact (List.mem_filter.1 he).1
        · cases hst
          exact ⟨k1, k2⟩
      | publish =>
        simp only [step] at hst
        split at hst
        · rename_i m prior hpc
          cases hc : (n.localizer.init prior.2).update run m.scan with
          | error e => rw [hc] at hst; simp [bind, Except.bind] at hst
          | ok r =>
            rw [hc] at hst
            simp only [bind, Except.bind] at hst
            cases hst
            exact ⟨k1, fun m' h => by simp at h⟩
        · cases hst
          exact ⟨k1, k2⟩

end

/-! ### The localizer by itself -/

/-- Calls of `Update` one after another, the pose read with `Get` after each. -/
noncomputable def updates {Scan : Type} (run : Scan → Pose → Res Result) : Localizer → List Scan → Res (List Pose)
  | _, [] => .ok []
  | l, s :: rest => do
    let r ← l.update run s
    let poses ← updates run r.1 rest
    .ok (r.1.get :: poses)

/-- Between two scans the vehicle turns and moves by at most `a` and `b`. -/
def Drives (a b : ℝ) (S S' : Pose) : Prop :=
  (∀ x, vlen (S.linear *ᵥ x - S'.linear *ᵥ x) ≤ a * vlen x) ∧ vlen (S.translation - S'.translation) ≤ b

theorem within_drives {S S' T : Pose} {d τ a b : ℝ} (h : Close S d τ T) (hm : Drives a b S S') :
    Close S' (d + a) (τ + b) T := by
  refine ⟨h.rotation, fun x => ?_, ?_⟩
  · have h1 := vlen_add_le (T.linear *ᵥ x - S.linear *ᵥ x) (S.linear *ᵥ x - S'.linear *ᵥ x)
    rw [sub_add_sub_cancel] at h1
    linarith [h.turned x, hm.1 x]
  · have h1 := vlen_add_le (T.translation - S.translation) (S.translation - S'.translation)
    rw [sub_add_sub_cancel] at h1
    linarith [h.shifted, hm.2]

/-- C147: the localizer, started within `D` and `τ` of the true pose of the first scan and given scans between which
the vehicle turns by at most `D - d'` and moves by at most `τ - τ'`, follows the vehicle for ever: after every scan
its pose is within `d'` and `τ'` of the true one. Each scan comes with its true pose. -/
theorem C147_updates {nth : Nth} (hn : Lib.IsNthElement nth) {llt : Llt} (hllt : LltSpec llt) {L : Libs}
    (he : EigSpec L.eig) (hqr : QrSpec L.qr) (edgeMap surfaceMap : List V3) (maxIter : ℕ) (hmax : 1 ≤ maxIter)
    (D τ d' τ' : ℝ) (scans : List ((List V3 × List V3) × Pose))
    (hs : ∀ s ∈ scans, Surrounded L edgeMap surfaceMap s.1 s.2 D τ d' τ')
    (hm : scans.IsChain fun s s' => Drives (D - d') (τ - τ') s.2 s'.2)
    (l : Localizer) (hl : ∀ s ∈ scans.head?, Close s.2 D τ l.pose) :
    ∃ poses, updates (matching nth llt L edgeMap surfaceMap maxIter) l (scans.map Prod.fst) = .ok poses ∧
      List.Forall₂ (fun s p => Close s.2 d' τ' p) scans poses := by
  induction scans generalizing l with
  | nil => exact ⟨[], rfl, List.Forall₂.nil⟩
  | cons s rest ih =>
    obtain ⟨r, r1, r2⟩ := matching_improves hn hllt he hqr hmax (hs s List.mem_cons_self) (hl s rfl)
    obtain ⟨poses, p1, p2⟩ := ih (fun s' h' => hs s' (List.mem_cons_of_mem _ h')) hm.tail ⟨l.isInitialized, r.pose⟩ (by
      intro s' hs'
      cases rest with
      | nil => simp at hs'
      | cons x rest =>
        simp only [List.head?_cons, Option.mem_def, Option.some.injEq] at hs'
        subst hs'
        have h1 := within_drives r2 (List.isChain_cons_cons.1 hm).1
        rwa [add_sub_cancel, add_sub_cancel] at h1)
    refine ⟨r.pose :: poses, ?_, List.Forall₂.cons r2 p2⟩
    rw [List.map_cons, updates]
    simp only [Localizer.update, r1, bind, Except.bind, p1, Localizer.get]

/-! ### An example -/

theorem exSurrounded : Surrounded exLibs exPoles exWall (exScene.edges, exScene.surfaces) ⟨1, 0⟩ (1 / 20000000) (1 / 10)
    (1 / 30000000) (1 / 100000000) := by
  have hf : exScene.floor 0 (1 + 2 * 10 ^ 8 * (11 * (1 / 20000000) + 1 / 10)) (1 / 10) = 0 := by
    unfold Scene.floor
    rw [mul_zero, zero_mul]
  refine ⟨exScene, _, _, _, _, rfl, rfl, exScene_basin, ?_, ?_⟩
  · have h := turnAfter_small exScene_small (le_refl _) (by norm_num) (by norm_num) (le_refl _)
    rw [hf] at h
    linarith
  · have h := shiftAfter_small exScene_small (by norm_num) (by norm_num) (le_refl _)
    rw [hf] at h
    linarith

theorem exWithin (t : V3) (ht : vlen t ≤ 1 / 10) : Close ⟨1, 0⟩ (1 / 20000000) (1 / 10) ⟨1, t⟩ :=
  ⟨⟨by simp, by simp⟩, fun x => by rw [sub_self, vlen_zero]; have := vlen_nonneg x; positivity,
    by rw [sub_zero]; exact ht⟩

/-- Priors up to ten centimetres off, one of them arriving while a scan is handled. -/
example {nth : Nth} (hn : Lib.IsNthElement nth) {llt : Llt} (hllt : LltSpec llt) (t t' : V3) (ht : vlen t ≤ 1 / 10)
    (ht' : vlen t' ≤ 1 / 10) :
    ∃ n, exec (matching nth llt exLibs exPoles exWall 20) (1000000000 : ℤ) (Node.new ℤ _)
      [.insert 5 ⟨1, t⟩, .size ⟨7, (exScene.edges, exScene.surfaces)⟩, .insert 6 ⟨1, t'⟩, .closest, .remove, .publish] =
        .ok n ∧
      (∀ stamp frame p cov, Output.pose stamp frame p cov ∈ n.outputs →
        Close ⟨1, 0⟩ (1 / 30000000) (1 / 100000000) p) ∧
      ∀ stamp frame child p, Output.transform stamp frame child p ∈ n.outputs →
        Close ⟨1, 0⟩ (1 / 30000000) (1 / 100000000) p := by
  refine C147_tracks hn hllt (L := exLibs) exEig_spec exQr_spec exPoles exWall 20 (by norm_num) 1000000000
    (fun _ => ⟨1, 0⟩) (1 / 20000000) (1 / 10) (1 / 30000000) (1 / 100000000) _ (C147_guided _ _ _ _ _ _ ?_) ?_
  · intro s p m h1 h2
    simp at h1 h2
    subst h2
    rcases h1 with ⟨rfl, rfl⟩ | ⟨rfl, rfl⟩
    · exact ⟨exWithin t ht, by norm_num⟩
    · exact ⟨exWithin t' ht', by norm_num⟩
  · intro m h
    simp at h
    subst h
    exact exSurrounded

/-- Three scans of the vehicle standing, the localizer started ten centimetres off. -/
example {nth : Nth} (hn : Lib.IsNthElement nth) {llt : Llt} (hllt : LltSpec llt) (t : V3) (ht : vlen t ≤ 1 / 10) :
    ∃ poses, updates (matching nth llt exLibs exPoles exWall 20) (Localizer.new.init ⟨1, t⟩)
      (List.replicate 3 (exScene.edges, exScene.surfaces)) = .ok poses ∧ poses.length = 3 := by
  obtain ⟨poses, h1, h2⟩ := C147_updates hn hllt (L := exLibs) exEig_spec exQr_spec exPoles exWall 20 (by norm_num)
    (1 / 20000000) (1 / 10) (1 / 30000000) (1 / 100000000)
    (List.replicate 3 ((exScene.edges, exScene.surfaces), ⟨1, 0⟩)) (fun s h => by
      rw [List.eq_of_mem_replicate h]
      exact exSurrounded) (by
      have hm : Drives (1 / 20000000 - 1 / 30000000) (1 / 10 - 1 / 100000000) ⟨1, 0⟩ ⟨1, 0⟩ :=
        ⟨fun x => by rw [sub_self, vlen_zero]; exact mul_nonneg (by norm_num) (vlen_nonneg x),
          by rw [sub_self, vlen_zero]; norm_num⟩
      exact List.isChain_cons_cons.2 ⟨hm, List.isChain_cons_cons.2 ⟨hm, List.isChain_singleton _⟩⟩) (Localizer.new.init ⟨1, t⟩) (fun s h => by
      simp [List.replicate] at h
      rw [← h]
      exact exWithin t ht)
  refine ⟨poses, ?_, by rw [← h2.length_eq]; simp⟩
  rw [← h1]
  simp

end Verif.Loam
