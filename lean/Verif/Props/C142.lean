/-
C142: the localizer follows a moving vehicle.
-/
import Verif.Props.C54
import Verif.Props.C141

set_option autoImplicit false

namespace Verif.Loam

open Matrix Verif.Rot Verif.Opt Verif.Loc Verif.Align Verif.Store

/-! ### Specification -/

/-- Specification: rotation and translation of the pose `T` differ from those of `S` by at most `d`. -/
def Within (d : ℝ) (S T : Pose) : Prop :=
  (∀ x, vlen (T.linear *ᵥ x - S.linear *ᵥ x) ≤ d * vlen x) ∧ vlen (T.translation - S.translation) ≤ d

/-- Specification: scan matching of this scan, started anywhere within `ε` of the pose `S`, succeeds and
ends at most half as far from it, up to 1e-8. -/
def Halves {Scan : Type} (run : Scan → Pose → Res Result) (ε : ℝ) (S : Pose) (scan : Scan) : Prop :=
  ∀ T d, IsRotation T.linear → 0 ≤ d → d ≤ ε → Within d S T →
    ∃ r, run scan T = .ok r ∧ r.success = true ∧ Within (d / 2 + 1 / 100000000) S r.pose

/-- Specification: the vehicle is at `truth t` at the time `t` (in nanoseconds). Within `τ` nanoseconds it
turns and moves by at most `b`. -/
def Moves (truth : ℤ → Pose) (τ : ℤ) (b : ℝ) : Prop :=
  ∀ t t', |t - t'| ≤ τ → Within b (truth t) (truth t')

/-- Specification: every prior pose received is rigid and wrong by at most `a` at its time, none is more
than a second newer than a scan, and when a scan is handled, either no prior has been received at all or one
whose time differs from that of the scan by at most `τ`. -/
structure Supplied {Scan : Type} (truth : ℤ → Pose) (a : ℝ) (τ : ℤ) (sched : List (Act ℤ Scan)) : Prop where
  rigid : ∀ e ∈ received sched, IsRotation e.2.linear
  accurate : ∀ e ∈ received sched, Within a (truth e.1) e.2
  recent : ∀ e ∈ received sched, ∀ m ∈ scans sched, e.1 ≤ m.stamp + 1000000000
  timely : ∀ pre m post, sched = pre ++ Act.size m :: post →
    received pre = [] ∨ ∃ e ∈ received pre, |m.stamp - e.1| ≤ τ

/-- Specification: the message says that at the time of one of the scans the vehicle was at a pose which is
wrong by at most `d`. -/
def Says {Scan : Type} (truth : ℤ → Pose) (d : ℝ) (ms : List (ScanMsg ℤ Scan)) (o : Output ℤ) : Prop :=
  ∃ m ∈ ms, ∃ pose, Within d (truth m.stamp) pose ∧
    (o = .pose m.stamp "map" pose [1, 1, 1, 1 / 10, 1 / 10, 1 / 10] ∨
      o = .transform m.stamp "map" "lidar_feature_base_link" pose)

/-! ### Lemmas -/

theorem Within.trans {a b : ℝ} {S T U : Pose} (h1 : Within a S T) (h2 : Within b T U) : Within (a + b) S U := by
  refine ⟨fun x => ?_, ?_⟩
  · have h := vlen_add_le (U.linear *ᵥ x - T.linear *ᵥ x) (T.linear *ᵥ x - S.linear *ᵥ x)
    rw [sub_add_sub_cancel] at h
    linarith [h1.1 x, h2.1 x]
  · have h := vlen_add_le (U.translation - T.translation) (T.translation - S.translation)
    rw [sub_add_sub_cancel] at h
    linarith [h1.2, h2.2]

theorem Within.nonneg {d : ℝ} {S T : Pose} (h : Within d S T) : 0 ≤ d := (vlen_nonneg _).trans h.2

theorem Supplied.prefix {Scan : Type} {truth : ℤ → Pose} {a : ℝ} {τ : ℤ} {as bs : List (Act ℤ Scan)}
    (h : Supplied truth a τ (as ++ bs)) : Supplied truth a τ as := by
  have hr : ∀ e ∈ received as, e ∈ received (as ++ bs) := fun e he => by
    rw [received_append]; exact List.mem_append_left _ he
  refine ⟨fun e he => h.rigid e (hr e he), fun e he => h.accurate e (hr e he), fun e he m hm => ?_, ?_⟩
  · exact h.recent e (hr e he) m (by rw [scans_append]; exact List.mem_append_left _ hm)
  · intro pre m post hs
    exact h.timely pre m (post ++ bs) (by rw [hs]; simp)

theorem lastFor_exists {K V : Type} [LinearOrder K] (h : List (K × V)) (e : K × V) (he : e ∈ h) : ∃ v, LastFor h e.1 v := by
  classical
  induction h using List.reverseRecOn with
  | nil => simp at he
  | append_singleton h x ih =>
    by_cases hx : e.1 = x.1
    · exact ⟨x.2, (lastFor_append h x e.1 x.2).2 (.inl (by rw [hx]))⟩
    · have he' : e ∈ h := by
        rcases List.mem_append.1 he with h' | h'
        · exact h'
        · rw [List.mem_singleton.1 h'] at hx; exact absurd rfl hx
      obtain ⟨v, hv⟩ := ih he'
      exact ⟨v, (lastFor_append h x e.1 v).2 (.inr ⟨hv, hx⟩)⟩

/-- What holds after every schedule. -/
structure Tracks {Scan : Type} (truth : ℤ → Pose) (a b : ℝ) (τ : ℤ) (sched : List (Act ℤ Scan))
    (n : Store.Node ℤ Scan) : Prop where
  sized : ∀ m, n.pc = .sized m → ∃ e ∈ received sched, |m.stamp - e.1| ≤ τ
  prior : ∀ m e, n.pc = .got m e ∨ n.pc = .removed m e →
    IsRotation e.2.linear ∧ Within (b + a) (truth m.stamp) e.2
  outputs : ∀ o ∈ n.outputs, Says truth ((b + a) / 2 + 1 / 100000000) (scans sched) o

section
variable {Scan : Type} {run : Scan → Pose → Res Result} {truth : ℤ → Pose} {a b ε : ℝ} {τ : ℤ}

theorem tracks_exec (hmoves : Moves truth τ b) (hε : b + a ≤ ε) (sched : List (Act ℤ Scan))
    (hs : Supplied truth a τ sched) (hm : ∀ m ∈ scans sched, Halves run ε (truth m.stamp) m.scan) :
    ∃ n, Store.exec run 1000000000 (Node.new ℤ Scan) sched = .ok n ∧ Tracks truth a b τ sched n := by
  induction sched using List.reverseRecOn with
  | nil => exact ⟨_, rfl, ⟨fun m h => by simp [Node.new] at h, fun m e h => by simp [Node.new] at h,
      fun o h => by simp [Node.new] at h⟩⟩
  | append_singleton as x ih =>
    have hscans : ∀ m ∈ scans as, m ∈ scans (as ++ [x]) := fun m h => by
      rw [scans_append]; exact List.mem_append_left _ h
    have hrec : ∀ e ∈ received as, e ∈ received (as ++ [x]) := fun e h => by
      rw [received_append]; exact List.mem_append_left _ h
    have hpre := hs.prefix
    obtain ⟨n, hn, ht⟩ := ih hpre fun m h => hm m (hscans m h)
    obtain ⟨hstore, hpc⟩ := store_eq_received run 1000000000 as n hn hpre.recent
    have hout : ∀ o ∈ n.outputs, Says truth ((b + a) / 2 + 1 / 100000000) (scans (as ++ [x])) o := by
      intro o ho
      obtain ⟨m, h1, h2⟩ := ht.outputs o ho
      exact ⟨m, hscans m h1, h2⟩
    have same : Tracks truth a b τ (as ++ [x]) n :=
      ⟨fun m h => (ht.sized m h).imp fun e he => ⟨hrec e he.1, he.2⟩, ht.prior, hout⟩
    suffices h : ∃ n', Store.step run 1000000000 n x = .ok n' ∧ Tracks truth a b τ (as ++ [x]) n' by
      obtain ⟨n', h1, h2⟩ := h
      refine ⟨n', ?_, h2⟩
      rw [exec_append, hn]
      simp only [Except.bind, Store.exec, bind, h1]
    cases x with
    | insert t p =>
      exact ⟨_, rfl, ⟨fun m h => same.sized m h, fun m e h => same.prior m e h, hout⟩⟩
    | size m =>
      simp only [Store.step]
      split
      · rename_i hidle
        split_ifs with h0
        · exact ⟨_, rfl, same⟩
        · refine ⟨_, rfl, ⟨fun m' h => ?_, fun m' e h => by simp at h, hout⟩⟩
          simp only [Pc.sized.injEq] at h
          subst h
          rcases hs.timely as m [] rfl with h1 | ⟨e, h1, h2⟩
          · rw [hstore, h1] at h0
            exact absurd rfl h0
          · exact ⟨e, hrec e h1, h2⟩
      · exact ⟨_, rfl, same⟩
    | closest =>
      simp only [Store.step]
      split
      · rename_i m hsz
        obtain ⟨e0, he0, hτ0⟩ := ht.sized m hsz
        obtain ⟨e, hg, hcl⟩ := C54_closest (received as) (List.ne_nil_of_mem he0) m.stamp
        rw [hstore, hg]
        refine ⟨_, rfl, ⟨fun m' h => by simp at h, fun m' e' h => ?_, hout⟩⟩
        simp only [Pc.got.injEq, reduceCtorEq, or_false] at h
        obtain ⟨rfl, rfl⟩ := h
        obtain ⟨v, hv⟩ := lastFor_exists _ e0 he0
        have hle : |m.stamp - e.1| ≤ τ := ((hcl.2 (e0.1, v) hv).1).trans hτ0
        have hmem : e ∈ received as := by
          obtain ⟨pre, post, heq, -⟩ := hcl.1
          rw [heq]
          exact List.mem_append_right _ List.mem_cons_self
        exact ⟨hpre.rigid e hmem, (hmoves m.stamp e.1 hle).trans (hpre.accurate e hmem)⟩
      · exact ⟨_, rfl, same⟩
    | remove =>
      simp only [Store.step]
      split
      · rename_i m prior hgot
        have hinv := inv_exec run 1000000000 as n hn
        have hms : m ∈ scans as := hpc m (by rw [hgot]; rfl)
        rw [removeOlderThan_eq hinv.1]
        have hno : ¬ (n.store ≠ [] ∧ ∀ e ∈ n.store, m.stamp + 1000000000 < e.1) := by
          rintro ⟨hne, hall⟩
          obtain ⟨e, he⟩ := List.exists_mem_of_ne_nil _ hne
          have h1 := hall e he
          rw [hstore] at he
          obtain ⟨pre, post, heq, -⟩ := (C54_contents _ _).1 he
          have hmem : e ∈ received as := by rw [heq]; simp
          have := hpre.recent e hmem m hms
          omega
        rw [if_neg hno]
        refine ⟨_, rfl, ⟨fun m' h => by simp at h, fun m' e' h => ?_, hout⟩⟩
        simp only [Pc.removed.injEq, reduceCtorEq, false_or] at h
        obtain ⟨rfl, rfl⟩ := h
        exact ht.prior m prior (.inl hgot)
      · exact ⟨_, rfl, same⟩
    | publish =>
      simp only [Store.step]
      split
      · rename_i m prior hrem
        have hms : m ∈ scans as := hpc m (by rw [hrem]; rfl)
        obtain ⟨hrot, hw⟩ := ht.prior m prior (.inr hrem)
        obtain ⟨r, hr, -, hclose⟩ := hm m (hscans m hms) prior.2 (b + a) hrot hw.nonneg hε hw
        simp only [Localizer.update, Localizer.init, bind, hr, Except.bind]
        refine ⟨_, rfl, ⟨fun m' h => by simp at h, fun m' e' h => by simp at h, fun o ho => ?_⟩⟩
        rcases List.mem_append.1 ho with ho | ho
        · exact hout o ho
        · refine ⟨m, hscans m hms, r.pose, hclose, ?_⟩
          simpa [Localizer.get] using ho
      · exact ⟨_, rfl, same⟩

/-! ### The node -/

/-- C142: if priors and scans arrive as specified, then in whatever order the locked calls are interleaved,
nothing fails, and every message published gives the pose of the vehicle at the time of a scan with at most
half the error (up to 1e-8) that a prior may have, which is its own error `a` and the distance `b` that the
vehicle goes in the time `τ`. -/
theorem C142_tracks (hmoves : Moves truth τ b) (hε : b + a ≤ ε) (sched : List (Act ℤ Scan))
    (hs : Supplied truth a τ sched) (hm : ∀ m ∈ scans sched, Halves run ε (truth m.stamp) m.scan) :
    ∃ n, Store.exec run 1000000000 (Node.new ℤ Scan) sched = .ok n ∧
      ∀ o ∈ n.outputs, Says truth ((b + a) / 2 + 1 / 100000000) (scans sched) o := by
  obtain ⟨n, h1, h2⟩ := tracks_exec hmoves hε sched hs hm
  exact ⟨n, h1, h2.outputs⟩

/-- C142: and every scan that comes after a prior and finds the callback idle is answered: two messages of
its time are published. -/
theorem C142_answers (hmoves : Moves truth τ b) (hε : b + a ≤ ε) (sched : List (Act ℤ Scan))
    (m : ScanMsg ℤ Scan) (hs : Supplied truth a τ (sched ++ [.size m, .closest, .remove, .publish]))
    (hm : ∀ m' ∈ m :: scans sched, Halves run ε (truth m'.stamp) m'.scan) (hprior : received sched ≠ [])
    {n : Node ℤ Scan} (hn : Store.exec run 1000000000 (Node.new ℤ Scan) sched = .ok n)
    (hidle : n.pc = .idle) :
    ∃ n' pose, Store.exec run 1000000000 (Node.new ℤ Scan) (sched ++ [.size m, .closest, .remove, .publish]) =
        .ok n' ∧ Within ((b + a) / 2 + 1 / 100000000) (truth m.stamp) pose ∧
      n'.outputs = n.outputs ++ [.pose m.stamp "map" pose [1, 1, 1, 1 / 10, 1 / 10, 1 / 10],
        .transform m.stamp "map" "lidar_feature_base_link" pose] ∧ n'.pc = .idle := by
  have hm' : ∀ m' ∈ scans (sched ++ [Act.size m, .closest, .remove, .publish]),
      Halves run ε (truth m'.stamp) m'.scan := by
    intro m' h
    rw [scans_append] at h
    refine hm m' ?_
    simpa [scans, or_comm] using h
  have hpre := hs.prefix
  obtain ⟨hstore, -⟩ := store_eq_received run 1000000000 sched n hn hpre.recent
  have hne : n.store ≠ [] := by
    rw [hstore]
    obtain ⟨e, he⟩ := List.exists_mem_of_ne_nil _ hprior
    obtain ⟨v, hv⟩ := lastFor_exists _ e he
    exact List.ne_nil_of_mem ((C54_contents (received sched) (e.1, v)).2 hv)
  obtain ⟨n', h1, -⟩ := tracks_exec hmoves hε _ hs hm'
  have hcall : poseUpdateCallback run 1000000000 n m = .ok n' := by
    rw [exec_append, hn] at h1
    exact h1
  rcases poseUpdateCallback_outputs run 1000000000 n n' hidle m hcall with ⟨h, -⟩ | ⟨prior, r, hg, hr, ho, -, hi⟩
  · exact absurd h hne
  refine ⟨n', r.pose, h1, ?_, ho, hi⟩
  rw [hstore] at hg
  obtain ⟨e, hg', hcl⟩ := C54_closest (received sched) hprior m.stamp
  rw [hg] at hg'
  injection hg' with hg'
  subst hg'
  rcases hs.timely sched m [.closest, .remove, .publish] rfl with h0 | ⟨e0, he0, hτ0⟩
  · exact absurd h0 hprior
  obtain ⟨v, hv⟩ := lastFor_exists _ e0 he0
  have hle : |m.stamp - prior.1| ≤ τ := ((hcl.2 (e0.1, v) hv).1).trans hτ0
  have hmem : prior ∈ received sched := by
    obtain ⟨pre, post, heq, -⟩ := hcl.1
    rw [heq]
    exact List.mem_append_right _ List.mem_cons_self
  have hw := (hmoves m.stamp prior.1 hle).trans (hpre.accurate prior hmem)
  obtain ⟨r', hr', -, hclose⟩ := hm m List.mem_cons_self prior.2 (b + a) (hpre.rigid prior hmem) hw.nonneg hε hw
  rw [hr] at hr'
  injection hr' with hr'
  rw [hr']
  exact hclose

end

/-! ### With the scan matching of the node -/

/-- The scan matching of the localizer: edge scan and surface scan against the two maps, at most `k`
iterations. -/
noncomputable def matching (nth : Nth) (llt : Llt) (L : Libs) (edgeMap surfaceMap : List V3) (k : ℤ)
    (scan : List V3 × List V3) (T : Pose) : Res Result :=
  run nth llt (make L edgeMap surfaceMap nNeighbors scan.1 scan.2) k T

/-- For a finite number of things that each hold below a positive bound there is a common one. -/
theorem common_bound {α : Type} (l : List α) (P : α → ℝ → Prop) (hmono : ∀ x d d', d' ≤ d → P x d → P x d')
    (h : ∀ x ∈ l, ∃ ε > 0, P x ε) : ∃ ε > 0, ∀ x ∈ l, P x ε := by
  induction l with
  | nil => exact ⟨1, by norm_num, by simp⟩
  | cons x l ih =>
    obtain ⟨e1, h1, h1'⟩ := h x List.mem_cons_self
    obtain ⟨e2, h2, h2'⟩ := ih fun y hy => h y (List.mem_cons_of_mem _ hy)
    refine ⟨min e1 e2, lt_min h1 h2, ?_⟩
    intro y hy
    rcases List.mem_cons.1 hy with rfl | hy
    · exact hmono _ _ _ (min_le_left _ _) h1'
    · exact hmono _ _ _ (min_le_right _ _) (h2' y hy)

/-- In surroundings that are seen clearly scan matching halves errors. -/
theorem halves_of_clear {nth : Nth} (hn : Lib.IsNthElement nth) {llt : Llt} (hllt : LltSpec llt) {L : Libs}
    (he : EigSpec L.eig) (hqr : QrSpec L.qr) {edgeMap surfaceMap : List V3} {k : ℤ} (hk1 : 1 ≤ k)
    {scan : List V3 × List V3} {c : Scene} (hc : c.edges = scan.1) (hs : L.downsample scan.2 = c.surfaces)
    {S : Pose} {g μ : ℝ} (h : c.Clear L.knn edgeMap surfaceMap S g μ) :
    ∃ ε > 0, Halves (matching nth llt L edgeMap surfaceMap k) ε S scan := by
  obtain ⟨ε, hε, hall⟩ := C134_neighbourhood hn hllt he hqr edgeMap surfaceMap scan.2 c hs S g μ h
  refine ⟨ε, hε, fun T d hT hd0 hd hw => ?_⟩
  obtain ⟨r, h1, -, h3, h4, h5⟩ := hall T hT d hd0 hd hw.1 (hw.2.trans hd) k hk1
  refine ⟨r, ?_, h3, fun x => h5 x, h4.trans (by norm_num)⟩
  unfold matching
  rw [← hc]
  exact h1

/-- C142: a map made by a mapping session with exact poses, a surface map on disk, and scans of the same
surroundings: there is a bound such that the localizer started with these files follows the vehicle whenever
priors are that accurate and timely. -/
theorem C142_session {nth : Nth} (hn : Lib.IsNthElement nth) {llt : Llt} (hllt : LltSpec llt) {L : Libs}
    (hk : KnnSpec L.knn) (he : EigSpec L.eig) (hqr : QrSpec L.qr) {P Q : Type} {W : World}
    {conv : Mapping.Pt P → Mapping.Pt Q} (hconv : ∀ p, (conv p).xyz = p.xyz) {garbage : Pose}
    {msgs : List (Mapping.Cloud P × Pose)} (hW : W.Exact msgs) (hne : ∃ m ∈ msgs, m.1 ≠ []) {fs : Apps.Fs P}
    {surface : Mapping.Cloud P} (hsurf : fs "maps/surface.pcd" = some (.pcd surface))
    (hplanes : ∀ x ∈ positions surface, ∃ n ∈ W.planes, OnPlane n x) {e s : Mapping.Cloud Q} {k : ℤ}
    (hspin : Apps.localizationMain conv (Apps.mappingMain garbage msgs fs) = .spin e s k)
    (truth : ℤ → Pose) (hrot : ∀ t, IsRotation (truth t).linear) (ms : List (ScanMsg ℤ (List V3 × List V3)))
    (hseen : ∀ m ∈ ms, ∃ c : Scene, c.edges = m.scan.1 ∧ L.downsample m.scan.2 = c.surfaces ∧
      ∃ r g μ : ℝ, 0 < g ∧ W.Seen (positions e) (positions s) c (truth m.stamp) r g ∧ 1 / 10 < μ ∧
        ∀ (t : ℝ) (ω v : V3), μ * (t ^ 2 + sqLen ω + sqLen v) ≤ c.rates (truth m.stamp).linear t ω v) :
    ∃ ε > 0, ∀ (a b : ℝ) (τ : ℤ), b + a ≤ ε → Moves truth τ b →
      ∀ sched : List (Act ℤ (List V3 × List V3)), Supplied truth a τ sched → scans sched ⊆ ms →
      ∃ n, Store.exec (matching nth llt L (positions e) (positions s) k) 1000000000
          (Node.new ℤ (List V3 × List V3)) sched = .ok n ∧
        ∀ o ∈ n.outputs, Says truth ((b + a) / 2 + 1 / 100000000) (scans sched) o := by
  obtain ⟨hse, hk40⟩ := surface_map hsurf hspin
  have honE := (C141_map hconv hW hne hspin).2
  have honS : ∀ x ∈ positions s, ∃ n ∈ W.planes, OnPlane n x := by
    rw [hse]; exact surface_on hconv hplanes
  obtain ⟨ε, hε, hall⟩ := common_bound ms
    (fun m d => Halves (matching nth llt L (positions e) (positions s) k) d (truth m.stamp) m.scan)
    (fun m d d' hle h T x hT hx0 hx => h T x hT hx0 (hx.trans hle)) (by
      intro m hm
      obtain ⟨c, h1, h2, r, g, μ, h3, h4, h5, h6⟩ := hseen m hm
      exact halves_of_clear hn hllt he hqr (by omega) h1 h2
        (clear_of_seen hk honE honS (hrot _) h3 h4 h5 h6))
  exact ⟨ε, hε, fun a b τ hab hmoves sched hs hsub =>
    C142_tracks hmoves hab sched hs fun m hm => hall m (hsub hm)⟩

/-! ### A vehicle that moves -/

/-- It stands at the origin at time 0 and `b` metres further at all other times. -/
noncomputable def exTruth (b : ℝ) (t : ℤ) : Pose := ⟨1, if t = 0 then 0 else ![b, 0, 0]⟩

theorem vlen_single (b : ℝ) : vlen (![b, 0, 0] : V3) = |b| := by
  simp [vlen, Fin.sum_univ_three, Real.sqrt_sq_eq_abs]

theorem exTruth_moves (b : ℝ) (hb : 0 ≤ b) (τ : ℤ) : Moves (exTruth b) τ b := by
  intro t t' _
  refine ⟨fun x => ?_, ?_⟩
  · simp only [exTruth, sub_self, vlen_zero]
    exact mul_nonneg hb (vlen_nonneg _)
  · simp only [exTruth]
    split_ifs
    · rw [sub_self, vlen_zero]; exact hb
    · rw [zero_sub, vlen_neg, vlen_single, abs_of_nonneg hb]
    · rw [sub_zero, vlen_single, abs_of_nonneg hb]
    · rw [sub_self, vlen_zero]; exact hb

/-- A prior of a nanosecond later, then a scan. -/
noncomputable def exSchedule (b : ℝ) : List (Act ℤ (List V3 × List V3)) :=
  [.insert 1 (exTruth b 1), .size ⟨0, (exScene.edges, exScene.surfaces)⟩, .closest, .remove, .publish]

theorem exSchedule_supplied (b : ℝ) : Supplied (exTruth b) 0 1 (exSchedule b) := by
  refine ⟨?_, ?_, ?_, ?_⟩
  · simp [exSchedule, received, exTruth, IsRotation]
  · intro e he
    simp only [exSchedule, received, List.mem_singleton] at he
    subst he
    exact ⟨fun x => by simp [exTruth, vlen_zero], by simp [vlen_zero]⟩
  · simp [exSchedule, received, scans]
  · intro pre m post h
    unfold exSchedule at h
    rcases pre with _ | ⟨x, pre⟩
    · left; rfl
    rcases pre with _ | ⟨y, pre⟩
    · simp only [List.cons_append, List.nil_append, List.cons.injEq, Act.size.injEq] at h
      right
      obtain ⟨rfl, rfl, -⟩ := h
      exact ⟨_, List.mem_singleton_self _, by simp⟩
    · exfalso
      simp only [List.cons_append, List.cons.injEq] at h
      have hmem : Act.size m ∈ ([.closest, .remove, .publish] : List (Act ℤ (List V3 × List V3))) := by
        rw [h.2.2]; simp
      simp at hmem

/-- The session of `C141`, the scan of `C134`, and a prior that is wrong by the distance gone: the two
messages published are wrong by at most half of it, up to 1e-8. -/
example {nth : Nth} (hn : Lib.IsNthElement nth) {llt : Llt} (hllt : LltSpec llt) :
    ∃ b > 0, ∃ n pose, Store.exec (matching nth llt exLibs exPoles exCeiling 40) 1000000000
        (Node.new ℤ (List V3 × List V3)) (exSchedule b) = .ok n ∧
      Within (b / 2 + 1 / 100000000) ⟨1, 0⟩ pose ∧
      n.outputs = [.pose 0 "map" pose [1, 1, 1, 1 / 10, 1 / 10, 1 / 10],
        .transform 0 "map" "lidar_feature_base_link" pose] := by
  obtain ⟨e, s, h, he, hs⟩ := exSession_spin
  have hsurf : exFs "maps/surface.pcd" = some (.pcd (exCeiling.map fun x => (⟨x, ()⟩ : Mapping.Pt Unit))) := by
    simp [exFs, Apps.save]
  have hne : ∃ m ∈ exSession, m.1 ≠ [] := ⟨_, List.mem_cons_self, by simp⟩
  have honE := (C141_map (conv := id) (fun p => rfl) exSession_exact hne h).2
  have honS : ∀ x ∈ positions s, ∃ n ∈ exWorld.planes, OnPlane n x := by
    rw [(surface_map hsurf h).1]; exact surface_on (conv := id) (fun p => rfl) exCeiling_on
  have hseen : exWorld.Seen (positions e) (positions s) exScene ⟨1, 0⟩ 10 1 := by
    rw [he, hs]; exact exSeen
  obtain ⟨b, hb, hh⟩ := halves_of_clear hn hllt (L := exLibs) exEig_spec exQr_spec (k := 40) (by norm_num)
    (scan := (exScene.edges, exScene.surfaces)) (c := exScene) rfl rfl
    (clear_of_seen (knn := exLibs.knn) exKnn_spec honE honS (S := ⟨1, 0⟩) ⟨by simp, by simp⟩ (by norm_num) hseen
      exScene_clear.μ_min exScene_clear.observed)
  rw [he, hs] at hh
  obtain ⟨n, pose, h1, h2, h3, -⟩ := C142_answers (run := matching nth llt exLibs exPoles exCeiling 40)
    (truth := exTruth b) (a := 0) (b := b) (ε := b) (τ := 1) (exTruth_moves b hb.le 1) (by simp)
    [.insert 1 (exTruth b 1)] ⟨0, (exScene.edges, exScene.surfaces)⟩ (exSchedule_supplied b) (by
      intro m' hm'
      simp only [scans, List.mem_singleton] at hm'
      subst hm'
      simpa [exTruth] using hh) (by simp [received]) rfl rfl
  refine ⟨b, hb, n, pose, h1, ?_, h3⟩
  simpa [exTruth] using h2

end Verif.Loam
