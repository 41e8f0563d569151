/-
C102 map files: what mapping leaves behind, and what localization and the map loader make of it.
-/
import Verif.Props.C58
import Verif.Model.Apps

set_option autoImplicit false

namespace Verif.Apps

open Verif Verif.Rot Verif.Mapping

variable {P Q : Type}

theorem mappingMain_eq (garbage : Pose) (msgs : List (Cloud P × Pose)) (fs : Fs P) :
    mappingMain garbage msgs fs =
      match (builderAfter garbage msgs).saveMap "maps/edge.pcd" with
      | some (name, cloud) => save fs name cloud
      | none => fs := rfl

/-- C102: a mapping session changes no file but `maps/edge.pcd`. If every cloud it received was empty it changes
nothing; otherwise, if the poses are rigid, the file then holds the points of the key frames, each placed at
its pose, and they are not empty. -/
theorem C102_mapping (garbage : Pose) (msgs : List (Cloud P × Pose)) (fs : Fs P) :
    (∀ name, name ≠ "maps/edge.pcd" → mappingMain garbage msgs fs name = fs name) ∧
    ((∀ m ∈ msgs, m.1 = []) → mappingMain garbage msgs fs = fs) ∧
    ((∃ m ∈ msgs, m.1 ≠ []) → (∀ m ∈ msgs, IsRotation m.2.linear) →
      ∃ ks, Keyframes msgs ks ∧ (placed (ks.map fun k => (k.2, k.1))).flatten ≠ [] ∧
        mappingMain garbage msgs fs "maps/edge.pcd" = some (.pcd (placed (ks.map fun k => (k.2, k.1))).flatten)) := by
  have he := C59_empty garbage msgs (MapBuilder.new garbage) ⟨1, 0⟩ "maps/edge.pcd"
  refine ⟨fun name hn => ?_, fun h => ?_, fun h hr => ?_⟩
  · rw [mappingMain_eq]
    cases hs : (builderAfter garbage msgs).saveMap "maps/edge.pcd" with
    | none => rfl
    | some f =>
      have := (he.2.2 f hs).1
      subst this
      simp [save, hn]
  · rw [mappingMain_eq, he.2.1.2 h]
  · obtain ⟨ks, hk, hm⟩ := C59_map garbage msgs hr
    cases hs : (builderAfter garbage msgs).saveMap "maps/edge.pcd" with
    | none =>
      obtain ⟨m, hmem, hne⟩ := h
      exact absurd (he.2.1.1 hs m hmem) hne
    | some f =>
      obtain ⟨hf, hne⟩ := he.2.2 f hs
      subst hf
      refine ⟨ks, hk, hm ▸ hne, ?_⟩
      rw [mappingMain_eq, hs, ← hm]
      simp [save]

/-- One scan of one point. -/
example (fs : Fs Unit) : ∃ ks, Keyframes [([⟨![1, 0, 0], ()⟩], (⟨1, 0⟩ : Pose))] ks ∧
    mappingMain ⟨1, 0⟩ [([⟨![1, 0, 0], ()⟩], ⟨1, 0⟩)] fs "maps/edge.pcd" =
      some (.pcd (placed (ks.map fun k => (k.2, k.1))).flatten) := by
  obtain ⟨ks, h1, -, h2⟩ := (C102_mapping ⟨1, 0⟩ [([⟨![1, 0, 0], ()⟩], ⟨1, 0⟩)] fs).2.2 ⟨_, List.mem_cons_self, by simp⟩
    (by
      intro m hm
      simp only [List.mem_cons, List.not_mem_nil, or_false] at hm
      subst hm
      exact ⟨by simp, by simp⟩)
  exact ⟨ks, h1, h2⟩

/-- C102: localization spins exactly if both map files exist, and otherwise returns -1. It then matches against the
points of the files; a file that cannot be read counts as a map without points. -/
theorem C102_start (conv : Pt P → Pt Q) (fs : Fs P) :
    ((∃ e s n, localizationMain conv fs = .spin e s n) ↔
      fs "maps/edge.pcd" ≠ none ∧ fs "maps/surface.pcd" ≠ none) ∧
    ((∃ c, localizationMain conv fs = .exit c) ↔ localizationMain conv fs = .exit (-1)) ∧
    ∀ e s n, localizationMain conv fs = .spin e s n → n = 40 ∧
      (∀ c, fs "maps/edge.pcd" = some (.pcd c) → e = c.map conv) ∧
      (∀ c, fs "maps/surface.pcd" = some (.pcd c) → s = c.map conv) ∧
      (fs "maps/edge.pcd" = some .unreadable → e = []) ∧ (fs "maps/surface.pcd" = some .unreadable → s = []) := by
  unfold localizationMain checkMapPathExists
  cases he : fs "maps/edge.pcd" with
  | none => simp
  | some fe =>
    cases hs : fs "maps/surface.pcd" with
    | none => simp
    | some fsf =>
      refine ⟨by simp, by simp, ?_⟩
      intro e s n h
      simp only [Option.isSome_some, Bool.not_true, Bool.false_eq_true, if_false, Start.spin.injEq] at h
      obtain ⟨h1, h2, h3⟩ := h
      refine ⟨h3.symm, fun c hc => ?_, fun c hc => ?_, fun hc => ?_, fun hc => ?_⟩
      · cases hc
        rw [← h1]
        simp [loadPCDFile, he]
      · cases hc
        rw [← h2]
        simp [loadPCDFile, hs]
      · cases hc
        rw [← h1]
        simp [loadPCDFile, he]
      · cases hc
        rw [← h2]
        simp [loadPCDFile, hs]

/-- Two maps of one point. -/
example : localizationMain id (save (save (fun _ => none) "maps/edge.pcd" [⟨![1, 0, 0], ()⟩]) "maps/surface.pcd" [⟨![0, 1, 0], ()⟩]) =
    .spin [⟨![1, 0, 0], ()⟩] [⟨![0, 1, 0], ()⟩] 40 := by
  simp [localizationMain, checkMapPathExists, loadPCDFile, save]

/-- C102, where a surface map exists: after any number of mapping sessions localization matches edges against the
key frames of the last session that received a non-empty cloud. Missing: without a surface map, which no
program of the repository writes, localization does not start (`C102_no_surface_violated`). -/
theorem C102_pipeline_partial (conv : Pt P → Pt Q) (sessions : List (Pose × List (Cloud P × Pose)))
    (garbage : Pose) (msgs : List (Cloud P × Pose)) (later : List (Pose × List (Cloud P × Pose))) (fs : Fs P)
    (surface : Cloud P) (hsurf : fs "maps/surface.pcd" = some (.pcd surface))
    (hne : ∃ m ∈ msgs, m.1 ≠ []) (hr : ∀ m ∈ msgs, IsRotation m.2.linear)
    (hlater : ∀ s ∈ later, ∀ m ∈ s.2, m.1 = []) :
    ∃ ks, Keyframes msgs ks ∧
      localizationMain conv ((sessions ++ (garbage, msgs) :: later).foldl (fun fs s => mappingMain s.1 s.2 fs) fs) =
        .spin ((placed (ks.map fun k => (k.2, k.1))).flatten.map conv) (surface.map conv) 40 := by
  have hkeep : ∀ (ss : List (Pose × List (Cloud P × Pose))) (fs : Fs P),
      (ss.foldl (fun fs s => mappingMain s.1 s.2 fs) fs) "maps/surface.pcd" = fs "maps/surface.pcd" := by
    intro ss
    induction ss with
    | nil => intro fs; rfl
    | cons a ss ih =>
      intro fs
      rw [List.foldl_cons, ih]
      exact (C102_mapping a.1 a.2 fs).1 _ (by decide)
  have hnop : ∀ (ss : List (Pose × List (Cloud P × Pose))) (fs : Fs P), (∀ s ∈ ss, ∀ m ∈ s.2, m.1 = []) →
      ss.foldl (fun fs s => mappingMain s.1 s.2 fs) fs = fs := by
    intro ss
    induction ss with
    | nil => intro fs _; rfl
    | cons a ss ih =>
      intro fs h
      rw [List.foldl_cons, (C102_mapping a.1 a.2 fs).2.1 (h a List.mem_cons_self)]
      exact ih fs fun s hs => h s (List.mem_cons_of_mem _ hs)
  rw [List.foldl_append, List.foldl_cons, hnop later _ hlater]
  obtain ⟨ks, hk, -, hfile⟩ := (C102_mapping garbage msgs (sessions.foldl (fun fs s => mappingMain s.1 s.2 fs) fs)).2.2 hne hr
  refine ⟨ks, hk, ?_⟩
  have hs : mappingMain garbage msgs (sessions.foldl (fun fs s => mappingMain s.1 s.2 fs) fs) "maps/surface.pcd" =
      some (.pcd surface) := by
    rw [(C102_mapping garbage msgs _).1 _ (by decide), hkeep, hsurf]
  unfold localizationMain checkMapPathExists loadPCDFile
  simp only [hfile, hs]
  simp

/-- C102 is false where no surface map exists at the start: whatever the mapping sessions receive, localization
returns -1 afterwards. -/
theorem C102_no_surface_violated (conv : Pt P → Pt Q) (sessions : List (Pose × List (Cloud P × Pose))) (fs : Fs P)
    (h : fs "maps/surface.pcd" = none) :
    localizationMain conv (sessions.foldl (fun fs s => mappingMain s.1 s.2 fs) fs) = .exit (-1) := by
  have hs : (sessions.foldl (fun fs s => mappingMain s.1 s.2 fs) fs) "maps/surface.pcd" = none := by
    induction sessions generalizing fs with
    | nil => exact h
    | cons a ss ih =>
      rw [List.foldl_cons]
      refine ih _ ?_
      rw [(C102_mapping a.1 a.2 fs).1 _ (by decide)]
      exact h
  unfold localizationMain checkMapPathExists
  rw [hs]
  simp

/-- No files. -/
example (g : Pose) (msgs : List (Cloud Unit × Pose)) :
    localizationMain id (mappingMain g msgs (fun _ => none)) = .exit (-1) :=
  C102_no_surface_violated id [(g, msgs)] (fun _ => none) rfl

/-- C102: the map loader rejects an empty file name, and otherwise publishes exactly one cloud in the frame `map`; for
a readable file it has the points of the file. -/
theorem C102_loader (fs : Fs P) (name : String) :
    (mapLoader fs name = .error .invalidArgument ↔ name = "") ∧
    (name ≠ "" → ∃ msg, mapLoader fs name = .ok [msg] ∧ msg.frame = "map" ∧
      ∀ c, fs name = some (.pcd c) → msg.cloud = c) := by
  unfold mapLoader
  have hl : name.length = 0 ↔ name = "" := by simp
  constructor
  · split_ifs with h
    · simp [hl.1 h]
    · simp only [reduceCtorEq, false_iff]
      rwa [← hl]
  · intro hn
    rw [if_neg (fun h => hn (hl.1 h))]
    refine ⟨_, rfl, rfl, fun c hc => ?_⟩
    simp [loadMap, loadPCDFile, hc]

/-- C102: a missing or unreadable map is not reported: the map loader publishes a map without points. -/
theorem C102_missing_violated (fs : Fs P) (name : String) (hn : name ≠ "")
    (h : fs name = none ∨ fs name = some .unreadable) : mapLoader fs name = .ok [⟨"map", []⟩] := by
  unfold mapLoader
  rw [if_neg (by simpa using hn)]
  rcases h with h | h <;> simp [loadMap, loadPCDFile, h]

/-- No files. -/
example : mapLoader (P := Unit) (fun _ => none) "maps/edge.pcd" = .ok [⟨"map", []⟩] :=
  C102_missing_violated _ _ (by decide) (Or.inl rfl)

/-- C102: `EdgeSurfaceMap`, had it been used, would leave what localization needs: the maps it saves, if neither
is empty, are the placed scans, and localization starts with them. -/
theorem C102_edge_surface (nLocal : ℤ) (conv : Pt P → Pt Q) (history : List (Pose × Cloud P × Cloud P)) (fs : Fs P)
    (he : (placed (history.map fun h => (h.1, h.2.1))).flatten ≠ [])
    (hs : (placed (history.map fun h => (h.1, h.2.2))).flatten ≠ []) :
    localizationMain conv ((history.foldl (fun m h => m.add h.1 h.2) (EdgeSurfaceMap.new nLocal)).save "maps" fs) =
      .spin ((placed (history.map fun h => (h.1, h.2.1))).flatten.map conv)
        ((placed (history.map fun h => (h.1, h.2.2))).flatten.map conv) 40 := by
  have key : ∀ m : EdgeSurfaceMap P, (history.foldl (fun m h => m.add h.1 h.2) m).edge =
        (history.map fun h => (h.1, h.2.1)).foldl (fun r e => r.add e.1 e.2) m.edge ∧
      (history.foldl (fun m h => m.add h.1 h.2) m).surface =
        (history.map fun h => (h.1, h.2.2)).foldl (fun r e => r.add e.1 e.2) m.surface := by
    clear he hs
    induction history with
    | nil => intro m; exact ⟨rfl, rfl⟩
    | cons a rest ih =>
      intro m
      exact ih (m.add a.1 a.2)
  obtain ⟨ke, ks⟩ := key (EdgeSurfaceMap.new nLocal)
  have ge : (history.foldl (fun m h => m.add h.1 h.2) (EdgeSurfaceMap.new nLocal)).edge.getAll =
      (placed (history.map fun h => (h.1, h.2.1))).flatten := by
    rw [ke]
    unfold RecentScans.getAll
    rw [mergeClouds_eq]
    exact congrArg List.flatten (scansAfter_scans _)
  have gs : (history.foldl (fun m h => m.add h.1 h.2) (EdgeSurfaceMap.new nLocal)).surface.getAll =
      (placed (history.map fun h => (h.1, h.2.2))).flatten := by
    rw [ks]
    unfold RecentScans.getAll
    rw [mergeClouds_eq]
    exact congrArg List.flatten (scansAfter_scans _)
  have n1 : ("maps" ++ "/" ++ "edge.pcd" : String) = "maps/edge.pcd" := by decide
  have n2 : ("maps" ++ "/" ++ "surface.pcd" : String) = "maps/surface.pcd" := by decide
  unfold EdgeSurfaceMap.save
  rw [ge, gs, n1, n2]
  generalize (placed (history.map fun h => (h.1, h.2.1))).flatten = ce at he
  generalize (placed (history.map fun h => (h.1, h.2.2))).flatten = cs at hs
  have l1 : ce.length ≠ 0 := fun h => he (List.eq_nil_of_length_eq_zero h)
  have l2 : cs.length ≠ 0 := fun h => hs (List.eq_nil_of_length_eq_zero h)
  simp [saveMapIfNotEmpty, l1, l2, localizationMain, checkMapPathExists, loadPCDFile, save]

theorem edgeSurface_foldl (history : List (Pose × Cloud P × Cloud P)) :
    ∀ m : EdgeSurfaceMap P, history.foldl (fun m h => m.add h.1 h.2) m =
      ⟨m.nLocal, (history.map fun h => (h.1, h.2.1)).foldl (fun r e => r.add e.1 e.2) m.edge,
        (history.map fun h => (h.1, h.2.2)).foldl (fun r e => r.add e.1 e.2) m.surface⟩ := by
  induction history with
  | nil => intro m; rfl
  | cons a rest ih =>
    intro m
    exact ih (m.add a.1 a.2)

/-- C102: and its local map is made of the last `nLocal` scans of each kind. -/
theorem C102_edge_surface_recent (nLocal : ℕ) (history : List (Pose × Cloud P × Cloud P))
    (hlen : history.length < 2 ^ 31) :
    (history.foldl (fun m h => m.add h.1 h.2) (EdgeSurfaceMap.new nLocal)).getRecent =
      .ok (((placed (history.map fun h => (h.1, h.2.1))).drop
          (history.length - min nLocal history.length)).flatten,
        ((placed (history.map fun h => (h.1, h.2.2))).drop
          (history.length - min nLocal history.length)).flatten) := by
  have l1 : (history.map fun h => (h.1, h.2.1)).length = history.length := List.length_map _
  have l2 : (history.map fun h => (h.1, h.2.2)).length = history.length := List.length_map _
  have e1 := (C58_recent _ (l1 ▸ hlen) nLocal).1
  have e2 := (C58_recent _ (l2 ▸ hlen) nLocal).1
  rw [l1] at e1
  rw [l2] at e2
  unfold scansAfter at e1 e2
  rw [edgeSurface_foldl]
  unfold EdgeSurfaceMap.getRecent EdgeSurfaceMap.new
  dsimp only
  rw [e1, e2]
  rfl

/-- Two steps of which the last is asked for. -/
example : ([((⟨1, 0⟩ : Pose), ([⟨0, 1⟩] : Cloud ℕ), ([⟨0, 2⟩] : Cloud ℕ)), (⟨1, 0⟩, [⟨0, 3⟩], [])].foldl
    (fun m h => m.add h.1 h.2) (EdgeSurfaceMap.new 1)).getRecent = .ok ([⟨0, 3⟩], []) := by
  have h := C102_edge_surface_recent 1
    [((⟨1, 0⟩ : Pose), ([⟨0, 1⟩] : Cloud ℕ), ([⟨0, 2⟩] : Cloud ℕ)), (⟨1, 0⟩, [⟨0, 3⟩], [])] (by simp)
  simpa [placed] using h

/-- C102: the map of an odometry holds nothing exactly while no scan has been added to it. -/
theorem C102_edge_surface_empty (nLocal : ℤ) (history : List (Pose × Cloud P × Cloud P)) :
    (history.foldl (fun m h => m.add h.1 h.2) (EdgeSurfaceMap.new nLocal)).isEmpty = true ↔
      history = [] := by
  have e1 := scansAfter_scans (history.map fun h => (h.1, h.2.1))
  have e2 := scansAfter_scans (history.map fun h => (h.1, h.2.2))
  unfold scansAfter at e1 e2
  rw [edgeSurface_foldl]
  unfold EdgeSurfaceMap.isEmpty EdgeSurfaceMap.new RecentScans.isEmpty
  dsimp only
  rw [e1, e2]
  simp [placed]

/-- A scan with no point at all counts as well. -/
example : (([((⟨1, 0⟩ : Pose), ([] : Cloud ℕ), ([] : Cloud ℕ))]).foldl
    (fun m h => m.add h.1 h.2) (EdgeSurfaceMap.new 1)).isEmpty ≠ true := by
  rw [Ne, C102_edge_surface_empty]
  simp

end Verif.Apps
