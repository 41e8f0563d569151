/-
C105: the programs started by a launch file are connected.
-/
import Verif.Model.Launch

set_option autoImplicit false

namespace Verif.Launch

/-- Specification: among the nodes started there is a node of program `a` with a publisher named
`out` and a node of program `b` with a subscription named `inp`, and messages flow between them. -/
def Feeds (ns : List String) (nodes : List Node) (a : Program) (out : Name) (b : Program)
    (inp : Name) : Prop :=
  ∃ m ∈ nodes, ∃ n ∈ nodes, m.program = a ∧ n.program = b ∧
    ∃ p ∈ m.program.publishers, ∃ s ∈ n.program.subscriptions,
      p.topic = out ∧ s.topic = inp ∧ Delivers ns m p n s

/-- Specification: and, moreover, no message gets lost on the way, because both ends are reliable. -/
def FeedsReliably (ns : List String) (nodes : List Node) (a : Program) (out : Name) (b : Program)
    (inp : Name) : Prop :=
  ∃ m ∈ nodes, ∃ n ∈ nodes, m.program = a ∧ n.program = b ∧
    ∃ p ∈ m.program.publishers, ∃ s ∈ n.program.subscriptions,
      p.topic = out ∧ s.topic = inp ∧ Delivers ns m p n s ∧ p.reliable = true ∧ s.reliable = true

/-- Specification: a node of program `b` listens on the topic `t` through its subscription
`inp`. -/
def Listens (ns : List String) (nodes : List Node) (b : Program) (inp : Name) (t : List String) :
    Prop :=
  ∃ n ∈ nodes, n.program = b ∧ ∃ s ∈ n.program.subscriptions, s.topic = inp ∧ n.topic ns s = t

/-- Specification: the localization pipeline is complete. The sensor topic is read by the converter,
its output by the extraction, both feature clouds by the localizer, which gets its prior from the
filter and gives its pose to the filter; the filter reads the initial pose and the twist. -/
structure PipelineComplete (ns : List String) (a : LocalizationArgs) (nodes : List Node) : Prop where
  sensor : Listens ns nodes converter (abs "points_raw") (a.sensorPoints.resolve ns)
  converted : FeedsReliably ns nodes converter (abs "points_converted") extraction (rel "points_raw")
  edge : FeedsReliably ns nodes extraction (rel "scan_edge") localization (rel "scan_edge")
  surface : FeedsReliably ns nodes extraction (rel "scan_surface") localization (rel "scan_surface")
  prior : FeedsReliably ns nodes ekfLocalizer (rel "ekf_odom") localization (rel "optimization_start_odom")
  pose : FeedsReliably ns nodes localization (rel "estimated_pose") ekfLocalizer
    (rel "in_pose_with_covariance")
  initial : Listens ns nodes ekfLocalizer (rel "initialpose") (a.initialPose.resolve ns)
  twist : Listens ns nodes ekfLocalizer (rel "in_twist_with_covariance") (a.twist.resolve ns)

/-- The nodes of the localization launch file. -/
def localizationNodes (a : LocalizationArgs) : List Node :=
  [converterNode a.sensorPoints, extractionNode, localizationNode a, mapLoaderNode a.edgeMap,
    mapLoaderNode a.surfaceMap, ekfNode a]

theorem localizationLaunch_eq (a : LocalizationArgs) :
    localizationLaunch a = some (localizationNodes a) := by
  unfold localizationLaunch launch
  rw [if_pos]
  · rfl
  · simp only [List.all_cons, List.all_nil, converterNode, extractionNode, localizationNode,
      mapLoaderNode, ekfNode]
    decide

/-- C105, as far as it holds: run by itself, `localization.launch.py` starts, and for all values of
its arguments the pipeline is complete. -/
theorem C105_localization_partial (a : LocalizationArgs) :
    ∃ nodes, localizationLaunch a = some nodes ∧ PipelineComplete [] a nodes := by
  refine ⟨_, localizationLaunch_eq a, ⟨?_, ?_, ?_, ?_, ?_, ?_, ?_, ?_⟩⟩
  · exact ⟨converterNode a.sensorPoints, by simp [localizationNodes], rfl, _,
      List.mem_cons_self, rfl, rfl⟩
  · exact ⟨converterNode a.sensorPoints, by simp [localizationNodes], extractionNode,
      by simp [localizationNodes], rfl, rfl, _, List.mem_cons_self, _, List.mem_cons_self, rfl, rfl,
      ⟨rfl, rfl, by decide, by decide⟩, rfl, rfl⟩
  · exact ⟨extractionNode, by simp [localizationNodes], localizationNode a,
      by simp [localizationNodes], rfl, rfl, _, List.mem_cons_of_mem _ List.mem_cons_self, _,
      List.mem_cons_self, rfl, rfl, ⟨rfl, rfl, by decide, by decide⟩, rfl, rfl⟩
  · exact ⟨extractionNode, by simp [localizationNodes], localizationNode a,
      by simp [localizationNodes], rfl, rfl, _,
      List.mem_cons_of_mem _ (List.mem_cons_of_mem _ List.mem_cons_self), _,
      List.mem_cons_of_mem _ List.mem_cons_self, rfl, rfl, ⟨rfl, rfl, by decide, by decide⟩, rfl, rfl⟩
  · exact ⟨ekfNode a, by simp [localizationNodes], localizationNode a,
      by simp [localizationNodes], rfl, rfl, _, List.mem_cons_self, _,
      List.mem_cons_of_mem _ (List.mem_cons_of_mem _ List.mem_cons_self), rfl, rfl, ⟨rfl, rfl,
      by decide, by decide⟩, rfl, rfl⟩
  · exact ⟨localizationNode a, by simp [localizationNodes], ekfNode a,
      by simp [localizationNodes], rfl, rfl, _, List.mem_cons_self, _,
      List.mem_cons_of_mem _ List.mem_cons_self, rfl, rfl, ⟨rfl, rfl, by decide, by decide⟩, rfl, rfl⟩
  · exact ⟨ekfNode a, by simp [localizationNodes], rfl, _, List.mem_cons_self, rfl, rfl⟩
  · exact ⟨ekfNode a, by simp [localizationNodes], rfl, _,
      List.mem_cons_of_mem _ (List.mem_cons_of_mem _ List.mem_cons_self), rfl, rfl⟩

/-- C105, sensor: run by itself, whatever reliability and durability the sensor driver offers for its
point clouds on the topic given as argument, they reach the converter. -/
theorem C105_sensor (a : LocalizationArgs) (driver : Node) (p : Endpoint)
    (htype : p.type = .pointCloud2) (htopic : driver.topic [] p = a.sensorPoints.resolve []) :
    ∃ nodes, localizationLaunch a = some nodes ∧ ∃ n ∈ nodes, n.program = converter ∧
      ∃ s ∈ n.program.subscriptions, Delivers [] driver p n s := by
  refine ⟨_, localizationLaunch_eq a, converterNode a.sensorPoints, by simp [localizationNodes], rfl,
    _, List.mem_cons_self, ?_⟩
  refine ⟨htopic.trans rfl, htype, ?_, ?_⟩
  · intro h; exact absurd h (by decide)
  · intro h; exact absurd h (by decide)

/-- C105, maps: the two map topics are published, and a reader of point clouds on one of them gets the
map whatever quality of service it asks for, in particular if it starts late and asks for stored
messages. -/
theorem C105_maps (ns : List String) (a : LocalizationArgs) :
    ∃ nodes, localizationLaunch a = some nodes ∧ ∀ topic ∈ [a.edgeMap, a.surfaceMap],
      ∃ n ∈ nodes, n.program = mapLoader ∧ ∃ p ∈ n.program.publishers,
        ∀ (reader : Node) (s : Endpoint), s.type = .pointCloud2 →
          reader.topic ns s = topic.resolve ns → Delivers ns n p reader s := by
  refine ⟨_, localizationLaunch_eq a, ?_⟩
  intro topic htopic
  have hmem : mapLoaderNode topic ∈ localizationNodes a := by
    simp only [List.mem_cons, List.not_mem_nil, or_false] at htopic
    rcases htopic with rfl | rfl <;> simp [localizationNodes]
  refine ⟨mapLoaderNode topic, hmem, rfl, _, List.mem_cons_self, ?_⟩
  intro reader s hs ht
  refine ⟨?_, hs.symm, fun _ => rfl, fun _ => rfl⟩
  rw [ht]
  simp [Node.topic, mapLoaderNode, remap, Name.resolve, rel]

/-- A driver with best effort on the default topic, and a late reader of the edge map. -/
example : (Node.mk ⟨"driver", "driver", [], [⟨abs "points_raw", .pointCloud2, false, false, some 5⟩]⟩ []
    []).topic [] ⟨abs "points_raw", .pointCloud2, false, false, some 5⟩ =
      LocalizationArgs.default.sensorPoints.resolve [] ∧
    (Node.mk ⟨"rviz", "rviz", [⟨abs "edge_map", .pointCloud2, true, true, some 5⟩], []⟩ []
      []).topic [] ⟨abs "edge_map", .pointCloud2, true, true, some 5⟩ =
      LocalizationArgs.default.edgeMap.resolve [] := by decide

/-- The claim fails when the launch file is included in a namespace, whichever it is and whatever the
arguments: no node of the extraction feeds the surface cloud to the localizer (it publishes
`/scan_surface`, the localizer, whose subscription the launch file forgot to remap, reads
`<ns>/scan_surface`). The localizer synchronises edge and surface clouds, so it never runs. -/
theorem C105_namespace_violated (n : String) (ns : List String) (a : LocalizationArgs) :
    ∃ nodes, localizationLaunch a = some nodes ∧
      ¬ Feeds (n :: ns) nodes extraction (rel "scan_surface") localization (rel "scan_surface") := by
  refine ⟨_, localizationLaunch_eq a, ?_⟩
  rintro ⟨m, hm, k, hk, hma, hkb, p, hp, s, hs, hpt, hst, hd, _⟩
  have hm' : m = extractionNode := by
    simp only [localizationNodes, List.mem_cons, List.not_mem_nil, or_false] at hm
    rcases hm with rfl | rfl | rfl | rfl | rfl | rfl
    · exact absurd (show converter = extraction from hma) (by decide)
    · rfl
    · exact absurd (show localization = extraction from hma) (by decide)
    · exact absurd (show mapLoader = extraction from hma) (by decide)
    · exact absurd (show mapLoader = extraction from hma) (by decide)
    · exact absurd (show ekfLocalizer = extraction from hma) (by decide)
  have hk' : k = localizationNode a := by
    simp only [localizationNodes, List.mem_cons, List.not_mem_nil, or_false] at hk
    rcases hk with rfl | rfl | rfl | rfl | rfl | rfl
    · exact absurd (show converter = localization from hkb) (by decide)
    · exact absurd hkb (by decide)
    · rfl
    · exact absurd (show mapLoader = localization from hkb) (by decide)
    · exact absurd (show mapLoader = localization from hkb) (by decide)
    · exact absurd (show ekfLocalizer = localization from hkb) (by decide)
  subst hm' hk'
  simp only [Node.topic, hpt, hst, extractionNode, localizationNode, List.append_nil, remap,
    List.find?, Name.resolve, rel, abs, Bool.false_eq_true, if_false] at hd
  simp at hd

/-- And the sensor topic given as argument is ignored there: the converter subscribes to an absolute
name and the launch file remaps a relative one. -/
theorem C105_namespace_sensor_violated (n : String) (ns : List String) (a : LocalizationArgs)
    (t : List String) :
    ∃ nodes, localizationLaunch a = some nodes ∧
      (Listens (n :: ns) nodes converter (abs "points_raw") t ↔ t = ["points_raw"]) := by
  refine ⟨_, localizationLaunch_eq a, ?_, ?_⟩
  · rintro ⟨m, hm, hma, s, hs, hst, rfl⟩
    have hm' : m = converterNode a.sensorPoints := by
      simp only [localizationNodes, List.mem_cons, List.not_mem_nil, or_false] at hm
      rcases hm with rfl | rfl | rfl | rfl | rfl | rfl
      · rfl
      · exact absurd hma (by decide)
      · exact absurd (show localization = converter from hma) (by decide)
      · exact absurd (show mapLoader = converter from hma) (by decide)
      · exact absurd (show mapLoader = converter from hma) (by decide)
      · exact absurd (show ekfLocalizer = converter from hma) (by decide)
    subst hm'
    simp [Node.topic, hst, converterNode, remap, Name.resolve, rel, abs]
  · rintro rfl
    refine ⟨converterNode a.sensorPoints, by simp [localizationNodes], rfl, _, List.mem_cons_self, rfl,
      ?_⟩
    simp [Node.topic, converterNode, converter, remap, Name.resolve, rel, abs]

/-- In whatever namespace the launch file is included and whatever the arguments, all other links of
the pipeline are there. -/
theorem C105_namespace_partial (ns : List String) (a : LocalizationArgs) :
    ∃ nodes, localizationLaunch a = some nodes ∧
      FeedsReliably ns nodes converter (abs "points_converted") extraction (rel "points_raw") ∧
      FeedsReliably ns nodes extraction (rel "scan_edge") localization (rel "scan_edge") ∧
      FeedsReliably ns nodes ekfLocalizer (rel "ekf_odom") localization
        (rel "optimization_start_odom") ∧
      FeedsReliably ns nodes localization (rel "estimated_pose") ekfLocalizer
        (rel "in_pose_with_covariance") ∧
      Listens ns nodes ekfLocalizer (rel "initialpose") (a.initialPose.resolve ns) ∧
      Listens ns nodes ekfLocalizer (rel "in_twist_with_covariance") (a.twist.resolve ns) := by
  refine ⟨_, localizationLaunch_eq a, ?_, ?_, ?_, ?_, ?_, ?_⟩
  · refine ⟨converterNode a.sensorPoints, by simp [localizationNodes], extractionNode,
      by simp [localizationNodes], rfl, rfl, _, List.mem_cons_self, _, List.mem_cons_self, rfl, rfl,
      ⟨?_, rfl, by decide, by decide⟩, rfl, rfl⟩
    cases ns <;>
      simp [Node.topic, converterNode, extractionNode, converter, extraction, remap, Name.resolve, rel,
        abs]
  · refine ⟨extractionNode, by simp [localizationNodes], localizationNode a,
      by simp [localizationNodes], rfl, rfl, _, List.mem_cons_of_mem _ List.mem_cons_self, _,
      List.mem_cons_self, rfl, rfl, ⟨?_, rfl, by decide, by decide⟩, rfl, rfl⟩
    simp [Node.topic, extractionNode, localizationNode, remap, Name.resolve, rel, abs]
  · refine ⟨ekfNode a, by simp [localizationNodes], localizationNode a,
      by simp [localizationNodes], rfl, rfl, _, List.mem_cons_self, _,
      List.mem_cons_of_mem _ (List.mem_cons_of_mem _ List.mem_cons_self), rfl, rfl, ⟨?_, rfl,
      by decide, by decide⟩, rfl, rfl⟩
    simp [Node.topic, ekfNode, localizationNode, remap, Name.resolve, rel, abs]
  · refine ⟨localizationNode a, by simp [localizationNodes], ekfNode a,
      by simp [localizationNodes], rfl, rfl, _, List.mem_cons_self, _,
      List.mem_cons_of_mem _ List.mem_cons_self, rfl, rfl, ⟨?_, rfl, by decide, by decide⟩, rfl, rfl⟩
    simp [Node.topic, ekfNode, localizationNode, remap, Name.resolve, rel, abs]
  · refine ⟨ekfNode a, by simp [localizationNodes], rfl, _, List.mem_cons_self, rfl, ?_⟩
    simp [Node.topic, ekfNode, remap, Name.resolve, rel]
  · refine ⟨ekfNode a, by simp [localizationNodes], rfl, _,
      List.mem_cons_of_mem _ (List.mem_cons_of_mem _ List.mem_cons_self), rfl, ?_⟩
    simp [Node.topic, ekfNode, remap, Name.resolve, rel]

/-- A name resolved in a namespace is not the name resolved in another one unless it is absolute. -/
theorem C105_absolute (n : Name) (h : n.absolute = true) (ns ns' : List String) :
    n.resolve ns = n.resolve ns' := by
  simp [Name.resolve, h]

theorem mappingLaunch_eq (sensorPoints pose : Name) : mappingLaunch sensorPoints pose =
    some [converterNode sensorPoints, mappingExtractionNode, mappingNode pose] := by
  unfold mappingLaunch launch
  rw [if_pos]
  simp only [List.all_cons, List.all_nil, converterNode, mappingExtractionNode, mappingNode]
  decide

/-- C105, mapping: run by itself, `mapping.launch.py` starts for all values of its arguments; the
sensor topic is read by the converter, its output by the extraction, the edge cloud by the mapping
program, and the pose topic, if the argument is an absolute name, by the mapping program. -/
theorem C105_mapping (sensorPoints pose : Name) (hpose : pose.absolute = true) :
    ∃ nodes, mappingLaunch sensorPoints pose = some nodes ∧
      Listens [] nodes converter (abs "points_raw") (sensorPoints.resolve []) ∧
      FeedsReliably [] nodes converter (abs "points_converted") extraction (rel "points_raw") ∧
      FeedsReliably [] nodes extraction (rel "scan_edge") mapping (rel "scan_edge") ∧
      Listens [] nodes mapping (rel "pose") (pose.resolve []) := by
  refine ⟨_, mappingLaunch_eq sensorPoints pose, ?_, ?_, ?_, ?_⟩
  · exact ⟨converterNode sensorPoints, by simp, rfl, _, List.mem_cons_self, rfl, rfl⟩
  · exact ⟨converterNode sensorPoints, by simp, mappingExtractionNode, by simp, rfl, rfl, _,
      List.mem_cons_self, _, List.mem_cons_self, rfl, rfl, ⟨rfl, rfl, by decide, by decide⟩, rfl, rfl⟩
  · exact ⟨mappingExtractionNode, by simp, mappingNode pose, by simp, rfl, rfl, _,
      List.mem_cons_of_mem _ List.mem_cons_self, _, List.mem_cons_self, rfl, rfl, ⟨rfl, rfl,
      by decide, by decide⟩, rfl, rfl⟩
  · refine ⟨mappingNode pose, by simp, rfl, _, List.mem_cons_of_mem _ List.mem_cons_self, rfl, ?_⟩
    rw [C105_absolute pose hpose [] ["lidar_feature_mapping"]]
    rfl

/-- The claim fails for `odometry.launch.py`, whatever its arguments: it cannot be started, because
it names an executable that is not built. -/
theorem C105_odometry_violated (sensorPoints pose path : Name) :
    odometryLaunch sensorPoints pose path = none := by
  unfold odometryLaunch launch
  rw [if_neg]
  simp only [List.all_cons, List.all_nil, odometryConverterNode, odometryExtractionNode, odometryNode,
    pathNode]
  decide

/-- Even if it were built, the poses of the odometry could not be read by the path generator: their
types differ. -/
theorem C105_odometry_path (ns : List String) (pose path : Name) :
    ∀ p ∈ odometry.publishers, ∀ s ∈ pathGenerator.subscriptions,
      ¬ Delivers ns (odometryNode pose) p (pathNode pose path) s := by
  intro p hp s hs hd
  simp only [odometry, pathGenerator, List.mem_cons, List.not_mem_nil, or_false] at hp hs
  subst hp hs
  exact absurd hd.2.1 (by decide)

/-- C105, path: the path generator listens on the topic of the poses, and a reader of paths on the
topic of its paths gets the path whatever quality of service it asks for, in particular if it starts
late. -/
theorem C105_path (ns : List String) (pose path : Name) :
    (∃ s ∈ (pathNode pose path).program.subscriptions,
      (pathNode pose path).topic ns s = pose.resolve ns) ∧
    ∃ p ∈ (pathNode pose path).program.publishers, ∀ (reader : Node) (s : Endpoint), s.type = .path →
      reader.topic ns s = path.resolve ns → Delivers ns (pathNode pose path) p reader s := by
  refine ⟨⟨_, List.mem_cons_self, ?_⟩, _, List.mem_cons_self, ?_⟩
  · simp [Node.topic, pathNode, remap, Name.resolve, rel]
  intro reader s hs ht
  refine ⟨?_, hs.symm, fun _ => rfl, fun _ => rfl⟩
  rw [ht]
  simp [Node.topic, pathNode, remap, Name.resolve, rel]

/-! ### The map frame -/

/-- C105, map frame: run by itself, `map_tf_generator.launch.xml` starts for every value of its topic
argument, and a map loader on this topic feeds it, also if the map was published before it started. -/
theorem C105_map_frame (points : Name) :
    ∃ nodes, mapTfLaunch points = some nodes ∧
      FeedsReliably [] (mapLoaderNode points :: nodes) mapLoader (rel "map_topic") mapTfGenerator
        (abs "pointcloud_map") ∧
      ∀ n ∈ nodes, ∀ s ∈ n.program.subscriptions, s.transientLocal = true := by
  have hl : mapTfLaunch points = some [mapTfNode points] := by
    unfold mapTfLaunch launch
    rw [if_pos]
    simp only [List.all_cons, List.all_nil, mapTfNode]
    decide
  refine ⟨_, hl, ?_, ?_⟩
  · exact ⟨mapLoaderNode points, by simp, mapTfNode points, by simp, rfl, rfl, _, List.mem_cons_self, _,
      List.mem_cons_self, rfl, rfl, ⟨rfl, rfl, by decide, by decide⟩, rfl, rfl⟩
  · intro n hn s hs
    simp only [List.mem_cons, List.not_mem_nil, or_false] at hn
    subst hn
    simp only [mapTfNode, mapTfGenerator, List.mem_cons, List.not_mem_nil, or_false] at hs
    rw [hs]

/-- The claim fails when this launch file is included in a namespace: the program subscribes to an
absolute name and the launch file remaps a relative one, so the argument has no effect. -/
theorem C105_map_frame_namespace_violated (n : String) (ns : List String) (points : Name) :
    ∃ nodes, mapTfLaunch points = some nodes ∧
      Listens (n :: ns) nodes mapTfGenerator (abs "pointcloud_map") ["pointcloud_map"] := by
  obtain ⟨nodes, h, -⟩ := C105_map_frame points
  refine ⟨nodes, h, ?_⟩
  have hl : mapTfLaunch points = some [mapTfNode points] := by
    unfold mapTfLaunch launch
    rw [if_pos]
    simp only [List.all_cons, List.all_nil, mapTfNode]
    decide
  rw [hl, Option.some.injEq] at h
  subst h
  refine ⟨mapTfNode points, by simp, rfl, _, List.mem_cons_self, rfl, ?_⟩
  simp [Node.topic, mapTfNode, remap, Name.resolve, rel, abs, mapTfGenerator]

/-! ### The views -/

/-- Specification: one of the nodes publishes what the subscription of the viewer asks for. -/
def Shown (nodes : List Node) (view : Program) (s : Endpoint) : Prop :=
  ∃ n ∈ nodes, ∃ p ∈ n.program.publishers, Delivers [] n p (viewer view) s

instance (nodes : List Node) (view : Program) (s : Endpoint) : Decidable (Shown nodes view s) := by
  unfold Shown; infer_instance

/-- C105, view: of the localization launched with its default topics (the other arguments as they
may be), the view `lidar_feature_localization.rviz` shows everything it has displays for, except the
reference pose, which comes from elsewhere. -/
theorem C105_view (a : LocalizationArgs) (h1 : a.ekfOdometry = abs "ekf_odom")
    (h2 : a.lidarFeaturePose = abs "lidar_feature_pose") (h3 : a.edgeMap = abs "edge_map")
    (h4 : a.surfaceMap = abs "surface_map") :
    ∃ nodes, localizationLaunch a = some nodes ∧
      ∀ s ∈ rvizLocalization.subscriptions, s.topic ≠ abs "pose" → Shown nodes rvizLocalization s := by
  refine ⟨_, localizationLaunch_eq a, ?_⟩
  have hp : ∀ n ∈ localizationNodes a, ∀ p ∈ n.program.publishers, ∀ s,
      Delivers [] n p (viewer rvizLocalization) s → Shown (localizationNodes a) rvizLocalization s :=
    fun n hn p hp s hd => ⟨n, hn, p, hp, hd⟩
  intro s hs hne
  simp only [rvizLocalization, List.mem_cons, List.not_mem_nil, or_false] at hs
  rcases hs with rfl | rfl | rfl | rfl | rfl | rfl | rfl
  · exact absurd rfl hne
  · refine hp (ekfNode a) (by simp [localizationNodes]) _ List.mem_cons_self _ ?_
    rw [ekfNode, h1, h2]
    exact ⟨rfl, rfl, by decide, by decide⟩
  · refine hp (localizationNode a) (by simp [localizationNodes]) _ List.mem_cons_self _ ?_
    rw [localizationNode, h1, h2]
    exact ⟨rfl, rfl, by decide, by decide⟩
  · exact hp extractionNode (by simp [localizationNodes]) _
      (List.mem_cons_of_mem _ List.mem_cons_self) _ ⟨rfl, rfl, by decide, by decide⟩
  · exact hp extractionNode (by simp [localizationNodes]) _
      (List.mem_cons_of_mem _ (List.mem_cons_of_mem _ List.mem_cons_self)) _
      ⟨rfl, rfl, by decide, by decide⟩
  · refine hp (mapLoaderNode a.edgeMap) (by simp [localizationNodes]) _ List.mem_cons_self _ ?_
    rw [mapLoaderNode, h3]
    exact ⟨rfl, rfl, by decide, by decide⟩
  · refine hp (mapLoaderNode a.surfaceMap) (by simp [localizationNodes]) _ List.mem_cons_self _ ?_
    rw [mapLoaderNode, h4]
    exact ⟨rfl, rfl, by decide, by decide⟩

/-- C105, view: so it is if no argument is given. -/
theorem C105_view_default : ∃ nodes, localizationLaunch .default = some nodes ∧
    ∀ s ∈ rvizLocalization.subscriptions, s.topic ≠ abs "pose" → Shown nodes rvizLocalization s :=
  C105_view .default rfl rfl rfl rfl

/-- C105, debug view: whatever the arguments, the coloured scan is shown. -/
theorem C105_debug_view (a : LocalizationArgs) :
    ∃ nodes, localizationLaunch a = some nodes ∧
      Shown nodes rvizDebug ⟨abs "colored_scan", .pointCloud2, true, false, some 5⟩ :=
  ⟨_, localizationLaunch_eq a, extractionNode, by simp [localizationNodes], _, List.mem_cons_self,
    rfl, rfl, by decide, by decide⟩

/-- C105, debug view of the mapping: the same, in whatever namespace the launch file is included. -/
theorem C105_mapping_view (ns : List String) (sensorPoints pose : Name) :
    ∃ nodes, mappingLaunch sensorPoints pose = some nodes ∧ ∃ n ∈ nodes, n.program = extraction ∧
      ∃ p ∈ n.program.publishers,
        ∀ (reader : Node) (s : Endpoint), s.type = .pointCloud2 → s.transientLocal = false →
          reader.topic ns s = ["colored_scan"] → Delivers ns n p reader s := by
  refine ⟨_, mappingLaunch_eq sensorPoints pose, mappingExtractionNode, by simp, rfl, _,
    List.mem_cons_self, ?_⟩
  intro reader s hs hv ht
  refine ⟨?_, hs.symm, fun _ => rfl, fun h => absurd h (by simp [hv])⟩
  rw [ht]
  simp [Node.topic, mappingExtractionNode, extraction, remap, Name.resolve, rel, abs]

/-- The claim fails for the initial pose: set with the view, it reaches no subscription of the nodes
launched with the default arguments, for the view publishes it on `/initialpose` and the launch file
has the filter node listen to `/initialpose3d`. -/
theorem C105_view_initial_violated :
    ∃ nodes, localizationLaunch .default = some nodes ∧
      Listens [] nodes ekfLocalizer (rel "initialpose") ["initialpose3d"] ∧
      ∀ p ∈ rvizLocalization.publishers, (viewer rvizLocalization).topic [] p = ["initialpose"] ∧
        ∀ n ∈ nodes, ∀ s ∈ n.program.subscriptions,
          ¬ Delivers [] (viewer rvizLocalization) p n s := by
  refine ⟨_, localizationLaunch_eq _, ?_, ?_⟩
  · exact ⟨ekfNode .default, by simp [localizationNodes], rfl, _, List.mem_cons_self, rfl, rfl⟩
  · decide

/-- With the argument set accordingly it does. -/
theorem C105_view_initial (a : LocalizationArgs) (h : a.initialPose = abs "initialpose") :
    ∃ nodes, localizationLaunch a = some nodes ∧
      ∃ p ∈ rvizLocalization.publishers, ∃ n ∈ nodes, n.program = ekfLocalizer ∧
        ∃ s ∈ n.program.subscriptions, s.topic = rel "initialpose" ∧
          Delivers [] (viewer rvizLocalization) p n s := by
  refine ⟨_, localizationLaunch_eq a, _, List.mem_cons_self, ekfNode a, by simp [localizationNodes], rfl, _,
    List.mem_cons_self, rfl, ?_⟩
  rw [ekfNode, h]
  exact ⟨rfl, rfl, by decide, by decide⟩

/-- Nor is there a path to be shown in the debug view: no node launched publishes one. -/
theorem C105_debug_path_violated (a : LocalizationArgs) :
    ∃ nodes, localizationLaunch a = some nodes ∧
      ¬ Shown nodes rvizDebug ⟨abs "estimated_path", .path, true, false, some 5⟩ := by
  refine ⟨_, localizationLaunch_eq a, ?_⟩
  rintro ⟨n, hn, p, hp, -, ht, -⟩
  have key : ∀ q ∈ [converter, extraction, localization, mapLoader, ekfLocalizer], ∀ p ∈ q.publishers,
      p.type ≠ .path := by decide
  refine key n.program ?_ p hp ht
  simp only [localizationNodes, List.mem_cons, List.not_mem_nil, or_false] at hn
  rcases hn with rfl | rfl | rfl | rfl | rfl | rfl <;>
    simp [converterNode, extractionNode, localizationNode, mapLoaderNode, ekfNode]

/-! Non-vacuity: the default arguments, and the topics they give. -/

example : (localizationNode .default).topic [] ⟨rel "scan_surface", .pointCloud2, true, false, some 5⟩ =
    ["scan_surface"] ∧
    (localizationNode .default).topic ["robot"] ⟨rel "scan_surface", .pointCloud2, true, false, some 5⟩ =
    ["robot", "scan_surface"] ∧
    extractionNode.topic ["robot"] ⟨rel "scan_surface", .pointCloud2, true, false, some 5⟩ =
    ["scan_surface"] ∧
    (ekfNode .default).topic [] ⟨rel "ekf_odom", .odometry, true, false, some 1⟩ = ["ekf_odom"] := by
  decide

end Verif.Launch
