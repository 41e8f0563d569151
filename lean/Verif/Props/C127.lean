/-
C127: the coordinate frames of all programs fit together.
-/
import Verif.Model.Frames
import Verif.Model.Apps
import Verif.Model.Callback
import Verif.Model.Store
import Verif.Props.C119

set_option autoImplicit false

namespace Verif.Frames

open Verif.Store (Act ScanMsg)
open Verif.Rot (Pose)
open Verif.Opt (Result)

/-- The programs that broadcast transforms. -/
inductive Broadcaster where
  | localizer | ekf | mapTfGenerator
deriving DecidableEq

/-- Whatever the localizer, the filter node and the map frame generator have seen: a transform from
`parent` to `child` was broadcast. The pose frame of the filter node and the map frame are the
default `map`, the viewer frame is `v`. -/
inductive Sent (v : String) : Broadcaster → String → String → Prop
  | localizer {K Scan : Type} [LinearOrder K] [Add K] [Sub K] (run : Scan → Pose → Res Result) (second : K)
      (sched : List (Act K Scan)) (n : Store.Node K Scan) (t : K) (parent child : String) (pose : Pose)
      (h : Store.exec run second (Store.Node.new K Scan) sched = .ok n)
      (ho : Store.Output.transform t parent child pose ∈ n.outputs) : Sent v .localizer parent child
  | ekf {N : ℕ} (hN : 0 < N) (tf : Ekf.Tf2) (p : Ekf.EkfParams) (hp : p.poseFrame = "map".toList)
      (es : List Ekf.Event) (s : Ekf.NodeState N) (out : List Ekf.Output) (t : ℤ) (parent child : String)
      (e : Ekf.Estimate) (h : Ekf.run hN tf p (Ekf.NodeState.make N p) es = .ok (s, out))
      (ho : Ekf.Output.transform t parent.toList child.toList e ∈ out) : Sent v .ekf parent child
  | mapTfGenerator (points : List (Fin 3 → ℝ)) :
      Sent v .mapTfGenerator (broadcastViewer "map" v points).frame (broadcastViewer "map" v points).child

/-! ### What the nodes publish -/

/-- The localizer publishes nothing but the two messages of a scan. -/
theorem exec_outputs {K Scan : Type} [LinearOrder K] [Add K] [Sub K] {run : Scan → Pose → Res Result}
    {second : K} : ∀ (sched : List (Act K Scan)) (n n' : Store.Node K Scan),
    Store.exec run second n sched = .ok n' →
    ∃ l : List (K × Pose), n'.outputs = n.outputs ++ l.flatMap fun tp =>
      [.pose tp.1 "map" tp.2 [1, 1, 1, 1 / 10, 1 / 10, 1 / 10],
        .transform tp.1 "map" "lidar_feature_base_link" tp.2]
  | [], n, n', h => by
    simp only [Store.exec, Except.ok.injEq] at h
    exact ⟨[], by simp [h]⟩
  | a :: sched, n, n', h => by
    simp only [Store.exec, bind, Except.bind] at h
    cases h1 : Store.step run second n a with
    | error e => rw [h1] at h; cases h
    | ok m =>
      rw [h1] at h
      obtain ⟨l, hl⟩ := exec_outputs sched m n' h
      have key : ∃ l : List (K × Pose), m.outputs = n.outputs ++ l.flatMap fun tp =>
          [.pose tp.1 "map" tp.2 [1, 1, 1, 1 / 10, 1 / 10, 1 / 10],
            .transform tp.1 "map" "lidar_feature_base_link" tp.2] := by
        have same : m.outputs = n.outputs → ∃ l : List (K × Pose), m.outputs = n.outputs ++
            l.flatMap fun tp => [.pose tp.1 "map" tp.2 [1, 1, 1, 1 / 10, 1 / 10, 1 / 10],
              .transform tp.1 "map" "lidar_feature_base_link" tp.2] := fun h => ⟨[], by simp [h]⟩
        cases a with
        | insert t p => simp only [Store.step, Except.ok.injEq] at h1; exact same (by rw [← h1])
        | size s =>
          simp only [Store.step] at h1
          split at h1
          · split_ifs at h1 <;> (simp only [Except.ok.injEq] at h1; exact same (by rw [← h1]))
          · simp only [Except.ok.injEq] at h1; exact same (by rw [← h1])
        | closest =>
          simp only [Store.step, bind, Except.bind] at h1
          split at h1
          · split at h1
            · cases h1
            · simp only [Except.ok.injEq] at h1; exact same (by rw [← h1])
          · simp only [Except.ok.injEq] at h1; exact same (by rw [← h1])
        | remove =>
          simp only [Store.step, bind, Except.bind] at h1
          split at h1
          · split at h1
            · cases h1
            · simp only [Except.ok.injEq] at h1; exact same (by rw [← h1])
          · simp only [Except.ok.injEq] at h1; exact same (by rw [← h1])
        | publish =>
          simp only [Store.step, bind, Except.bind] at h1
          split at h1
          · rename_i m prior hpc
            split at h1
            · cases h1
            · rename_i r hr
              simp only [Except.ok.injEq] at h1
              exact ⟨[(m.stamp, r.1.get)], by rw [← h1]; simp⟩
          · simp only [Except.ok.injEq] at h1; exact same (by rw [← h1])
      obtain ⟨l', hl'⟩ := key
      exact ⟨l' ++ l, by rw [hl, hl', List.flatMap_append, List.append_assoc]⟩

/-- All messages of the filter node carry the pose frame and `base_link`. -/
theorem run_frames {N : ℕ} {hN : 0 < N} {tf : Ekf.Tf2} {p : Ekf.EkfParams} :
    ∀ (es : List Ekf.Event) (s s' : Ekf.NodeState N) (out : List Ekf.Output),
    Ekf.run hN tf p s es = .ok (s', out) →
    ∀ o ∈ out, o.header.2.2 = (p.poseFrame, "base_link".toList)
  | [], s, s', out, h => by
    simp only [Ekf.run, Except.ok.injEq, Prod.mk.injEq] at h
    rw [← h.2]
    simp
  | e :: es, s, s', out, h => by
    simp only [Ekf.run, bind, Except.bind] at h
    cases h1 : Ekf.step hN tf p s e with
    | error x => rw [h1] at h; cases h
    | ok r =>
      rw [h1] at h
      simp only at h
      cases h2 : Ekf.run hN tf p r.1 es with
      | error x => rw [h2] at h; cases h
      | ok r2 =>
        rw [h2] at h
        simp only [pure, Except.pure, Except.ok.injEq, Prod.mk.injEq] at h
        rw [← h.2]
        intro o ho
        rcases List.mem_append.1 ho with ho | ho
        · cases e with
          | pose m =>
            simp only [Ekf.step, Except.ok.injEq] at h1
            rw [← h1] at ho
            cases ho
          | twist m =>
            simp only [Ekf.step, Except.ok.injEq] at h1
            rw [← h1] at ho
            cases ho
          | initialPose m tries =>
            simp only [Ekf.step, bind, Except.bind] at h1
            split at h1
            · cases h1
            · simp only [pure, Except.pure, Except.ok.injEq] at h1
              rw [← h1] at ho
              cases ho
          | timer t1 t2 t3 t4 t5 sp st =>
            simp only [Ekf.step, Ekf.timerCallback, bind, Except.bind] at h1
            split at h1
            · simp only [Except.ok.injEq] at h1
              rw [← h1] at ho
              cases ho
            · split at h1
              · simp only [Except.ok.injEq] at h1
                rw [← h1] at ho
                cases ho
              · cases h1
              · split at h1
                · cases h1
                · split at h1
                  · cases h1
                  · simp only [pure, Except.pure, Except.ok.injEq] at h1
                    rw [← h1] at ho
                    simp only [Ekf.publish, List.mem_cons, List.not_mem_nil, or_false] at ho
                    rcases ho with rfl | rfl <;> rfl
        · exact run_frames es r.1 r2.1 r2.2 h2 o ho

/-! ### C127 -/

/-- The frame each program broadcasts. -/
def Broadcaster.child (v : String) : Broadcaster → String
  | .localizer => "lidar_feature_base_link"
  | .ekf => "base_link"
  | .mapTfGenerator => v

theorem sent_cases {v : String} {a : Broadcaster} {parent child : String} (h : Sent v a parent child) :
    parent = "map" ∧ child = a.child v := by
  cases h with
  | localizer run second sched n t _ _ pose h ho =>
    obtain ⟨l, hl⟩ := exec_outputs sched _ n h
    rw [hl] at ho
    simp only [Store.Node.new, List.nil_append, List.mem_flatMap, List.mem_cons, List.not_mem_nil, or_false,
      reduceCtorEq, false_or, Store.Output.transform.injEq] at ho
    obtain ⟨tp, -, -, h1, h2, -⟩ := ho
    exact ⟨h1, h2⟩
  | ekf hN tf p hp es s out t _ _ e h ho =>
    have := run_frames es _ s out h _ ho
    simp only [Ekf.Output.header, Prod.mk.injEq, hp] at this
    exact ⟨String.toList_inj.1 this.1, String.toList_inj.1 this.2⟩
  | mapTfGenerator points => exact ⟨rfl, rfl⟩

/-- C127: the transforms of all programs make one tree with the root `map`: each goes from `map` to
another frame, and no two programs broadcast the same frame, if the viewer frame is named unlike the
others (as by default). -/
theorem C127_tree {v : String} (hv : v ∉ ["map", "base_link", "lidar_feature_base_link"])
    {a : Broadcaster} {parent child : String} (h : Sent v a parent child) :
    parent = "map" ∧ child ≠ "map" ∧
      ∀ a' parent', Sent v a' parent' child → a' = a ∧ parent' = parent := by
  simp only [List.mem_cons, List.not_mem_nil, or_false, not_or] at hv
  obtain ⟨hv1, hv2, hv3⟩ := hv
  obtain ⟨h1, h2⟩ := sent_cases h
  refine ⟨h1, ?_, ?_⟩
  · rw [h2]
    cases a
    · change "lidar_feature_base_link" ≠ "map"; decide
    · change "base_link" ≠ "map"; decide
    · exact hv1
  · intro a' parent' h'
    obtain ⟨h3, h4⟩ := sent_cases h'
    refine ⟨?_, h3.trans h1.symm⟩
    rw [h2] at h4
    have hne : "lidar_feature_base_link" ≠ "base_link" := by decide
    cases a <;> cases a' <;> first | rfl | skip
    · exact absurd h4 hne
    · exact absurd h4.symm hv3
    · exact absurd h4.symm hne
    · exact absurd h4.symm hv2
    · exact absurd h4 hv3
    · exact absurd h4 hv2

/-- C127: what the programs publish is given in a frame of the tree. The clouds of the extraction are
in the frame the localizer broadcasts, whatever the frame of the sensor's cloud; the maps and the poses
of the localizer are in the root. -/
theorem C127_clouds {P L : Type} [Field L] [LinearOrder L] {plat : Extraction.Platform L}
    {hp : Extraction.HyperParameters L} {geo : Extraction.Geometry P L} {stamp : ℤ}
    {isDense ringAvailable : Bool} {cloud : List P} {eff : Extraction.CallbackEffect P}
    (h : Extraction.callback plat hp geo stamp isDense ringAvailable cloud = .ok eff) {v : String}
    {parent child : String} (hs : Sent v .localizer parent child) :
    eff.colored.frame = child ∧ eff.edge.frame = child ∧ eff.surface.frame = child ∧
      eff.colored.stamp = stamp ∧ eff.edge.stamp = stamp ∧ eff.surface.stamp = stamp := by
  simp only [Extraction.callback, bind, Except.bind] at h
  split at h
  · cases h
  · simp only [pure, Except.pure, Except.ok.injEq] at h
    rw [← h, (sent_cases hs).2]
    exact ⟨rfl, rfl, rfl, rfl, rfl, rfl⟩

/-- C127: every map is published in the root. -/
theorem C127_maps {P : Type} {fs : Apps.Fs P} {name : String} {msgs : List (Apps.MapMsg P)}
    (h : Apps.mapLoader fs name = .ok msgs) {v : String} {a : Broadcaster} {parent child : String}
    (hs : Sent v a parent child) : ∀ m ∈ msgs, m.frame = parent := by
  rw [(sent_cases hs).1]
  simp only [Apps.mapLoader] at h
  split_ifs at h
  simp only [Except.ok.injEq] at h
  rw [← h]
  intro m hm
  simp only [List.mem_cons, List.not_mem_nil, or_false] at hm
  rw [hm]
  rfl

/-- C127: for every scan whose pose is published, the transform that places the clouds of this scan is
broadcast too, with the same stamp and the same pose, and no other transform. -/
theorem C127_scans {K Scan : Type} [LinearOrder K] [Add K] [Sub K] (run : Scan → Pose → Res Result)
    (second : K) (sched : List (Act K Scan)) (n : Store.Node K Scan)
    (h : Store.exec run second (Store.Node.new K Scan) sched = .ok n) (t : K) (pose : Pose) :
    (∃ frame cov, Store.Output.pose t frame pose cov ∈ n.outputs) ↔
      Store.Output.transform t "map" "lidar_feature_base_link" pose ∈ n.outputs := by
  obtain ⟨l, hl⟩ := exec_outputs sched _ n h
  rw [hl]
  simp only [Store.Node.new, List.nil_append, List.mem_flatMap, List.mem_cons, List.not_mem_nil, or_false,
    reduceCtorEq, false_or, Store.Output.transform.injEq, Store.Output.pose.injEq]
  constructor
  · rintro ⟨f, c, tp, htp, h1, -, h2, -⟩
    exact ⟨tp, htp, h1, trivial, trivial, h2⟩
  · rintro ⟨tp, htp, h1, -, -, h2⟩
    exact ⟨"map", _, tp, htp, h1, rfl, h2, rfl⟩

/-- C127: the poses of the localizer are in the frame the filter node works in (and compares their
frame with). -/
theorem C127_poses {K Scan : Type} [LinearOrder K] [Add K] [Sub K] (run : Scan → Pose → Res Result)
    (second : K) (sched : List (Act K Scan)) (n : Store.Node K Scan)
    (h : Store.exec run second (Store.Node.new K Scan) sched = .ok n) (t : K) (frame : String) (pose : Pose)
    (cov : List ℝ) (ho : Store.Output.pose t frame pose cov ∈ n.outputs) {v : String} {child : String}
    {parent : String} (hs : Sent v .ekf parent child) : frame = parent := by
  rw [(sent_cases hs).1]
  obtain ⟨l, hl⟩ := exec_outputs sched _ n h
  rw [hl] at ho
  simp only [Store.Node.new, List.nil_append, List.mem_flatMap, List.mem_cons, List.not_mem_nil, or_false,
    reduceCtorEq, Store.Output.pose.injEq] at ho
  obtain ⟨tp, -, -, h1, -⟩ := ho
  exact h1

/-! Non-vacuity: the default viewer frame, and a transform of each program. -/

example : "viewer" ∉ ["map", "base_link", "lidar_feature_base_link"] := by decide

example : Sent "viewer" .mapTfGenerator "map" "viewer" := .mapTfGenerator []

example (pose : Pose) (r : Result) : Sent "viewer" .localizer "map" "lidar_feature_base_link" := by
  have h : ∃ n, Store.exec (fun (_ : Unit) _ => .ok r) (1000000000 : ℤ) (Store.Node.new ℤ Unit)
      [.insert 1 pose, .size ⟨1, ()⟩, .closest, .remove, .publish] = .ok n ∧
      Store.Output.transform 1 "map" "lidar_feature_base_link" r.pose ∈ n.outputs := by
    refine ⟨_, rfl, ?_⟩
    simp [Store.Localizer.get]
  obtain ⟨n, h1, h2⟩ := h
  exact .localizer _ _ _ n 1 _ _ _ h1 h2

example : Sent "viewer" .ekf "map" "base_link" := by
  have h : ∃ s out e, Ekf.run Nat.one_pos Ekf.flatTf Ekf.defaultParams
      (Ekf.NodeState.make 1 Ekf.defaultParams) [.initialPose (Ekf.poseAt 10 0) Ekf.identityTries,
        .timer 0 0 0 0 0 (fun _ => true) fun _ => true] = .ok (s, out) ∧
      Ekf.Output.transform 0 "map".toList "base_link".toList e ∈ out :=
    ⟨_, _, _, rfl, List.mem_cons_self⟩
  obtain ⟨s, out, e, h1, h2⟩ := h
  exact .ekf _ _ _ rfl _ s out 0 _ _ e h1 h2

end Verif.Frames
