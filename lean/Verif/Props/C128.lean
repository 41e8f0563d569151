/-
C128: the parameters a node is started with are the ones it was given.
-/
import Verif.Model.Param
import Verif.Props.C19
import Verif.Props.C69

set_option autoImplicit false

namespace Verif.Param

open Verif.Extraction

/-- Specification: the user gave this value under this name, or gave none and this is the documented
default. -/
inductive Chosen (o : Overrides) (name : String) (default : Value) : Value → Prop
  | given (v : Value) : o name = some v → Chosen o name default v
  | default : o name = none → Chosen o name default default

/-- Specification: all values that the user gave as integers fit into an `int`. -/
def FitInt (o : Overrides) : Prop :=
  ∀ name i, o name = some (.int i) → -2147483648 ≤ i ∧ i < 2147483648

/-- Specification: the nine parameters of the extraction are those of the user. -/
structure HyperChosen (o : Overrides) (h : Hyper) : Prop where
  padding : Chosen o "convolution_padding" (.int 5) (.int h.padding)
  degree : Chosen o "neighbor_degree_threshold" (.double (.finite 2)) (.double h.neighborDegreeThreshold)
  diff : Chosen o "distance_diff_threshold" (.double (.finite 0.3)) (.double h.distanceDiffThreshold)
  ratio : Chosen o "parallel_beam_min_range_ratio" (.double (.finite 0.02))
    (.double h.parallelBeamMinRangeRatio)
  edge : Chosen o "edge_threshold" (.double (.finite 0.05)) (.double h.edgeThreshold)
  surface : Chosen o "surface_threshold" (.double (.finite 0.05)) (.double h.surfaceThreshold)
  minRange : Chosen o "min_range" (.double (.finite 0.1)) (.double h.minRange)
  maxRange : Chosen o "max_range" (.double (.finite 100)) (.double h.maxRange)
  nBlocks : Chosen o "n_blocks" (.int 6) (.int h.nBlocks)

/-- Specification: a `double` that compares greater than zero. -/
inductive Dbl.Pos : Dbl → Prop
  | finite (r : ℝ) : 0 < r → Pos (.finite r)
  | inf : Pos .inf

/-- Specification: the parameters the extraction works with. -/
structure Hyper.Positive (h : Hyper) : Prop where
  padding : 0 < h.padding
  degree : h.neighborDegreeThreshold.Pos
  diff : h.distanceDiffThreshold.Pos
  ratio : h.parallelBeamMinRangeRatio.Pos
  edge : h.edgeThreshold.Pos
  surface : h.surfaceThreshold.Pos
  minRange : h.minRange.Pos
  maxRange : h.maxRange.Pos
  nBlocks : 0 < h.nBlocks

/-- Specification: the twelve parameters of the Kalman filter node are those of the user. -/
structure EkfChosen (o : Overrides) (h : EkfHyper) : Prop where
  frequency : Chosen o "predict_frequency" (.double (.finite 50)) (.double h.defaultFrequency)
  steps : Chosen o "extend_state_step" (.int 50) (.int h.extendStateStep)
  frame : Chosen o "pose_frame_id" (.string "map") (.string h.poseFrame)
  poseSmoothing : Chosen o "pose_smoothing_steps" (.int 5) (.int h.poseSmoothing)
  poseGate : Chosen o "pose_gate_dist" (.double (.finite 10000)) (.double h.poseGate)
  twistGate : Chosen o "twist_gate_dist" (.double (.finite 10000)) (.double h.twistGate)
  twistSmoothing : Chosen o "twist_smoothing_steps" (.int 2) (.int h.twistSmoothing)
  yaw : Chosen o "proc_stddev_yaw_c" (.double (.finite 0.005)) (.double h.yawCov)
  enable : Chosen o "enable_yaw_bias_estimation" (.bool true) (.bool h.enableYawBias)
  bias : Chosen o "proc_stddev_yaw_bias_c" (.double (.finite 0.001)) (.double h.yawBiasCov)
  vx : Chosen o "proc_stddev_vx_c" (.double (.finite 5)) (.double h.vxCov)
  wz : Chosen o "proc_stddev_wz_c" (.double (.finite 1)) (.double h.wzCov)

theorem toInt_eq {i : ℤ} (h : -2147483648 ≤ i ∧ i < 2147483648) : toInt i = i := by
  unfold toInt
  omega

theorem declareInt_iff {o : Overrides} (ho : FitInt o) (name : String) (d v : ℤ) :
    declareInt o name d = .ok v ↔ Chosen o name (.int d) (.int v) := by
  unfold declareInt
  constructor
  · intro h
    split at h
    · next hn =>
      simp only [Except.ok.injEq] at h
      subst h
      exact .default hn
    · next i hi =>
      simp only [Except.ok.injEq] at h
      rw [toInt_eq (ho name i hi)] at h
      subst h
      exact .given _ hi
    · simp only [reduceCtorEq] at h
  · intro h
    generalize hw : Value.int v = w at h
    cases h with
    | given w h =>
      subst hw
      rw [h]
      simp only [toInt_eq (ho name v h)]
    | default h =>
      rw [h]
      simp only [Value.int.injEq] at hw
      rw [hw]

theorem declareDouble_iff {o : Overrides} (name : String) (d : ℝ) (v : Dbl) :
    declareDouble o name d = .ok v ↔ Chosen o name (.double (.finite d)) (.double v) := by
  unfold declareDouble
  constructor
  · intro h
    split at h
    · next hn =>
      simp only [Except.ok.injEq] at h
      subst h
      exact .default hn
    · next i hi =>
      simp only [Except.ok.injEq] at h
      subst h
      exact .given _ hi
    · simp only [reduceCtorEq] at h
  · intro h
    generalize hw : Value.double v = w at h
    cases h with
    | given w h =>
      subst hw
      rw [h]
    | default h =>
      rw [h]
      simp only [Value.double.injEq] at hw
      rw [hw]

theorem declareBool_iff {o : Overrides} (name : String) (d v : Bool) :
    declareBool o name d = .ok v ↔ Chosen o name (.bool d) (.bool v) := by
  unfold declareBool
  constructor
  · intro h
    split at h
    · next hn =>
      simp only [Except.ok.injEq] at h
      subst h
      exact .default hn
    · next i hi =>
      simp only [Except.ok.injEq] at h
      subst h
      exact .given _ hi
    · simp only [reduceCtorEq] at h
  · intro h
    generalize hw : Value.bool v = w at h
    cases h with
    | given w h =>
      subst hw
      rw [h]
    | default h =>
      rw [h]
      simp only [Value.bool.injEq] at hw
      rw [hw]

theorem declareString_iff {o : Overrides} (name : String) (d v : String) :
    declareString o name d = .ok v ↔ Chosen o name (.string d) (.string v) := by
  unfold declareString
  constructor
  · intro h
    split at h
    · next hn =>
      simp only [Except.ok.injEq] at h
      subst h
      exact .default hn
    · next i hi =>
      simp only [Except.ok.injEq] at h
      subst h
      exact .given _ hi
    · simp only [reduceCtorEq] at h
  · intro h
    generalize hw : Value.string v = w at h
    cases h with
    | given w h =>
      subst hw
      rw [h]
    | default h =>
      rw [h]
      simp only [Value.string.injEq] at hw
      rw [hw]

theorem positive_iff (d : Dbl) : d.positive ↔ d.Pos := by
  constructor
  · intro h
    cases d with
    | finite r => exact .finite r h
    | inf => exact .inf
    | negInf => exact h.elim
    | nan => exact h.elim
  · intro h
    cases h with
    | finite r h => exact h
    | inf => trivial

theorem check_iff (c : Prop) (u : Unit) : check c = .ok u ↔ c := by
  unfold check
  by_cases h : c
  · rw [if_pos h]
    exact ⟨fun _ => h, fun _ => rfl⟩
  · rw [if_neg h]
    exact ⟨fun h' => by simp only [reduceCtorEq] at h', fun h' => absurd h' h⟩

theorem bind_ok {α β : Type} (x : Start α) (f : α → Start β) (b : β) :
    (x >>= f) = .ok b ↔ ∃ a, x = .ok a ∧ f a = .ok b := by
  cases x with
  | error e =>
    simp only [bind, Except.bind, reduceCtorEq, false_and, exists_false]
  | ok a =>
    simp only [bind, Except.bind, Except.ok.injEq, exists_eq_left']

/-- C128, extraction: the node starts exactly if every parameter is of the declared type and positive,
and then it works with the given values, with the documented default for each one not given. Missing:
integers that do not fit into an `int`, see `C128_padding_violated`. -/
theorem C128_extraction_partial (o : Overrides) (ho : FitInt o) (h : Hyper) :
    hyperParameters o = .ok h ↔ HyperChosen o h ∧ h.Positive := by
  have e3 : (0.3 : ℝ) = 3 / 10 := by norm_num
  have e2 : (0.02 : ℝ) = 2 / 100 := by norm_num
  have e5 : (0.05 : ℝ) = 5 / 100 := by norm_num
  have e1 : (0.1 : ℝ) = 1 / 10 := by norm_num
  simp only [hyperParameters, bind_ok, declareInt_iff ho, declareDouble_iff, check_iff, positive_iff,
    Except.ok.injEq]
  constructor
  · rintro ⟨a, ha, b, hb, c, hc, d, hd, e, he, f, hf, g, hg, i, hi, j, hj, -, pa, -, pb, -, pc, -, pd, -,
      pe, -, pf, -, pg, -, pi, -, pj, rfl⟩
    exact ⟨⟨ha, hb, e3 ▸ hc, e2 ▸ hd, e5 ▸ he, e5 ▸ hf, e1 ▸ hg, hi, hj⟩,
      ⟨pa, pb, pc, pd, pe, pf, pg, pi, pj⟩⟩
  · rintro ⟨⟨ha, hb, hc, hd, he, hf, hg, hi, hj⟩, ⟨pa, pb, pc, pd, pe, pf, pg, pi, pj⟩⟩
    exact ⟨_, ha, _, hb, _, e3 ▸ hc, _, e2 ▸ hd, _, e5 ▸ he, _, e5 ▸ hf, _, e1 ▸ hg, _, hi, _, hj, (), pa,
      (), pb, (), pc, (), pd, (), pe, (), pf, (), pg, (), pi, (), pj, rfl⟩

/-- C128, Kalman filter node: it starts exactly if every parameter is of the declared type, and works
with the given values, with the documented default for each one not given. Missing: integers that do
not fit into an `int`, and that unusable values are refused, see `C128_ekf_steps_violated`. -/
theorem C128_ekf_partial (o : Overrides) (ho : FitInt o) (h : EkfHyper) :
    ekfParameters o = .ok h ↔ EkfChosen o h := by
  have e5 : (0.005 : ℝ) = 5 / 1000 := by norm_num
  have e1 : (0.001 : ℝ) = 1 / 1000 := by norm_num
  simp only [ekfParameters, bind_ok, declareInt_iff ho, declareDouble_iff, declareBool_iff,
    declareString_iff, Except.ok.injEq]
  constructor
  · rintro ⟨a, ha, b, hb, c, hc, d, hd, e, he, f, hf, g, hg, i, hi, j, hj, k, hk, l, hl, m, hm, rfl⟩
    exact ⟨ha, hb, hc, hd, he, hf, hg, e5 ▸ hi, hj, e1 ▸ hk, hl, hm⟩
  · rintro ⟨ha, hb, hc, hd, he, hf, hg, hi, hj, hk, hl, hm⟩
    exact ⟨_, ha, _, hb, _, hc, _, hd, _, he, _, hf, _, hg, _, e5 ▸ hi, _, hj, _, e1 ▸ hk, _, hl, _, hm,
      rfl⟩

/-- The names of the parameters of the extraction and of the Kalman filter node. -/
def extractionNames : List String :=
  ["convolution_padding", "neighbor_degree_threshold", "distance_diff_threshold",
    "parallel_beam_min_range_ratio", "edge_threshold", "surface_threshold", "min_range", "max_range",
    "n_blocks"]

@[inherit_doc extractionNames]
def ekfNames : List String :=
  ["predict_frequency", "extend_state_step", "pose_frame_id", "pose_smoothing_steps", "pose_gate_dist",
    "twist_gate_dist", "twist_smoothing_steps", "proc_stddev_yaw_c", "enable_yaw_bias_estimation",
    "proc_stddev_yaw_bias_c", "proc_stddev_vx_c", "proc_stddev_wz_c"]

/-- C128: no other names matter; a misspelt name goes unnoticed and leaves the default in force. -/
theorem C128_other_names (o o' : Overrides) :
    ((∀ name ∈ extractionNames, o name = o' name) → hyperParameters o = hyperParameters o') ∧
    ((∀ name ∈ ekfNames, o name = o' name) → ekfParameters o = ekfParameters o') := by
  constructor
  · intro h
    simp only [extractionNames, List.forall_mem_cons] at h
    obtain ⟨h1, h2, h3, h4, h5, h6, h7, h8, h9, -⟩ := h
    simp only [hyperParameters, declareInt, declareDouble, h1, h2, h3, h4, h5, h6, h7, h8, h9]
  · intro h
    simp only [ekfNames, List.forall_mem_cons] at h
    obtain ⟨h1, h2, h3, h4, h5, h6, h7, h8, h9, h10, h11, h12, -⟩ := h
    simp only [ekfParameters, declareInt, declareDouble, declareBool, declareString, h1, h2, h3, h4, h5,
      h6, h7, h8, h9, h10, h11, h12]

theorem positive_valid {h : Hyper} (hp : h.Positive) {degree : ℝ} {p : HyperParameters ℝ}
    (hf : h.finite? = some (degree, p)) : 0 < degree ∧ p.Valid := by
  obtain ⟨pa, pb, pc, pd, pe, pf, pg, pi, pj⟩ := hp
  obtain ⟨a, b, c, d, e, f, g, i, j⟩ := h
  cases pb with
  | inf => simp only [Hyper.finite?, reduceCtorEq] at hf
  | finite b pb => cases pc with
    | inf => simp only [Hyper.finite?, reduceCtorEq] at hf
    | finite c pc => cases pd with
      | inf => simp only [Hyper.finite?, reduceCtorEq] at hf
      | finite d pd => cases pe with
        | inf => simp only [Hyper.finite?, reduceCtorEq] at hf
        | finite e pe => cases pf with
          | inf => simp only [Hyper.finite?, reduceCtorEq] at hf
          | finite f pf => cases pg with
            | inf => simp only [Hyper.finite?, reduceCtorEq] at hf
            | finite g pg => cases pi with
              | inf => simp only [Hyper.finite?, reduceCtorEq] at hf
              | finite i pi =>
                simp only [Hyper.finite?, Option.some.injEq, Prod.mk.injEq] at hf
                obtain ⟨rfl, rfl⟩ := hf
                exact ⟨pb, pa, pc, pd, pe, pf, pg, pi, pj⟩

/-- What the node checks when it starts holds of every started node, whatever it was given. -/
theorem started_positive {o : Overrides} {h : Hyper} (hs : hyperParameters o = .ok h) : h.Positive := by
  simp only [hyperParameters, bind_ok, check_iff, positive_iff, Except.ok.injEq] at hs
  obtain ⟨a, -, b, -, c, -, d, -, e, -, f, -, g, -, i, -, j, -, -, pa, -, pb, -, pc, -, pd, -, pe, -, pf, -,
    pg, -, pi, -, pj, rfl⟩ := hs
  exact ⟨pa, pb, pc, pd, pe, pf, pg, pi, pj⟩

/-- C128: once it has started, the extraction never fails because of its parameters: with every
parameter file whose numbers are finite and which it starts with, the callback returns for every cloud
without two different points of one ring on the positive x half-axis. -/
theorem C128_started_extraction_works {o : Overrides} {h : Hyper} (hs : hyperParameters o = .ok h)
    {degree : ℝ} {p : HyperParameters ℝ} (hf : h.finite? = some (degree, p)) {plat : Platform ℝ}
    {cloud : List (PointXYZIR ℝ)} (hplat : PlatformOK plat p.nBlocks cloud.length)
    (haxis : ∀ a ∈ cloud, ∀ b ∈ cloud, a.ring = b.ring → ¬ SamePositiveAxis a b)
    (stamp : ℤ) (isDense ringAvailable : Bool) :
    ∃ eff, callback plat p (nodeGeometry degree) stamp isDense ringAvailable cloud = .ok eff := by
  obtain ⟨eff, he, -⟩ := C19_callback_returns_partial degree
    (positive_valid (started_positive hs) hf).2 hplat haxis stamp isDense ringAvailable
  exact ⟨eff, he⟩

/-- Specification: the parameters in which every integer is replaced by the one that fits into an `int`
and differs from it by a multiple of 2³². -/
def Reduced (o o' : Overrides) : Prop :=
  FitInt o' ∧ ∀ name, match o name with
    | some (.int i) => ∃ j k : ℤ, o' name = some (.int j) ∧ i = j + k * 2 ^ 32
    | v => o' name = v

/-- The value with an integer reduced to an `int`. -/
def reduce : Option Value → Option Value
  | some (.int i) => some (.int (toInt i))
  | v => v

theorem declareInt_reduce (o : Overrides) (name : String) (d : ℤ) :
    declareInt (fun n => reduce (o n)) name d = declareInt o name d := by
  have idem : ∀ i, toInt (toInt i) = toInt i := by
    intro i
    unfold toInt
    omega
  unfold declareInt
  simp only
  generalize o name = w
  rcases w with _ | v
  · rfl
  · cases v <;> simp only [reduce, idem]

theorem declareDouble_reduce (o : Overrides) (name : String) (d : ℝ) :
    declareDouble (fun n => reduce (o n)) name d = declareDouble o name d := by
  unfold declareDouble
  simp only
  generalize o name = w
  rcases w with _ | v
  · rfl
  · cases v <;> rfl

theorem declareBool_reduce (o : Overrides) (name : String) (d : Bool) :
    declareBool (fun n => reduce (o n)) name d = declareBool o name d := by
  unfold declareBool
  simp only
  generalize o name = w
  rcases w with _ | v
  · rfl
  · cases v <;> rfl

theorem declareString_reduce (o : Overrides) (name : String) (d : String) :
    declareString (fun n => reduce (o n)) name d = declareString o name d := by
  unfold declareString
  simp only
  generalize o name = w
  rcases w with _ | v
  · rfl
  · cases v <;> rfl

/-- C128, integers that do not fit: both nodes take them for the ones that fit and differ from them by a
multiple of 2³². With the two theorems `C128_extraction_partial` and `C128_ekf_partial` this says for
every parameter file whether the nodes start, and with which values. -/
theorem C128_reduced (o : Overrides) : ∃ o', Reduced o o' ∧ hyperParameters o = hyperParameters o' ∧
    ekfParameters o = ekfParameters o' := by
  refine ⟨fun name => reduce (o name), ⟨?_, ?_⟩, ?_, ?_⟩
  · intro name i h
    simp only at h
    generalize o name = w at h
    rcases w with _ | v
    · cases h
    · cases v with
      | int k =>
        injection h with h
        injection h with h
        unfold toInt at h
        omega
      | _ => injection h with h; cases h
  · intro name
    simp only
    generalize o name = w
    rcases w with _ | v
    · rfl
    · cases v with
      | int i =>
        refine ⟨toInt i, (i + 2147483648) / 4294967296, rfl, ?_⟩
        unfold toInt
        omega
      | _ => rfl
  · unfold hyperParameters
    simp only [declareInt_reduce, declareDouble_reduce]
  · unfold ekfParameters
    simp only [declareInt_reduce, declareDouble_reduce, declareBool_reduce, declareString_reduce]

/-- The parameters of the file that the launch files name. -/
noncomputable def shippedHyper : Hyper :=
  ⟨2, .finite 3, .finite 0.3, .finite 0.02, .finite 50, .finite 0.05, .finite 0.1, .finite 1000, 6⟩

theorem shipped_fitInt : FitInt shippedFile := by
  intro name i h
  simp only [shippedFile, List.lookup] at h
  split at h
  · simp only [Option.some.injEq, Value.int.injEq] at h
    omega
  all_goals (repeat' split at h)
  all_goals simp only [Option.some.injEq, Value.int.injEq, reduceCtorEq] at h
  omega

/-- C128: the node starts with the shipped file, with the values of the file and, for the one parameter
the file does not name, the default. -/
theorem C128_shipped_file : hyperParameters shippedFile = .ok shippedHyper := by
  rw [C128_extraction_partial _ shipped_fitInt]
  refine ⟨⟨.given _ rfl, .given _ rfl, ?_, ?_, .given _ rfl, .default rfl, ?_, .given _ rfl,
    .given _ rfl⟩, ⟨by decide, .finite _ ?_, .finite _ ?_, .finite _ ?_, .finite _ ?_, .finite _ ?_,
    .finite _ ?_, .finite _ ?_, by decide⟩⟩
  · have e3 : (0.3 : ℝ) = 3 / 10 := by norm_num
    refine .given _ ?_
    simp only [shippedHyper, e3]
    rfl
  · have e2 : (0.02 : ℝ) = 2 / 100 := by norm_num
    refine .given _ ?_
    simp only [shippedHyper, e2]
    rfl
  · have e1 : (0.1 : ℝ) = 1 / 10 := by norm_num
    refine .given _ ?_
    simp only [shippedHyper, e1]
    rfl
  all_goals norm_num

/-- A user gives one value. -/
def single (name : String) (v : Value) : Overrides := fun n => if n = name then some v else none

/-- C128, violation: the extraction starts with a padding that was not given; 4294967298 becomes 2. -/
theorem C128_padding_violated :
    ∃ h, hyperParameters (single "convolution_padding" (.int 4294967298)) = .ok h ∧ h.padding = 2 := by
  refine ⟨⟨2, .finite 2, .finite (3 / 10), .finite (2 / 100), .finite (5 / 100), .finite (5 / 100),
    .finite (1 / 10), .finite 100, 6⟩, ?_, rfl⟩
  simp only [hyperParameters, bind_ok, check_iff, positive_iff, Except.ok.injEq]
  have p (r : ℝ) (h : 0 < r) : (Dbl.finite r).Pos := .finite r h
  exact ⟨2, rfl, _, rfl, _, rfl, _, rfl, _, rfl, _, rfl, _, rfl, _, rfl, 6, rfl, (), by decide,
    (), p _ (by norm_num), (), p _ (by norm_num), (), p _ (by norm_num), (), p _ (by norm_num),
    (), p _ (by norm_num), (), p _ (by norm_num), (), p _ (by norm_num), (), by decide, rfl⟩

example : Reduced (single "convolution_padding" (.int 4294967298))
    (single "convolution_padding" (.int 2)) := by
  constructor
  · intro name i h
    unfold single at h
    split at h
    · injection h with h
      injection h with h
      omega
    · cases h
  · intro name
    unfold single
    by_cases h : name = "convolution_padding"
    · simp only [if_pos h]
      exact ⟨2, 1, rfl, by norm_num⟩
    · simp only [if_neg h]

/-- C128, violation: a smallest range above the largest one is accepted, and then no cloud whatever
yields a feature. -/
theorem C128_ranges_violated :
    ∃ h degree p, hyperParameters (single "min_range" (.double (.finite 200))) = .ok h ∧
      h.finite? = some (degree, p) ∧
      ∀ (plat : Platform ℝ) (cloud : List (PointXYZIR ℝ)), PlatformOK plat p.nBlocks cloud.length →
        ∀ (stamp : ℤ) (isDense ringAvailable : Bool) (eff : CallbackEffect (PointXYZIR ℝ)),
          callback plat p (nodeGeometry degree) stamp isDense ringAvailable cloud = .ok eff →
          eff.edge.points = [] ∧ eff.surface.points = [] := by
  obtain ⟨h, hh⟩ : ∃ h : Hyper, h = ⟨5, .finite 2, .finite 0.3, .finite 0.02, .finite 0.05, .finite 0.05,
    .finite 200, .finite 100, 6⟩ := ⟨_, rfl⟩
  have hs : hyperParameters (single "min_range" (.double (.finite 200))) = .ok h := by
    rw [C128_extraction_partial _ ?_, hh]
    · refine ⟨⟨.default ?_, .default ?_, .default ?_, .default ?_, .default ?_, .default ?_, .given _ ?_,
        .default ?_, .default ?_⟩, ⟨by decide, .finite _ ?_, .finite _ ?_, .finite _ ?_, .finite _ ?_,
        .finite _ ?_, .finite _ ?_, .finite _ ?_, by decide⟩⟩
      all_goals first | (simp [single]) | (norm_num)
    · intro name i h
      simp only [single] at h
      split_ifs at h
      simp only [Option.some.injEq, reduceCtorEq] at h
  have hf : h.finite? = some (2, ⟨5, 0.3, 0.02, 0.05, 0.05, 200, 100, 6⟩) := by rw [hh]; rfl
  refine ⟨h, _, _, hs, hf, ?_⟩
  intro plat cloud hplat stamp isDense ringAvailable eff he
  obtain ⟨h1, h2⟩ := C17_node _ (positive_valid (started_positive hs) hf).2 hplat he
  constructor
  · refine List.eq_nil_iff_forall_not_mem.2 fun q hq => ?_
    have := (h1 q hq).1.trans (h1 q hq).2.1
    norm_num at this
  · refine List.eq_nil_iff_forall_not_mem.2 fun q hq => ?_
    have := (h2 q hq).1.trans (h2 q hq).2.1
    norm_num at this

theorem latestState_ok (n : ℤ) : latestState 6 n = .ok () ↔ 0 < n := by
  unfold latestState
  split_ifs with h1 h2
  · exact ⟨fun h => (nomatch h), fun h => by omega⟩
  · exact ⟨fun h => (nomatch h), fun h => by omega⟩
  · exact ⟨fun _ => by omega, fun _ => rfl⟩

/-- C128, violation: the Kalman filter node starts with every number of kept states, and with none or a
negative number of them reading the state fails an assertion (at the first initial pose or timer tick
after it). -/
theorem C128_ekf_steps_violated (n : ℤ) (hn : -2147483648 ≤ n ∧ n ≤ 0) :
    ∃ h, ekfParameters (single "extend_state_step" (.int n)) = .ok h ∧ h.extendStateStep = n ∧
      latestState 6 h.extendStateStep = .error .assertFail := by
  refine ⟨⟨.finite 50, n, "map", 5, .finite 10000, .finite 10000, 2, .finite 0.005, true, .finite 0.001,
    .finite 5, .finite 1⟩, ?_, rfl, ?_⟩
  · rw [C128_ekf_partial _ ?_]
    · refine ⟨.default ?_, .given _ ?_, .default ?_, .default ?_, .default ?_, .default ?_, .default ?_,
        .default ?_, .default ?_, .default ?_, .default ?_, .default ?_⟩
      all_goals simp [single]
    · intro name i h
      simp only [single] at h
      split_ifs at h
      simp only [Option.some.injEq, Value.int.injEq] at h
      omega
  · unfold latestState
    split_ifs with h1 h2
    · rfl
    · rfl
    · simp only at h1 h2
      omega

/-- C128: a started Kalman filter node whose parameters are finite, with at least one kept state and a
named frame, never fails on the events of C70. -/
theorem C128_started_ekf_works {h : EkfHyper} {N : ℕ} {p : Ekf.EkfParams}
    (hf : h.finite? = some (N, p)) (hframe : h.poseFrame ≠ "") :
    ∃ hN : 0 < N, latestState 6 h.extendStateStep = .ok () ∧
      ∀ (tf : Ekf.Tf2) (L : ℝ), 0 < L → L ≤ 10 → L ≤ 1 / max p.defaultFrequency (1 / 10) →
        ∀ es : List Ekf.Event, Ekf.WellFormed tf L es →
          ∃ s out, Ekf.run hN tf p (Ekf.NodeState.make N p) es = .ok (s, out) ∧
            out.map Ekf.Output.header = Ekf.expected p.poseFrame es := by
  have key : 0 < h.extendStateStep ∧ N = h.extendStateStep.toNat ∧ p.poseFrame = h.poseFrame.toList := by
    unfold EkfHyper.finite? at hf
    split at hf
    · split_ifs at hf with hs
      simp only [Option.some.injEq, Prod.mk.injEq] at hf
      obtain ⟨rfl, rfl⟩ := hf
      exact ⟨hs, rfl, rfl⟩
    · simp only [reduceCtorEq] at hf
  obtain ⟨hs, rfl, hpf⟩ := key
  refine ⟨by omega, (latestState_ok _).2 hs, ?_⟩
  intro tf L hL hL10 hLf es hes
  refine Ekf.C70_no_failure _ tf p L hL hL10 hLf ?_ es hes
  rw [hpf]
  intro he
  exact hframe (String.toList_eq_nil_iff.1 he)

/-- C128, map loader: it starts exactly if a non-empty file name is given, and publishes the map of that
file. -/
theorem C128_map_loader {P : Type} (fs : Apps.Fs P) (o : Overrides) (out : List (Apps.MapMsg P)) :
    mapLoaderNode fs o = .ok out ↔
      ∃ name, o "pcd_filename" = some (.string name) ∧ name ≠ "" ∧ out = [Apps.loadMap fs name] := by
  simp only [mapLoaderNode, bind_ok, declareString_iff]
  constructor
  · rintro ⟨name, hc, h⟩
    have hn : name ≠ "" ∧ out = [Apps.loadMap fs name] := by
      unfold Apps.mapLoader at h
      split_ifs at h with hl
      simp only [Except.ok.injEq] at h
      refine ⟨?_, h.symm⟩
      rintro rfl
      exact hl rfl
    refine ⟨name, ?_, hn⟩
    generalize hw : Value.string name = w at hc
    cases hc with
    | given w h => subst hw; exact h
    | default h =>
      simp only [Value.string.injEq] at hw
      exact absurd hw hn.1
  · rintro ⟨name, ho, hne, rfl⟩
    refine ⟨name, .given _ ho, ?_⟩
    have hl : ¬ name.length = 0 := fun h => hne (String.length_eq_zero_iff.1 h)
    simp only [Apps.mapLoader, if_neg hl]

/-- C128, map frame: the static transform is between the frames given, "map" and "viewer" otherwise. -/
theorem C128_map_frame (o : Overrides) (points : List (Fin 3 → ℝ)) (t : Frames.StaticTransform)
    (h : mapTfNode o points = .ok t) :
    Chosen o "map_frame" (.string "map") (.string t.frame) ∧
    Chosen o "viewer_frame" (.string "viewer") (.string t.child) := by
  simp only [mapTfNode, bind_ok, declareString_iff, Except.ok.injEq] at h
  obtain ⟨a, ha, b, hb, rfl⟩ := h
  exact ⟨ha, hb⟩

/-- The hypotheses can be met: one parameter of the filter is given, the others are the defaults. -/
example : FitInt (single "pose_smoothing_steps" (.int 7)) ∧
    ∃ h, ekfParameters (single "pose_smoothing_steps" (.int 7)) = .ok h ∧ h.poseSmoothing = 7 ∧
      h.twistSmoothing = 2 ∧ h.poseFrame = "map" ∧ ∃ N p, h.finite? = some (N, p) ∧ N = 50 := by
  constructor
  · intro name i h
    simp only [single] at h
    split_ifs at h
    simp only [Option.some.injEq, Value.int.injEq] at h
    omega
  · exact ⟨_, rfl, rfl, rfl, rfl, _, _, rfl, rfl⟩

/-- An integer where a `double` is declared is refused: `min_range: 1` instead of `1.0`. -/
example : ∃ e, hyperParameters (single "min_range" (.int 1)) = .error e ∧ e = .wrongType "min_range" :=
  ⟨_, rfl, rfl⟩

/-- The hypotheses of `C128_started_extraction_works` with the shipped file. -/
example : ∃ degree p, shippedHyper.finite? = some (degree, p) ∧ p.padding = 2 ∧ p.nBlocks = 6 :=
  ⟨_, _, rfl, rfl, rfl⟩

example (fs : Apps.Fs ℕ) : mapLoaderNode fs (single "pcd_filename" (.string "maps/edge.pcd")) =
    .ok [Apps.loadMap fs "maps/edge.pcd"] :=
  (C128_map_loader fs _ _).2 ⟨"maps/edge.pcd", by simp [single], by decide, rfl⟩

example : ∃ t, mapTfNode (single "viewer_frame" (.string "camera")) [] = .ok t ∧ t.child = "camera" ∧
    t.frame = "map" := ⟨_, rfl, rfl, rfl⟩

end Verif.Param
