# Design of the formal model

Target: tier4/lidar_feature_extraction, sources in `/repo` (C++ and one Python node), read as text.
Formalism: Lean 4.33.0 with Mathlib; project in `lean/`, modules under `lean/Verif/`.

## 1. Trusted base

* Lean's kernel. No own axioms, no `sorry`, `admit`, `native_decide`, `bv_decide`, `implemented_by`.
  Every property theorem depends at most on `propext`, `Classical.choice`, `Quot.sound`;
  `Verif/Audit.lean` prints the axioms of each of them during the build.
* That the definitions in the model files transcribe the cited lines of `/repo`.
  Each definition carries a comment with file and lines and its simplifications.

### Common modelling decisions

* **Numbers.** `double`/`float` are exact: a generic linearly ordered field `K` where only field operations
  and comparisons occur (so that examples can be computed over `ℚ`), `ℝ` where square roots,
  trigonometry or calculus occur. Rounding, overflow, signed zero are not modelled, with four exceptions:
  C05 models every floating-point operation of the block-boundary computation by an arbitrary
  rounding function, C104 the conversion of time stamps to `double` and their differences by IEEE
  rounding, C143 every operation of the one-dimensional filters (`Model/Filter1DRounded`), and C130 every floating-point operation of the extraction node (`Model/Rounded`) by rounding
  to nearest with 53 or 24 binary digits, `std::acos` by a function with error at most 2⁻⁴⁸. C130
  connects the theorems on the extraction in exact arithmetic to the code that runs: they hold of it
  for clouds on which no comparison is close to a tie. Its own simplifications: no overflow, no
  underflow, no contraction of a product and a sum to one operation. NaN is modelled where the code can produce it from finite input
  (division by zero), in the sorting of rings for points without coordinates (C145), in all messages to the localizer (C150; there Eigen's inverse is a parameter, specified for regular, singular and NaN matrices), and in the poses and scans the map builder gets (C161): it is a separate outcome, never Lean's `x / 0 = 0`.
* **C++ `int`** is `Int` without overflow. Unsigned wrap-around is modelled where it happens
  (`occlusion.hpp`).
* **Exceptions and undefined behaviour** are outcomes: `Except Err α` with
  `Err = invalidArgument | outOfRange | lengthError | assertFail | undefinedBehaviour | notModelled`
  (the last one only for initial poses with non-finite coordinates (NaN: C150), for clouds with infinite coordinates or,
  after their rings were sorted, with NaN (C145), for divisions by zero in scan
  matching, and for odometry with non-finite numbers that reaches the localizer in C139). Asserts are active
  (`CMAKE_BUILD_TYPE Debug`, no `NDEBUG`), so a failing assert is the outcome `assertFail`.
* **`std::sort`, `std::nth_element`, iteration over `std::unordered_map`** are parameters
  constrained only by what the standard promises; theorems hold for every admissible choice.
* **Callbacks** run to completion one at a time (single-threaded `rclcpp::spin`), except that the
  mutex-protected store of `stamp_sorted_objects.hpp` is also modelled under arbitrary
  interleavings of its locked operations.
* **Python** (`convert.py`): exceptions are outcomes; `struct` is transcribed for explicit byte orders; floats
  are an arbitrary type with arbitrary encoding and decoding functions, laws are hypotheses.
* **Eigen operations** that the code calls (quaternion product, `toRotationMatrix`, `AngleAxis`,
  matrix-to-quaternion conversion, cross product) are transcribed from Eigen's documentation.
* **tf2's `getYaw` and `getRPY`** are a parameter of the node's model (`Tf2`), about which the theorems on
  the node assume nothing; C138 and C139 use the value of it in `Model/Tf2`, written from the known
  behaviour of tf2.

### Not modelled

The documentation in `docs/source` is no code; its formulas serve as specification in C154.

ROS transport (except for the messages kept by subscriptions and publishers, `Model/History`), PCL file I/O and `VoxelGrid` (any function), nanoflann's tree search (a parameter that meets
`KnnSpec`), Eigen's decompositions (`householderQr`, `SelfAdjointEigenSolver`, `llt`: parameters that meet
`QrSpec`, `EigSpec`, `LltSpec`, or exact eigenvalues), logging and message
formatting (except for the warnings of the localizer and of the extraction, see below). The exact-time
synchroniser, ROS name resolution, the display settings of the shipped views, `declare_parameter` and
PCL's conversion between messages and clouds (matching of fields, joining of mappings, copying of bytes)
are library code as well, but are modelled (`Model/Sync`, `Model/Launch`, `Model/Param`, `Model/Pcl`, `Model/Wire`) from
their known behaviour, and so are the logging macros
of `rclcpp` in `Model/Warning` (the text is a `printf` format; throttled macros keep their state in static
variables). Theorems on the localizer other than C118 to C120 are about the node without its log; by
C118 they hold with the log for frame names without a percent sign. `fmt::format` and `std::to_string`
of integers are decimal notation (`Model/Message`); theorems on the extraction other than C121 and C122
are about the functions without texts and the callback without its log, and hold with them by C122. `imu_integration` has a node without content and an empty header: there is
nothing to model.

## 2. Layout

* `Verif/Basic.lean` — outcomes, bounds-checked access.
* `Verif/Model/*.lean` — transcription of the code, one file per source unit.
* `Verif/Lemmas/*.lean` — helper lemmas about the model.
* `Verif/Props/*.lean` — specifications (independent of the model's helpers), property theorems,
  non-vacuity examples. Theorem names start with the property id (`C09_…`).
* `Verif/Audit.lean` — `#print axioms` for all property theorems.

A theorem with suffix `_partial` proves less than the property; `_violated` proves that the code
breaks the property on a concrete input (the disagreement is listed in section 4).

## 3. Plan per property

| id | modelled | proof idea |
|----|----------|-----------|
| C01 | `Convolution1D`, `InnerProduct` over lists | loop result by index; window sum as spec |
| C02 | `MakeWeight`, `CalcCurvature` | from C01, algebra on window sums |
| C03, C04 | `IndexRange`, `PaddedIndexRange`, in exact arithmetic and with a rounding function per operation (`Props/C03R`) | boundary = floor of linear interpolation; monotone telescoping; with rounding only boundaries that are whole numbers move, and down by one at most |
| C05 | `Boundary` with a rounding function per operation | error analysis |
| C06, C07 | `FillFromLeft/Right` as recursion on the remaining interval | induction on the interval length, spec = connected run |
| C08 | `FillNeighbors` | from C06, C07 |
| C09, C10, C11, C12 | `EdgeLabel::Assign`, `SurfaceLabel::Assign` as folds over any legal argsort | loop invariants over processed prefix |
| C13 | `AssignLabel` over spans | per-block update lemma, two-run comparison |
| C14 | `FromLeft`, `FromRight` with wrap-around | fold invariant: labels = initial with the union of runs |
| C15, C16 | `LabelOutOfRange`, `LabelParallelBeamPoints` | pointwise |
| C17, C18, C19 | the node callback, per ring and in total | composition of the above |
| C20 | `MakePointIndices`, sorting, `RemoveSparseRings` | induction over the cloud |
| C21 | comparator over `ℝ` against `Complex.arg` | case analysis by half planes; violated on the positive x axis |
| C22 | `CalcRadian`, `IsNeighborXY` over `ℝ` | Cauchy–Schwarz, `arccos` |
| C23 | `Range::operator()(begin,end)` | violated for begin ≠ 0; partial for begin = 0 |
| C24 | `LabelToColor`, `ValueToColor` | case analysis; violated (same colours; overflow unless 0 ≤ 256·min < max, which is exact) |
| C25, C26, C27 | `SortThreeValues`, `Median_`, covariance arrays | case analysis, order statistics, index arithmetic |
| C28, C29 | aged queue, `Update` loop | induction over operation sequences; C29 violated; exactly which prefix is considered, and within how many ticks the rest |
| C30 | `UpdateInterval` | induction over clock readings; violated for equal stamps (interval 0) |
| C31 | `ComputeDelayStep`, `CheckDelayStep` | rounding lemmas |
| C32–C35 | block matrices `Matrix (Fin N × Fin d)` | matrix algebra; `PosSemidef` invariants over op sequences |
| C36 | measurement update step with all rejection paths | case analysis |
| C37, C38 | motion model over `ℝ` | `HasFDerivAt`, `Complex.arg` |
| C39 | `Simple1DFilter` | convexity |
| C40, C41 | node state machine | induction over event sequences; C41 violated |
| C42 | `EraseBeginSlash` | violated for the empty string, partial otherwise |
| C43 | covariance message mapping | finite index check for all values |
| C44 | `Optimizer::Run` over an abstract problem | induction over iterations |
| C45 | `Huber`, `HuberDerivative` | calculus |
| C46 | `WeightedUpdate` | normal equations, PSD quadratic form |
| C47–C50 | rotationlib | polynomial identities, `HasFDerivAt` |
| C51 | `AngleAxisToQuaternion` | trigonometry |
| C52, C53 | residuals and Jacobian rows | cross-product identities, derivative by composition |
| C54–C56 | stamped store and its interleavings | sorted-map invariant; C55 violated |
| C57 | `Localizer`, subscriber callback | functional dependence |
| C58 | `RecentScans`, `MergeClouds` | list algebra over histories |
| C59 | `MapBuilder` | refinement to a fold over the history |
| C60 | path generator | induction |
| C61, C62 | `convert.py` with bytes | round trip by induction over layout; C62 violated for fields at byte 12 |
| C63 | centroid | bounding-box inequality; violated for the empty map |
| C64 | `PrincipalIsReliable`, `IsDegenerate` | symmetric functions of eigenvalues |
| C65, C66 | `callbackInitialPose`, yaw residual | violated; partial for identity rotation, exact for turns about the vertical / no wrap |
| C67, C68 | gate, lookup loop | positive definiteness; induction on tries |
| C69, C70 | the localizer node with all callbacks | invariants by induction over event sequences |
| C71 | Eigen's matrix-to-quaternion conversion (transcribed) | case analysis, rotation equations |
| C72 | alignment residual | derivative by composition |
| C73 | `MedianAbsoluteDeviation`, `Scale` | order statistics, counting |
| C74 | `MakeM`, `CalcUpdate` | calculus along curves |
| C75, C76 | `Optimizer::Run` | violated; consequences of the run specification of C44 |
| C77 | subscriber under interleavings | violated; invariant over schedules |
| C78 | `Odometry`, `RecentScans` | refinement to the sequence of estimated poses |
| C79 | `assignLabel` on a fresh ring | C09–C12 inside each block, shifted to the ring (`BlockLabelled`) |
| C80 | `NearestKSearch` over any correct nanoflann search | permutation of the map; violated for maps with fewer than k points |
| C81 | `CalcMeanAndCovariance`, `Edge::Make` | moments, Rayleigh quotient, total least squares |
| C82 | `EstimatePlaneCoefficients`, `Surface::Make`, `CheckPointsDistributeAlongPlane` | normal equations; violated for planes through the origin |
| C83 | `Edge::Make`, `Surface::Make`, `LOAMOptimizationProblem::Make` | induction over the scan; violated for empty maps |
| C84 | `Optimizer::Run` on that problem | C44 and congruence over rigid poses |
| C85 | the same | zero residuals give a zero step, which ends the first iteration |
| C86 | the whole node against a reference filter over `Fin (n+1) × Fin 6` written apart from the model | simulation relation, induction over the events |
| C87 | `KalmanFilter::predict/update`, `TimeDelayKalmanFilter::update` | finite populations; completing the square |
| C88 | `AlignmentProblem::Make` | case split on the sizes; derivative from C72 |
| C89 | the steps of `Optimizer::Run` on the alignment and scan matching problems | derivative along the curve of poses of a step; violated after a change of sign of the quaternion |
| C90 | `Optimizer::Run` on the alignment problem | the step solves the linearised problem exactly; spectral theorem for the degeneracy check |
| C91 | the same | induction over the passes for translations; uniqueness of the step for the first pass; violated for rotations |
| C92 | the same, and the scan matching problem | medians, sums and the minimiser are invariant under permutations; induction over the passes |
| C93 | the same | characterisation of degeneracy on the source points, C75 |
| C94 | `MakeJacobian` (`Model/Residual`) | derivative of the bilinear form, C52 |
| C95 | `TransformXYZ` (`Model/Residual`) | algebra; lists of any length |
| C96 | conversions between messages and poses (`Model/Msg`); the sign that `tf2::toMsg` chooses is a parameter | C71 and C47; characterisation of rigidity for all quaternions |
| C97 | the node of C54 with prior messages as input | invariant of the node over all schedules: store, running callback and outputs hold rigid poses; a run keeps unit quaternions |
| C98 | marker functions (`Model/Msg`) | induction over the calls |
| C99 | `Filter` | induction over the loop |
| C100 | `random.cpp`; the shuffle is a parameter | identity between the deviation from the mean and the differences of pairs |
| C101 | `HorizontalStack`, `VectorsToEigen`, `Get`; memory contents before are a parameter | induction over the list |
| C102 | the three programs over a file system (`Model/Apps`) | composition of C59 with the start of localization; induction over sessions |
| C103 | the filters of C14–C16 and the curvature on a ring and its reverse | the exact characterisations are mirror symmetric |
| C104 | conversion of stamps to `double` with its rounding (`Model/Double`) | error of rounding to nearest; differences of stored stamps are exact; C54 |
| C105 | launch files, shipped views, topic names, remapping, types, qualities of service (`Model/Launch`) | evaluation with the arguments and the namespace left open |
| C106 | whole callback | naturality in the point type, applied to positions in the cloud |
| C107 | exact-time synchroniser (`Model/Sync`, library) | invariants over all message sequences; induction over the schedule |
| C108 | exact-time synchroniser with gaps, `main` of mapping (`Model/Sync`, `Model/Apps`) | refinement: the bounded queue is the trimmed unbounded one, whose entries are characterised by the history; corollaries by membership and order |
| C109 | synchroniser and localizer node together (`Model/Sync`, `Model/Store`) | invariant over schedules of callbacks cut at their locked calls, then composed with C108 |
| C110 | whole callback on two orders of a cloud | a strictly sorted ring is determined by its points; C19 splits the callback into rings |
| C111 | whole callback, coordinates and thresholds rescaled | naturality of every stage in the factor; labels depend on comparisons only |
| C112 | whole filter node, run as a sequence of callbacks | simulation: a relation between displaced states, preserved by every callback |
| C113 | `Optimizer::Run` on the localization problem, with moved map and initial pose | simulation: two problems whose residuals agree up to sign make the same run; partial: flat neighbourhoods; negation proved for all others |
| C114 | `TimeDelayKalmanFilter`, sequences of linear predictions and delayed updates | information form of the update; updates commute with each other, and with predictions if the delay grows by one; induction over the calls from the end; refinement to a textbook filter |
| C115 | the same; covariances made by the node | the information of `r` copies with covariance `r R` is that of one with `R` |
| C116 | the callback with two parameter settings | the labelling marks a point iff no linked point was marked earlier; strong induction along the sorted order; block by block; filters only overwrite |
| C117 | the time-delay filter over any field; the whole node | the innovation vanishes, induction over the operations; an invariant of the node: all stored states are the true one, all queued messages agree |
| C118 | the whole localizer node with its warnings (`Model/Warning`) | refinement in both directions: forgetting the log gives the node without log; with plain texts every request succeeds |
| C119 | `Model/Warning`: the loop bodies with the list of requests | case analysis of the body, induction over the loops |
| C120 | `Model/Warning`: the static variables of the macro over whole runs | the entries of a run obey the throttle (induction), characterisation of the shown ones; an invariant for the hidden ones |
| C121 | `Model/Message`: the functions of the extraction with the texts of their exceptions | decimal notation by strong induction; case analysis of each guard; a specification that reads the text |
| C122 | `Model/Message`: the callback with its log | refinement: each function with texts against the one without, with a predicate on the texts carried through; induction over the rings |
| C123 | existing models of the filter and the node | algebra (R - CP'Cᵀ = R S⁻¹ R) and the order of positive semidefinite matrices; invariant of C69 for the reachable states, induction over the messages of a tick |
| C124 | existing model of the filter | induction over pairs of sequences; the Kalman gain is optimal (C87), so the more certain filter does at least as well with the other filter's gain |
| C125 | existing model of the node | `Report`, `Report.MovesOn`, `GoesOn` read the published odometry messages and say what the next one must be, without mention of the filter; `predictStep_latestX/P` reduce the augmented filter to its newest block, `run_goesOn` is the induction over the ticks; `AgedQueue.left` counts the uses left in a queue, each pop takes one (`AgedQueue.Due.pop`), each reporting tick pops from a non-empty queue (`timer_queuesLeft`). |
| C126 | existing model of the callback | the contribution of a ring is a function of its sorted points (`callback_contributions`, C19); sorting is unique when directions differ (`sorted_unique`, C110) |
| C127 | `Model/Frames` (map frame generator) and the existing models of the other programs | `Sent` collects the transforms of all runs of all programs; induction over schedules (`exec_outputs`) and event sequences (`run_frames`) |
| C128 | `Model/Param`: `declare_parameter` by type, the three constructors with their assertions, the shipped file | characterisation of successful starts (iff), composed with C19, C17 and C70; violations by witnesses |
| C129 | `weightedUpdate`, `computeWeights`, `normalizeErrorScale`, `run`, `alignmentMake` | normal equations of C46 contracted with the step; per-block bound of the weighted pull; scale bounded by C73_scale_robust; a majority weight is at least sqrt(s/S) so the scale cancels; for the alignment the Jacobian is a rotated cross product (C88) |
| C130 | `Rounded.*` (every operation of the extraction followed by a rounding), `callback` | relative error of each operation, per comparison a margin under which exact and rounded outcome agree; error of the convolution by induction; structural congruence through labelling, filters, rings and callback; witnesses computed with exact rationals for every rounding to nearest |
| C131 | `callback`, `assignLabel`, filters | completeness of the block labelling (C79) lifted through filters, rings and callback: blocks cover the interior, a label other than the curvature label means a filter fired; witness evaluated for every admissible platform |
| C132 | `callback` with the node's geometry | naturality of the callback (C106) along the turn; range and angle between points are invariant, the comparator is the order of the angles (C21), which the turn shifts; the seam by C17 and the order of the ring |
| C133 | `run`, `weightedUpdate`, `computeWeights`, `alignmentMake`, `angleAxisToQuaternion` | the error of the pose, as a step, leaves residuals of second order (a rotation minus its antisymmetric part is half the square of its displacement); the minimiser of the weighted problem is close to that step; Rodrigues' formula to second order for the rotation appended |
| C134 | `make`, `edgeBlock`, `surfaceBlock`, `nearestKSearch`, `run` | each block is a feature whose residual is affine in the moved point, given by the fitted line or plane (sign of the eigenvector irrelevant); the argument of C133 for such features; visibility is perturbed from the true to the starting pose; counting argument for the neighbours |
| C135 | `Model/Pcl`: point types as byte layouts, `createMapping`, `getPointCloud`, `toRosMsg`, `toPointXYZ`, `ringIsAvailable` | joined mappings cover the fields sent and do not overlap (induction over the joining loop); copies one after the other, byte by byte; with C62 for the converter; concrete messages and a general theorem for the violations |
| C136 | `Model/Wire`: value of a binary32 pattern, decoding of `PointXYZIR`, node callback from message to three messages, `pointXYZRGB` | refinement: naturality of the extraction in its point type (C106) on points paired with their bytes, C135 at both ends; C18, C19 for the end-to-end statement |
| C137 | `Model/Dynamic`: both filter classes over matrices with run-time sizes, Eigen's size assertions as failures | sizes of every intermediate result from acceptance; with fitting sizes refinement to the typed model of C28 to C35; induction over calls for the sizes |
| C138 | `Model/Tf2`: getYaw, the matrix of a quaternion and getRPY of tf2, as one value of the parameter `Tf2` of the node's model | entries of Rz Ry Rx against the branches of tf2; a rotation is determined by its last row and first column unless vertical |
| C139 | `Model/Loop`: the models of the two nodes side by side; every delivery of a message sent is an event of its own | invariant over events: the filter at rest (C117), all priors of the localizer that pose; the messages in between by C96 and C138 |
| C140 | `Model/Filter1D`, `Model/EkfNode` | induction over the observations: the variance relative to that at the start is at least the error relative to that at the start; the node's filters are runs over the pose messages received |
| C141 | `Model/Apps`, `Model/Mapping`, `Model/Loam` | the map consists of placed key frames (C102), so it is on the edges; a counting argument shows that the search returns points of the right edge or plane only; then C85 and C134 |
| C142 | `Model/Store` with the matching of `Model/Loam` | invariant over all schedules: the prior held by a running callback is within a + b of the true pose at the time of the scan (C54, C77); each publication then is the result of a matching that halves this (C134); with the map of a session the range comes from C141 |
| C143 | `Model/Filter1DRounded` (every operation followed by a rounding) | monotony of rounding gives that the rounded gain is in [0, 1]; relative error of each operation; induction over the measurements with the allowance 8M/2^p as invariant; witness of a gain rounded to 1 |
| C144 | `Model/Callback`, `Model/IndexRange` with rounding | the reasons of C122 are complete: a ring is left out exactly if a block has fewer than two points or two neighbouring points are on the axis; lengths of blocks from C03/C03R; boundaries of the shipped parameters computed in double |
| C145 | `Model/NotANumber`: the comparator over numbers and NaN; `Model/Wire.sortNaN` | what the comparator says about a missing point is computed; necessary: three points contradict a strict weak order; sufficient: a key (angle, on the positive axis or not) orders the ring |
| C146 | `Model/Optimizer.run` with `Model/Loam.make` | induction over the iterations with the invariant that the iterate is within the k-th bound and is the quaternion the conversion gives; C134's step for features; the sign by the product of the quaternions before and after; the bound at convergence by solving the step's inequality for the error |
| C147 | `Model/Store.exec` with `Model/Optimizer.run` | invariant over the actions: the prior held is near the truth, some stored prior is not too new, all outputs are right; C146 for the step of publishing; induction over the scans with the triangle inequality |
| C148 | `Model/EkfNode.run` | the direction sideways is an eigenvector of every block of the covariance and all stored states are the truth moved along it: invariant over predictions and updates by C33's block formulas, with Joseph's form for positive definiteness; the gate's value is then error²/variance |
| C149 | `Model/EkfNode.run` | the newest state under fresh messages (`NewestIs`): a projection that commutes with transition, noise, measurements and covariances splits the state (`Parted`); along the heading the error stays within √V standard deviations in all directions by Joseph's form (`Spread`); in the heading a lower bound of the variance grows at each tick until the gate accepts, then the 2×2 block of heading and turning gives the new heading |
| C150 | `Model/EkfNaN.run`: the whole node again over numbers that may be NaN, covariances of messages included | invariants over runs: all entries numbers (the gain is tested, the measurement is tested), or one coordinate NaN in all stored states (the gate compares with NaN, `0 * NaN` is NaN), or the newest covariance NaN (the gate again); refinement to `Model/EkfNode` on numbers |
| C151 | `Model/EkfNode.run`, `Model/Store.exec`, `Model/Sync.add` | potential: the uses still due plus the number of messages; the loop ends when it has used as many as are left, so a tick multiplies it by s/(s+1) at least; induction over runs. The violations are proved as equations for all runs in which they occur, and with runs of every length |
| C152 | `Model/EkfNode.run` | invariant: the time kept for intervals is that of the last tick that published; a small specification `showing` of the ticks that publish, induction over runs |
| C153 | `Model/History`, the depths in `Model/Launch` | the messages handled and waiting are a sublist of those that arrived; equality exactly if a subscription that keeps all never has more than d waiting, by induction from the end; C54 and C60 for the consequences |
| C154 | the formulas of `docs/source/*.rst` as definitions in `Props/C154`; `Model/Optimizer`, `Model/Residual`, `Model/Loam` | the quartile by a Taylor polynomial of exp with its remainder, integrated, and twenty digits of pi (`GaussQuartile`); the error along a line is a quadratic polynomial; C46, C52, C53, C81 for the rest |
| C155 | `Model/EkfNode`, `Model/Motion` | invariants over all executions (`run_filter`): the variance of the bias is unchanged by predictions and not increased by updates (C34); zero rows and columns of the covariance stay zero; the violation by computing two ticks of a concrete execution |
| C156 | `Model/EkfNode`, `Model/Interval`, `Model/Kalman` | induction over ticks without messages shifts the stored states; rounding lemma; a zero residual changes no stored state (C33); the violation by computing three ticks of a concrete execution |
| C157 | `Model/EkfNode`, `Model/Interval`, `Model/Kalman` | induction over ticks without messages gives the filter as iterated prediction; the rows of the speeds in the transition matrix are unit vectors; the place by comparing the directions of the two steps |
| C158 | `Model/Param`, `Model/Launch` | the README as a list of names with defaults; changing one override and comparing the outcome of the constructor; cases over the names |
| C159 | `Model/Measurement`, `Model/EkfNode` | block form of the filter (C33); the distance as a specification of its own; a complete run of the node with and without the late pose |
| C160 | `Model/Measurement`, `Model/EkfNode` | monotonicity of the inverse of a covariance (completing the square); a complete run of the node with and without the message |
| C161 | `Model/MappingNaN` (`map.hpp` again, `none` for NaN; Eigen's quaternion of a matrix is a parameter) | NaN of an orientation is in every row and column of its matrix; induction over the history; refinement to `Model/Mapping` |
| C162 | `Model/Measurement`, `Model/EkfNode`, `Model/Kalman` | the loop over the queue is a fold; updates commute (C114); the state and its uncertainty along the axis in closed form for the witness |
| C163 | `Model/Filter1D`, `Model/EkfNode` | normal form of the node after a list of messages; updates at the same time commute (closed form); the prediction depends on the square of the time difference only |
| C164 | `Model/EkfNode`, `Model/Filter1D`, `Model/Tf2` | convexity of the filter by induction over the history; roll and pitch of an upright orientation are less than a right angle; a complete run of the node |
| C165 | `Model/Measurement`, `Model/EkfNode`, `Model/Kalman` | the uncertainty after an update in information form (its inverse is the sum of the inverses), so the distance decreases; induction over the repetitions; closed form along the axis for the witness |
| C166 | `Model/EkfNode`, `Model/Measurement`, `Model/Queue`, `Model/Filter1D` | the loop over the queue is a fold, from which the refused pose drops out; complete runs of the node with and without the pose |
| C167 | `Model/EkfNode`, `Model/Measurement` | simulation: erasing the names in the queues commutes with every callback; induction over the events; a complete run of the node with the pose and with the converted pose |
| C168 | `Model/EkfNode`, `Model/Interval` | case analysis of the callbacks, induction over the events; a complete run of the node in which a twist has given it a speed |
| C169 | `Model/EkfNode`, `Model/Filter1D` | the filter of one number is the fold over the poses received (of C140); matrix computation for the covariance; runs of the node |

## 4. Disagreements between code and property

Each entry names the theorem that proves it on a concrete input.

| id | what the code does instead | theorem |
|----|----------------------------|---------|
| C19, C20 | two different points of one ring on the positive x half-axis: `std::sort` gets an inconsistent comparator, undefined behaviour | `C19_callback_violated`, `C20_rings_defined_violated` |
| C21 | the comparator is not asymmetric on the positive x half-axis | `C21_comparator_violated` |
| C23 | `Range::operator()(begin, end)` returns the first `end - begin` ranges | `C23_range_interval_violated` |
| C24 | edge and surface points get one colour; `ValueToColor` is wrong or leaves the byte range unless `0 ≤ 256 * min < max` | `C24_edge_surface_colour_violated`, `C24_value_colour_violated` |
| C29 | the update loop re-evaluates the queue size, so messages behind expiring ones miss a tick | `C29_skipped_violated`, `C29_skipped_default_violated` |
| C30, C31 | equal clock readings give interval 0, and the delay step is then an undefined cast | `C30_zero_interval_violated`, `C31_zero_interval_violated` |
| C39 | two observations with zero variance and equal stamps make a 1D filter NaN, for ever | `C39_nan_violated`, `C39_nan_forever_violated` |
| C40 | the height, roll and pitch filters are not reset by an initial pose | `C40_height_kept_violated` |
| C41 | a transform that is not found is dereferenced | `C41_missing_transform_violated` |
| C42 | the empty frame name is undefined behaviour | `C42_empty_violated` |
| C44 | a run that stops because the error grew returns the worse pose, as a success | `C44_larger_error`, `C44_larger_error_violated` |
| C75 | a degenerate problem makes a zero step, which counts as convergence: success with the initial pose | `C75_degenerate_success`, `C75_degenerate_violated` |
| C76 | a converged (or exhausted) run reports the error before the last update, not that of the returned pose | `C76_reported_error_violated` |
| C65 | the rotation between the frames is not applied to the initial position | `C65_rotation_violated` |
| C66 | the yaw innovation is not wrapped: headings -3 and 3 rad average to 0 | `C66_node_violated` |
| C55 | `RemoveOlderThan` removes the newer entries, keeps all old ones (unbounded store), and is undefined if all are newer | `C55_violated`, `C55_unbounded_violated`, `C55_undefined_violated`, `C55_node_undefined_violated` |
| C62 | the inserted padding field collides with fields at bytes 12 to 15: exception or wrong values | `C62_packed_violated`, `C62_silent_violated` |
| C63 | the centroid of an empty map is NaN and is broadcast | `C63_empty_violated` |
| C77 | handling a scan deletes newer priors that later scans need | `C77_violated` |
| C80 | a map with fewer than 15 points is filled up with copies of its first point | `C80_small_map_violated`, `C80_small_map` |
| C82 | planes through the origin of the map cannot be represented; neighbours centred at the origin give NaN | `C82_origin_violated`, `C82_misses_origin`, `C82_centroid` |
| C113 | for the same reason the result depends on the origin of the map: every neighbourhood that is not flat has a place where scan matching divides by zero | `C113_origin_violated` |
| C83 | an edge point and an empty edge map: assertion failure | `C83_empty_map_violated` |
| C89 | the optimiser keeps its own quaternion, but the problems recompute theirs from the rotation matrix; after a change of sign (yaw past 240 degrees) the rotation of the step is reversed and goes uphill | `C89_uphill_violated`, `C89_reversed` |
| C96, C97 | the quaternion of a received pose is not normalised: the pose, and with it the published result, may stretch space | `C96_not_normalised_violated`, `C97_scaled_violated` |
| C102 | mapping writes no surface map, so localization refuses to start after it; the map loader publishes an empty map if the file is missing | `C102_no_surface_violated`, `C102_missing_violated` |
| C91 | for the same reason the result depends on the orientation of the map frame | `C91_rotation_violated` |
| C105 | in a namespace the localizer does not get the surface clouds (the launch file does not remap them), so it never runs, and the converter ignores the sensor topic given as argument; `odometry.launch.py` names an executable that is not built | `C105_namespace_violated`, `C105_namespace_sensor_violated`, `C105_odometry_violated`, `C105_odometry_path` |
| C105 | in a namespace the map frame generator ignores its topic argument (an absolute name is subscribed to, a relative one remapped); the initial pose set in the shipped view goes to `/initialpose`, the launch file makes the filter listen to `/initialpose3d`; the debug view displays a path that no launched program publishes | `C105_map_frame_namespace_violated`, `C105_view_initial_violated`, `C105_debug_path_violated` |
| C118 | the text of a warning is used as a `printf` format: a message from a frame called `%s` is undefined behaviour | `C118_format_violated` |
| C120 | all throttled warnings share one throttle (static variables of one macro), so that one warning can hide all others for ever | `C120_hidden_violated`, `C120_starved_violated` |
| C128 | a parameter beyond 32 bits is replaced by another number; the filter node accepts a non-positive number of kept states and then fails; a smallest range above the largest one is accepted and suppresses all features | `C128_padding_violated`, `C128_ekf_steps_violated`, `C128_ranges_violated` |
| C130 | two points in the same direction may not be neighbours: the rounded cosine exceeds 1, the angle is NaN, and the test fails for every threshold | `C130_same_direction_violated` |
| C130 | the comparator of the angle sort, computed in `float`, is no strict weak order on three points off the axes in nearly the same direction; the sort has undefined behaviour | `C130_sort_violated` |
| C131 | the filters run after the curvature labels: a wall point beside a round pole takes the place of the pole's edge and is then removed as occluded; the pole has no edge | `C131_hidden_violated` |
| C132 | a ring is treated as a strip cut open straight behind the sensor, not as a circle: every feature is lost when it comes to lie at the cut | `C132_seam_lost`, `C132_seam_violated` |
| C135 | the points of a map have fields for curvature and ring, but the extraction does not send them: in every map both are 0 | `C135_curvature_violated` |
| C135 | a ring field of another type than 16 bit passes the test for a ring field, but is not read: all points come out on ring 0 | `C135_ring_type_violated` |
| C135 | the byte order of a cloud message is ignored; the sizes of a message are not compared with its data (reading beyond its end); a field that is not sent may come out with bytes of another one | `C135_byte_order_violated`, `C135_short_violated`, `C135_between_violated` |
| C136 | The converter marks every cloud dense, also one the sensor marked not dense, and keeps points with NaN coordinates; the extraction's check for clouds that are not dense ("please remove NaN points first") never fires behind it. | `C136_dense_violated` |
| C148 | While the vehicle stands no uncertainty is added sideways, and the gate compares with the variance of the estimate alone, not with that of the message: if the initial pose is wrong sideways by more than the gate times its own standard deviation, all correct pose messages are thrown away for ever and the wrong pose is published for ever (with the default gate of 10000 only for errors of thousands of standard deviations) | `C148_stuck_violated` |
| C145 | The angle comparator answers `false` for most comparisons with NaN: a point without coordinates is equivalent to every point on the left of the sensor. One such point in a ring with two points on the left in different directions makes `std::sort` undefined behaviour. Behind the converter such clouds pass as dense (C136). | `C145_violated`, `C145_node_violated`, `C145_sensor_violated` |
| C03, C04 | the boundaries are computed in `double` and truncated: a boundary that is a whole number can come out one too low. With as many points as blocks a block can then be empty (ring of 23 points, padding 9, five blocks: the fourth), and blocks can differ in length by two | `C03_rounded_violated`, `C04_rounded_violated` |
| C144 | by the same rounding a ring with exactly two points per block can lose a point of one block; `NeighborCheckXY` then throws and the whole ring is left out (46 points, padding 18, five blocks). Not with the shipped parameters | `C144_rounded_violated` |
| C137 | the prediction of the filter with delay does not compare the new state's dimension with the filter's: any other dimension up to the history's is accepted and shifts the history by it, so the states at a delay are no states of that time | `C137_delay_predict_violated` |
| C150 | the initial pose is not checked for NaN: a coordinate with NaN is published until the next initial pose, every pose message is refused and the first twist message used makes position, heading and speeds NaN; a variance with NaN makes the gate refuse everything, and the vehicle is reported to stand where it was put; one pose message with NaN for the height makes the height NaN for ever | `C150_initial_violated`, `C150_variance_violated`, `C150_height_violated` |
| C151 | before the first initial pose the timer does nothing, so that every pose and twist message is kept until it comes; the same holds while the clock shows less than at the last tick that published (a recording played again). The store of priors only ever loses priors that are newer than the scan, so in ordinary operation it keeps every prior for ever | `C151_before_start_violated`, `C151_clock_violated`, `C151_priors_violated` |
| C152 | a new initial pose does not reset the object that measures the intervals between ticks: when the clock is set back, or was ahead once, nothing is published until it shows the same time again, whatever initial poses are given | `C152_silent_violated` |
| C153 | the queues of the subscriptions are short: of what arrives during one callback the extraction, the mapping program and the prior topics of the localizer keep five messages, the filter node one of each topic; a scan can so be started from the prior of another time; late readers get clouds, poses and odometry not at all, and the shipped debug view does not ask for the stored path | `C153_five_violated`, `C153_one_violated`, `C153_prior_violated`, `C153_late_violated` |
| C154 | the documentation: the derivative of the edge error in `loam.rst` 177-182 has the wrong sign (and `TripletCross` of `edge.cpp`, unused, computes it), the mean in line 38 is not divided by the number of points, the surface residual in line 112 lacks the constant of the plane, the equation of `weighted_gauss_newton.rst` 240 also changes the length of the quaternion | `C154_edge_gradient_violated`, `C154_mean_violated`, `C154_surface_violated`, `C154_step_violated` |
| C155 | `enable_yaw_bias_estimation` false only zeroes the process noise of the bias (`ekf_localizer.cpp` 96-102); `InitCovariance` (109-114) gives it the variance 0.0001 all the same, so it is estimated as soon as the vehicle moves | `C155_estimated_violated` |
| C155 | the published heading is yaw plus bias (`ekf_localizer.cpp` 209-222), the published variance that of yaw alone (`covariance.cpp` 22-42) | `C155_variance_violated` |
| C156 | the step of a late message is its delay divided by the last interval alone (`delay.hpp` 28-31), so with irregular ticks it is compared with the state of another time | `C156_moved_violated` |
| C156 | for the same reason every pose taken before the last tick but one is refused as too old after one short interval, although its state is stored (`check.cpp` 83-90) | `C156_refused_violated` |
| C157 | the process noise of a tick is the squared parameter times the squared interval (`ekf_localizer.hpp` 105-108), so the uncertainty added in a given time is proportional to the interval; the README tells users to set the parameter to the maximum acceleration, whatever the rate | `C157_rate_violated` |
| C157 | the prediction moves along the heading at the beginning of the interval (`state_transition.cpp` 27-), so the place a turning vehicle is predicted at depends on the tick rate | `C157_turn_violated` |
| C158 | five parameters of the README of the filter node are declared nowhere and have no effect | `C158_ignored_violated` |
| C158 | the defaults of the noise of the two speeds are 5 and 1 (`ekf_localizer.hpp` 143-157), not 2.0 and 0.2 as in the README | `C158_defaults_violated` |
| C158 | the README names `measured_pose_with_covariance` and `measured_twist_with_covariance`; the node subscribes to `in_pose_with_covariance` and `in_twist_with_covariance` (`ekf_localizer.cpp` 124-129) | `C158_inputs_violated` |
| C158 | of the six topics the README says are published only `ekf_odom` exists (`ekf_localizer.cpp` 120) | `C158_outputs_violated` |
| C159 | `PoseMeasurement::Update` and `TwistMeasurement::Update` compare a late message with the estimate of its time, but with the covariance of the newest state (`getLatestP`); a pose farther away than `pose_gate_dist` is used because the uncertainty has grown since | `C159_late_violated` |
| C160 | the gate of `PoseMeasurement::Update` and `TwistMeasurement::Update` leaves out the covariance of the message; a pose that announces a large uncertainty is thrown away although the difference is small compared with it | `C160_wide_violated` |
| C161 | `MapBuilder::Callback` adds every scan whose pose has NaN, since the comparisons of `PoseDiffIsSufficientlySmall` are then false; all its points have NaN | `C161_spoiled_violated` |
| C161 | the scan after it is added even if the vehicle has not moved, since `prev_transform_` has NaN | `C161_next_violated` |
| C161 | one point with NaN makes the transform broadcast by `map_tf_generator` NaN | `C161_centre_violated` |
| C162 | the gate of `PoseMeasurement::Update` uses the uncertainty left by the poses taken before it in the same tick; of two poses the second is thrown away or not depending on their order | `C162_order_violated` |
| C163 | `Simple1DFilter::update` squares the time difference; a pose older than the last one counts as much as one that is newer by the same time, and more than if it had come in time | `C163_late_violated` |
| C164 | `updateSimple1DFilters` averages roll as a number; two poses rolled by almost half a turn to either side, nearly equal, are averaged to an upright vehicle | `C164_upside_down_violated` |
| C165 | the gate of `PoseMeasurement::Update` leaves out the uncertainty of the message and shrinks with every pose used; a pose that was used is thrown away when it comes again after one that agrees with the estimate of before | `C165_between_violated` |
| C166 | `callbackPoseWithCovariance` gives every pose to the filters of height, roll and pitch when it arrives; a pose that `PoseMeasurement::Update` throws away moves the published height | `C166_height_violated` |
| C166 | the loop of `PoseMeasurement::Update` compares its counter with the size that shrinks; with poses used once, a pose thrown away keeps the next one from being used in the same tick | `C166_waits_violated` |
| C167 | `CheckFrameId` only warns; `PoseMeasurement::Update` and `TwistMeasurement::Update` go on with the message as it is, so a pose given in a frame with another origin is used as if it were in the filter's frame | `C167_elsewhere_violated` |
| C168 | `timerCallback` reads the clock again for the stamp of the transform and once more for that of the odometry; the estimate is that of the time of the prediction | `C168_moved_on_violated` |
| C169 | `callbackInitialPose` uses only x and y of the converted position; height, roll and pitch are taken from the message as it is | `C169_height_violated` |
| C169 | `InitCovariance` takes the diagonal of the message's covariance; it is neither turned with the frames nor are correlations kept | `C169_uncertainty_violated` |

Observations that contradict no property above (read from the code, not all proved):

* the Mahalanobis gate compares the delayed state with the latest covariance;
* the published yaw is yaw plus bias, but its published variance is that of the yaw alone (C86);
* the filters that drop points run after the labelling, so a point suppressed by a candidate that is
  filtered out later is lost (C79);
* the lookup is retried inside a callback, while the transform listener has no thread of its own;
* the initial covariance of the delayed filter treats identical copies of the state as independent;
* the occlusion filter, called by itself on a ring not longer than its padding, wraps round and
  throws; the callback never gets there with valid parameters (C19);
* asking for a negative number of recent scans is undefined behaviour (`C58_negative`);
* the text of the exception of `IndexRange`'s constructor lacks its closing parenthesis
  (`index_range.cpp` 34-40); the numbers in it are right (C121);
* a measurement whose noise is singular is refused by a filter that is certain in the same direction,
  together with what it says about the other directions, so that less noise can leave the filter less
  certain (`singular_noise_refused`, C124);
* the launch files name the parameter file by a path relative to the directory they are started from;
* the converter ignores `row_step` and the fields' `count`, and data type 0 is read as `float64`.
