{"id": "C01", "title": "Convolution keeps the length, zero-pads the border and is the sliding inner product elsewhere", "statement": "Convolving a signal with an odd-length weight returns a signal of the same length whose first and last (w-1)/2 entries are 0 and whose every other entry is the inner product of the weight with the window of the input centred there; a signal shorter than the weight is rejected with invalid_argument and nothing else is.", "quantifier": "for all signals and all odd-length weights, of any lengths", "why_tests_cant": "lengths, weights and positions are unbounded; tests fix one or two arrays", "anchors": ["extraction/src/convolution.cpp:Convolution1D", "extraction/include/lidar_feature_extraction/math.hpp:InnerProduct"]}
{"id": "C02", "title": "Curvature is the squared sum of range differences", "statement": "The curvature of every point at least `padding` away from both ends of the ring equals (sum over the 2*padding surrounding points of their range minus the point's own range) squared; it is 0 at the ends, never negative, unchanged when a constant is added to all ranges, scales with the square of a common factor and vanishes on every affine range profile.", "quantifier": "for all range profiles, all paddings > 0, all positions", "why_tests_cant": "a statement over all real profiles and window sizes", "anchors": ["extraction/src/curvature.cpp:MakeWeight", "extraction/src/curvature.cpp:CalcCurvature"]}
{"id": "C03", "title": "Blocks partition the padded ring", "statement": "The begin/end pairs reported for the blocks of a ring are contiguous, start at `padding`, finish at size-padding, are all non-empty, and every index in [padding,size-padding) lies in exactly one block; construction throws invalid_argument exactly when there are fewer indices than blocks, and asking for a block number outside [0,n) throws out_of_range.", "quantifier": "for all sizes, paddings and positive block counts, all block numbers", "why_tests_cant": "integer partition for unbounded sizes and counts", "anchors": ["extraction/src/index_range.cpp:IndexRange", "extraction/src/index_range.cpp:Boundary", "extraction/include/lidar_feature_extraction/index_range.hpp:PaddedIndexRange"]}
{"id": "C04", "title": "Blocks are balanced", "statement": "Any two blocks of one ring differ in length by at most one, so no block is ever starved relative to the others.", "quantifier": "for all sizes, paddings and positive block counts", "why_tests_cant": "unbounded arithmetic over all divisions with remainder", "anchors": ["extraction/src/index_range.cpp:Boundary"]}
{"id": "C05", "title": "Blocks stay a partition under floating-point rounding", "statement": "The block boundaries are computed in floating point and truncated; whatever the rounding of each operation (relative error at most 2^-53, exact on representable integers), the first block starts at the start index, the last ends at the end index, the boundaries never decrease, consecutive blocks share their boundary, and every boundary is within one of the exact one.", "quantifier": "for all rounding functions meeting the IEEE bound, all indices up to 2^31 and block counts whose product with the end index is at most 2^53", "why_tests_cant": "no test enumerates rounding errors of all index triples", "anchors": ["extraction/src/index_range.cpp:Boundary"]}
{"id": "C06", "title": "Left-to-right fill writes exactly the connected run", "statement": "Filling a non-empty interval [begin,end) from the left writes the label on index k of that interval exactly when every consecutive pair from begin up to k is a neighbour pair, and changes nothing else; it throws invalid_argument exactly when end exceeds the size or begin is negative (given a neighbour test that does not throw). On an empty interval it is not a no-op: it writes one label outside.", "quantifier": "for all label arrays, neighbour relations, intervals and labels", "why_tests_cant": "neighbour relations are arbitrary; the write set depends on all of them", "anchors": ["extraction/include/lidar_feature_extraction/fill.hpp:FillFromLeft"]}
{"id": "C07", "title": "Right-to-left fill writes exactly the connected run", "statement": "Filling a non-empty interval (begin,end] from the right writes the label on index k of that interval exactly when every consecutive pair from k up to end is a neighbour pair, and changes nothing else; it throws invalid_argument exactly when end is not below the size or begin is less than -1 (given a neighbour test that does not throw). On an empty interval it writes one label outside.", "quantifier": "for all label arrays, neighbour relations, intervals and labels", "why_tests_cant": "as for the left fill", "anchors": ["extraction/include/lidar_feature_extraction/fill.hpp:FillFromRight"]}
{"id": "C08", "title": "Neighbour fill never fails and touches only the connected window", "statement": "For an index inside the ring, marking its neighbourhood never throws, keeps the number of labels, and relabels exactly those indices at distance at most `padding` that are joined to it by an unbroken chain of neighbour pairs (itself included).", "quantifier": "for all rings, indices in range, paddings >= 0, neighbour relations", "why_tests_cant": "borders, paddings larger than the ring and arbitrary neighbour relations interact", "anchors": ["extraction/include/lidar_feature_extraction/fill.hpp:FillNeighbors"]}
{"id": "C09", "title": "Edge points are strong and separated", "statement": "After edge labelling, every point labelled Edge was unlabelled before and has curvature >= the edge threshold, and no two Edge points lie within `padding` of each other on an unbroken chain of neighbour pairs.", "quantifier": "for all curvature arrays (ties included), every tie order the sort may choose, all symmetric neighbour relations, thresholds and paddings", "why_tests_cant": "non-maximum suppression depends on the whole array and on the unspecified order of equal keys", "anchors": ["extraction/include/lidar_feature_extraction/label.hpp:EdgeLabel::Assign", "extraction/include/lidar_feature_extraction/algorithm.hpp:Argsort"]}
{"id": "C10", "title": "Edge suppression is justified", "statement": "Every unlabelled point with curvature >= the edge threshold ends up labelled Edge, or is within `padding` on a neighbour chain of an Edge point whose curvature is at least its own; and every EdgeNeighbor is within `padding` on a neighbour chain of an Edge point. No strong point is lost without a stronger one near it.", "quantifier": "for all inputs and sort tie orders as above", "why_tests_cant": "maximality of greedy suppression over arbitrary arrays", "anchors": ["extraction/include/lidar_feature_extraction/label.hpp:EdgeLabel::Assign"]}
{"id": "C11", "title": "Surface points are flat, separated and complete", "statement": "After surface labelling, every new Surface point was unlabelled and has curvature <= the surface threshold, no two Surface points lie within `padding` on a neighbour chain, and every point still unlabelled has curvature above the threshold.", "quantifier": "for all inputs and sort tie orders", "why_tests_cant": "as for edges", "anchors": ["extraction/include/lidar_feature_extraction/label.hpp:SurfaceLabel::Assign"]}
{"id": "C12", "title": "Surface labelling never erases an edge", "statement": "Within a block, the surface pass that runs after the edge pass keeps every Edge label, although its neighbourhood marking overwrites labels unconditionally.", "quantifier": "for all curvature arrays, thresholds, paddings, symmetric neighbour relations and sort tie orders", "why_tests_cant": "follows from an invariant relating both passes, not from any single run", "anchors": ["extraction/include/lidar_feature_extraction/label.hpp:AssignLabel", "extraction/include/lidar_feature_extraction/label.hpp:SurfaceLabel::Assign", "extraction/include/lidar_feature_extraction/fill.hpp:FillNeighbors"]}
{"id": "C13", "title": "Labelling is local to a block and leaves the ring ends unlabelled", "statement": "Edge and surface labelling of a ring leaves the first and last `padding` points unlabelled, and the labels in one block depend only on the curvature and neighbour relation inside that block.", "quantifier": "for all rings, block counts, paddings and all changes of data outside the block", "why_tests_cant": "a two-run (relational) property over all inputs", "anchors": ["extraction/include/lidar_feature_extraction/label.hpp:AssignLabel", "lib/include/lidar_feature_library/span.hpp:span"]}
{"id": "C14", "title": "Occlusion marking is exactly the shadow of the range jumps", "statement": "A point is marked Occluded exactly when it lies at most `padding` beyond a jump: some neighbour pair where the farther point is more than the distance threshold behind the nearer one, with an unbroken neighbour chain from the farther point to it; all other labels are untouched. (At the ends of the ring a jump counts only if its whole window of `padding` points behind the far point lies in the ring; for points at least `padding` from both ends, hence for all candidate features, every jump counts.) For a ring with more than `padding` points whose neighbour test is defined, no exception is thrown and unsigned index arithmetic does not go astray.", "quantifier": "for all rings with more than `padding` points, ranges, neighbour relations, thresholds", "why_tests_cant": "order of the two sweeps and unsigned wrap-around at the border must be covered for all sizes", "anchors": ["extraction/include/lidar_feature_extraction/occlusion.hpp:FromLeft", "extraction/include/lidar_feature_extraction/occlusion.hpp:FromRight", "extraction/include/lidar_feature_extraction/occlusion.hpp:LabelOccludedPoints"]}
{"id": "C15", "title": "Out-of-range marking is exact", "statement": "A point gets the label OutOfRange exactly when its horizontal range is below min_range or above max_range; other labels are untouched.", "quantifier": "for all rings, ranges and limits", "why_tests_cant": "all reals", "anchors": ["extraction/include/lidar_feature_extraction/out_of_range.hpp:LabelOutOfRange", "extraction/include/lidar_feature_extraction/range.hpp:IsInInclusiveRange"]}
{"id": "C16", "title": "Parallel-beam marking is exact", "statement": "An interior point gets the label ParallelBeam exactly when its range differs from both adjacent ranges by more than the given ratio of its own range (a point at zero range counts when both differences are non-zero); first and last points and all other labels are untouched.", "quantifier": "for all rings with at least one point, ranges and ratios", "why_tests_cant": "all reals incl. division by a zero range", "anchors": ["extraction/include/lidar_feature_extraction/parallel_beam.hpp:LabelParallelBeamPoints"]}
{"id": "C17", "title": "Published features satisfy every filter", "statement": "Every point of scan_edge has curvature >= the edge threshold, every point of scan_surface has curvature <= the surface threshold, and every such point is inside [min_range,max_range] (its distance from the sensor seen from above), is not in the shadow of a range jump, is not a parallel-beam point and lies at least `padding` points from the ends of its ring.", "quantifier": "for all input clouds, parameters, sort tie orders and hash-map orders", "why_tests_cant": "composition of six passes with overwriting labels over arbitrary clouds", "anchors": ["extraction/app/feature_extraction.cpp:Callback", "extraction/include/lidar_feature_extraction/label.hpp:AssignLabel", "extraction/include/lidar_feature_extraction/occlusion.hpp:LabelOccludedPoints", "extraction/include/lidar_feature_extraction/out_of_range.hpp:LabelOutOfRange", "extraction/include/lidar_feature_extraction/parallel_beam.hpp:LabelParallelBeamPoints"]}
{"id": "C18", "title": "Published features are input points, at most once, in at most one class", "statement": "The published edge and surface clouds consist of coordinates of input points; each input point is published at most once in total, never in both classes, and only if its ring has more than `padding` points.", "quantifier": "for all input clouds, parameters, sort tie orders, hash-map orders", "why_tests_cant": "multiset statement over arbitrary clouds", "anchors": ["extraction/app/feature_extraction.cpp:Callback", "lib/include/lidar_feature_library/algorithm.hpp:GetIndicesByValue", "extraction/include/lidar_feature_extraction/label.hpp:AppendXYZIR"]}
{"id": "C19", "title": "No exception escapes the extraction callback", "statement": "For positive parameters the callback always returns normally and publishes exactly three clouds carrying the input stamp, whatever the input cloud; a ring that cannot be processed is skipped as a whole and does not influence what is published for other rings.", "quantifier": "for all clouds (any ring sizes, points at the origin, zero ranges), all positive parameters", "why_tests_cant": "exception freedom over all inputs; only invalid_argument is caught so out_of_range anywhere would kill the node", "anchors": ["extraction/app/feature_extraction.cpp:Callback", "extraction/include/lidar_feature_extraction/neighbor.hpp:NeighborCheckXY", "extraction/include/lidar_feature_extraction/hyper_parameter.hpp:HyperParameters"]}
{"id": "C20", "title": "Rings partition the cloud and are angle-sorted", "statement": "Splitting a cloud into rings puts every point index in exactly one ring, the one named by its ring field, with no index lost or duplicated; removing sparse rings keeps exactly the rings with enough points, unchanged; each ring is a permutation of its indices in non-decreasing polar angle.", "quantifier": "for all clouds and sort implementations", "why_tests_cant": "permutation/partition over arbitrary clouds", "anchors": ["extraction/include/lidar_feature_extraction/ring.hpp:MakePointIndices", "extraction/include/lidar_feature_extraction/ring.hpp:SortEachRingByAngle", "extraction/include/lidar_feature_extraction/ring.hpp:ExtractAngleSortedRings", "extraction/src/ring.cpp:RemoveSparseRings"]}
{"id": "C21", "title": "The angle comparator is the order of atan2", "statement": "The comparator used to sort a ring agrees with comparing atan2(y,x) of the two points, for every pair of points, and hence is a strict weak order as std::sort requires.", "quantifier": "for all pairs of points in the plane", "why_tests_cant": "random tests never hit the axes; the exceptional pairs form a null set", "anchors": ["extraction/include/lidar_feature_extraction/ring.hpp:AHasSmallerPolarAngleThanB", "extraction/include/lidar_feature_extraction/ring.hpp:SortByAtan2"]}
{"id": "C22", "title": "The neighbour test is symmetric and is an angle test", "statement": "Two points not at the origin are neighbours exactly when the angle between their horizontal directions is below the threshold; the test gives the same answer in either argument order, a point at the origin is never a neighbour of one off the origin, and two points at the origin raise invalid_argument.", "quantifier": "for all pairs of points and thresholds", "why_tests_cant": "all reals", "anchors": ["extraction/src/math.cpp:CalcRadian", "extraction/include/lidar_feature_extraction/neighbor.hpp:IsNeighborXY"]}
{"id": "C23", "title": "Range queries return the ranges of the requested interval", "statement": "Asking for the ranges of [begin,end) of a ring returns range(begin), ..., range(end-1).", "quantifier": "for all rings and intervals", "why_tests_cant": "the existing test and the node only use begin = 0", "anchors": ["extraction/include/lidar_feature_extraction/range.hpp:Range::operator()"]}
{"id": "C24", "title": "Debug colours", "statement": "Colouring by label never fails for the eight labels, and points of different feature classes (edge versus surface) get different colours; colouring by value maps [min,max] monotonically into the byte range without overflow.", "quantifier": "for all labels; for all values and all min < max", "why_tests_cant": "all reals; the overflow needs a shifted interval", "anchors": ["extraction/src/color_points.cpp:LabelToColor", "extraction/src/color_points.cpp:ValueToColor", "extraction/include/lidar_feature_extraction/color_points.hpp:ColorPointsByLabel"]}
{"id": "C25", "title": "Three-value sort sorts", "statement": "Sorting three numbers returns the same three numbers in ascending order.", "quantifier": "for all triples", "why_tests_cant": "all linear orders of three values incl. ties", "anchors": ["lib/src/algorithm.cpp:SortThreeValues"]}
{"id": "C26", "title": "Median is the median", "statement": "The median of a non-empty list is independent of the order of its elements and of how the selection algorithm permutes them, has at least half of the values on either side, lies between minimum and maximum, shifts and scales with the data; the median of an empty list is rejected with an exception.", "quantifier": "for all lists, every outcome nth_element is allowed to produce", "why_tests_cant": "nth_element leaves the other elements in unspecified order; all lengths", "anchors": ["lib/src/stats.cpp:Median_", "lib/src/stats.cpp:Median"]}
{"id": "C27", "title": "Covariance arrays round-trip", "statement": "Converting a 36-entry message covariance to a 6x6 matrix and back, or the other way round, returns the original; entry (i,j) of the matrix is array entry 6i+j.", "quantifier": "for all arrays and matrices", "why_tests_cant": "all values", "anchors": ["lib/src/eigen.cpp:GetEigenCovariance", "lib/src/eigen.cpp:FromEigenCovariance"]}
{"id": "C28", "title": "Each queued message is delivered exactly max-age times", "statement": "In the aged queue every pushed message is handed out exactly max(1,max_age) times and then disappears, messages of the same age come out in arrival order, pops never invent messages, and the queue length is bounded by the number of pushed messages not yet exhausted.", "quantifier": "for all interleavings of pushes, pops and clears", "why_tests_cant": "history property over unbounded interleavings", "anchors": ["ekf_localizer/include/ekf_localizer/aged_message_queue.hpp:AgedMessageQueue"]}
{"id": "C29", "title": "Every queued measurement is considered once per tick", "statement": "Each timer tick considers every message that was in the measurement queue at the start of the tick exactly once.", "quantifier": "for all queue contents and ages, all smoothing steps", "why_tests_cant": "depends on the ages of all queued messages; the loop bound is re-evaluated while the queue shrinks", "anchors": ["ekf_localizer/src/pose_measurement.cpp:PoseMeasurement::Update", "ekf_localizer/src/twist_measurement.cpp:TwistMeasurement::Update"]}
{"id": "C30", "title": "Update intervals are positive and bounded, and a clock going backwards changes nothing", "statement": "Every interval returned to the filter is positive and at most 10 seconds; it equals the elapsed time when that is positive and below 10 s; when the clock goes backwards an exception is thrown and the remembered time stays, so the next interval is measured from the last accepted time.", "quantifier": "for all sequences of clock readings and default frequencies", "why_tests_cant": "history over arbitrary clock sequences incl. equal stamps", "anchors": ["ekf_localizer/src/update_interval.cpp:UpdateInterval::Compute", "ekf_localizer/include/ekf_localizer/update_interval.hpp:ComputeInterval"]}
{"id": "C31", "title": "Delay steps are non-negative and never reach beyond the history", "statement": "The delay step is never negative, is the rounded quotient of delay and dt, is monotone in the delay, and a measurement whose step is not smaller than the number of stored steps is discarded without touching the filter.", "quantifier": "for all delays and positive dt, all messages", "why_tests_cant": "all reals; combination of rounding and history length", "anchors": ["ekf_localizer/include/ekf_localizer/delay.hpp:ComputeDelayStep", "ekf_localizer/src/check.cpp:CheckDelayStep", "ekf_localizer/src/pose_measurement.cpp:PoseMeasurement::Update"]}
{"id": "C32", "title": "The delayed-filter prediction is the augmented Kalman prediction", "statement": "Predicting with the time-delay filter gives exactly the state and covariance of an ordinary Kalman prediction A P A^T + Q on the augmented state (shift register of the last N states), although it is computed block by block.", "quantifier": "for all state dimensions, history lengths, states, covariances, A, Q", "why_tests_cant": "matrix identity over all dimensions and values", "anchors": ["kalman_filter/src/time_delay_kalman_filter.cpp:updateP", "kalman_filter/src/time_delay_kalman_filter.cpp:updateX"]}
{"id": "C33", "title": "Delayed measurement equals an ordinary update of the delayed state", "statement": "Updating with a measurement of delay d equals the ordinary Kalman update on the augmented state with the measurement matrix acting on the block d steps back; delays not smaller than the history are rejected and leave the filter unchanged.", "quantifier": "for all dimensions, histories, measurements, delays", "why_tests_cant": "matrix identity over all dimensions; rejection is a state-preservation claim", "anchors": ["kalman_filter/src/time_delay_kalman_filter.cpp:UpdateWithDelay", "kalman_filter/src/time_delay_kalman_filter.cpp:makeMeasurementMatrix"]}
{"id": "C34", "title": "Covariances stay symmetric and positive semidefinite", "statement": "Starting from a symmetric positive semidefinite covariance, after any sequence of predictions (with positive semidefinite process noise) and accepted measurement updates (with positive definite measurement noise) the covariance is symmetric positive semidefinite, and an update never increases it.", "quantifier": "for all operation sequences of any length, all dimensions and delays", "why_tests_cant": "invariant over unbounded histories (in exact arithmetic)", "anchors": ["kalman_filter/include/kalman_filter/kalman_filter.hpp:updateCovariance", "kalman_filter/src/time_delay_kalman_filter.cpp:TimeDelayKalmanFilter"]}
{"id": "C35", "title": "The i-th stored state is the state i predictions ago", "statement": "After initialisation and any number of predictions without measurements, the stored element i steps back is the state predicted i steps earlier (the initial state if fewer predictions happened), and the newest element is the last prediction.", "quantifier": "for all sequences of predictions, all history lengths", "why_tests_cant": "shift register over unbounded histories", "anchors": ["kalman_filter/src/time_delay_kalman_filter.cpp:getX", "kalman_filter/src/time_delay_kalman_filter.cpp:initX", "kalman_filter/src/time_delay_kalman_filter.cpp:updateX"]}
{"id": "C36", "title": "A rejected measurement does not change the estimate", "statement": "A pose or twist message that fails the delay check, contains NaN/Inf, fails the Mahalanobis gate, or is refused by the filter leaves state and covariance exactly as they were.", "quantifier": "for all messages, filter states and thresholds", "why_tests_cant": "all rejection paths for all data", "anchors": ["ekf_localizer/src/pose_measurement.cpp:PoseMeasurement::Update", "ekf_localizer/src/twist_measurement.cpp:TwistMeasurement::Update", "ekf_localizer/src/check.cpp"]}
{"id": "C37", "title": "The transition matrix is the Jacobian of the motion model", "statement": "The matrix used to propagate the covariance is the exact derivative of the motion model (before wrapping yaw) at the current state.", "quantifier": "for all states and time steps", "why_tests_cant": "derivative at every point", "anchors": ["ekf_localizer/src/state_transition.cpp:predictNextState", "ekf_localizer/src/state_transition.cpp:createStateTransitionMatrix"]}
{"id": "C38", "title": "Yaw normalisation", "statement": "The normalised yaw lies in (-pi,pi], differs from the input by a multiple of 2*pi, is idempotent and fixes every yaw already in that interval; the predicted yaw is always normalised.", "quantifier": "for all real angles", "why_tests_cant": "all reals", "anchors": ["ekf_localizer/src/state_transition.cpp:normalizeYaw", "ekf_localizer/src/state_transition.cpp:predictNextState"]}
{"id": "C39", "title": "The one-dimensional filters never overshoot", "statement": "Each z/roll/pitch filter output lies between its previous value and the observation, the first observation initialises it, and its variance after an update is at most the predicted variance and at most the observation variance.", "quantifier": "for all observation sequences, stddevs and time steps", "why_tests_cant": "history invariant over all sequences", "anchors": ["ekf_localizer/include/ekf_localizer/ekf_localizer.hpp:Simple1DFilter"]}
{"id": "C40", "title": "Nothing is published before initialisation, and re-initialisation forgets old measurements", "statement": "The localizer publishes neither transform nor odometry before an initial pose was accepted; accepting an initial pose resets the filter to that pose and empties both measurement queues, so no older measurement influences later estimates.", "quantifier": "for all interleavings of timer ticks, initial poses, pose and twist messages", "why_tests_cant": "schedules of callbacks are unbounded", "anchors": ["ekf_localizer/src/ekf_localizer.cpp:timerCallback", "ekf_localizer/src/ekf_localizer.cpp:callbackInitialPose"]}
{"id": "C41", "title": "A failing transform lookup is handled", "statement": "When the transform needed to interpret an initial pose cannot be found, the node reports it and keeps its state; it never dereferences a missing transform.", "quantifier": "for all initial poses and transform-lookup outcomes", "why_tests_cant": "needs the lookup to fail in every try", "anchors": ["ekf_localizer/src/ekf_localizer.cpp:callbackInitialPose", "ekf_localizer/src/tf.cpp:LookupTransform"]}
{"id": "C42", "title": "Frame names lose exactly one leading slash", "statement": "Normalising a frame name removes one leading '/', leaves names without it unchanged, and is defined for every string including the empty one.", "quantifier": "for all strings", "why_tests_cant": "all strings incl. the empty one", "anchors": ["ekf_localizer/src/string.cpp:EraseBeginSlash"]}
{"id": "C43", "title": "Published covariance carries the filter variances in the right places", "statement": "The pose covariance published by the localizer holds the filter covariance of x, y, yaw at rows/columns 0, 1, 5 and zero elsewhere, the twist covariance holds vx, wz at 0 and 5 and zero elsewhere; reading them back with the measurement code returns the filter's blocks.", "quantifier": "for all filter covariances", "why_tests_cant": "all matrices; index bookkeeping of two packages", "anchors": ["ekf_localizer/src/covariance.cpp", "ekf_localizer/src/pose_measurement.cpp:PoseMeasurementCovariance", "ekf_localizer/src/twist_measurement.cpp:TwistMeasurementCovariance"]}
{"id": "C44", "title": "The optimizer terminates and reports why", "statement": "An optimisation run evaluates at most max_iter updates, returns success exactly when it stopped because of convergence, growing error or growing scale, returns the initial pose unchanged for empty input or a non-positive iteration budget, and never returns a pose with larger error than a pose it had already accepted.", "quantifier": "for all problems, scans, initial poses and iteration limits", "why_tests_cant": "loop over arbitrary problem behaviour", "anchors": ["localization/include/lidar_feature_localization/optimizer.hpp:Optimizer::Run", "localization/include/lidar_feature_localization/optimization_result.hpp"]}
{"id": "C45", "title": "Robust weights", "statement": "The Huber loss is continuous, non-decreasing, at most the squared error and at least zero; its derivative is the weight used, which lies in (0,1], is 1 for small errors and non-increasing.", "quantifier": "for all non-negative errors and positive k", "why_tests_cant": "all reals; derivative everywhere incl. the switch point", "anchors": ["localization/src/robust.cpp:Huber", "localization/src/robust.cpp:HuberDerivative", "localization/src/optimizer.cpp:ComputeWeights"]}
{"id": "C46", "title": "The weighted step solves the normal equations", "statement": "The update step is the weighted least-squares solution: it satisfies the normal equations and no other step has a smaller weighted linearised cost; when the problem is degenerate the step is zero.", "quantifier": "for all Jacobians, residuals and non-negative weights with non-singular normal matrix", "why_tests_cant": "optimality over all competing steps", "anchors": ["localization/src/optimizer.cpp:WeightedUpdate", "localization/src/optimizer.cpp:CalcUpdate", "localization/src/degenerate.cpp:IsDegenerate"]}
{"id": "C47", "title": "Quaternion product matrices", "statement": "The left and right matrices of quaternions multiply coordinate vectors exactly as the Hamilton product does, commute with each other, and for unit quaternions are orthogonal.", "quantifier": "for all quaternions", "why_tests_cant": "polynomial identities over all reals", "anchors": ["rotationlib/src/quaternion.cpp:LeftMultiplicationMatrix", "rotationlib/src/quaternion.cpp:RightMultiplicationMatrix"]}
{"id": "C48", "title": "Hat is the cross product", "statement": "The hat matrix of a vector applied to another vector is their cross product; it is skew-symmetric and has trace zero.", "quantifier": "for all vectors", "why_tests_cant": "all reals", "anchors": ["rotationlib/src/hat.cpp:Hat"]}
{"id": "C49", "title": "The rotation Jacobian is the derivative of rotating a point", "statement": "The 3x4 matrix used in the edge and surface Jacobians is the exact derivative, with respect to the quaternion coefficients, of the vector part of q p q*.", "quantifier": "for all quaternions and points", "why_tests_cant": "derivative at every point", "anchors": ["rotationlib/src/jacobian/quaternion.cpp:DRpDq"]}
{"id": "C50", "title": "Roll-pitch-yaw conversion gives a unit quaternion rotating as Rz Ry Rx", "statement": "The quaternion built from roll, pitch and yaw has norm one and rotates every vector as the product of the three elementary rotations (yaw after pitch after roll).", "quantifier": "for all angles and vectors", "why_tests_cant": "all reals", "anchors": ["rotationlib/src/quaternion.cpp:RPYToQuaternionXYZ"]}
{"id": "C51", "title": "Rotation-vector conversion", "statement": "The quaternion built from a rotation vector has norm one, is the identity for (near-)zero vectors, and rotates by the length of the vector about its axis; opposite vectors give inverse rotations.", "quantifier": "for all vectors", "why_tests_cant": "all reals incl. the small-angle branch", "anchors": ["localization/src/posevec.cpp:AngleAxisToQuaternion"]}
{"id": "C52", "title": "Edge residual", "statement": "The residual of a point with respect to a line through two distinct points vanishes exactly on the line, its length is the point-line distance times the distance of the two points, and its Jacobian row is the derivative of the residual with respect to quaternion and translation. The triple cross product of the point and the two points is the vector from the point to its foot on the line, times the squared distance of the two points.", "quantifier": "for all points and lines, all poses", "why_tests_cant": "all reals; derivative at every pose", "anchors": ["localization/src/edge.cpp:MakeEdgeResidual", "localization/src/edge.cpp:MakeEdgeJacobianRow", "localization/src/edge.cpp:TripletCross"]}
{"id": "C53", "title": "Surface residual", "statement": "The residual of a point with respect to a plane w.x+1=0 vanishes exactly on the plane, its absolute value is the Euclidean distance to the plane, and its Jacobian row is the derivative of the residual with respect to quaternion and translation.", "quantifier": "for all points and non-zero w, all poses", "why_tests_cant": "all reals", "anchors": ["localization/include/lidar_feature_localization/surface.hpp:SignedPointPlaneDistance", "localization/include/lidar_feature_localization/surface.hpp:MakeJacobianRow"]}
{"id": "C54", "title": "Closest prior pose", "statement": "The stamped store returns, for any query time and any non-empty history of insertions, an entry whose time is closest to the query among all stored entries (the later one on ties), with the object last inserted for that time.", "quantifier": "for all insertion histories and query times", "why_tests_cant": "history and order-independence over all sequences", "anchors": ["localization/include/lidar_feature_localization/stamp_sorted_objects.hpp:Insert", "localization/include/lidar_feature_localization/stamp_sorted_objects.hpp:GetClosest"]}
{"id": "C55", "title": "Removing old entries removes the old ones", "statement": "Removing entries older than a time removes exactly the entries whose time is before it, is defined for every time, and therefore bounds the store of prior poses.", "quantifier": "for all insertion histories and times", "why_tests_cant": "the unit test encodes the reverse behaviour; the undefined case needs all entries newer", "anchors": ["localization/include/lidar_feature_localization/stamp_sorted_objects.hpp:RemoveOlderThan", "localization/include/lidar_feature_localization/subscriber.hpp:PoseUpdateCallback"]}
{"id": "C56", "title": "The localizer never queries an empty store", "statement": "Whatever the interleaving of prior-pose callbacks with the pose-update callback, the closest-entry query is never made on an empty store, and nothing is published for a scan that arrives before any prior pose.", "quantifier": "for all interleavings of the locked operations of both callbacks", "why_tests_cant": "schedules cannot be enumerated by tests", "anchors": ["localization/include/lidar_feature_localization/subscriber.hpp:PoseUpdateCallback", "localization/include/lidar_feature_localization/subscriber.hpp:SetOptimizationStartPose", "localization/include/lidar_feature_localization/stamp_sorted_objects.hpp"]}
{"id": "C57", "title": "The localizer pose is a function of prior and scan only", "statement": "Each published pose depends only on the map, the scan and the prior chosen for it, not on earlier scans or poses; the pose is defined after initialisation.", "quantifier": "for all histories of updates", "why_tests_cant": "history independence (two-run property)", "anchors": ["localization/include/lidar_feature_localization/localizer.hpp:Localizer", "localization/include/lidar_feature_localization/subscriber.hpp:PoseUpdateCallback"]}
{"id": "C58", "title": "Recent scans", "statement": "Asking for the n most recent scans returns the concatenation, in insertion order, of the last min(n,count) transformed scans; asking for all returns all of them.", "quantifier": "for all histories and n >= 0", "why_tests_cant": "history", "anchors": ["localization/include/lidar_feature_localization/recent_scans.hpp:RecentScans", "localization/include/lidar_feature_localization/point_cloud_map.hpp:PointCloudMap"]}
{"id": "C59", "title": "The map builder adds a scan exactly when the pose moved enough", "statement": "The map is the concatenation of the transformed non-empty scans at the first pose and at each pose that moved at least the translation or rotation threshold from the last added one; empty clouds never change it; with an empty map no file is written.", "quantifier": "for all sequences of scans and poses, whatever the uninitialised previous pose contains", "why_tests_cant": "history over unbounded sequences; independence of an uninitialised member", "anchors": ["mapping/include/lidar_feature_mapping/map.hpp:MapBuilder::Callback", "mapping/include/lidar_feature_mapping/map.hpp:PoseDiffIsSufficientlySmall"]}
{"id": "C60", "title": "The published path is the full history", "statement": "After k pose messages the last published path holds exactly those k poses in arrival order and its header is that of the latest pose.", "quantifier": "for all sequences of pose messages", "why_tests_cant": "history", "anchors": ["path_generator/include/path_generator/path_generator.hpp"]}
{"id": "C61", "title": "Point conversion round-trips", "statement": "Packing point tuples with a field layout and unpacking the bytes with the same layout returns the tuples, for both byte orders, and the packed data has length points * point_step.", "quantifier": "for all layouts with increasing non-overlapping fields, all tuples of representable values, both byte orders", "why_tests_cant": "all layouts and values", "anchors": ["point_type_converter/point_type_converter/convert.py:create_point_format", "point_type_converter/point_type_converter/convert.py:unpack_point_bytes", "point_type_converter/point_type_converter/convert.py:pack_point_data"]}
{"id": "C62", "title": "The converter publishes every valid point once, in order", "statement": "For any input cloud that has the required fields, the converted cloud holds x,y,z,intensity and ring of exactly the points that are not all-zero, in input order, width equals their number and the data length is 32 bytes per point.", "quantifier": "for all clouds and all legal input layouts", "why_tests_cant": "all layouts: the inserted padding field collides with fields at byte 12", "anchors": ["point_type_converter/point_type_converter/convert.py:PointTypeConverter"]}
{"id": "C63", "title": "Map frame is the centroid of the map", "statement": "The published map-to-viewer transform is the arithmetic mean of the map points, lies within their bounding box, and is finite for every map.", "quantifier": "for all maps", "why_tests_cant": "all point sets incl. the empty one", "anchors": ["map_tf_generator/src/map_tf_generator_node.cpp"]}
{"id": "C64", "title": "Degeneracy test and line-reliability test", "statement": "A set of neighbours counts as a reliable line exactly when its largest covariance eigenvalue exceeds three times the middle one, whatever order the eigenvalues come in; a problem counts as degenerate exactly when some eigenvalue is smaller in magnitude than the threshold.", "quantifier": "for all eigenvalue triples and orders", "why_tests_cant": "permutation invariance over all reals", "anchors": ["localization/src/edge.cpp:PrincipalIsReliable", "localization/src/degenerate.cpp:IsDegenerate", "lib/src/algorithm.cpp:SortThreeValues"]}
{"id": "C65", "title": "Initial poses are expressed in the map frame", "statement": "An initial pose given in another frame is mapped into the pose frame by the full rigid transform between the frames: position rotated and translated, yaw added.", "quantifier": "for all initial poses and transforms", "why_tests_cant": "all transforms; tests use the identity rotation", "anchors": ["ekf_localizer/src/ekf_localizer.cpp:callbackInitialPose"]}
{"id": "C66", "title": "Yaw residuals do not see the wrap-around", "statement": "A pose measurement whose yaw equals the estimated yaw modulo a full turn does not move the estimated yaw; more generally the yaw residual used by gate and update has magnitude at most pi.", "quantifier": "for all estimated and measured yaws", "why_tests_cant": "only visible when the heading crosses +-pi", "anchors": ["ekf_localizer/src/pose_measurement.cpp:PoseMeasurement::Update", "ekf_localizer/src/pose_measurement.cpp:PoseMeasurementVector"]}
{"id": "C67", "title": "Mahalanobis gate", "statement": "For a positive definite covariance the gate distance is non-negative, zero exactly when prediction and measurement coincide, symmetric in them, the gate accepts everything a smaller gate accepts, and accepts a measurement equal to the prediction.", "quantifier": "for all vectors, positive definite covariances and gate sizes of any dimension", "why_tests_cant": "all dimensions and matrices", "anchors": ["ekf_localizer/src/mahalanobis.cpp:SquaredMahalanobis", "ekf_localizer/src/mahalanobis.cpp:MahalanobisGate"]}
{"id": "C68", "title": "Transform lookup is retried a bounded number of times", "statement": "The lookup returns the first transform that becomes available within 50 tries and reports absence exactly when all 50 fail; it never loops forever.", "quantifier": "for all sequences of lookup outcomes", "why_tests_cant": "all failure patterns", "anchors": ["ekf_localizer/src/tf.cpp:LookupTransform"]}
{"id": "C69", "title": "Published covariances are positive semidefinite", "statement": "Every pose and twist covariance the localizer publishes is symmetric positive semidefinite, whatever callbacks ran before, provided the message covariances are.", "quantifier": "for all sequences of callbacks, parameters and history lengths", "why_tests_cant": "unbounded histories of messages, ticks and re-initialisations", "anchors": ["ekf_localizer/src/ekf_localizer.cpp:timerCallback", "ekf_localizer/src/covariance.cpp"]}
{"id": "C70", "title": "The localizer does not fail on well-formed input and publishes at every tick", "statement": "With named frames, found transforms, finite initial poses, a clock that advances between ticks and measurements that are not absurdly old, no callback throws, fails an assertion or runs into undefined behaviour, and every tick after the first initial pose publishes exactly one transform and one odometry message.", "quantifier": "for all well-formed sequences of callbacks, any length and interleaving", "why_tests_cant": "absence of failures over all executions", "anchors": ["ekf_localizer/src/ekf_localizer.cpp:EKFLocalizer"]}
{"id": "C71", "title": "Rotation matrices survive the way through quaternions", "statement": "Building a quaternion from the rotation part of a pose and building a pose from that quaternion gives the same rotation, and the quaternion has unit length.", "quantifier": "for all rotation matrices, including rotations by a half turn", "why_tests_cant": "four cases of the conversion, continuum of inputs", "anchors": ["localization/include/lidar_feature_localization/optimizer.hpp:Optimizer::Run", "localization/src/posevec.cpp:MakePose"]}
{"id": "C72", "title": "Point-to-point alignment residual", "statement": "The Jacobian block of the alignment problem is the derivative of its residual (moved source point minus target point) with respect to quaternion and translation.", "quantifier": "for all points and poses", "why_tests_cant": "derivative at every pose", "anchors": ["localization/src/alignment.cpp:MakeJacobian", "localization/src/alignment.cpp:MakeResidual"]}
{"id": "C73", "title": "Robust scale of the errors", "statement": "The error scale is 1.4826 times the median absolute deviation; it is non-negative, unchanged by shifting all errors, proportional to their magnitude, and errors outside an interval that holds more than half of all errors cannot push it above 1.4826 times the interval's length.", "quantifier": "for all non-empty error lists and all implementations of nth_element", "why_tests_cant": "all lists; arbitrarily large outliers", "anchors": ["localization/src/robust.cpp:MedianAbsoluteDeviation", "localization/src/robust.cpp:Scale", "localization/src/optimizer.cpp:NormalizeErrorScale"]}
{"id": "C74", "title": "The step matrix is the derivative of the pose update", "statement": "The seven-by-six matrix used in the normal equations is the derivative, with respect to rotation vector and translation of a step, of the pose that the step leads to; the product with a block's Jacobian is therefore the derivative of the residual along every step.", "quantifier": "for all orientations, positions and steps", "why_tests_cant": "derivative in all directions at every orientation", "anchors": ["localization/src/optimizer.cpp:MakeM", "localization/src/optimizer.cpp:CalcUpdate", "localization/src/posevec.cpp:AngleAxisToQuaternion"]}
{"id": "C75", "title": "Success means the pose was determined", "statement": "A run reports success only if the data determine the pose; a degenerate problem is not reported as a success.", "quantifier": "for all problems and initial poses", "why_tests_cant": "all degenerate problems", "anchors": ["localization/src/optimizer.cpp:WeightedUpdate", "localization/include/lidar_feature_localization/optimizer.hpp:Optimizer::Run"]}
{"id": "C76", "title": "The reported error belongs to the returned pose", "statement": "The error in the result is the total squared residual of the pose in the result.", "quantifier": "for all problems, initial poses and iteration limits", "why_tests_cant": "all executions", "anchors": ["localization/include/lidar_feature_localization/optimizer.hpp:Optimizer::Run", "localization/include/lidar_feature_localization/optimization_result.hpp"]}
{"id": "C77", "title": "The prior used for a scan is the closest one received", "statement": "The prior pose from which a scan is localised is, of all prior poses received so far, one whose time is closest to the scan's.", "quantifier": "for all interleavings of priors and scans with any stamps", "why_tests_cant": "depends on the whole history of both message streams", "anchors": ["localization/include/lidar_feature_localization/stamp_sorted_objects.hpp:RemoveOlderThan", "localization/include/lidar_feature_localization/subscriber.hpp:PoseUpdateCallback"]}
{"id": "C78", "title": "Odometry builds its map from the poses it estimates", "statement": "The map of the odometry holds every scan placed at the pose estimated for it, the first at the identity; each later pose is estimated against the most recent scans, starting from the previous pose; the current pose is the last one estimated.", "quantifier": "for all sequences of scans and all pose estimators", "why_tests_cant": "history over unbounded sequences", "anchors": ["localization/include/lidar_feature_localization/odometry.hpp:Odometry::Update", "localization/include/lidar_feature_localization/recent_scans.hpp", "localization/include/lidar_feature_localization/point_cloud_map.hpp"]}
{"id": "C79", "title": "Labelling a ring misses no feature", "statement": "In every block of a ring, a point at least as curved as the edge threshold is an edge or is suppressed by a linked edge at least as curved; a point at most as curved as the surface threshold is a surface or is suppressed by a linked surface at least as flat or by an edge; no two features of a block are linked. Edges take precedence over surfaces.", "quantifier": "for all ring sizes, curvatures, thresholds, paddings, block counts, neighbour relations and tie orders of the sort", "why_tests_cant": "completeness over all curvature profiles and all legal sort results", "anchors": ["extraction/include/lidar_feature_extraction/label.hpp:AssignLabel", "extraction/include/lidar_feature_extraction/label.hpp:EdgeLabel::Assign", "extraction/include/lidar_feature_extraction/label.hpp:SurfaceLabel::Assign"]}
{"id": "C80", "title": "Nearest neighbours in the map", "statement": "The neighbour search returns the requested number of different points of the map, nearest first, and no point left out is nearer to the query than one returned; a map that has fewer points is not padded with invented neighbours.", "quantifier": "for all maps, queries and neighbour counts, for every correct k-d tree search", "why_tests_cant": "all maps and queries, ties included", "anchors": ["localization/src/kdtree.cpp:KDTreeEigen::NearestKSearch", "lib/src/eigen.cpp:GetRows"]}
{"id": "C81", "title": "An edge point is matched to the line that fits its neighbours best", "statement": "The edge residual of a scan point is, in length, twice the distance of the point, moved by the pose, from the line with the smallest sum of squared distances to its neighbours in the map: no other line has a smaller one. Covariances of neighbours are positive semidefinite.", "quantifier": "for all non-empty maps, poses, points and neighbour counts", "why_tests_cant": "optimality among all lines, all neighbour configurations", "anchors": ["localization/include/lidar_feature_localization/edge.hpp:Edge::Make", "localization/src/edge.cpp:CalcMeanAndCovariance", "localization/src/edge.cpp:MakeEdgeResidual"]}
{"id": "C82", "title": "A surface point is matched to the plane of its neighbours", "statement": "If the neighbours of a surface point lie on a plane the residual is the signed distance of the moved point from that plane; in general the plane is the unique least squares solution of w.x = -1, and the residual is finite.", "quantifier": "for all maps, poses and points", "why_tests_cant": "all neighbour configurations, planes through the origin of the map included", "anchors": ["localization/include/lidar_feature_localization/surface.hpp:EstimatePlaneCoefficients", "localization/include/lidar_feature_localization/surface.hpp:Surface::MakeFromDownsampled", "localization/include/lidar_feature_localization/surface.hpp:CheckPointsDistributeAlongPlane", "localization/include/lidar_feature_localization/math.hpp:SolveLinear"]}
{"id": "C83", "title": "The scan matching problem has one block per feature", "statement": "Building the problem at a pose succeeds for every map and scan and gives one block of three residuals per edge point followed by one block of one residual per point of the downsampled surface scan, in scan order, each with the derivative of its residual by the pose.", "quantifier": "for all maps, scans and rigid poses", "why_tests_cant": "all scans and poses; derivative in all directions", "anchors": ["localization/include/lidar_feature_localization/loam_optimization_problem.hpp:LOAMOptimizationProblem::Make", "localization/include/lidar_feature_localization/edge.hpp:Edge::Make", "localization/include/lidar_feature_localization/surface.hpp:Surface::Make"]}
{"id": "C84", "title": "Scan matching always ends with a rigid pose", "statement": "For a map with edge points and proper planes, scan matching from any rigid initial pose and with any scan ends after at most the given number of iterations without failure, and its result is a rigid pose reached by the documented steps on the matches of the scan.", "quantifier": "for all scans, initial poses and iteration limits", "why_tests_cant": "termination and absence of failure over all inputs", "anchors": ["localization/include/lidar_feature_localization/localizer.hpp:Localizer::Update", "localization/include/lidar_feature_localization/optimizer.hpp:Optimizer::Run", "localization/include/lidar_feature_localization/loam_optimization_problem.hpp"]}
{"id": "C85", "title": "The true pose is a fixed point of scan matching", "statement": "If at the initial pose every edge point lies on a line with its neighbours in the map and every surface point on a plane with its neighbours, scan matching returns that pose unchanged, reports convergence and error zero.", "quantifier": "for all maps, scans and rigid poses that fit perfectly", "why_tests_cant": "all perfectly fitting maps, scans and poses", "anchors": ["localization/include/lidar_feature_localization/localizer.hpp:Localizer::Update", "localization/include/lidar_feature_localization/optimizer.hpp:Optimizer::Run"]}
{"id": "C86", "title": "The localizer is a Kalman filter over past states", "statement": "From the start of the node, over every sequence of initial poses, poses, twists and ticks, the node publishes exactly what a textbook extended Kalman filter over the current and past states would publish: prediction with the derivative of the motion, delayed measurements applied to the state at their time, messages that are not finite, too old or outside the gate ignored, scalar filters for height, roll and pitch; transforms and odometry with the current estimate and its covariance.", "quantifier": "for all parameters and event sequences on which no step fails", "why_tests_cant": "whole-run equivalence with an independently written filter", "anchors": ["ekf_localizer/src/ekf_localizer.cpp:EKFLocalizer::timerCallback", "ekf_localizer/src/ekf_localizer.cpp:EKFLocalizer::callbackInitialPose", "ekf_localizer/src/ekf_localizer.cpp:EKFLocalizer::updateSimple1DFilters", "ekf_localizer/src/ekf_localizer.cpp:publishEstimateResult"]}
{"id": "C87", "title": "The Kalman filters are optimal", "statement": "If mean and covariance of a filter are those of a population, then after the prediction they are those of the population moved by the model, plus the process noise. The gain of an update gives the smallest possible variance of every linear combination of the state among all gains, and the new state minimises the sum of squared misfits to prior and measurement, uniquely; the same holds for a delayed measurement of the filter with history.", "quantifier": "for all dimensions, populations, models, gains and delays", "why_tests_cant": "optimality over all gains and all states", "anchors": ["kalman_filter/src/kalman_filter.cpp:KalmanFilter::predict", "kalman_filter/src/kalman_filter.cpp:KalmanFilter::update", "kalman_filter/src/time_delay_kalman_filter.cpp:TimeDelayKalmanFilter::update"]}
{"id": "C88", "title": "The alignment problem has one block per pair of points", "statement": "Building the alignment problem at a pose gives, for each pair of a source and a target point in order, the vector from the target point to the moved source point, with its derivative by the pose; clouds of different sizes are refused.", "quantifier": "for all clouds and poses", "why_tests_cant": "derivative in all directions, all clouds", "anchors": ["localization/src/alignment.cpp:AlignmentProblem::Make"]}
{"id": "C89", "title": "Every step of the optimiser goes downhill", "statement": "At every iterate of a run on the alignment or the scan matching problem, moving from the iterate along the computed step decreases the weighted sum of squared residuals at first, unless the step is zero.", "quantifier": "for all problems, runs and iterates", "why_tests_cant": "all reachable orientations; a limit statement along a curve", "anchors": ["localization/include/lidar_feature_localization/optimizer.hpp:Optimizer::Run", "localization/src/alignment.cpp:AlignmentProblem::Make", "localization/include/lidar_feature_localization/edge.hpp:Edge::Make", "localization/include/lidar_feature_localization/surface.hpp:Surface::Make"]}
{"id": "C90", "title": "A wrong translation is corrected in one step", "statement": "If the source points are spread out and the initial pose of an alignment is wrong in its translation only, the first step reaches the true pose, however far away it is, and the run reports convergence there.", "quantifier": "for all source clouds that are spread out, true poses and offsets", "why_tests_cant": "all clouds, poses and offsets", "anchors": ["localization/src/alignment.cpp:AlignmentProblem::Make", "localization/include/lidar_feature_localization/optimizer.hpp:Optimizer::Run"]}
{"id": "C91", "title": "Alignment does not depend on the frame of the target", "statement": "Moving the target points and the initial pose by one rigid motion moves the result of an alignment by that motion and changes nothing else: neither message nor iteration count nor error.", "quantifier": "for all clouds, initial poses, iteration limits and rigid motions", "why_tests_cant": "relates two runs for all motions", "anchors": ["localization/src/alignment.cpp:AlignmentProblem::Make", "localization/include/lidar_feature_localization/optimizer.hpp:Optimizer::Run"]}
{"id": "C92", "title": "Results do not depend on the order of the points", "statement": "Alignment of the same pairs of points in another order, and scan matching of the same features in another order, give exactly the same result.", "quantifier": "for all clouds or maps and scans, all permutations, initial poses and iteration limits", "why_tests_cant": "all permutations", "anchors": ["localization/include/lidar_feature_localization/optimizer.hpp:Optimizer::Run", "localization/src/alignment.cpp:AlignmentProblem::Make", "localization/include/lidar_feature_localization/loam_optimization_problem.hpp"]}
{"id": "C93", "title": "Degenerate alignment problems", "statement": "Whether an alignment problem is degenerate depends on the source points alone, not on the pose or the targets; points on a line through the origin of the source frame are always degenerate. A run on such points returns the initial pose unchanged, and reports convergence.", "quantifier": "for all clouds and rigid poses", "why_tests_cant": "all clouds and poses", "anchors": ["localization/src/alignment.cpp:AlignmentProblem::Make", "localization/include/lidar_feature_localization/optimizer.hpp:Optimizer::Run", "localization/include/lidar_feature_localization/degenerate.hpp"]}
{"id": "C94", "title": "Jacobian rows are derivatives", "statement": "MakeJacobian gives one row per point, in order: the derivative of the inner product of the coefficients with the moved point by quaternion and translation; lists of different lengths are refused.", "quantifier": "for all lists of points and coefficients, unit quaternions and translations", "why_tests_cant": "derivative in all directions at all poses", "anchors": ["localization/src/jacobian.cpp:MakeJacobian", "localization/include/lidar_feature_localization/jacobian.hpp"]}
{"id": "C95", "title": "TransformXYZ is the action of rigid motions", "statement": "TransformXYZ moves the first three entries of a vector by the pose and keeps all others; moving by two poses in turn is moving by their product, and the inverse pose undoes a move. Vectors with fewer than three entries are refused.", "quantifier": "for all poses and vectors of any length", "why_tests_cant": "algebraic laws for all poses", "anchors": ["lib/src/eigen.cpp:TransformXYZ"]}
{"id": "C96", "title": "Poses survive being sent", "statement": "A received pose message becomes the rigid pose it describes; a rigid pose that is made into a message (pose, pose with covariance, transform) and read back is unchanged, and frames, stamps, covariances and twists arrive in their places.", "quantifier": "for all messages, poses, covariances, twists, stamps and frames", "why_tests_cant": "round trip over all rotations, including all branches of the matrix to quaternion conversion", "anchors": ["lib/src/ros_msg.cpp:GetIsometry3d", "lib/src/ros_msg.cpp:MakePoseStamped", "lib/src/ros_msg.cpp:MakePoseWithCovarianceStamped", "lib/src/ros_msg.cpp:MakeTransformStamped", "lib/src/ros_msg.cpp:MakeTwistStamped", "lib/src/eigen.cpp:MakeIsometry3d"]}
{"id": "C97", "title": "Published poses are rigid", "statement": "Every pose and every transform that the localization node publishes is a rigid motion, under every interleaving of its callbacks, whatever scans and maps contain.", "quantifier": "for all prior poses, scans, maps, solvers and interleavings", "why_tests_cant": "invariant over all executions", "anchors": ["localization/include/lidar_feature_localization/subscriber.hpp:LocalizationSubscriber", "localization/include/lidar_feature_localization/localizer.hpp:Localizer", "localization/include/lidar_feature_localization/optimizer.hpp:Optimizer::Run", "lib/src/ros_msg.cpp:GetIsometry3d"]}
{"id": "C98", "title": "Line markers show the lines that were added", "statement": "After any sequence of calls on a new marker, its k-th segment is the k-th line that was added, width and colour are those set last (zero, so that nothing is seen, if none was set), header and type are kept; the sequence goes through exactly if all widths and colour components lie between 0 and 1.", "quantifier": "for all sequences of calls", "why_tests_cant": "all call sequences", "anchors": ["lib/src/ros_msg.cpp:InitLines", "lib/src/ros_msg.cpp:AddLine", "lib/src/ros_msg.cpp:SetWidth", "lib/src/ros_msg.cpp:SetColor"]}
{"id": "C99", "title": "Filter keeps the flagged values", "statement": "Filter returns, in order, exactly the values whose flag is set, and refuses lists of different lengths.", "quantifier": "for all lists of flags and values", "why_tests_cant": "all lists", "anchors": ["localization/include/lidar_feature_localization/filter.hpp:Filter"]}
{"id": "C100", "title": "Sample deviation and random indices", "statement": "SampleStandardDeviation is determined by the squared differences of all pairs of values: it does not depend on their order or origin, scales with their unit, and is zero exactly if all are equal; a single value gives NaN. RandomizedUniqueIndices returns every index below the size exactly once.", "quantifier": "for all lists of values, shifts, factors, sizes and shuffles", "why_tests_cant": "laws relating all inputs; every outcome of the random generator", "anchors": ["lib/src/random.cpp:SampleStandardDeviation", "lib/src/random.cpp:RandomizedUniqueIndices"]}
{"id": "C101", "title": "Stacking and selecting", "statement": "HorizontalStack and VectorsToEigen put matrices and vectors below each other, in order, and leave no entry uninitialised; Get returns the points with the given indices, in order, and throws exactly if one of them names no point; the emptiness check throws exactly for the empty cloud.", "quantifier": "for all lists of matrices, vectors, points and indices and all previous contents of memory", "why_tests_cant": "uninitialised memory; all sizes", "anchors": ["lib/include/lidar_feature_library/eigen.hpp:HorizontalStack", "lib/include/lidar_feature_library/eigen.hpp:VectorsToEigen", "lib/src/pcl_utils.cpp:Get", "lib/include/lidar_feature_library/pcl_utils.hpp:ThrowsIfPointCloudIsEmpty"]}
{"id": "C102", "title": "Localization runs on what mapping saved", "statement": "After mapping sessions, localization starts with the key frames of the last session that saw points as its edge map, and other files are left alone; localization refuses to start if a map file is missing; the map loader publishes the points of its file once, in the map frame, and reports a file it cannot read.", "quantifier": "for all sequences of sessions, their messages, and all files present before", "why_tests_cant": "several programs and all file system states", "anchors": ["mapping/src/mapping.cpp:main", "mapping/include/lidar_feature_mapping/map.hpp:MapBuilder::SaveMap", "localization/app/localization.cpp:main", "map_loader/src/map_loader.cpp:MapLoaderNode", "localization/include/lidar_feature_localization/map_io.hpp:SaveMapIfNotEmpty", "localization/include/lidar_feature_localization/edge_surface_map.hpp:EdgeSurfaceMap"]}
{"id": "C103", "title": "A ring scanned the other way round is filtered in mirror image", "statement": "Reversing the order of the points of a ring reverses its occlusion, out-of-range and parallel-beam labels and its curvature, and nothing else.", "quantifier": "for all rings, initial labels, paddings and thresholds", "why_tests_cant": "relates two runs for all rings", "anchors": ["extraction/include/lidar_feature_extraction/occlusion.hpp:LabelOccludedPoints", "extraction/include/lidar_feature_extraction/out_of_range.hpp:LabelOutOfRange", "extraction/include/lidar_feature_extraction/parallel_beam.hpp:LabelParallelBeamPoints", "extraction/src/curvature.cpp:CalcCurvature"]}
{"id": "C104", "title": "Keeping stamps as doubles costs less than a microsecond", "statement": "The prior pose used for a scan is one that was received, and its exact stamp is at most 512 ns farther from the stamp of the scan than that of any pose received, for stamps between 2006 and 2043; later stamps are never stored before earlier ones; in simulated time (below 2^53 ns) the closest pose is found exactly.", "quantifier": "for all histories of poses and all scans with stamps in the interval", "why_tests_cant": "rounding at every stamp; all histories", "anchors": ["localization/include/lidar_feature_localization/subscriber.hpp:Nanoseconds", "localization/include/lidar_feature_localization/stamp_sorted_objects.hpp:StampSortedObjects::GetClosest", "localization/include/lidar_feature_localization/stamp_sorted_objects.hpp:StampSortedObjects::Insert"]}
{"id": "C105", "title": "Launched programs are connected", "statement": "For all values of their arguments, in every namespace, the launch files start, and messages flow along the whole pipeline: sensor, converter, extraction, localizer, filter and back, with the same topics, message types and compatible qualities of service, reliably between the programs; map and path reach readers that start late; the map reaches the map frame generator; the views shipped with the launch files show what is launched, and the initial pose set in them reaches the filter.", "quantifier": "for all topic arguments and namespaces", "why_tests_cant": "configuration of several programs, all argument values", "anchors": ["lidar_feature_launch/launch/localization.launch.py", "lidar_feature_launch/launch/mapping.launch.py", "lidar_feature_launch/launch/odometry.launch.py", "map_tf_generator/launch/map_tf_generator.launch.xml", "rviz/lidar_feature_localization.rviz", "localization/include/lidar_feature_localization/subscriber.hpp:LocalizationSubscriber", "point_type_converter/point_type_converter/convert.py:PointTypeConverter"]}
{"id": "C106", "title": "Extraction ignores heights", "statement": "Two clouds whose points have pairwise the same x, y and ring are treated alike: the points at the same positions are published as edge and surface features, in the same order and colours, whatever their heights and other fields are.", "quantifier": "for all clouds, heights, parameters and choices of the library functions", "why_tests_cant": "relates two runs for all clouds", "anchors": ["extraction/app/feature_extraction.cpp:FeatureExtraction::Callback", "extraction/include/lidar_feature_extraction/ring.hpp:ExtractAngleSortedRings", "extraction/include/lidar_feature_extraction/math.hpp:XYNorm"]}
{"id": "C107", "title": "Edge and surface clouds are paired scan by scan", "statement": "Whatever arrives in whatever order, the localizer is only ever given an edge and a surface cloud with the same stamp. If neither topic gets more than ten messages ahead of the other, it is called exactly once for every scan, in order, with the two clouds extracted from it.", "quantifier": "for all message sequences; for all scans and interleavings within the lag", "why_tests_cant": "all interleavings of two topics", "anchors": ["localization/include/lidar_feature_localization/subscriber.hpp:LocalizationSubscriber", "extraction/app/feature_extraction.cpp:FeatureExtraction::Callback", "mapping/src/mapping.cpp:MapSubscriber"]}
{"id": "C108", "title": "The synchroniser makes exactly the pairs the history demands", "statement": "When the stamps of each of two topics increase, whatever messages are missing on either, two messages are handed to the callback exactly if they have the same stamp and, when the second of them arrives, the other topic is fewer messages past that stamp than the queue is long. Pairs come in the order of their stamps, none twice; the interleaving does not matter as long as no topic lags too far; the map saved by the mapping program is made of the key frames among those pairs.", "quantifier": "for all sequences of messages with increasing stamps per topic, all queue lengths, all gaps", "why_tests_cant": "all interleavings and gaps of two topics", "anchors": ["mapping/src/mapping.cpp:MapSubscriber", "mapping/src/mapping.cpp:main", "localization/include/lidar_feature_localization/subscriber.hpp:LocalizationSubscriber"]}
{"id": "C109", "title": "One pose per scan, in order of time", "statement": "With callbacks that run to completion and priors arriving at any time, even in the middle of a callback, the localizer publishes, in order, one pose and one transform for every pair of clouds handled after the first prior arrived and nothing else; the stamps of the poses increase strictly, and each pose is the optimiser's result for exactly the edge and surface cloud with that stamp, started from a prior that was received.", "quantifier": "for all sequences of cloud messages, all priors, all interleavings", "why_tests_cant": "all interleavings of four topics", "anchors": ["localization/include/lidar_feature_localization/subscriber.hpp:LocalizationSubscriber::PoseUpdateCallback", "localization/include/lidar_feature_localization/subscriber.hpp:LocalizationSubscriber::SetOptimizationStartPose"]}
{"id": "C110", "title": "Features do not depend on the order of the points", "statement": "Two messages with the same points in different orders give the same features: both are processed, each ring contributes the same edge, surface and coloured points in the same order, and the published clouds differ at most in the order of the rings. This holds if no two points of a ring have the same direction from the sensor; an example shows that points in the same direction break it.", "quantifier": "for all clouds, all orders of their points, all parameters, and all choices of the library functions", "why_tests_cant": "relates two runs for all clouds and all permutations", "anchors": ["extraction/app/feature_extraction.cpp:FeatureExtraction::Callback", "extraction/include/lidar_feature_extraction/ring.hpp:ExtractAngleSortedRings", "extraction/include/lidar_feature_extraction/ring.hpp:SortByAtan2"]}
{"id": "C111", "title": "Extraction knows no unit of length", "statement": "Measuring all coordinates in another unit, with the length thresholds converted accordingly (the curvature thresholds by the square), gives the same features: the same rings, the same labels and the same points in the new unit, or the same failure.", "quantifier": "for all clouds, parameters, and positive factors", "why_tests_cant": "relates two runs for all clouds and factors", "anchors": ["extraction/app/feature_extraction.cpp:FeatureExtraction::Callback", "extraction/src/curvature.cpp:CalcCurvature", "extraction/include/lidar_feature_extraction/hyper_parameter.hpp:HyperParameters"]}
{"id": "C112", "title": "The filter node prefers no place and no time", "statement": "Displacing the origin of the map and of the clock, by adding the same offset to the position in every pose message, initial or measured, and the same duration to every stamp and clock reading, displaces positions and stamps of all published messages by just that and changes nothing else: headings, velocities, covariances, and which measurements are rejected remain, and so do failures.", "quantifier": "for all sequences of callbacks, parameters and offsets", "why_tests_cant": "relates two whole executions for all executions", "anchors": ["ekf_localizer/src/ekf_localizer.cpp:EKFLocalizer::timerCallback", "ekf_localizer/src/ekf_localizer.cpp:EKFLocalizer::callbackInitialPose", "kalman_filter/src/time_delay_kalman_filter.cpp:TimeDelayKalmanFilter"]}
{"id": "C113", "title": "Moving the map moves the result of scan matching", "statement": "If the map and the initial pose are moved by the same vector, scan matching returns the moved pose with the same message, number of iterations and errors, or fails in the same way. This holds without proviso for edges; for surface points it holds if at the poses the optimiser visits their neighbours lie on a plane that contains the origin neither before nor after the move. It fails otherwise: wherever the neighbours of a surface point are not exactly on one plane, there is a move after which scan matching divides by zero.", "quantifier": "for all maps, scans, initial poses, moves and iteration limits", "why_tests_cant": "relates two whole optimisations for all maps and moves", "anchors": ["localization/include/lidar_feature_localization/loam_optimization_problem.hpp:LOAMOptimizationProblem::Make", "localization/include/lidar_feature_localization/edge.hpp:Edge::Make", "localization/include/lidar_feature_localization/surface.hpp:Surface::Make", "localization/include/lidar_feature_localization/surface.hpp:EstimatePlaneCoefficients", "localization/include/lidar_feature_localization/optimizer.hpp:Optimizer::Run"]}
{"id": "C114", "title": "A late measurement counts like one in time", "statement": "For a linear process, whenever and in whichever order the measurements are passed to the filter, each with the number of predictions made since it was taken as delay and within the stored history, no update is refused and the newest state and its covariance are those of the ordinary Kalman filter that gets every measurement right when it is taken. Two such sequences of calls with the same predictions and measurements leave the same filter, including the history.", "quantifier": "for all dimensions, history lengths, predictions, measurements, delays and orders, with positive semidefinite process noise and positive definite measurement noise", "why_tests_cant": "all interleavings of predictions and delayed measurements, of any length", "anchors": ["kalman_filter/src/time_delay_kalman_filter.cpp:TimeDelayKalmanFilter::update", "kalman_filter/src/time_delay_kalman_filter.cpp:TimeDelayKalmanFilter::predict", "kalman_filter/src/time_delay_kalman_filter.cpp:TimeDelayKalmanFilter::getLatestX", "kalman_filter/src/time_delay_kalman_filter.cpp:TimeDelayKalmanFilter::getLatestP"]}
{"id": "C115", "title": "Smoothing counts a measurement once", "statement": "Passing a measurement r times to the filter, at any times within the history, with its covariance multiplied by r, leaves exactly the filter that gets it once with its own covariance; so smoothing spreads the effect of measurements over time without giving them more or less weight. The node multiplies the covariances of pose and twist messages by the smoothing steps in this way.", "quantifier": "for all dimensions, measurements, repetition counts (which may differ between measurements), delays and orders, linear process", "why_tests_cant": "all interleavings, all counts", "anchors": ["kalman_filter/src/time_delay_kalman_filter.cpp:TimeDelayKalmanFilter::update", "ekf_localizer/src/pose_measurement.cpp:PoseMeasurementCovariance", "ekf_localizer/src/twist_measurement.cpp:TwistMeasurementCovariance"]}
{"id": "C116", "title": "Every threshold of the extraction acts in one direction", "statement": "A higher edge threshold, a narrower interval of ranges, and lower thresholds for occlusion and parallel beams only remove points from the published edge cloud and keep the order of the rest; the last three and a lower surface threshold do the same to the surface cloud. The surface threshold has no influence on the edge cloud. In each ring the remaining edge (surface) points are exactly the former ones whose curvature meets the new threshold and which pass the new filters, and whether a ring is skipped does not depend on these thresholds.", "quantifier": "for all clouds, all pairs of parameter settings ordered in this way, and all choices of the library functions", "why_tests_cant": "relates two runs for all clouds and parameters; the greedy labelling could react to a threshold anywhere in the ring", "anchors": ["extraction/include/lidar_feature_extraction/label.hpp:EdgeLabel::Assign", "extraction/include/lidar_feature_extraction/label.hpp:SurfaceLabel::Assign", "extraction/include/lidar_feature_extraction/label.hpp:AssignLabel", "extraction/app/feature_extraction.cpp:FeatureExtraction::Callback"]}
{"id": "C117", "title": "Measurements that agree with the estimate leave it where it is", "statement": "If predictions are right and measurements exact, then after any sequence of predictions and measurements, whatever their delays and covariances, every state the time-delay filter holds is the true one. For the node: if all initial poses and pose messages say that the vehicle is at one place (the heading of a pose message up to full turns) and all twist messages that it does not move, then every published transform and odometry message says that it stands there, in every execution; on well-formed input all messages that are due are published.", "quantifier": "for all sequences of callbacks, arrival times, stamps, covariances (those of height, roll and pitch positive), smoothing steps, gates, and parameters", "why_tests_cant": "needs all interleavings of messages and timer and all covariances; a test sees only few", "anchors": ["ekf_localizer/src/ekf_localizer.cpp:EKFLocalizer::timerCallback", "ekf_localizer/src/ekf_localizer.cpp:EKFLocalizer::callbackInitialPose", "kalman_filter/include/kalman_filter/time_delay_kalman_filter.hpp:TimeDelayKalmanFilter", "ekf_localizer/include/ekf_localizer/ekf_localizer.hpp:Simple1DFilter"]}
{"id": "C118", "title": "Logging does no harm", "statement": "The warnings of the localizer node have no effect on what it does: with its logging the node publishes the same as without, and it fails only where it would fail anyway, whatever the texts it logs contain.", "quantifier": "for all sequences of callbacks, all frame names, all clock readings, all ways of writing numbers", "why_tests_cant": "the text of a warning contains names chosen by other nodes; the failing names and the moments at which the line is actually shown are not those of a test", "anchors": ["ekf_localizer/include/ekf_localizer/warning.hpp:Warning", "ekf_localizer/src/check.cpp:CheckFrameId", "ekf_localizer/src/ekf_localizer.cpp:EKFLocalizer::timerCallback"]}
{"id": "C119", "title": "A measurement that is left out is reported with the true reason", "statement": "For every pose or twist message the localizer processes, it asks for a warning on the frame exactly if the frame is not the expected one, for a warning on the time exactly if the stamp is in the future, and for one further warning exactly if the filter does not use the measurement; this one names the reason, and the reason is true: too many steps of delay, an entry that is not finite, a distance beyond the gate, or no Kalman gain. A tick that asks for no warning has used every message it took from its queues.", "quantifier": "for all messages, filters, gates, delays, clock readings, states of the node", "why_tests_cant": "a test checks one reason at a time; that no message is dropped silently needs all paths through the loop", "anchors": ["ekf_localizer/src/check.cpp:CheckDelayStep", "ekf_localizer/src/check.cpp:CheckMahalanobisGate", "ekf_localizer/src/pose_measurement.cpp:PoseMeasurement::Update", "ekf_localizer/src/twist_measurement.cpp:TwistMeasurement::Update", "ekf_localizer/include/ekf_localizer/warning.hpp:Warning"]}
{"id": "C120", "title": "A problem that persists is shown every two seconds", "statement": "While a throttled warning of the localizer is asked for again and again, it is shown at least every two seconds.", "quantifier": "for all sequences of callbacks with all clock readings", "why_tests_cant": "depends on the order of all warnings since the start of the process", "anchors": ["ekf_localizer/include/ekf_localizer/warning.hpp:Warning::WarnThrottle", "ekf_localizer/src/check.cpp:CheckFrameId", "ekf_localizer/src/check.cpp:CheckDelayTime"]}
{"id": "C121", "title": "The texts of the extraction's exceptions are true", "statement": "When a function of the feature extraction refuses its arguments, the text of the exception names the wrong argument, gives its value and the bound as decimal numbers, and the relation it states between the two holds.", "quantifier": "for all arguments of the index ranges, neighbour tests, spans, fill functions and convolution", "why_tests_cant": "tests compare the texts for a few small numbers; here for all numbers, negative ones included, and that the stated relation is the one violated", "anchors": ["extraction/include/lidar_feature_extraction/range_message.hpp:RangeMessageLargerThan", "extraction/src/index_range.cpp:IndexRange::ThrowExceptionIfOutOfRange", "extraction/include/lidar_feature_extraction/neighbor.hpp:NeighborCheckXY::operator()", "extraction/include/lidar_feature_extraction/fill.hpp:FillFromLeft", "lib/include/lidar_feature_library/span.hpp:span::at", "extraction/src/convolution.cpp:Convolution1D"]}
{"id": "C122", "title": "A ring is published or reported with a true reason", "statement": "For each scan the extraction node goes through all rings with more than padding points; each of them is either published, all its points in the coloured cloud, or reported with exactly one warning giving a true reason, and then no point of it is published; rings too small for the curvature or for the blocks are always reported. Logging itself never fails or changes what is published.", "quantifier": "for all clouds, valid parameters, platforms (sorting, order of the rings, rounding) and flags of the message", "why_tests_cant": "the warning is the text of whichever exception any function called for the ring throws, used as a printf format; a test sees single rings", "anchors": ["extraction/app/feature_extraction.cpp:FeatureExtraction::Callback", "extraction/include/lidar_feature_extraction/neighbor.hpp:NeighborCheckXY::NeighborCheckXY", "extraction/src/convolution.cpp:Convolution1D", "extraction/src/index_range.cpp:IndexRange::IndexRange", "extraction/src/math.cpp:CalcRadian"]}
{"id": "C123", "title": "What was measured is known at least as well as it was measured", "statement": "When the localizer uses a measurement, the covariance it afterwards states for what was measured is at most that of the measurement, and the estimate has moved towards the measurement and not beyond it. For the node: when a tick uses a pose or twist message that is not delayed, the covariance published at that tick for x, y, yaw or for the speeds is at most the message's times the number of times a message is used, whatever other messages are used before or after it in that tick.", "quantifier": "for all filters with a covariance, measurements and delays; for all executions of the node with messages whose covariances are covariances, and all ticks", "why_tests_cant": "the order of matrices for all covariances; the history of the node before the tick is arbitrary", "anchors": ["kalman_filter/include/kalman_filter/time_delay_kalman_filter.hpp:TimeDelayKalmanFilter", "ekf_localizer/src/ekf_localizer.cpp:EKFLocalizer::timerCallback", "ekf_localizer/src/pose_measurement.cpp:PoseMeasurement::Update", "ekf_localizer/src/twist_measurement.cpp:TwistMeasurement::Update"]}
{"id": "C124", "title": "More information never makes the estimate less certain", "statement": "Given the same predictions with at most as much noise and the same measurements with at most as much noise, possibly further measurements in between and a start at least as certain, the filter with delayed measurements ends at least as certain: its covariance is at most the other one's, in particular each variance of the newest state. What was measured or predicted plays no role.", "quantifier": "for all dimensions, lengths of the history, initial covariances and pairs of sequences of predictions and updates (delays inside or outside the history) of which one is at least as informative, with positive definite measurement noise", "why_tests_cant": "the order of matrices over unbounded sequences of calls", "anchors": ["kalman_filter/include/kalman_filter/time_delay_kalman_filter.hpp:TimeDelayKalmanFilter", "kalman_filter/src/time_delay_kalman_filter.cpp:TimeDelayKalmanFilter::update", "kalman_filter/src/time_delay_kalman_filter.cpp:TimeDelayKalmanFilter::predict"]}
{"id": "C125", "title": "Without measurements the localizer goes on as it was going", "statement": "Once the timer of the EKF localizer has ticked with its queues of measurements empty and no further messages arrive, each tick whose clock is not earlier than that of the last accepted tick publishes the previous estimate moved on for the time between the two ticks, at most ten seconds: the position by speed times time along the yaw, the yaw by turn rate times time up to whole turns, the speeds, height, roll and pitch as they were, and the variances of the two speeds greater by the squares of the configured noise times the time. So the published position stays within speed times elapsed time of the last one, and a vehicle that was not turning goes straight on. The queues do run empty: after the node has reported, without getting messages, as often as the number of messages received times their smoothing steps.", "quantifier": "for all parameters, numbers of stored steps, filter states, event sequences before, clock readings and sequences of timer events after", "why_tests_cant": "A test replays one gap of one length from one state. The claim is about all gaps, all tick times (also repeated or decreasing) and all filter states, and the bound on the drift needs an induction over the ticks.", "anchors": ["ekf_localizer/src/ekf_localizer.cpp:EKFLocalizer::timerCallback", "ekf_localizer/src/state_transition.cpp:predictNextState", "ekf_localizer/src/update_interval.cpp:UpdateInterval", "ekf_localizer/include/ekf_localizer/aged_message_queue.hpp:AgedMessageQueue::pop"]}
{"id": "C126", "title": "What is extracted from a ring does not depend on the other rings", "statement": "If two clouds hold the same points in some ring, in any order and all in different directions, then of this ring both callbacks publish the same edge, surface and coloured points in the same order, whatever else is in the clouds. In particular a ring gives what it would give alone, and the features of two clouds without a common ring number are together those of the joint cloud.", "quantifier": "for all clouds, ring numbers, valid hyper-parameters, implementations of std::sort and iteration orders of the hash map", "why_tests_cant": "A test compares a few clouds. The other rings may hold any number of points anywhere; sparse rings, rings whose processing throws and the order in which the hash map yields the rings all matter.", "anchors": ["extraction/app/feature_extraction.cpp:FeatureExtraction::Callback", "extraction/include/lidar_feature_extraction/ring.hpp:ExtractAngleSortedRings", "extraction/src/ring.cpp:RemoveSparseRings"]}
{"id": "C127", "title": "The coordinate frames of all programs fit together", "statement": "With the default names, the transforms broadcast by the localizer, the filter node and the map frame generator form one tree with root map: each goes from map to another frame, and no frame is broadcast by two programs or under two parents. Everything is published in a frame of this tree: the clouds of the extraction in the frame the localizer broadcasts, maps and localizer poses in map, which is also the frame the filter node expects. For each scan whose pose is published the transform placing its clouds is broadcast with the same stamp and pose, and no other.", "quantifier": "for all inputs and histories of the extraction, the localizer (all interleavings of its callbacks), the filter node, the map loader and the map frame generator, and all viewer frame names other than the three used", "why_tests_cant": "The frames are written in five packages; a test of one package cannot see the others, and the claim is about all messages of all runs.", "anchors": ["extraction/app/feature_extraction.cpp:FeatureExtraction::Callback", "localization/include/lidar_feature_localization/subscriber.hpp:LocalizationSubscriber::PoseUpdateCallback", "ekf_localizer/src/ekf_localizer.cpp:EKFLocalizer::timerCallback", "map_loader/src/map_loader.cpp:LoadMap", "map_tf_generator/src/map_tf_generator_node.cpp:MapTFGeneratorNode::onPointCloud"]}
{"id": "C128", "title": "A node works with the parameters it was given, or does not start", "statement": "The extraction starts exactly if each of its nine parameters is of the declared type and positive; then it works with the values given and the documented default for each one not given, and never fails because of them afterwards. The filter node likewise works with the values given or the defaults of its twelve parameters; with finite numbers, at least one kept state and a named frame it never fails on regular events. The map loader starts exactly if a file name is given, and publishes that map. Other names are ignored. The shipped parameter file starts the extraction with its values. Violated: integers beyond 32 bits are replaced by other numbers without notice; the filter node accepts a non-positive number of kept states and then fails when the state is read; a smallest range above the largest is accepted and suppresses all features.", "quantifier": "for all sets of parameter values of all types, including infinite and NaN numbers, all clouds and all event sequences", "why_tests_cant": "Parameter sets are unbounded and no test starts the nodes; the claim relates what the user wrote to what all later callbacks compute with.", "anchors": ["extraction/include/lidar_feature_extraction/hyper_parameter.hpp:HyperParameters", "ekf_localizer/include/ekf_localizer/ekf_localizer.hpp:EKFParameters", "map_loader/src/map_loader.cpp:MapLoaderNode", "map_tf_generator/src/map_tf_generator_node.cpp:MapTFGeneratorNode", "lidar_feature_launch/config/lidar_feature_extraction.param.yaml"]}
{"id": "C129", "title": "A minority of wrong matches cannot carry the pose away", "statement": "When fewer than half of the residual blocks of an iteration are wrong, the step of the optimiser is bounded by a number that does not depend on the wrong ones at all. Each residual pulls on the step with at most 1.345*sqrt(scale + 1e-16), however large it is (the Huber weight compensates its size exactly), and the scale, a median of absolute deviations, is bounded by the errors of the majority. So if the majority's squared residuals are at most hi and the majority alone determines the pose (smallest eigenvalue mu of its normal matrix), the step is at most n*c*1.345*sqrt(1.4826*hi + 1e-16)/mu, c bounding how strongly one residual depends on the pose. For the alignment of point lists: if more than half of the pairs fit within sqrt(hi) and their source points are spread out, one iteration moves the translation and turns the rotation by at most that amount (c = sqrt(1 + rho^2), rho the extent of the source points), wherever the other target points are.", "quantifier": "all lists of residual blocks split into a majority and a minority, all residuals of the minority, all unit quaternions, all bounds hi, c, mu > 0, all nth_element and Cholesky implementations meeting their specification; for the alignment all source and target lists of equal length, all starting rotations and translations, all wrong targets", "why_tests_cant": "robustness against arbitrary outliers quantifies over unboundedly large residuals and over which matches are wrong; a test tries a few outliers of a chosen size", "anchors": ["localization/src/robust.cpp:HuberDerivative", "localization/src/optimizer.cpp:WeightedUpdate", "localization/src/optimizer.cpp:ComputeWeights", "localization/src/optimizer.cpp:NormalizeErrorScale", "localization/include/lidar_feature_localization/optimizer.hpp:Run", "localization/include/lidar_feature_localization/alignment.hpp:AlignmentProblem"]}
{"id": "C130", "title": "Rounding does not change what is extracted unless a comparison is close to a tie", "statement": "The extraction node computes in float and double. If no comparison it makes is close to a tie (relative margins: 2^-51 of a range to the range limits, 2^-50 for the range jump, 2^-23 for the beam ratio, which the code keeps in a float, 2^-22 rad between the angle of consecutive points and 0, pi and the threshold, 2^-24 between the directions of two points of one ring, and an explicit bound, about 1e-10 at 100 m with padding 5, for curvatures against thresholds and against each other), the callback in floating-point arithmetic publishes exactly the points, order and colours that exact arithmetic gives, or fails in the same way. Computed ranges are within 2^-51 of the distance and computed curvatures within the bound of the LOAM smoothness. Close to a tie the code does more than decide one way or the other: two points in the same direction can get the angle NaN and then are neighbours for no threshold, and the float comparator of the angle sort is no strict weak order, so that the sort has undefined behaviour on a ring of three points off the axes that exact arithmetic sorts.", "quantifier": "all rounding functions that round to nearest with 53 and 24 binary digits (ties in any way), all acos with error at most 2^-48, all clouds and parameters meeting the margins, all sorts, hash map orders and block arithmetic meeting their specification", "why_tests_cant": "floating-point behaviour is quantified over all inputs and over every library meeting the standard; a test fixes one machine and a few clouds and cannot tell where rounding starts to matter", "anchors": ["extraction/app/feature_extraction.cpp:Callback", "extraction/include/lidar_feature_extraction/ring.hpp:AHasSmallerPolarAngleThanB", "extraction/include/lidar_feature_extraction/math.hpp:XYNorm", "extraction/src/math.cpp:CalcRadian", "extraction/src/curvature.cpp:CalcCurvature", "extraction/include/lidar_feature_extraction/occlusion.hpp:LabelOccludedPoints", "extraction/include/lidar_feature_extraction/parallel_beam.hpp:LabelParallelBeamPoints"]}
{"id": "C131", "title": "No feature is missed, except beside a point that is filtered out", "statement": "In every ring the callback processes, a point that passes all filters and has at least the edge curvature is published as an edge, or it lies within padding positions, over consecutive neighbours, of another point at least as strong that is either published or was filtered out; likewise for flat points and surfaces. In particular a strong point that passes the filters and is stronger than all points close to it is always published. Without the exception the claim is false: the filters run after the curvature labels, so a wall point beside a round pole takes the place of the pole's edge and is then removed as occluded, and no edge is published.", "quantifier": "all clouds, valid parameters, geometries with symmetric neighbour test, sorts, hash map orders and block arithmetic meeting their specification", "why_tests_cant": "completeness speaks about every point that is not in the output, for all scenes and all orders of processing; tests check that chosen points do appear", "anchors": ["extraction/app/feature_extraction.cpp:Callback", "extraction/include/lidar_feature_extraction/label.hpp:AssignLabel", "extraction/include/lidar_feature_extraction/occlusion.hpp:LabelOccludedPoints", "extraction/include/lidar_feature_extraction/fill.hpp:FillFromLeft"]}
{"id": "C132", "title": "Turning the sensor about the vertical turns the features, except at the seam behind it", "statement": "If the sensor frame is turned about its vertical axis so that no point is carried over the seam of the angles (straight behind the sensor), the callback publishes on all topics the turned points, in the same order and colours, or fails in the same way: what is extracted does not depend on the mounting angle. At the seam this is false: whatever point of the scene is chosen, turning the sensor until that point lies straight behind makes it the last of its ring, where no feature is ever published, although the scan has no gap there.", "quantifier": "all clouds with no point on the vertical axis and no two points of a ring on the positive x axis, all angles, parameters, sorts, hash map orders and block arithmetic meeting their specification", "why_tests_cant": "a relation between two runs of the whole pipeline for every angle; the tests use fixed clouds in one orientation", "anchors": ["extraction/app/feature_extraction.cpp:Callback", "extraction/include/lidar_feature_extraction/ring.hpp:AHasSmallerPolarAngleThanB", "extraction/src/math.cpp:CalcRadian", "extraction/include/lidar_feature_extraction/math.hpp:XYNorm"]}
{"id": "C133", "title": "Near the true pose one step of the alignment squares the error", "statement": "Let every pair match up to a noise eta under the true pose, and start the alignment from a pose whose rotation is wrong by d. After one iteration the translation is within B = (rho d^2 + 2 eta) sqrt(n kappa / mu) of the true one, whatever its error was, and the rotation within B + (d+B)^2 + d^2/2 + 1e-8, where rho is the extent of the source points, mu how well they determine the pose, and kappa how unequal the errors are relative to the robust scale. If the errors are below a millimetre and a milliradian the optimiser stops there and reports convergence. Every set of spread points has a neighbourhood of the true pose from which the alignment with exact images converges and at least halves the error, down to 1e-8.", "quantifier": "all point sets, true poses, starting poses, noise, median and Cholesky routines meeting their specification", "why_tests_cant": "a quantitative statement about all poses near the solution; a test starts from a few poses and sees that the result is close, not the order of convergence, and an optimiser with a wrong Jacobian also gets close slowly", "anchors": ["localization/include/lidar_feature_localization/optimizer.hpp:Run", "localization/src/optimizer.cpp:WeightedUpdate", "localization/src/alignment.cpp:MakeJacobian", "localization/src/posevec.cpp:AngleAxisToQuaternion"]}
{"id": "C134", "title": "Near the true pose one step of scan matching squares the error", "statement": "Consider, for every edge point of the scan, the line that fits the fifteen neighbours found under the starting pose best, and for every point of the downsampled surface scan the plane that does. Let the points, moved by the true pose, be within eta of these lines and planes (for exact maps: the object that the neighbours lie on); let every change of the pose be visible in the distances from the lines and planes (mu). Start from a pose whose rotation is wrong by d. After one iteration the translation is within B = (4 rho d^2 + 8 eta) sqrt(n kappa / mu) of the true one, whatever its error was, and the rotation within B + (d+B)^2 + d^2/2 + 1e-8. If the errors are below a millimetre and a milliradian the optimiser stops there and reports convergence. If the points fit exactly and the best lines and planes are the same for all places within some distance g, there is a neighbourhood of the true pose from which scan matching converges and at least halves the error, down to 1e-8. The neighbours do stay on their object if 15 of its points are within r and the points of other objects farther than r + 2g.", "quantifier": "all maps, scans, true and starting poses, lines and planes; all neighbour searches, eigensolvers, QR, Cholesky and median routines meeting their specification", "why_tests_cant": "a quantitative statement about all poses near the solution and all arrangements of lines and planes; a test starts from a few poses in one map, sees that the result is close, and cannot tell a wrong Jacobian, which also gets close slowly, from a right one", "anchors": ["localization/include/lidar_feature_localization/loam_optimization_problem.hpp:Make", "localization/include/lidar_feature_localization/edge.hpp:Make", "localization/include/lidar_feature_localization/surface.hpp:Make", "localization/src/kdtree.cpp:NearestKSearch", "localization/include/lidar_feature_localization/optimizer.hpp:Run"]}
{"id": "C135", "title": "What is read from a cloud message is what was sent", "statement": "A program that reads a cloud message gets one point per row and column, in this order, and every field of its point type that the message has (same name, type and count, fields in the order of the point type, data as long as the message says) with the bytes sent; fields after the last one sent are zero. So a cloud sent and read with the same point type keeps every field; the localizer and the map builder get the coordinates of every feature the extraction found; and the extraction gets from the converter coordinates, intensity and ring of exactly the points of the sensor's cloud that are not all zero, whatever its byte order. Violated: the map builder's points have a curvature and a ring, which are 0 for every point because the extraction does not send them; a ring field that is not 16 bit passes the extraction's test for a ring field but is not read, and all points land on ring 0; the byte order of a message is not looked at; a field that is not sent can get the bytes of another one; a message with less data than it says is read beyond its end.", "quantifier": "all messages, fields, sizes and bytes; all point types with separate fields", "why_tests_cant": "concerns all field layouts and the agreement of programs that never meet in a unit test; the tests of each package use their own point type on both sides", "anchors": ["lib/include/lidar_feature_library/ros_msg.hpp:GetPointCloud", "lib/include/lidar_feature_library/ros_msg.hpp:ToRosMsg", "lib/include/lidar_feature_library/point_type.hpp:PointXYZIR", "lib/include/lidar_feature_library/point_type.hpp:PointXYZCR", "lib/include/lidar_feature_library/convert_point_cloud_type.hpp:ToPointXYZ", "extraction/src/ring.cpp:RingIsAvailable", "mapping/include/lidar_feature_mapping/map.hpp:Callback", "point_type_converter/point_type_converter/convert.py:callback"]}
{"id": "C136", "title": "From the sensor's bytes to the features the localizer reads", "statement": "Converter and extraction node together do on bytes what the extraction does on the sensor's points: for every cloud the converter accepts, in either byte order, with finite coordinates, they fail exactly when the extraction of the points that are not all zero fails, with the same error; otherwise no shutdown is asked for, all messages carry the sensor's stamp and the base frame, the localizer and the map builder read from them exactly the edge and surface points found, in order, and a viewer all points in their colours. With valid parameters and no two different points of a ring on the positive x axis this succeeds, and what is read are points of the sensor's cloud, none twice or in both classes, none all zero, each from a ring of more than padding such points. Violated: the converter marks every cloud dense and keeps NaN points, so the extraction's test for clouds that are not dense never fires behind it.", "quantifier": "all clouds, layouts accepted by the converter, byte orders, parameters, tie orders of the sorting algorithms", "why_tests_cant": "spans three programs in two languages and all bit patterns; unit tests of each package construct point structs directly and never go through a message", "anchors": ["extraction/app/feature_extraction.cpp:Callback", "point_type_converter/point_type_converter/convert.py:callback", "lib/include/lidar_feature_library/ros_msg.hpp:GetPointCloud", "lib/include/lidar_feature_library/ros_msg.hpp:ToRosMsg", "extraction/include/lidar_feature_extraction/color_points.hpp:MakeXYZRGB", "lib/include/lidar_feature_library/convert_point_cloud_type.hpp:ToPointXYZ"]}
{"id": "C137", "title": "Matrices of sizes that do not fit are refused", "statement": "The two Kalman filter classes take matrices whose sizes are known only at run time. The plain filter's constructor refuses empty matrices and nothing else; a prediction is accepted exactly when P is n x n, A k x n, B k x p and Q k x k for a state of dimension n and an input of dimension p, and is then A x + B u with A P A' + Q; two predictions with the filter's own matrices in a row are accepted only if A is square; an update with C, R, P or measurement of other sizes than m x n, m x m, n x n, m never returns. The filter with delay is made exactly for P of the state's size and a number of steps that is not negative; an update needs a delay in the history, C with as many columns as the state, R and measurement to match; whatever the arguments, the history keeps its size, and every state in it can be read after any calls. With sizes that fit both filters do what the other properties say, and nothing of uninitialised memory remains. Violated: the prediction of the filter with delay accepts a state of any other dimension the history has room for, after which the states read at a delay are not those of that time.", "quantifier": "all sizes, matrices, numbers of steps and delays, all sequences of calls", "why_tests_cant": "the space of sizes is unbounded, the checks are partly the code's and partly Eigen's, and a missing check shows only for sizes nobody tests", "anchors": ["kalman_filter/src/kalman_filter.cpp:KalmanFilter::KalmanFilter", "kalman_filter/src/kalman_filter.cpp:KalmanFilter::predict", "kalman_filter/src/kalman_filter.cpp:KalmanFilter::update", "kalman_filter/include/kalman_filter/matrix_size.hpp:hasZeroElements", "kalman_filter/src/time_delay_kalman_filter.cpp:TimeDelayKalmanFilter::predict", "kalman_filter/src/time_delay_kalman_filter.cpp:UpdateWithDelay", "kalman_filter/src/time_delay_kalman_filter.cpp:updateP"]}
{"id": "C138", "title": "Orientations are read from messages as they were written", "statement": "The filter's node reads roll, pitch and yaw from the quaternion of a message with tf2, and writes them into one by way of RPYToQuaternionXYZ and a rotation matrix. Roll and pitch read from the message of a pose made of angles in their usual ranges are exactly those angles, and so is the yaw unless the vehicle points almost straight up or down (sine of the pitch 0.99999 or more in size); the position is unchanged; it does not matter which of its two signs the quaternion was given. Conversely the angles read from any unit quaternion that is not almost vertical are in their usual ranges and make the rotation of that quaternion again. The length of the quaternion does not matter.", "quantifier": "all angles, all positions, all unit quaternions, all lengths and signs", "why_tests_cant": "three conversions with branches, square roots and arc functions, two of them in libraries, and quaternions have two signs; tests try a few angles, mostly small", "anchors": ["ekf_localizer/src/ekf_localizer.cpp:createRPYfromQuaternion", "ekf_localizer/src/ekf_localizer.cpp:MakePoseFromXYZRPY", "ekf_localizer/src/pose_measurement.cpp:PoseMeasurementVector", "rotationlib/src/quaternion.cpp:RPYToQuaternionXYZ", "lib/src/ros_msg.cpp:MakePose"]}
{"id": "C139", "title": "Filter and localizer, feeding each other, stay where the vehicle stands", "statement": "In the running system the odometry of the filter is the prior of the localizer, and the pose of the localizer is the measurement of the filter. If all that comes from outside agrees with a vehicle that stands at a pose (not pointing almost straight up or down): initial poses say so, twists are zero, and scans fit the map there, then in every execution, whatever the order of callbacks and the interleaving inside the localizer, and however messages between the two are delayed, repeated, reordered or lost, every transform and odometry of the filter says that the vehicle stands there and every pose and transform of the localizer carries exactly that pose. Deliveries between the two never fail, nor does scan matching; what can fail is the filter by itself, and handling a scan when all priors are more than a second newer. When odometry not more than a second newer than a scan has been delivered, the scan is handled and the pose published.", "quantifier": "all executions, all schedules and deliveries, all poses, all parameters", "why_tests_cant": "an error that one node makes would be fed to the other and back, and the executions of two nodes with messages in flight cannot be enumerated; each node is tested by itself", "anchors": ["ekf_localizer/src/ekf_localizer.cpp:EKFLocalizer::timerCallback", "ekf_localizer/src/ekf_localizer.cpp:publishEstimateResult", "localization/include/lidar_feature_localization/subscriber.hpp:PoseUpdateCallback", "localization/include/lidar_feature_localization/subscriber.hpp:OptimizationStartOdomCallback", "lidar_feature_launch/launch/localization.launch.py:ekf_odometry"]}
{"id": "C140", "title": "A height, roll or pitch measured again and again is reached", "statement": "However wrong the first pose message was, if the pose messages that follow say a height (roll, pitch) within some bound of the true one, each with a positive variance that is at most V, then after k of them every pose the filter publishes is wrong by at most that bound plus the fraction V / (V + k v) of the error of the first, v being the variance the first one claimed. This holds whatever their stamps, their order, and whatever twists, timer ticks and initial poses come in between; so the filter gets arbitrarily near to the truth. If the stamps are at least a time apart the error falls geometrically, even if the first message claims to be exact (as a pose clicked in the visualiser does).", "quantifier": "all sequences of events, all parameters, all measurements within the bound, all stamps", "why_tests_cant": "a test shows that the error is smaller after some messages; that it vanishes as more come, at a rate that holds for every sequence, is a limit", "anchors": ["ekf_localizer/include/ekf_localizer/ekf_localizer.hpp:Simple1DFilter::update", "ekf_localizer/src/ekf_localizer.cpp:EKFLocalizer::updateSimple1DFilters", "ekf_localizer/src/ekf_localizer.cpp:EKFLocalizer::timerCallback"]}
{"id": "C141", "title": "Localising in a map that was made in the same surroundings", "statement": "If the poses and edge clouds a mapping session receives are exact (every point, placed by its pose, is on a straight edge of the surroundings) and a surface map whose points are on planes of the surroundings is on disk, then localization starts after the session, every point of the edge map it loads is on an edge of the surroundings, and: started at the true pose of a scan of the same surroundings it stays there, reporting convergence and error 0; and started close enough to the true pose it converges to a pose that is wrong by at most half as much (up to 1e-8), if every motion of the sensor changes what it sees. The scan may be taken anywhere where its points see at least fifteen map points of their own edge or plane nearer than any other edge or plane.", "quantifier": "all surroundings of edges and planes, all sessions with exact poses, all scans and true poses, all searches, eigensolvers, solvers and sorts as specified", "why_tests_cant": "a test localises in one recorded map; that mapping and localization agree on what a point of the map means, for every session and place, is a statement about all of them", "anchors": ["mapping/src/mapping.cpp:main", "localization/app/localization.cpp:main", "mapping/include/lidar_feature_mapping/map.hpp:MapBuilder::SaveMap", "localization/include/lidar_feature_localization/loam_optimization_problem.hpp:Make", "localization/include/lidar_feature_localization/optimizer.hpp:Run"]}
{"id": "C142", "title": "The localizer follows a moving vehicle", "statement": "Let every prior pose be wrong by at most a at its time, let the vehicle turn and move by at most b within a time tau, let every scan that is handled after the first prior find one already received whose time differs by at most tau, and let no prior be more than a second newer than a scan. If a + b is within the range in which scan matching of each scan halves errors (such a range exists for scans taken in the surroundings that the map was made in), then in every interleaving of the callbacks nothing fails, every pose and transform published carries the time of a scan and is wrong by at most (a + b) / 2 + 1e-8 at that time, and every scan that finds the callback idle after a prior is answered by one pose and one transform.", "quantifier": "all trajectories, all accuracies, all schedules of priors and scans with all interleavings of the locked calls, all maps and scans as specified", "why_tests_cant": "a test feeds one recording; that errors do not build up over an arbitrarily long run under any thread schedule is a statement about all executions", "anchors": ["localization/include/lidar_feature_localization/subscriber.hpp:PoseUpdateCallback", "localization/include/lidar_feature_localization/stamp_sorted_objects.hpp:GetClosest", "localization/include/lidar_feature_localization/localizer.hpp:Update", "localization/include/lidar_feature_localization/optimizer.hpp:Run"]}
{"id": "C143", "title": "The filters for height, roll and pitch with the rounding of the machine", "statement": "With every floating-point operation of Simple1DFilter::update rounded to nearest: an update of numbers gives numbers, the deviation never becomes negative nor larger than predicted, the value moves toward the measurement and passes it by at most 3 units of rounding of the two; after any number of measurements with positive deviations and any times the value is within the range of the values measured up to 8 units of rounding of the largest, so rounding errors do not build up and no NaN appears. The allowance is needed: the value can lie beyond all values measured. Rounding can make the deviation exactly 0, after which, without process noise, no measurement changes the value. Without rounding the filter is the one of C140.", "quantifier": "all rounding functions to nearest with at least 4 binary digits, all measurements, deviations, times and their number", "why_tests_cant": "rounding errors depend on the values; that they do not accumulate over an arbitrarily long run cannot be seen from any run", "anchors": ["ekf_localizer/include/ekf_localizer/ekf_localizer.hpp:Simple1DFilter::update", "ekf_localizer/include/ekf_localizer/ekf_localizer.hpp:Simple1DFilter::init"]}
{"id": "C144", "title": "A ring is used if and only if it has two points per block", "statement": "Of a ring with fewer than 2 * padding + 2 * n_blocks points the extraction node publishes nothing; of a ring with that many points or more, none above or below the sensor, it publishes every point in the coloured cloud. With the rounding of double this holds for the shipped padding 2 and 6 blocks (16 points), and for all parameters except at exactly that number of points, where it can fail: with padding 18 and 5 blocks a ring of 46 points is left out because rounding makes one of its blocks a point too short.", "quantifier": "all clouds, parameters, rings, sort implementations and roundings to nearest", "why_tests_cant": "whether a boundary is rounded to the wrong side depends on padding, number of blocks and points; tests try a few sizes", "anchors": ["extraction/src/index_range.cpp:IndexRange::Boundary", "extraction/include/lidar_feature_extraction/neighbor.hpp:NeighborCheckXY", "extraction/include/lidar_feature_extraction/label.hpp:AssignLabel", "extraction/src/lidar_feature_extraction_node.cpp"]}
{"id": "C145", "title": "Points without coordinates do not disturb the extraction", "statement": "A sensor marks directions without a return by points whose coordinates are NaN. Splitting a cloud into rings and sorting them is defined if and only if no ring has two different points on the positive x half-axis and, in every ring with such a missing point, all points to the left of the sensor or straight ahead lie in one direction; on any other cloud the comparator is not a strict weak order and std::sort has undefined behaviour. So one missing point in a ring with two points to the left in different directions is enough: the converter passes the cloud on as dense and the extraction node has undefined behaviour.", "quantifier": "all clouds whose points have both horizontal coordinates or no second one, all sort implementations, parameters and sensor messages of an accepted layout", "why_tests_cant": "the comparator's answers for NaN are consistent in themselves for pairs; only triples of points break the order, and what std::sort then does depends on the library and the size", "anchors": ["extraction/include/lidar_feature_extraction/ring.hpp:AHasSmallerPolarAngleThanB", "extraction/include/lidar_feature_extraction/ring.hpp:SortByAtan2", "extraction/app/feature_extraction.cpp:Callback", "point_type_converter/point_type_converter/convert.py"]}
{"id": "C146", "title": "Scan matching arrives at the true pose from a neighbourhood of it, whatever makes it stop", "statement": "Around the true pose of a scan whose points lie within \u03b7 of the lines and planes of the map, let there be a neighbourhood (rotation wrong by at most D, translation by at most \u03c4) in which the search finds those lines and planes, every motion is seen, the robust weights are within \u03ba of each other, the quaternions converted from the poses keep their sign and one step does not leave the neighbourhood. Then from every pose of it and for every limit of at least one iteration the optimiser returns a pose that has been improved k \u2265 1 times, whichever of its conditions ended the loop; the error of the rotation has shrunk to the k-th iterate of the bound of one step, in a small neighbourhood to D/3^k up to the noise, and the translation likewise however wrong it was. With six iterations allowed and little noise the result is reported as a success; if it is reported as converged, it is wrong by at most a thousandth and twice what the noise leaves. The quaternions keep their sign if the vehicle is turned by less than 120\u00b0 from the directions of the map.", "quantifier": "all maps, scans, true poses, starting poses of the neighbourhood, limits of iterations, and all searches, eigensolvers, solvers and selections as specified", "why_tests_cant": "the loop re-associates points, re-weights them and converts between matrices and quaternions in every iteration, and has five ways to end; a test follows one path from one pose", "anchors": ["localization/include/lidar_feature_localization/optimizer.hpp:Run", "localization/include/lidar_feature_localization/loam_optimization_problem.hpp:Make", "localization/src/optimizer.cpp:CheckConvergence", "rotationlib/src/quaternion.cpp"]}
{"id": "C147", "title": "With noise and priors further away the localizer follows the vehicle for ever", "statement": "This goes beyond C142 in that points may be off their lines and planes, translation and rotation have bounds of their own and the matching may take many iterations. If, whenever the localization node looks for a prior for a scan, the closest one it has is wrong by at most D in rotation and \u03c4 in translation and at most a second newer than the scan, and the surroundings of every scan are such that scan matching from there leaves at most d' and \u03c4' (C146), then under every interleaving of its callbacks the node never fails, and every pose and transform it publishes is within d' and \u03c4' of the true pose at the stamp the message carries. The localizer used by itself, keeping its pose from scan to scan, follows the vehicle for ever if it starts that close and the vehicle turns by at most D - d' and moves by at most \u03c4 - \u03c4' between scans.", "quantifier": "all interleavings of prior and scan callbacks of any length, all sequences of scans, all maps, true poses and libraries as specified", "why_tests_cant": "each published pose rests on which prior was found, which entries earlier scans have removed, and on all iterations of the matching; errors could add up over a drive of any length", "anchors": ["localization/include/lidar_feature_localization/subscriber.hpp:PoseUpdateCallback", "localization/include/lidar_feature_localization/localizer.hpp:Update", "localization/include/lidar_feature_localization/stamp_sorted_objects.hpp:GetClosest", "localization/include/lidar_feature_localization/stamp_sorted_objects.hpp:RemoveOlderThan"]}
{"id": "C148", "title": "A start that is wrong sideways is corrected", "statement": "If the initial pose puts a standing vehicle some way to the side of where it is, with the right heading, and every later message says where it really is and that it does not move, then the published pose goes to the truth. Whatever the schedule, delays and gates, the sideways error that remains is the initial one times the fraction of the initial sideways variance that the published covariance still has, so that it never grows beyond the initial one and never changes its sign. With one fresh message per tick, each used once, the error after messages of variances r1, r2, ... is exactly d / (1 + c (1/r1 + 1/r2 + ...)).", "quantifier": "all executions of the node of any length: all schedules of pose, twist and timer events, all places, errors, covariances, delays and parameters", "why_tests_cant": "whether a wrong start is ever corrected is a statement about unbounded executions; the gate's decision depends on all earlier messages", "anchors": ["ekf_localizer/src/pose_measurement.cpp:Update", "ekf_localizer/src/mahalanobis.cpp:MahalanobisGate", "ekf_localizer/src/ekf_localizer.cpp:timerCallback", "ekf_localizer/src/ekf_localizer.cpp:callbackInitialPose", "kalman_filter/src/time_delay_kalman_filter.cpp:update"]}
{"id": "C149", "title": "Errors of the start along the heading or in the heading are not kept", "statement": "Let the vehicle stand still, all later messages say so truly, and between two ticks come at most one pose message and one twist message, fresh and used once. If the initial pose is wrong along the heading by at most the gate times its standard deviation, no pose message is thrown away: the heading shown is always right, the error is never more of the claimed standard deviations than it was at the start, and at a tick at which a pose message of variance r is used it is at most the initial error times the root of r/c. If the initial pose is wrong in the heading by any amount, however far beyond the gate, a pose message is used after a number of ticks that is known in advance, and a heading strictly between the wrong one and the right one is published.", "quantifier": "all executions of the node of any length with such messages: all places, errors, covariances of the messages, schedules, clocks and parameters (smoothing 1)", "why_tests_cant": "whether a wrong start is ever corrected is a statement about unbounded executions; the gate's decision depends on all earlier messages", "anchors": ["ekf_localizer/src/pose_measurement.cpp:Update", "ekf_localizer/src/twist_measurement.cpp:Update", "ekf_localizer/src/mahalanobis.cpp:MahalanobisGate", "ekf_localizer/src/ekf_localizer.cpp:timerCallback", "ekf_localizer/src/ekf_localizer.cpp:callbackInitialPose"]}
{"id": "C150", "title": "A message with NaN does no harm to what the localizer publishes", "statement": "Whatever in the messages the localizer receives is NaN, what it publishes about position, attitude, speeds and covariances consists of numbers, and a message with NaN changes nothing in the filter. This holds of pose and twist messages as far as position in the plane, heading and speeds are concerned, and an initial pose of numbers restores it. It is false of the initial pose, which is not checked: NaN for a coordinate is published until the next initial pose and spreads to everything with the first twist message used, and NaN for a variance makes every measurement refused, so that the vehicle is reported to stand where it was put. It is false of the height: one message with NaN for it and every later pose has NaN, new initial poses notwithstanding.", "quantifier": "all executions of the node of any length: all messages with any entries NaN, all schedules, clocks and parameters, every Eigen inverse that inverts regular matrices and lets NaN through", "why_tests_cant": "how far a NaN gets is a matter of all executions after it; a test shows one message at one place", "anchors": ["ekf_localizer/src/ekf_localizer.cpp:callbackInitialPose", "ekf_localizer/src/ekf_localizer.cpp:timerCallback", "ekf_localizer/src/pose_measurement.cpp:Update", "ekf_localizer/src/twist_measurement.cpp:Update", "ekf_localizer/src/mahalanobis.cpp:SquaredMahalanobis", "kalman_filter/src/time_delay_kalman_filter.cpp:UpdateWithDelay", "ekf_localizer/include/ekf_localizer/ekf_localizer.hpp:Simple1DFilter"]}
{"id": "C151", "title": "What the nodes keep stays bounded, however long they run", "statement": "If messages come at a bounded rate, the memory a node needs has a bound that does not depend on how long it runs. The filter node has two queues and otherwise a state of fixed size: from the first initial pose on, with a clock that does not go backwards, at most a messages of a kind between two ticks and messages used s times, its queue never holds more than (s+1)^2 a / 2 messages, for messages used once 2a. The clouds waiting for their partners are at most 10 in the localization node and 1000 in the mapping node. It is false of the filter node before the first initial pose and while the clock shows less than at the last tick that published: every message is kept. It is false of the localization node: as long as no prior is more than a second newer than a scan, every prior ever received is kept.", "quantifier": "all executions of any length: all schedules and messages, all rates, parameters and bounds, all interleavings of the callbacks of the localization node", "why_tests_cant": "a leak shows after hours of running; a test runs for seconds and looks at one rate", "anchors": ["ekf_localizer/include/ekf_localizer/aged_message_queue.hpp:AgedMessageQueue", "ekf_localizer/src/pose_measurement.cpp:Update", "ekf_localizer/src/twist_measurement.cpp:Update", "ekf_localizer/src/ekf_localizer.cpp:timerCallback", "localization/include/lidar_feature_localization/stamp_sorted_objects.hpp:RemoveOlderThan", "localization/include/lidar_feature_localization/subscriber.hpp:LocalizationSubscriber", "mapping/src/mapping.cpp:MapSubscriber"]}
{"id": "C152", "title": "After an initial pose the localizer publishes at every tick, whatever the clock does", "statement": "Once it has an initial pose, the filter node publishes one transform and one odometry message at every tick of its timer; if the clock was set back, a recording is played again or the clock was ahead once, a new initial pose starts the node anew. The truth is: as long as no callback fails, it publishes exactly at those ticks after the first initial pose at which the clock does not show less than at the last tick that published. So the claim is false: after a tick at the time T nothing is published until the clock shows T again, however many initial poses are given.", "quantifier": "all sequences of callbacks that do not fail, of any length, all readings of the clock, messages and parameters", "why_tests_cant": "the silence depends on the largest reading of the clock in the whole past; a test sets the clock back once, if at all", "anchors": ["ekf_localizer/src/ekf_localizer.cpp:timerCallback", "ekf_localizer/src/ekf_localizer.cpp:callbackInitialPose", "ekf_localizer/src/update_interval.cpp:Compute"]}
{"id": "C153", "title": "No message sent to a program is lost while it is busy, and a late program gets what it needs", "statement": "Every message that arrives at a program is handed to its callback, in the order of arrival and once, however long the callbacks take; and a program that starts late gets the maps and the whole path. True of the order, of the clouds that go to the converter and to the localizer and of the poses that go to the path generator (these subscriptions keep all messages), of the maps and of the path for readers that ask for stored messages. False of the rest: of the clouds that arrive at the extraction or the mapping program, and of the priors that arrive at the localizer, while one callback runs, all but the newest five are lost, and of the poses, twists and initial poses that arrive at the filter node all but the newest one. So a scan can be started from another prior than that of its own time although this was sent in time and the scan is not lost.", "quantifier": "all sequences of messages, all moments at which callbacks run, all earlier histories, all readers that start at any time", "why_tests_cant": "which message is lost depends on how long callbacks take relative to the rates of all the topics; a test on a fast machine sends one message at a time", "anchors": ["lib/include/lidar_feature_library/qos.hpp", "localization/include/lidar_feature_localization/subscriber.hpp:LocalizationSubscriber", "extraction/app/feature_extraction.cpp:FeatureExtraction", "ekf_localizer/src/ekf_localizer.cpp:EKFLocalizer", "map_loader/src/map_loader.cpp:MapLoaderNode", "path_generator/include/path_generator/path_generator.hpp:PathGenerator"]}
{"id": "C154", "title": "The optimisation computes what the documentation derives", "statement": "The formulas that docs/source derives for the robust scale, the edge and surface residuals and their derivatives, the mean and covariance of the neighbours, the weights and the Gauss-Newton equation are what the code computes. True of the scale (the constant is the inverse of the upper quartile of the normal distribution to fourteen digits), of the edge residual and its derivative up to a common sign which cancels, of the principal direction of the neighbours, of the loss and the weights (up to an addition of 1e-16 to the scale), and of the linear equation in the directions in which a unit quaternion can turn. False of the documented gradient of the edge error (its sign is wrong; TripletCross of the code has the same sign), of the documented mean (a sum, not divided), of the documented residual of a surface point (it is not zero on the plane) and of the linear equation as a whole (its solution changes the length of the quaternion, the step of the code does not).", "quantifier": "all points, planes, lines, lists of errors and neighbours, weights, Jacobians and residuals; all normal distributions", "why_tests_cant": "the unit tests compare the code with numbers, not with the derivation; that a constant is the inverse of a quantile and that a formula is a derivative are statements about all real numbers", "anchors": ["localization/src/robust.cpp:Scale", "localization/src/edge.cpp:TripletCross", "localization/src/edge.cpp:CalcMeanAndCovariance", "localization/include/lidar_feature_localization/edge.hpp:Edge", "localization/include/lidar_feature_localization/surface.hpp:SignedPointPlaneDistance", "localization/src/optimizer.cpp:WeightedUpdate", "docs/source/loam.rst", "docs/source/weighted_gauss_newton.rst", "docs/source/robust_stddev_estimator.rst"]}
{"id": "C155", "title": "Switching off the estimation of the yaw bias switches it off, and the published variance of the heading is that of the published heading", "statement": "With `enable_yaw_bias_estimation` false no yaw bias is estimated: the bias in the filter remains zero, so that the published heading is the estimated yaw. And the variance published for the heading is the one the filter gives to the heading it publishes, the sum of yaw and bias. Both false: the parameter only sets the process noise of the bias to zero, while every initial pose gives it the variance 0.0001, so that a vehicle that moves and is then seen beside the place expected gets a bias; and the published variance is that of the yaw without bias, smaller by at least 0.0001 at the first tick after every initial pose. What holds: with the parameter false the variance of the bias never exceeds 0.0001, whatever happens; and a bias known to be zero would stay zero through all messages and ticks.", "quantifier": "all parameters with the estimation off, all numbers of stored states, all executions of initial poses, poses, twists and ticks; for the variance all parameters and all initial poses", "why_tests_cant": "the bias moves only after a twist, a tick and a pose in this order, through correlations that the prediction builds up; unit tests check the function that returns the process noise", "anchors": ["ekf_localizer/src/ekf_localizer.cpp:InitYawBias", "ekf_localizer/src/ekf_localizer.cpp:InitCovariance", "ekf_localizer/src/ekf_localizer.cpp:EKFLocalizer::timerCallback", "ekf_localizer/src/covariance.cpp", "ekf_localizer/src/state_transition.cpp"]}
{"id": "C156", "title": "A pose that comes late corrects the estimate of the moment at which it was taken", "statement": "The filter node keeps the states of the last ticks so that a pose that comes late can be compared with the state of its time (README: time delay compensation). So a pose that says exactly what was estimated at its time changes nothing, and a pose whose moment is among the stored ones is used. What holds: if the delay is, up to less than half an interval, as many times the last interval between ticks as there were ticks since, then such a pose leaves all published places and headings unchanged; with regular ticks the corrected state is that of the tick closest to the time of the pose. In general both are false, because the delay is divided by the length of the last interval only: after ticks 0.25 s and then 1 s apart a pose that repeats what was published moves the estimate of a moving vehicle, and after an interval that is short compared with the ones before it every pose taken two ticks ago is refused, although its state is stored.", "quantifier": "all numbers of stored states, all parameters, all node states without waiting messages, any number of ticks at any times, all messages", "why_tests_cant": "the failures need ticks at irregular times, a moving vehicle and a message of the right age; unit tests call ComputeDelayStep with one interval", "anchors": ["ekf_localizer/include/ekf_localizer/delay.hpp:ComputeDelayStep", "ekf_localizer/src/pose_measurement.cpp:PoseMeasurement::Update", "ekf_localizer/src/check.cpp:CheckDelayStep", "ekf_localizer/src/ekf_localizer.cpp:EKFLocalizer::timerCallback", "kalman_filter/src/time_delay_kalman_filter.cpp"]}
{"id": "C157", "title": "What the filter says after a time without messages does not depend on how often it ticked in that time", "statement": "The process noise parameters are given per unit of time (README: standard deviation in time differentiation expression; proc_stddev_vx_c is to be set to the maximum linear acceleration) and the tick rate is a separate parameter. So two nodes with the same estimate that get no messages for the same time publish the same place and the same uncertainty, whatever their tick rates. What holds: as long as the estimate does not turn, the published place and heading depend on the time that has passed only. In general it is false. The published variances of the two speeds grow by the squared parameter times the sum of the squared intervals. With regular ticks this is the squared parameter times the time that has passed times the length of one interval, so the growth is proportional to the interval, and a node that ticks twice as often adds half as much. And as soon as the estimate moves and turns, one tick and two ticks in the same time end in different places.", "quantifier": "all numbers of stored states, all parameters, all node states without waiting messages, any number of ticks at any times at most ten seconds apart", "why_tests_cant": "one needs to compare executions of any length at different rates; unit tests call TimeScaledVariance and predictNextState once", "anchors": ["ekf_localizer/include/ekf_localizer/ekf_localizer.hpp:TimeScaledVariance", "ekf_localizer/include/ekf_localizer/ekf_localizer.hpp:DefaultVariance::TimeScaledVariances", "ekf_localizer/src/ekf_localizer.cpp:EKFLocalizer::timerCallback", "ekf_localizer/src/state_transition.cpp:predictNextState", "ekf_localizer/README.md"]}
{"id": "C158", "title": "The Kalman filter node has the parameters and topics its README lists", "statement": "A user who sets a parameter or connects a topic by the README of the Kalman filter node gets what it says. What holds: the names the node heeds are exactly twelve, eleven of them in the README; leaving out any of them is the same as giving the default in the README, but for the noise of the two speeds; initial poses published on the topic of the README arrive, and odometry is published on it. The rest is false: five parameters of the README (show_debug_info, tf_rate, pose_additional_delay, pose_measure_uncertainty_time, twist_additional_delay) have no effect whatever value they are given, among them the two delays it recommends for correcting wrong stamps; the noise of the two speeds is 5 and 1 if not given, not 2 and 0.2; measured poses and twists published on the topics of the README do not arrive in any namespace, and five of the six topics on which the node is said to publish do not exist.", "quantifier": "all parameter overrides, all names and values, all namespaces, all senders", "why_tests_cant": "the tests start no node; no finite number of parameter files shows that a parameter has no effect", "anchors": ["ekf_localizer/README.md", "ekf_localizer/include/ekf_localizer/ekf_localizer.hpp:EKFParameters", "ekf_localizer/src/ekf_localizer.cpp:EKFLocalizer::EKFLocalizer"]}
{"id": "C159", "title": "A late message is judged by the uncertainty of its own time", "statement": "Whether a measured pose or twist is used depends on its distance from the estimate of its own time, measured with the uncertainty of that estimate: it is used if the distance does not exceed the limit, and otherwise the filter stays as it is. This holds if the uncertainty of the measured part is the same now as at the time of the message, so for every message that is not late. It is false in general: the estimate is taken from the time of the message, but the uncertainty from the newest state. Whatever the limit, there is a pose farther from the estimate of its time than the limit that is used and moves what is published, because the uncertainty has grown in the meantime.", "quantifier": "all limits, all messages and delay steps, all filter states, all numbers of stored states of at least two", "why_tests_cant": "the tests check the gate function with a covariance given to it, never the choice of the covariance; a wrong choice shows only for late messages near the limit", "anchors": ["ekf_localizer/src/pose_measurement.cpp:PoseMeasurement::Update", "ekf_localizer/src/twist_measurement.cpp:TwistMeasurement::Update", "ekf_localizer/README.md"]}
{"id": "C160", "title": "A message is thrown away only if it is improbable given its own uncertainty", "statement": "The gate that detects outliers probabilistically counts both uncertainties, that of the estimate and the one the message gives for itself. One half holds: a pose or twist that is used is within the limit if both uncertainties are counted. The other half is false: the uncertainty of the message has no influence on the decision. Whatever the limit, a pose that differs from the estimate by more than the limit times the standard deviation of the estimate is thrown away, even if it says of itself that it is so uncertain that the difference is within the limit times its own standard deviation; what the node publishes is as without the message.", "quantifier": "all limits, differences and covariances of messages, all filter states with a nonsingular covariance of the measured part, all numbers of stored states of at least two", "why_tests_cant": "the tests check the gate function with a covariance given to it, never which covariance it is given; that no message is accepted wrongly is a statement about all covariances", "anchors": ["ekf_localizer/src/pose_measurement.cpp:PoseMeasurement::Update", "ekf_localizer/src/twist_measurement.cpp:TwistMeasurement::Update", "ekf_localizer/src/mahalanobis.cpp:MahalanobisGate", "ekf_localizer/README.md"]}
{"id": "C161", "title": "A pose with NaN does no harm to the map", "statement": "When the mapping node receives a pose of which a value is NaN, the map stays as it is and mapping goes on. What holds: if no pose has NaN, no point of the map has NaN unless a scan had it; and once a scan with a good pose has been added again, the node decides as if the bad pose had never come. The rest is false: a scan that comes with such a pose is always added, even if the vehicle stands, and each of its points gets NaN; the next scan is added too, even if the vehicle has not moved since the last good one; and one such point makes the centre of the map, which map_tf_generator broadcasts as a transform, NaN.", "quantifier": "all histories of scans and poses, all states of the map builder, all positions of the NaN in the pose, all clouds with or without NaN", "why_tests_cant": "the tests of the map builder use poses of numbers; that no sequence of messages leads to NaN is a statement about all histories", "anchors": ["mapping/include/lidar_feature_mapping/map.hpp:MapBuilder::Callback", "mapping/include/lidar_feature_mapping/map.hpp:PoseDiffIsSufficientlySmall", "lib/include/lidar_feature_library/pcl_utils.hpp:TransformPointCloud", "map_tf_generator/src/map_tf_generator_node.cpp:onPointCloud"]}
{"id": "C162", "title": "Poses that arrive between two ticks count the same in whatever order they arrive", "statement": "If the same poses wait in the queue of the filter node when the timer fires, the state after they have been taken into account does not depend on the order in which they arrived. What holds: it does not if each of them is to be used again, has finite values, a regular covariance and a delay within the history, and is within the limit for the distance when its turn comes, in the one order and in the other. It is false in general: the limit is applied with the uncertainty that is left after the poses before, so a pose that agrees with the estimate makes the filter throw away a pose that it uses if it comes first.", "quantifier": "all numbers of poses, all orders, all filter states with a positive semidefinite covariance, all lengths of the history; for the violation all limits g and all distances e with 101/201 g^2 < e^2 <= 101/100 g^2", "why_tests_cant": "the tests give the filter one measurement at a time; independence of the order is a statement about all permutations of all lists of messages", "anchors": ["ekf_localizer/src/pose_measurement.cpp:PoseMeasurement::Update", "ekf_localizer/include/ekf_localizer/aged_message_queue.hpp:AgedMessageQueue", "ekf_localizer/src/mahalanobis.cpp:MahalanobisGate", "ekf_localizer/src/ekf_localizer.cpp:EKFLocalizer::timerCallback", "kalman_filter/src/time_delay_kalman_filter.cpp:UpdateWithDelay"]}
{"id": "C163", "title": "Height, roll and pitch do not depend on the order in which poses arrive", "statement": "What the filter node publishes for height, roll and pitch does not depend on the order in which poses arrive, and a pose that is old counts no more than one that is new. What holds: whether poses or twists come first between two other callbacks makes no difference to anything; and poses stamped with the same time, of finite values and positive variances, count the same in whatever order they arrive. The rest is false: a pose that is late by some time counts exactly as much as one that is newer by this time; so if of two poses the older arrives last, it counts more than the newer one.", "quantifier": "all states of the node, all sequences of callbacks, all permutations of the poses, all lengths of the history; for the violation all heights e other than zero", "why_tests_cant": "the tests of the one-dimensional filter give it observations in order of time; independence of the order is a statement about all permutations of all histories", "anchors": ["ekf_localizer/include/ekf_localizer/ekf_localizer.hpp:Simple1DFilter::update", "ekf_localizer/src/ekf_localizer.cpp:EKFLocalizer::updateSimple1DFilters", "ekf_localizer/src/ekf_localizer.cpp:EKFLocalizer::timerCallback", "ekf_localizer/include/ekf_localizer/aged_message_queue.hpp:AgedMessageQueue"]}
{"id": "C164", "title": "What is published says which way up the vehicle is as the poses received say it", "statement": "If every pose that the filter node receives says that the vehicle is upright, so does every pose published; and if every pose received says that it is upside down, so does every pose published. The first holds for poses with unit quaternions and positive variances of roll and pitch. The second is false: roll is filtered as a number, without regard to the wrap-around, so two poses rolled by almost half a turn, the one to the left and the other to the right, and as near to each other as one likes, are averaged to an upright vehicle.", "quantifier": "all histories of the node, all orientations, all parameters; for the violation all angles between zero and a right angle and all lengths of the history", "why_tests_cant": "the tests of the one-dimensional filter use numbers, not orientations; that no history turns the vehicle over is a statement about all histories", "anchors": ["ekf_localizer/src/ekf_localizer.cpp:EKFLocalizer::updateSimple1DFilters", "ekf_localizer/include/ekf_localizer/ekf_localizer.hpp:Simple1DFilter::update", "ekf_localizer/src/ekf_localizer.cpp:createRPYfromQuaternion", "ekf_localizer/src/ekf_localizer.cpp:EKFLocalizer::timerCallback"]}
{"id": "C165", "title": "A message that was used is used again when it comes again", "statement": "If the filter node has used a pose (or a twist), and the same message is processed again at the same tick, it is used again: the limit for the distance does not throw away what it has just let through. What holds: a message that is not late, of regular covariance, within the limit, is used any number of times in a row, and after each use its distance has become smaller, by the distance that counts both uncertainties. It is false if another message is processed in between: a pose ahead of the estimate is used, then a pose that agrees with the estimate of before, and then the first one, coming again, is thrown away, although the estimate has come nearer to it.", "quantifier": "all numbers of repetitions, all messages and filter states with positive definite covariances, all lengths of the history; for the violation all limits g and all distances e with 30502/40401 g^2 < e^2 <= 101/100 g^2", "why_tests_cant": "the tests of the gate give it numbers, not the state that an update leaves; any number of repetitions needs induction", "anchors": ["ekf_localizer/src/pose_measurement.cpp:PoseMeasurement::Update", "ekf_localizer/src/twist_measurement.cpp:TwistMeasurement::Update", "ekf_localizer/src/mahalanobis.cpp:MahalanobisGate", "ekf_localizer/src/ekf_localizer.cpp:EKFLocalizer::timerCallback", "kalman_filter/src/time_delay_kalman_filter.cpp:UpdateWithDelay"]}
{"id": "C166", "title": "A pose that is thrown away has no influence on what is published", "statement": "What the filter node publishes is the same as if the poses that it throws away (too late, with NaN, or farther away than the limit) had not been sent. What holds: in a tick in which all poses that wait are to be used again, a pose that is thrown away when its turn comes changes nothing but height, roll and pitch: the tick fails if it fails without that pose, and otherwise the filter, the stamps, frames, position, heading, speeds and covariances published are the same. It is false in general, in two ways. Height, roll and pitch are taken from every pose when it arrives, whether it is thrown away later or not. And if poses are used once, a pose that is thrown away keeps the one behind it in the queue from being used in the same tick, so that what is published is as if no pose had come. Of twists: in a tick in which all twists that wait are to be used again, a twist that is thrown away when its turn comes makes no difference to anything that is published.", "quantifier": "all states of the node, all lists of waiting poses and places of the one thrown away, all parameters, all lengths of the history; for the violations all limits g, all distances d, e with e^2 <= 101/100 g^2 < d^2 and all heights", "why_tests_cant": "compares executions with and without a message, for all other messages that wait; the tests look at one message at a time and at the functions of the gate alone", "anchors": ["ekf_localizer/src/ekf_localizer.cpp:EKFLocalizer::callbackPoseWithCovariance", "ekf_localizer/src/ekf_localizer.cpp:EKFLocalizer::updateSimple1DFilters", "ekf_localizer/src/pose_measurement.cpp:PoseMeasurement::Update", "ekf_localizer/include/ekf_localizer/aged_message_queue.hpp:AgedMessageQueue", "ekf_localizer/src/ekf_localizer.cpp:EKFLocalizer::timerCallback"]}
{"id": "C167", "title": "Poses and twists given in other frames are converted or left out", "statement": "The filter node publishes poses in its own frame. A pose or twist that arrives in another frame has the effect it would have if it had been given in the frame of the filter (base_link for twists), or none. What holds: all is published as it should be if the frames differ in their names only. It is false in general, for the name of the frame never counts: with whatever frame names poses and twists arrive, the node does and publishes exactly the same (but for a warning). A pose in a frame whose origin is elsewhere is used as if it had been given in the frame of the filter. Only initial poses are converted.", "quantifier": "all executions of the node: all sequences of events, all frame names of all messages, all parameters; for the violation all names, all limits g and all displacements e with 0 < e^2 <= 101/100 g^2", "why_tests_cant": "that a field of the messages has no influence is a statement about all executions and all values of the field", "anchors": ["ekf_localizer/src/pose_measurement.cpp:PoseMeasurement::Update", "ekf_localizer/src/twist_measurement.cpp:TwistMeasurement::Update", "ekf_localizer/src/check.cpp:CheckFrameId", "ekf_localizer/src/ekf_localizer.cpp:EKFLocalizer::callbackPoseWithCovariance", "ekf_localizer/src/ekf_localizer.cpp:EKFLocalizer::callbackInitialPose"]}
{"id": "C168", "title": "What the filter node publishes is stamped with the time it is about", "statement": "The transform and the odometry message of a tick say the same pose in the same frames, and are stamped with the time to which the filter was predicted. What holds: in every execution the messages come in such pairs; the stamps have no influence on anything else; and if the clock stands still during a callback, the stamps are the time to which the filter was predicted. It is false in general: the clock is read again for each of the two stamps, after the measurements have been processed, so a moving vehicle is said to be at a later time where it was earlier, and the two messages with the same pose can have different stamps.", "quantifier": "all executions of the node: all sequences of events, all states, parameters and clock readings; for the violation all pairs of stamps", "why_tests_cant": "in a test the clock hardly moves between the readings; which pose belongs to which stamp is a statement about all clock readings", "anchors": ["ekf_localizer/src/ekf_localizer.cpp:EKFLocalizer::timerCallback", "ekf_localizer/src/ekf_localizer.cpp:publishEstimateResult", "ekf_localizer/src/update_interval.cpp:UpdateInterval::Compute"]}
{"id": "C169", "title": "Height and uncertainty of an initial pose are converted with it", "statement": "An initial pose given in another frame is converted as a whole: the height the filter node then publishes is that of the position in its own frame, and the uncertainty with which it starts is that of the converted position. What holds: until another pose comes, height, roll and pitch are published as the message says them, whatever the transform. So if the frames are turned against each other about the vertical only, the height is right if and only if their origins are at the same height. Without a turn the filter starts with the covariance of x and y of the message if and only if the two are uncorrelated; with uncorrelated x and y and a turn about the vertical it starts with that of the converted position if and only if both are equally uncertain or the turn is by a multiple of a half turn. In all other cases it is false.", "quantifier": "all initial poses, transforms without turn or with a turn about the vertical, parameters and answers of tf2; for the height all executions in which no other pose comes", "why_tests_cant": "a test uses a handful of transforms, mostly the identity; when the result is right is a statement about all of them", "anchors": ["ekf_localizer/src/ekf_localizer.cpp:EKFLocalizer::callbackInitialPose", "ekf_localizer/src/ekf_localizer.cpp:InitCovariance", "ekf_localizer/src/ekf_localizer.cpp:EKFLocalizer::updateSimple1DFilters"]}
