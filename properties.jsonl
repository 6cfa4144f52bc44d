{"id": "C01", "title": "Safe integer arithmetic is exact or throws", "statement": "safe_sum, safe_difference and safe_abs return the mathematically exact sum, difference or absolute value whenever that value fits in int64, and throw AssertException otherwise; no intermediate computation in them ever overflows (no undefined behaviour).", "quantifier": "every pair of 64-bit signed integers (every single one for safe_abs)", "why_tests_cant": "2^128 argument pairs; tests sample a few boundary values and cannot show the absence of signed overflow in the guards themselves", "anchors": ["resim/math/safe_integer_utils.cc: safe_sum, safe_difference, safe_abs", "resim/math/safe_integer_utils.hh"]}
{"id": "C02", "title": "Safe integer failures name the right direction", "statement": "When safe_sum, safe_difference or safe_abs throws, the message says Overflow exactly when the exact result is above the int64 maximum and Underflow exactly when it is below the minimum.", "quantifier": "every pair of 64-bit signed integers", "why_tests_cant": "the failing region is a large set of pairs; tests check the exception type on a few of them", "anchors": ["resim/math/safe_integer_utils.cc: safe_sum, safe_difference, safe_abs"]}
{"id": "C03", "title": "Timestamp num_samples is the minimal count", "statement": "For distinct start and end and dt > 0, num_samples(start, end, dt) returns the least n >= 2 for which n-1 equal steps of the interval are each at most dt, regardless of the order of start and end; it throws for dt <= 0 and whenever end-start does not fit in int64, and never has undefined behaviour.", "quantifier": "every start, end and dt in int64 nanoseconds", "why_tests_cant": "minimality is a statement about all smaller counts for all 2^192 inputs; boundary cases sit at exact multiples of dt and at the int64 limits", "anchors": ["resim/time/sample_interval.cc: num_samples(Timestamp, Timestamp, Duration)", "resim/time/sample_interval.hh"]}
{"id": "C04", "title": "Timestamp sample_interval covers the interval", "statement": "When sample_interval(start, end, dt, f) with start != end completes it has called f exactly num_samples(start, end, dt) times, first with exactly start and last with exactly end, moving monotonically from start towards end, always inside the interval, with consecutive samples at most dt apart.", "quantifier": "every start, end, dt in int64 for which the call completes, in either order of start and end", "why_tests_cant": "the error accumulates over an unbounded number of loop iterations; a test only runs short intervals", "anchors": ["resim/time/sample_interval.cc: sample_interval(Timestamp, ...)"]}
{"id": "C05", "title": "Timestamp samples are the nearest timestamps to the ideal grid", "statement": "The i-th sample of sample_interval is a closest representable timestamp to the ideal real position start + i (end-start)/(n-1), as the header documents.", "quantifier": "every start, end, dt in int64 for which the call completes, and every sample index i", "why_tests_cant": "rounding is decided per index by an integer remainder carried through the loop; a handful of sampled intervals cannot settle it for every index", "anchors": ["resim/time/sample_interval.cc: sample_interval(Timestamp, ...)", "resim/time/sample_interval.hh"]}
{"id": "C06", "title": "Timestamp sample_interval has no undefined behaviour and delivers a correct prefix when it throws", "statement": "sample_interval on timestamps never overflows a signed integer silently: for every input it either completes or throws AssertException, it completes whenever |end-start| plus the number of steps fits in int64, and if it throws part-way every sample already delivered is one of the samples of the ideal sequence, in order.", "quantifier": "every start, end, dt in int64 nanoseconds", "why_tests_cant": "the overflowing iterations need intervals near 2^63 ns and up to 2^63 iterations, which cannot be executed in a test", "anchors": ["resim/time/sample_interval.cc: sample_interval(Timestamp, ...), num_samples", "resim/math/safe_integer_utils.cc: safe_sum"]}
{"id": "C07", "title": "Double sample_interval covers the interval", "statement": "In exact arithmetic, for dt > 0 and a sample count that fits in int, sample_interval on doubles calls f exactly num_samples times for distinct bounds (once for equal ones), starting at start and ending at end, with equal steps of size at most dt, and num_samples is the least count with that property; a count that does not fit in int is undefined behaviour.", "quantifier": "every real start, end and every dt > 0", "why_tests_cant": "an infinite family of inputs, with the boundary at exact multiples of dt", "anchors": ["resim/time/sample_interval.cc: num_samples(double...), sample_interval(double...)"]}
{"id": "C08", "title": "Seconds and nanoseconds splitting round-trips", "statement": "from_seconds_and_nanos(to_seconds_and_nanos(d)) == d for every Duration, without overflow, with |nanos| < 1e9, nanos representable in int32 and secs and nanos never of opposite sign; conversely to_seconds_and_nanos recovers every such canonical pair.", "quantifier": "every int64 nanosecond count and every canonical pair", "why_tests_cant": "2^64 durations, including the int64 minimum where the product and sum are closest to overflow", "anchors": ["resim/time/timestamp.hh: to_seconds_and_nanos, from_seconds_and_nanos, SecsAndNanos"]}
{"id": "C09", "title": "Packed timestamps carry non-negative nanos", "statement": "The nanos field obtained from to_seconds_and_nanos (and hence written to google.protobuf.Timestamp by Trajectory packing) is in [0, 999999999], as the protobuf Timestamp contract requires.", "quantifier": "every Duration, including negative ones (times before the epoch)", "why_tests_cant": "tests only use times after the epoch", "anchors": ["resim/time/timestamp.hh: to_seconds_and_nanos", "resim/actor/state/proto/trajectory_to_proto.cc: pack"]}
{"id": "C10", "title": "Durations survive conversion to seconds and back", "statement": "as_duration(as_seconds(d)) == d for every duration of at most 2^52 ns (about 52 days), as the time documentation promises for sufficiently small values.", "quantifier": "every duration d with |d| <= 2^52 ns, under IEEE binary64 round-to-nearest-even arithmetic", "why_tests_cant": "there are 2^53 such durations and the outcome depends on the exact rounding of a division followed by a multiplication", "anchors": ["resim/time/timestamp.hh: as_seconds, as_duration", "docs/resim/time/time.md"]}
{"id": "C11", "title": "as_seconds is monotone, and strictly so on short spans", "statement": "d1 <= d2 implies as_seconds(d1) <= as_seconds(d2) for all durations, and d1 < d2 implies as_seconds(d1) < as_seconds(d2) when both are at most 2^52 ns in magnitude; beyond that, distinct durations can collapse to the same number of seconds.", "quantifier": "every pair of int64 durations, under binary64 rounding", "why_tests_cant": "a statement about all pairs of 2^64 durations", "anchors": ["resim/time/timestamp.hh: as_seconds"]}
{"id": "C12", "title": "EventSchedule is a stable time-ordered queue", "statement": "After any sequence of schedule_event and pop_event calls, top_event is the earliest pending event, ties being broken in the order of scheduling, and pop_event removes exactly that event: the schedule behaves as a stable sorted list, for any correct std::priority_queue implementation.", "quantifier": "every history of schedule and pop calls, every payload type, every conforming priority queue", "why_tests_cant": "unboundedly many histories and heap shapes; ties and interleavings of pops with pushes are only sampled by tests", "anchors": ["resim/time/event_schedule.hh: EventSchedule, CompareEvents"]}
{"id": "C13", "title": "EventSchedule loses and duplicates nothing", "statement": "Over any history, the events popped so far together with the events pending are exactly the events successfully scheduled, each once with its time and payload, and size() is the number scheduled minus the number popped.", "quantifier": "every history of schedule and pop calls", "why_tests_cant": "conservation over unbounded histories", "anchors": ["resim/time/event_schedule.hh: schedule_event, pop_event, size"]}
{"id": "C14", "title": "Draining an EventSchedule yields time order, FIFO within a time", "statement": "Popping until empty without scheduling more yields all events in non-decreasing time, and events with equal time in the order they were scheduled.", "quantifier": "every list of scheduled events", "why_tests_cant": "all permutations with ties of any length", "anchors": ["resim/time/event_schedule.hh: EventSchedule", "docs/resim/time/time.md"]}
{"id": "C15", "title": "EventSchedule exhaustion is detected exactly", "statement": "With a counter type whose maximum is N, exactly the first N calls of schedule_event over the life of the schedule succeed, no matter how many pops happen in between; every later call throws and leaves the schedule unchanged, so sequence numbers never wrap and FIFO order is never corrupted.", "quantifier": "every counter width N and every history", "why_tests_cant": "the default counter is 64 bits wide, so the boundary cannot be reached by execution", "anchors": ["resim/time/event_schedule.hh: schedule_event, MAX_EVENTS"]}
{"id": "C16", "title": "Reading or popping an empty EventSchedule is the only undefined behaviour", "statement": "top_event and pop_event are undefined exactly when size() == 0; a client that checks size() > 0 first never triggers undefined behaviour in any history.", "quantifier": "every history of schedule, size-guarded top and pop calls", "why_tests_cant": "undefined behaviour cannot be observed reliably by a test", "anchors": ["resim/time/event_schedule.hh: top_event, pop_event"]}
{"id": "C17", "title": "UUID printing and parsing are inverse", "statement": "UUID{u.to_string()} == u for every UUID, and every NUL-free string that parses prints back as its lower-case form; so equality of UUIDs, equality of their strings and equality of their packed messages, which hold these strings, coincide and equal UUIDs have equal hashes.", "quantifier": "all 2^128 UUIDs and all strings", "why_tests_cant": "2^128 values, and all strings for the rejection side", "anchors": ["resim/utils/uuid.cc: UUID, to_string, operator==", "resim/utils/uuid.hh: std::hash", "resim/utils/proto/uuid_to_proto.cc"]}
{"id": "C18", "title": "UUID parsing accepts exactly the canonical form", "statement": "Constructing a UUID from a string succeeds exactly for 36-character 8-4-4-4-12 hexadecimal strings (either case) and throws AssertException for every other string, including the empty one.", "quantifier": "all strings", "why_tests_cant": "infinitely many malformed strings", "anchors": ["resim/utils/uuid.cc: UUID(std::string_view)"]}
{"id": "C19", "title": "Status and StatusValue propagate the first failure", "statement": "A chain of RETURN_IF_NOT_OK / RETURN_OR_ASSIGN steps succeeds exactly if every step succeeds, otherwise it returns exactly the status of the first failing step and executes no later step; value() throws exactly when ok() is false, a StatusValue is never built from an OK status, and CHECK_STATUS_OK evaluates its argument and throws, showing the file, line and message of the status, exactly if it is not OK.", "quantifier": "every chain of steps of any length with any pattern of failures", "why_tests_cant": "all failure patterns of unbounded chains", "anchors": ["resim/utils/status.hh: RETURN_IF_NOT_OK, CHECK_STATUS_OK", "resim/utils/status_value.hh: StatusValue, RETURN_OR_ASSIGN", "resim/utils/status.cc"]}
{"id": "C20", "title": "No transform is ever half framed", "statement": "Every SO3 or SE3 object obtainable through the public API has either both frames null or both non-null. A constructor or set_frames that succeeds gives exactly the frames asked for (an SE3 made from an SO3 never takes over the frames of the SO3), and throws exactly if they would be half framed, or, for set_frames, if one is null.", "quantifier": "every sequence of constructions, set_frames, set_unframed, compositions, inverses, interpolations and exponentials", "why_tests_cant": "invariant over unbounded sequences of operations", "anchors": ["resim/transforms/liegroup.hh: LieGroup, set_frames, set_unframed", "resim/transforms/so3.cc", "resim/transforms/se3.cc"]}
{"id": "C21", "title": "Composition checks frames", "statement": "For framed a and b, a*b throws exactly when a.from() != b.into(), and otherwise its frames are (a.into(), b.from()); if either operand is unframed the product is unframed and never throws; inverse swaps frames.", "quantifier": "every pair of transforms and every assignment of frames", "why_tests_cant": "all combinations of frames, values and null frames", "anchors": ["resim/transforms/so3.cc: operator*, inverse", "resim/transforms/se3.cc: operator*, inverse"]}
{"id": "C22", "title": "SO3 and SE3 composition obey the group laws with frames", "statement": "For fully framed transforms: (a*b)*c and a*(b*c) either both throw or both succeed with equal value and frames, composing with the right identity changes nothing, and a*a.inverse() and a.inverse()*a are the identities on the into and from frame.", "quantifier": "every triple of transforms with orthogonal rotation and every choice of frames", "why_tests_cant": "algebraic laws over a continuum of transforms", "anchors": ["resim/transforms/so3.cc: operator*, inverse, identity", "resim/transforms/se3.cc: operator*, inverse, identity"]}
{"id": "C23", "title": "Whether a composition chain throws does not depend on bracketing", "statement": "For any three transforms, framed or not, (a*b)*c throws exactly when a*(b*c) throws.", "quantifier": "every triple of transforms, including mixtures of framed and unframed ones", "why_tests_cant": "all mixtures of frames", "anchors": ["resim/transforms/so3.cc: operator*", "resim/transforms/se3.cc: operator*"]}
{"id": "C24", "title": "Transforms act compatibly with composition", "statement": "(a*b) applied to v equals a applied to (b applied to v); identity fixes v; SO3 preserves inner products and handedness; SE3 preserves distances; every rotation reachable through the API from proper rotations is orthogonal with determinant 1.", "quantifier": "every pair of transforms and every vector", "why_tests_cant": "continuum of inputs", "anchors": ["resim/transforms/so3.cc: operator* (vector), rotate", "resim/transforms/se3.cc: operator* (vector), rotate"]}
{"id": "C25", "title": "Framed vectors keep track of their frame", "statement": "Rotating a framed vector succeeds exactly if the transform is framed and its from frame is the vector's frame, and yields a vector in the into frame; v + w of framed vectors succeeds exactly if their frames agree; scaling keeps the frame; rotating a sum or multiple is the sum or multiple of the rotated vectors; rotation by a composition equals successive rotations, including which calls throw.", "quantifier": "every framed vector and pair of framed transforms", "why_tests_cant": "all combinations of frames and values", "anchors": ["resim/transforms/framed_vector.hh: operator+, FramedVector", "resim/transforms/so3.cc: rotate", "resim/transforms/se3.cc: rotate"]}
{"id": "C26", "title": "Adjoints are consistent", "statement": "adjoint() as a matrix, adjoint_times, and conjugation agree: adjoint()*x = adjoint_times(x), Ad(ab)=Ad(a)Ad(b), Ad(a^-1)=Ad(a)^-1, the static adjoint agrees with the static adjoint_times, the bracket is antisymmetric and satisfies Jacobi, and Ad(a)[x,y]=[Ad(a)x,Ad(a)y].", "quantifier": "every transform and every pair or triple of tangent vectors", "why_tests_cant": "identities over a continuum; tests compare a few random samples", "anchors": ["resim/transforms/so3.cc: adjoint, adjoint_times", "resim/transforms/se3.cc: adjoint, adjoint_times"]}
{"id": "C27", "title": "exp is the matrix exponential", "statement": "SO3::exp(w) is the matrix exponential of the cross-product matrix of w for every w, a proper rotation; SE3::exp(w,u) is the matrix exponential of the 4x4 twist matrix whenever the rotation angle is zero or at least the small-angle threshold 0.002.", "quantifier": "every tangent vector (SE3: outside the small-angle region)", "why_tests_cant": "an infinite series compared with a closed form for all arguments", "anchors": ["resim/transforms/so3.cc: exp", "resim/transforms/se3.cc: exp", "resim/transforms/liegroup_exp_diff.cc"]}
{"id": "C28", "title": "Small-angle coefficients are accurate", "statement": "Below the small-angle threshold the series coefficients used by exp differ from the exact sin/cos expressions by less than 1e-16 relative error, so switching branches is invisible at double precision.", "quantifier": "every rotation angle below 0.002", "why_tests_cant": "a bound over an interval of reals", "anchors": ["resim/transforms/liegroup_exp_diff.cc: derivative_of_exp_so3"]}
{"id": "C29", "title": "Exponential of log is the identity for SO3", "statement": "SO3::exp(g.log()) equals g for every rotation, with the norm of log at most pi, and log(exp(w)) equals w for every w of norm less than pi.", "quantifier": "every rotation matrix, including half turns, and every w with |w| < pi", "why_tests_cant": "half turns and the trace branches of the matrix-to-quaternion conversion form measure-zero sets that random tests miss", "anchors": ["resim/transforms/so3.cc: exp, log"]}
{"id": "C30", "title": "Exponential of log is the identity for SE3", "statement": "SE3::exp(g.log()) equals g for every pose.", "quantifier": "every proper rigid transform, in every small, middle and large angle branch of log", "why_tests_cant": "three branches with different closed forms; equality over a continuum", "anchors": ["resim/transforms/se3.cc: exp, log"]}
{"id": "C31", "title": "Interpolation runs from identity to the transform", "statement": "g.interp(0) is the identity and g.interp(1) is g, and interp(s) composed with interp(t) is interp(s+t) of the underlying motion; frames of interp are those of g, or (into, new_from) for the two-argument form, which throws exactly for unframed g or a null new_from.", "quantifier": "every transform and every real fraction, inside or outside [0,1]", "why_tests_cant": "continuum of fractions and transforms", "anchors": ["resim/transforms/so3.cc: interp", "resim/transforms/se3.cc: interp"]}
{"id": "C32", "title": "se3_distance is the translation distance of the relative pose", "statement": "se3_distance(a_from_ref, b_from_ref) is the norm of the translation of a_from_b, as the header says, and se3_inverse_distance(ref_from_a, ref_from_b) is the norm of the translation of a_from_b; both throw exactly when the reference frames disagree and are non-negative, symmetric and satisfy the triangle inequality.", "quantifier": "every pair and triple of poses", "why_tests_cant": "tests use poses with special rotations; the claim is for all rotations", "anchors": ["resim/transforms/se3.cc: se3_distance, se3_inverse_distance", "resim/transforms/se3.hh"]}
{"id": "C33", "title": "Two-jets form a group", "statement": "Left and right two-jets with their operator*, inverse and identity satisfy associativity, identity and inverse laws in value, first and second derivative.", "quantifier": "every triple of two-jets over SO3 or SE3", "why_tests_cant": "algebraic identities in up to 36 real variables", "anchors": ["resim/curves/two_jet.cc: operator*, inverse, identity"]}
{"id": "C34", "title": "Left and right two-jets correspond", "statement": "right_two_jet and left_two_jet are mutually inverse, reverse products (right of a*b is right of b times right of a) and commute with inverse.", "quantifier": "every pair of two-jets", "why_tests_cant": "algebraic identities over a continuum", "anchors": ["resim/curves/two_jet.cc: right_two_jet, left_two_jet"]}
{"id": "C35", "title": "Two-jet product and inverse are the true derivatives", "statement": "If two differentiable motions have given left (right) two-jets at a time, then the product and inverse motions have exactly the two-jets computed by operator* and inverse there, and the left and right jets of inverse motions correspond under right_two_jet.", "quantifier": "every pair of twice differentiable motions in SO3 and SE3 and every time", "why_tests_cant": "statement about derivatives of arbitrary smooth curves; tests use finite differences", "anchors": ["resim/curves/two_jet.cc: operator*, inverse", "docs/resim/transforms/liegroup_derivatives.md"]}
{"id": "C36", "title": "Quintic coefficients are the Hermite basis", "statement": "two_jet_coeffs evaluates, for each coefficient table and every t, the value and the first and second derivative of one polynomial, and these polynomials satisfy the Hermite boundary conditions at t=0 and t=1 exactly.", "quantifier": "every t and all five coefficient tables", "why_tests_cant": "derivative statements for all t", "anchors": ["resim/curves/quintic_poly_coeffs.hh", "resim/curves/quintic_poly_coeffs.cc: two_jet_coeffs, two_jet_single_coeff"]}
{"id": "C37", "title": "A curve segment hits its end points with their derivatives", "statement": "TCurveSegment::point_at(0) equals the orig two-jet and point_at(1) equals the dest two-jet in pose, first and second derivative and frames.", "quantifier": "every pair of two-jets with equal frames", "why_tests_cant": "equality of composed exponentials over a continuum", "anchors": ["resim/curves/t_curve_segment.cc: point_at, accumulate"]}
{"id": "C38", "title": "A curve segment's derivatives are the derivatives of its pose", "statement": "The first and second derivative reported by TCurveSegment::point_at(t) are the true left derivatives of the pose it reports as a function of t.", "quantifier": "every segment and every t", "why_tests_cant": "derivative statements for all t and all control jets", "anchors": ["resim/curves/t_curve_segment.cc: point_at, accumulate"]}
{"id": "C39", "title": "TCurve interpolates its control points and is C2", "statement": "Querying a TCurve at a control time returns that control point with its derivatives, whichever adjacent segment is used, and pose, velocity and acceleration are continuous across control times.", "quantifier": "every curve with at least two control points, every control index", "why_tests_cant": "any number of control points, spacing and values", "anchors": ["resim/curves/t_curve.cc: append, point_at, point_at_impl", "docs/resim/curves/index.md"]}
{"id": "C40", "title": "TCurve construction keeps times increasing and frames equal", "statement": "After any sequence of appends, control times are strictly increasing and all control points have the same frames; an append is rejected exactly when its time is not after the last one or its frames differ, and a rejected append leaves the curve unchanged.", "quantifier": "every sequence of append calls, including rejected ones", "why_tests_cant": "all histories", "anchors": ["resim/curves/t_curve.cc: append"]}
{"id": "C41", "title": "TCurve queries succeed exactly inside the curve", "statement": "point_at(t) succeeds exactly when the curve has at least two control points and start_time <= t <= end_time, uses the segment whose time span contains t, and throws otherwise.", "quantifier": "every curve and every query time", "why_tests_cant": "all query times and numbers of segments", "anchors": ["resim/curves/t_curve.cc: point_at, point_at_impl, start_time, end_time"]}
{"id": "C42", "title": "DCurve arc lengths accumulate correctly", "statement": "After any sequence of appends the stored arc lengths start at 0, never decrease, grow by the geodesic translation length of each step, and curve_length is the last of them; appends with other frames than the first framed control throw and leave the curve unchanged.", "quantifier": "every sequence of control poses", "why_tests_cant": "all histories", "anchors": ["resim/curves/d_curve.cc: append, curve_length"]}
{"id": "C43", "title": "DCurve passes through its control points continuously", "statement": "point_at at a control's arc length is that control pose and consecutive segments agree at their joint, for curves whose segments have positive length.", "quantifier": "every curve with positive-length segments and every control index", "why_tests_cant": "all curves", "anchors": ["resim/curves/d_curve.cc: point_at, point_at_impl"]}
{"id": "C44", "title": "DCurve is parameterised by distance travelled", "statement": "Along each positive-length segment the translation moves with unit speed in the query parameter, so the distance travelled up to point_at(s) is s.", "quantifier": "every positive-length segment and every s inside it", "why_tests_cant": "a derivative statement for all s", "anchors": ["resim/curves/d_curve.cc: point_at", "resim/transforms/se3.cc: arc_length, interp"]}
{"id": "C45", "title": "DCurve queries never divide by zero or fail inside the curve", "statement": "point_at(s) succeeds with a well-defined pose for every s in [0, curve_length] of a non-empty curve and throws for every other s.", "quantifier": "every curve and every s", "why_tests_cant": "zero-length segments are a measure-zero set of curves that tests miss", "anchors": ["resim/curves/d_curve.cc: point_at, point_at_impl"]}
{"id": "C46", "title": "DCurve frames are consistent", "statement": "All control poses of a DCurve carry the same frames as the first one after any sequence of accepted appends.", "quantifier": "every sequence of appends of framed and unframed poses", "why_tests_cant": "all histories mixing framed and unframed poses", "anchors": ["resim/curves/d_curve.cc: append"]}
{"id": "C47", "title": "RigidBodyState accessors are independent", "statement": "Each setter of linear/angular velocity/acceleration changes exactly the value its getter returns and nothing else, the last write wins, and the derivative struct constructor and body_derivatives are inverse.", "quantifier": "every state and every order of setter calls", "why_tests_cant": "all sequences of setter calls and values", "anchors": ["resim/actor/state/rigid_body_state.cc: setters, getters, body_derivatives"]}
{"id": "C48", "title": "RigidBodyState derivatives are body-frame velocities", "statement": "If the pose follows a differentiable motion whose right derivative is the state's, then body_linear_velocity is the time derivative of the position expressed in the body frame and body_angular_velocity the body-frame rotation rate; accelerations are the derivatives of these body-frame quantities.", "quantifier": "every twice differentiable motion of a body and every time", "why_tests_cant": "statement about derivatives of arbitrary motions", "anchors": ["resim/actor/state/rigid_body_state.cc", "docs/resim/curves/rigid_body_state.md"]}
{"id": "C49", "title": "RigidBodyState composition and relative state are inverse", "statement": "a.inverse_times(a*b) equals b for all states with compatible frames, and inverse_times of a state with itself is the identity state at rest.", "quantifier": "every pair of states", "why_tests_cant": "identities over a continuum", "anchors": ["resim/actor/state/rigid_body_state.cc: operator*, inverse_times"]}
{"id": "C50", "title": "Trajectory accepts exactly time-ordered states of one body", "statement": "A trajectory accepts an append exactly when its body and reference frames agree with the earlier ones and its time, converted to seconds from start, is larger than the previous one; for spans up to 2^52 ns that is exactly when the timestamp is later; a rejected append leaves the trajectory unchanged.", "quantifier": "every history of appends with int64 timestamps", "why_tests_cant": "all histories; the conversion to double seconds is only lossy for large spans", "anchors": ["resim/actor/state/trajectory.cc: append", "resim/time/timestamp.hh"]}
{"id": "C51", "title": "Every time inside a trajectory can be queried", "statement": "For a trajectory with at least two controls, point_at succeeds for every timestamp from the first to the last control time inclusive, and at a control timestamp returns that control state.", "quantifier": "every trajectory and every timestamp in its span", "why_tests_cant": "rounding of the query time and of the stored times must agree for all 2^64 timestamps", "anchors": ["resim/actor/state/trajectory.cc: point_at"]}
{"id": "C52", "title": "Trajectory end time is the last control time", "statement": "end_time() equals the timestamp of the last appended control and time_duration() equals end_time()-start_time().", "quantifier": "every trajectory spanning at most 2^52 ns", "why_tests_cant": "depends on rounding of the seconds conversion for every duration", "anchors": ["resim/actor/state/trajectory.cc: end_time, time_duration", "resim/time/timestamp.hh: as_duration"]}
{"id": "C53", "title": "Matrix packing round-trips", "statement": "unpack_matrix(pack_matrix(M)) == M element for element for every matrix shape and content, transposition is not lost, previous content of the message is discarded, and unpacking a message of another size or packing into null throws.", "quantifier": "every matrix of every shape over any element type, and every prior message content", "why_tests_cant": "all shapes and values", "anchors": ["resim/math/proto/matrix_to_proto.hh: pack_matrix, unpack_matrix"]}
{"id": "C54", "title": "Frame and framed-vector messages round-trip", "statement": "unpack(pack(x)) equals x for every frame (null frame included) and every framed vector, whatever the message contained before; a message without an id is rejected with an exception.", "quantifier": "every frame, framed vector and prior message content", "why_tests_cant": "2^128 frames", "anchors": ["resim/transforms/proto/frame_3_to_proto.cc", "resim/transforms/proto/framed_vector_3_to_proto.cc"]}
{"id": "C55", "title": "Transform messages round-trip", "statement": "unpack(pack(g)) equals g with its frames for every SO3, and for every SE3.", "quantifier": "every transform, framed or not", "why_tests_cant": "the encoding goes through log and exp, with branches at small angles and half turns", "anchors": ["resim/transforms/proto/liegroup_to_proto.cc: pack, unpack"]}
{"id": "C56", "title": "Curve and trajectory messages round-trip", "statement": "unpack(pack(c)) reproduces every reachable TCurve, DCurve, two-jet and Trajectory: same control points, times, order, frames and start time, and answers every query identically.", "quantifier": "every curve and trajectory reachable through appends", "why_tests_cant": "unbounded control lists, re-validated by append on unpacking", "anchors": ["resim/curves/proto/t_curve_to_proto.cc", "resim/curves/proto/d_curve_to_proto.cc", "resim/curves/proto/two_jet_to_proto.cc", "resim/actor/state/proto/trajectory_to_proto.cc"]}
{"id": "C57", "title": "View primitives round-trip", "statement": "unpack(pack(p)) equals p for every view primitive: id, payload, file, line and optional name; a message without a payload is reported as a bad status.", "quantifier": "every primitive of every payload type, named or not", "why_tests_cant": "all payload variants and strings, including the empty name", "anchors": ["resim/visualization/proto/view_primitive_to_proto.cc: pack, unpack"]}
{"id": "C58", "title": "View updates keep order and multiplicity", "statement": "unpack(pack(u)) has the same primitives as u in the same order, for any number of them.", "quantifier": "every update of any length", "why_tests_cant": "unbounded lists", "anchors": ["resim/visualization/proto/view_update_to_proto.cc"]}
{"id": "C59", "title": "Viewed objects reach the client exactly once", "statement": "Under every interleaving of threads calling view and flush, with a client whose sends succeed, every object viewed before a completed flush is sent exactly once, each thread's objects are sent in its program order, and nothing is sent that was not viewed.", "quantifier": "every number of threads, every schedule, every program of view and flush calls", "why_tests_cant": "thread schedules cannot be enumerated by tests", "anchors": ["resim/visualization/view.cc: view_object, flush"]}
{"id": "C60", "title": "A successful flush has delivered everything its thread viewed before", "statement": "When a thread's flush returns normally, every object that thread viewed earlier has been delivered to the client.", "quantifier": "every schedule of threads and every pattern of client failures", "why_tests_cant": "needs a failure of one thread's flush interleaved with another thread's calls", "anchors": ["resim/visualization/view.cc: flush, view_object"]}
{"id": "C61", "title": "A failed flush never duplicates and reports the failure", "statement": "If the client reports a bad status flush throws; no object is ever sent twice, in any history of failures; with no client set flush throws and keeps the pending objects.", "quantifier": "every history of view, flush and set_client with any pattern of client failures", "why_tests_cant": "all failure patterns", "anchors": ["resim/visualization/view.cc: flush, set_client"]}
{"id": "C62", "title": "View client opens one session and reuses it", "statement": "No update is posted before a session-creation request has succeeded, at most one session is created successfully over the life of a client, and all updates go to it.", "quantifier": "every sequence of sends and every sequence of server responses", "why_tests_cant": "all response sequences", "anchors": ["resim/visualization/client/view_client.cc: send_view_update"]}
{"id": "C63", "title": "Update ids are never reused", "statement": "Distinct calls of send_view_update never post under the same update id and ids increase; within one call a retried post uses the same id and body.", "quantifier": "every sequence of sends and server responses (fewer than 2^64 sends)", "why_tests_cant": "all response sequences", "anchors": ["resim/visualization/client/view_client.cc: send_view_update"]}
{"id": "C64", "title": "Authorization failures are retried at most once", "statement": "Each of the two requests of a send is repeated at most once, only after a 401 response and only after the credentials were refreshed; a send makes at most four posts; it returns OK exactly when the last update post was answered 201.", "quantifier": "every sequence of server responses", "why_tests_cant": "all response sequences", "anchors": ["resim/visualization/client/view_client.cc: send_view_update"]}
{"id": "C65", "title": "Tokens are cached and refreshed", "statement": "get_jwt contacts the server only if neither memory nor the token file holds a token; repeated calls without refresh return the same token without contacting the server; after refresh the next get_jwt fetches a new one, and a restarted client reads back the token a previous one saved.", "quantifier": "every sequence of get_jwt, refresh and process restarts, with every server behaviour", "why_tests_cant": "all histories and crash points between calls", "anchors": ["resim/auth/device_code_client.cc: get_jwt, refresh, load_token, save_token"]}
{"id": "C66", "title": "A returned token is never empty", "statement": "get_jwt returns a non-empty token whenever it returns.", "quantifier": "every initial token file content, history and server behaviour", "why_tests_cant": "includes pre-existing files of any content", "anchors": ["resim/auth/device_code_client.cc: load_token, fetch_token"]}
{"id": "C67", "title": "Device-code polling terminates and obeys the deadline", "statement": "fetch_token stops polling once the expiry time has passed, sleeps the server-given interval between polls, and either ends with the token of the first non-error answer or throws; it never uses a token from an error answer.", "quantifier": "every sequence of server answers and clock readings that advance by at least the sleep", "why_tests_cant": "unbounded polling sequences with real time", "anchors": ["resim/auth/device_code_client.cc: fetch_token"]}
{"id": "C68", "title": "Sample covariance is a covariance", "statement": "covariance(samples) is symmetric and positive semidefinite, unchanged by adding a constant to all samples, equals the unbiased formula with n-1, and throws exactly for fewer than two samples; the covariance of linearly transformed samples is A C A^T.", "quantifier": "every sample matrix of any number of rows and columns", "why_tests_cant": "all dimensions and values", "anchors": ["resim/math/sample_statistics.hh: mean, covariance"]}
{"id": "C69", "title": "Gaussian sampling transform reproduces the covariance", "statement": "The linear map the Gaussian sampler applies to standard normal samples has the requested covariance as its square when the covariance is positive semidefinite, so samples with identity sample covariance and zero mean are mapped to samples with exactly the requested mean and covariance; covariances with an eigenvalue clearly below zero are rejected, and tiny negative eigenvalues are clamped to zero.", "quantifier": "every dimension, mean and symmetric covariance with any orthogonal eigendecomposition", "why_tests_cant": "all dimensions and matrices", "anchors": ["resim/math/multivariate_gaussian.cc: Gaussian, samples, sanitize_eigenvalues"]}
{"id": "C70", "title": "TCurve derivatives are time derivatives of its pose", "statement": "At every time strictly inside a TCurve, control times included, the first and second derivative reported by point_at are the true left time derivatives of the pose it reports.", "quantifier": "every curve with at least two control points and every time strictly between its ends", "why_tests_cant": "derivative statements for all times and all curves; tests compare with finite differences", "anchors": ["resim/curves/t_curve.cc: append, point_at, point_at_impl, unnormalize_derivatives"]}
{"id": "C71", "title": "Viewing never deadlocks and always returns", "statement": "Under every interleaving of threads calling view, flush and set_client, and whatever the client answers, some unfinished thread can always proceed, every call takes a bounded number of steps of its thread, and the threads can always be run to completion with every call having returned or thrown; in particular the lock is released when a call fails.", "quantifier": "every number of threads, every schedule, every program and every pattern of client failures and exceptions", "why_tests_cant": "absence of deadlock over all schedules cannot be tested", "anchors": ["resim/visualization/view.cc: view_object, flush, set_client"]}
{"id": "C72", "title": "What the server acknowledges is what was viewed", "statement": "With View's own client, the updates that the server acknowledged (201) unpack, in order, to objects that were viewed: in the order viewed, each at most as often as it was viewed, those of one thread in the order of its calls, and each equal to the viewed one up to the documented packing accuracy. No two updates are acknowledged at the same address.", "quantifier": "every number of threads, every schedule, every program of view and flush calls, every behaviour of the server and of the credentials", "why_tests_cant": "combines all schedules with all server behaviours, across view, client and packing", "anchors": ["resim/visualization/view.cc: View, view_object, flush", "resim/visualization/client/view_client.cc: send_view_update", "resim/visualization/proto/view_update_to_proto.cc: pack, unpack"]}
{"id": "C73", "title": "A view that returns has reached the server", "statement": "With View's own client, when view returns normally the server has acknowledged an update that unpacks to objects with the viewed one among them; and with a server that answers every request, once all threads have finished the acknowledged updates hold exactly the viewed objects, those of each thread in its order.", "quantifier": "every schedule, program, server behaviour; every object that can be viewed", "why_tests_cant": "combines all schedules with all server behaviours, across view, client and packing", "anchors": ["resim/visualization/view.cc: View, view_object, flush", "resim/visualization/client/view_client.cc: send_view_update", "resim/visualization/proto/view_update_to_proto.cc: pack, unpack"]}
{"id": "C74", "title": "exp_diff is the differential of the rotation exponential", "statement": "Along any differentiable path of rotation vectors, the rotation exp of it turns with the angular velocity that exp_diff gives: exactly when the vector is zero or at least 0.002 long, and up to 2e-16 of the speed of the path when it is shorter.", "quantifier": "every path, every time, every velocity; exact real arithmetic", "why_tests_cant": "a derivative along every path, over all rotation vectors; a sampled finite difference is much coarser than the claim", "anchors": ["resim/transforms/so3.cc: SO3::exp_diff", "resim/transforms/liegroup_exp_diff.cc: derivative_of_exp_so3"]}
{"id": "C75", "title": "Sampling an interval of doubles with rounding", "statement": "With the rounding of double arithmetic, sampling between two distinct finite bounds with a positive step calls the function with finite values between the bounds, in order, the first and the last exactly the bounds, no two neighbours farther apart than the step.", "quantifier": "every pair of distinct finite doubles and every positive double step", "why_tests_cant": "the rounding errors of all pairs of doubles; wrong cases need particular bit patterns", "anchors": ["resim/time/sample_interval.cc: num_samples(double), sample_interval(double)"]}
{"id": "C76", "title": "Unpacking any message", "statement": "Unpacking a frame, framed vector, transform, two-jet, curve, trajectory, view primitive or update from any message either returns or throws, without undefined behaviour; what it returns is well formed (rotations are rotation matrices, frames are both null or both set, curves and trajectories could have been built by appending, names are not empty), so that it can be packed and unpacked again.", "quantifier": "every message content, with fields unset or set to anything", "why_tests_cant": "messages come from other programs and can hold anything; a test samples some", "anchors": ["resim/visualization/proto/view_update_to_proto.cc: unpack", "resim/visualization/proto/view_primitive_to_proto.cc: unpack", "resim/actor/state/proto/trajectory_to_proto.cc: unpack", "resim/curves/proto/*_to_proto.cc", "resim/transforms/proto/*_to_proto.cc"]}
{"id": "C77", "title": "Every transform a client obtains is a rigid motion", "statement": "Starting from rotation matrices, unit quaternions, unit axes and any messages, whatever sequence of constructors, compositions, inversions, exponentials, interpolations, frame changes, curve and trajectory appends, queries and unpackings a client calls, every transform it gets back is a rotation or a rigid motion (distances are kept) with both frames set or both null, and every curve is one that could have been built by appending.", "quantifier": "every finite sequence of calls over all the transform, two-jet, curve, rigid body state and trajectory classes; exact real arithmetic", "why_tests_cant": "an invariant over all call sequences of about ninety operations", "anchors": ["resim/transforms/so3.cc", "resim/transforms/se3.cc", "resim/curves/two_jet.cc", "resim/curves/t_curve.cc", "resim/curves/d_curve.cc", "resim/actor/state/rigid_body_state.cc", "resim/actor/state/trajectory.cc"]}
{"id": "C78", "title": "What approximate equality of transforms means", "statement": "is_approx of SO3, SE3 and their two-jets is reflexive and symmetric, holds only between objects with the same frames, means that every point is moved to nearly the same place (rotations: exactly if the angle between them is below about 1.2e-12), and does not depend on the reference frame in which the two are expressed.", "quantifier": "all transforms and two-jets, all points, all changes of reference frame; exact real arithmetic", "why_tests_cant": "a relation over all pairs; the tolerance is far below what random tests come near to", "anchors": ["resim/transforms/so3.cc: is_approx, is_approx_transform", "resim/transforms/se3.cc: is_approx, is_approx_transform", "resim/curves/two_jet.cc: is_approx"]}
{"id": "C79", "title": "Framed vectors of different frames are kept apart", "statement": "Two framed vectors with different frames never compare equal, nor approximately equal with isApprox, and every attempt to sum them throws.", "quantifier": "all framed vectors, however they are passed", "why_tests_cant": "which overload is called depends on the constness of the argument, and operators are inherited; the tests use const vectors and + only", "anchors": ["resim/transforms/framed_vector.hh: FramedVector, operator+, operator==, isApprox"]}
{"id": "C80", "title": "Rotations from angles, axes, quaternions and matrices", "statement": "An SO3 built from an angle and a unit axis turns space about that axis by that angle (right hand rule) and equals exp(angle * axis); one built from a unit quaternion q maps v to q v q^-1; quaternion() returns a unit quaternion from which the same SO3 is built, and q or -q for an SO3 built from q; numbers that do not describe a rotation are refused.", "quantifier": "all angles, axes, quaternions and rotation matrices; exact real arithmetic", "why_tests_cant": "identities over all rotations, among them half turns, where the conversion to quaternions branches", "anchors": ["resim/transforms/so3.cc: SO3 constructors, quaternion, exp"]}
{"id": "C81", "title": "Distance curves are values", "statement": "A copy of a DCurve is independent of the original: with curves in variables, copied, appended to and read in any order, every call ends and every query answers as if each variable held a curve of its own, and a curve always stays consistent with its control poses.", "quantifier": "every program over any number of curve variables", "why_tests_cant": "aliasing between copies shows only in particular sequences of calls", "anchors": ["resim/curves/d_curve.hh: DCurve, Control, Segment, control_pts, segments", "resim/curves/d_curve.cc: append, point_at"]}
{"id": "C82", "title": "Motion along one axis is reproduced", "statement": "If the control points of a time curve lie on one motion along a fixed axis (a rotation about an axis, a straight line, a screw), by an amount that is any polynomial of time of degree at most five, and carry the velocity and acceleration of that motion, then at every time in range the curve returns the pose, velocity and acceleration of that motion. Likewise a trajectory of such a body returns its states; a body on a circle stays on the circle.", "quantifier": "all axes, starting poses, polynomials of degree at most five, numbers and spacing of control points, query times; exact real arithmetic", "why_tests_cant": "a statement about infinitely many motions at all times between the samples; the tests compare a handful of points with tolerances", "anchors": ["resim/curves/t_curve.cc: append, point_at", "resim/curves/t_curve_segment.cc: point_at", "resim/actor/state/trajectory.cc: append, point_at", "resim/examples/trajectory.cc"]}
{"id": "C83", "title": "The reference frame of a curve or trajectory does not matter", "statement": "Expressing all control poses of a time curve, distance curve or trajectory relative to another reference, by multiplying them with one fixed transform, changes no query except for that transform: the same queries succeed, the returned poses differ by the transform, and velocities, accelerations and lengths are the same.", "quantifier": "all curves and trajectories, all fixed transforms, all query times and distances; exact real arithmetic", "why_tests_cant": "a symmetry over all inputs; the tests use one reference frame", "anchors": ["resim/curves/t_curve.cc: point_at", "resim/curves/d_curve.cc: point_at, curve_length", "resim/actor/state/trajectory.cc: point_at"]}
{"id": "C84", "title": "Appending never changes earlier answers", "statement": "A query of a time curve, distance curve or trajectory that succeeded gives the same answer after any further appends, accepted or refused. Between two neighbouring control points the answer depends on these two only, so it is the same on all curves where they are neighbours.", "quantifier": "all curves and trajectories built by any sequence of appends, all queries", "why_tests_cant": "relates answers before and after every possible continuation", "anchors": ["resim/curves/t_curve.cc: append, point_at", "resim/curves/d_curve.cc: append, point_at", "resim/actor/state/trajectory.cc: append, point_at"]}
{"id": "C85", "title": "Time origin and unit do not matter", "statement": "A trajectory whose timestamps are all later by the same amount is accepted as well and gives the same states that much later, exactly. A time curve whose times are shifted or scaled, with derivatives by the new time, gives the same poses at the same moments, and derivatives by the new time.", "quantifier": "all trajectories and shifts within int64; all time curves, shifts and positive scales; trajectories with rounding of times to double, curves in exact real arithmetic", "why_tests_cant": "simulations run near the epoch while logs have present-day timestamps, where rounding differs; the tests use few start times", "anchors": ["resim/actor/state/trajectory.cc: append, point_at, time_duration", "resim/curves/t_curve.cc: append, point_at"]}
{"id": "C86", "title": "The unit of length does not matter", "statement": "Giving all positions, velocities and accelerations of a time curve, trajectory or distance curve in another unit of length gives the same answers in that unit; orientations and angular rates are unchanged, arc lengths scale.", "quantifier": "all curves and trajectories, all units, all queries; exact real arithmetic", "why_tests_cant": "a symmetry over all inputs; a threshold or tolerance with a length in it would break it only for some sizes", "anchors": ["resim/curves/t_curve.cc: point_at", "resim/curves/d_curve.cc: point_at, curve_length", "resim/actor/state/trajectory.cc: point_at", "resim/transforms/se3.cc: exp, log"]}
{"id": "C87", "title": "The documented left-rectangle integration is accurate", "statement": "Adding up a quantity over the samples of an interval other than the end time, and multiplying by the length over the number of steps, as the documentation shows, differs from the integral of the quantity by at most its Lipschitz constant times the length times half the requested step (plus half a nanosecond for forward timestamps, a whole one for backward). This needs the count to fit in the int the recipe stores it in.", "quantifier": "all Lipschitz quantities, intervals of either direction and positive steps for which the count fits in an int; both the Timestamp and the double overload; exact real arithmetic for values", "why_tests_cant": "the example program checks one function on one interval; an off-by-one in count, end points or step would be within its tolerance for some functions", "anchors": ["resim/examples/time.cc: main (Interval Sampling)", "docs/resim/time/time.md: Interval Sampling", "resim/time/sample_interval.cc: sample_interval, num_samples"]}
{"id": "C88", "title": "Rounding errors of composed transforms grow slowly and predictably", "statement": "Composing and inverting transforms in double precision, in any bracketing, gives a transform within a stated distance of the exact one: with n transforms, each stored to relative error d, the rotation is off by at most (1+d)^n (1+10*2^-53)^(n-1) - 1 and the translation by the same kind of fraction of n times the largest translation. For a million transforms stored to the last place this is 1.4e-9. Applying the result to a point adds one rounding.", "quantifier": "all expressions made of transforms, products and inverses; all orders of evaluation of the inner products, with or without fused multiply-add; all doubles without overflow, subnormal numbers included", "why_tests_cant": "tests compare with a tolerance on a few random transforms; drift shows only in long chains, and evaluation order depends on compiler and machine", "anchors": ["resim/transforms/se3.cc: operator*, inverse, rotate", "resim/transforms/so3.cc: operator*, inverse, rotate"]}
{"id": "C89", "title": "Curves through points of one line, circle or helix stay on it", "statement": "A distance curve whose controls are successive points of a straight line, a circle or a helix, less than half a turn apart, is as long as that path and returns, at a distance, the point of the path at that distance, turned along with it. A distance curve, time curve or trajectory whose controls circle one point stays on that circle, whatever the timestamps, speeds and turns between them. The curves of the shipped examples have the lengths, points and distances from the centre that the examples state.", "quantifier": "all curves and trajectories, all controls on one screw motion or circle, all query positions and times; the shipped examples for every translation and scale of their circle; exact real arithmetic, with times in binary64", "why_tests_cant": "the examples check one sampled point, or the distance from the centre at 63 samples, which a curve that runs the wrong way round passes too", "anchors": ["resim/curves/d_curve.cc: point_at, curve_length", "resim/curves/t_curve.cc: point_at", "resim/actor/state/trajectory.cc: point_at", "resim/examples/curves.cc: main", "resim/examples/trajectory.cc: main", "resim/visualization/examples/example_02_distance_parameterized_unit_circle.cc: unit_circle"]}
{"id": "C90", "title": "A trajectory describes one smooth motion", "statement": "For every trajectory there is a motion of the body that passes through every control at its time with exactly the given pose, body velocity and body acceleration, is twice differentiable at every time in between, control times included, with exactly the velocity and acceleration it is given with, and to which every answer of the trajectory belongs: orientation, angular velocity and angular acceleration exactly, position, velocity and acceleration up to about 1e-15, 4e-15 and 3e-14 of the size of the two controls around it.", "quantifier": "all trajectories of at least two controls, all timestamps in their span, all turns between controls; times in binary64, geometry in exact real arithmetic", "why_tests_cant": "a statement about limits at every time; the tests difference a few samples with a tolerance, mostly with large turns", "anchors": ["resim/actor/state/trajectory.cc: append, point_at", "resim/curves/t_curve.cc: point_at", "resim/curves/t_curve_segment.cc: point_at", "resim/transforms/se3.cc: exp, log"]}
{"id": "C91", "title": "A sensor mounted on a moving body follows the body", "statement": "Take a curve or trajectory of a body, and build a second one from the poses, velocities and accelerations that a rigidly mounted sensor has at the same control points. If neighbouring controls are less than half a turn apart, then at every time in between (for distance curves: at every fraction of every segment) the second answers with the pose, velocity and acceleration that the sensor has on the body there, rotation parts exactly and translation parts within rounding-sized distances. The shipped examples do this: the distance curve example and, for a sensor on the turning axis, the time curve example give the path of the sensor.", "quantifier": "all curves and trajectories, all mounts, all query times and distances", "why_tests_cant": "A test compares a few mounts and times; the choice of interpolation between controls could depend on which point of the body is described, and the statement is about all of them.", "anchors": ["resim/curves/t_curve.cc: TCurve::point_at", "resim/curves/d_curve.cc: DCurve::point_at", "resim/actor/state/trajectory.cc: Trajectory::point_at", "resim/visualization/examples/example_02_distance_parameterized_unit_circle.cc: main", "resim/visualization/examples/example_03_time_parameterized_closed_curve.cc: translate_t_curve"]}
{"id": "C92", "title": "Interpolating between two transforms takes the shortest way at constant speed", "statement": "The documented interpolation a * (a.inverse() * b).interp(f) of two transforms with the same into frame starts at a, ends at b, and has the frames of b; it throws exactly if both have frames and the into frames differ. For rotations the angle between the results at two fractions is the difference of the fractions times the angle between a and b, and no way from a to b is shorter. For poses the result follows one screw motion, with the rotation exact and the position within 4e-15 of the distance. Going from b to a visits the same transforms in reverse, unless a and b are exactly half a turn apart. Angles just below half a turn and just above minus half a turn are joined through half a turn, not through zero.", "quantifier": "all pairs of transforms, all fractions", "why_tests_cant": "the guide checks one pair and one fraction; shortness compares with all other ways", "anchors": ["resim/examples/liegroups.cc: main (Interpolation)", "docs/resim/transforms/using_liegroups.md: SO3", "resim/transforms/so3.cc: interp, operator*, inverse", "resim/transforms/se3.cc: interp, operator*, inverse"]}
{"id": "C93", "title": "The assertions of the Lie group guide hold for every input", "statement": "For Euler angles of less than half a turn, the product of the rotations about x, y and z equals the exponential of the vector of the angles exactly if two of the angles are zero; the guide's claim that its assertion fails only then is false for whole turns and for angles too small for the comparison. For every transform without frames, interpolating by a fraction and by the rest and composing gives the transform back, and every tangent vector of less than half a turn is the logarithm of its exponential, by the comparison the guide uses. Composing a robot's pose and a sensor's pose on it gives frames (world, sensor); composing with the same again throws; composing with the inverse gives the robot's pose back.", "quantifier": "all angles, all transforms, all fractions from 0 to 1, all tangent vectors of less than half a turn, all frames", "why_tests_cant": "the guide and its program check a few random transforms and one set of angles; equality for no other angles is a statement about a continuum", "anchors": ["resim/examples/liegroups.cc: main", "docs/resim/transforms/using_liegroups.md", "resim/transforms/so3.cc: SO3, exp, is_approx", "resim/transforms/se3.cc: exp, log, interp, is_approx"]}
{"id": "C94", "title": "match runs the branch for the held type, whatever the order of the branches", "statement": "If match(variant, branches...) compiles, every value the variant can hold is handed to exactly one branch, all branches that can be chosen return the same type, and the order of the branches does not matter. With branches as the documentation recommends, the branch for exactly the held type runs if there is one, and otherwise the generic branch, even if another branch could take the value by conversion. A forgotten alternative of class type, two branches for one alternative, and function pointers are rejected at compile time, and so is the mutable branch of the documented pitfall. A variant without a value throws.", "quantifier": "all variants, all lists of branches, all held values, variants passed as lvalue, const lvalue or rvalue", "why_tests_cant": "a test instantiates a few templates; the rule is about all sets of branches and a rejected call cannot be run", "anchors": ["resim/utils/match.hh: match, BranchesConsistent, Overloads", "docs/resim/utils/match.md", "resim/examples/match.cc: main"]}
{"id": "C95", "title": "A function can change only what is wrapped for it", "statement": "A function with InOut or NullableReference parameters changes no object other than those wrapped in the call, whatever it does with them. While these objects live nothing is undefined; with InOut parameters, or NullableReference parameters none of which is null, no assertion fails. A NullableReference can stand for an InOut with the same effects, and for a raw pointer with the same effects except that using a null one is an assertion failure and not undefined. Writes are seen through every wrapper of the same object. A reference to an object that no longer exists cannot be told from a good one.", "quantifier": "all function bodies that use their parameters through the wrappers, all memories, all arguments, aliased or not", "why_tests_cant": "a test runs a handful of bodies; the claim is about every function that takes these types", "anchors": ["resim/utils/inout.hh: InOut", "resim/utils/nullable_reference.hh: NullableReference, null_reference", "docs/resim/utils/output_parameters.md", "resim/examples/output_parameters.cc: set_to_three, maybe_set_to_three"]}
{"id": "C96", "title": "Velocities are the limits of pose differences", "statement": "For every motion of a body the tangent vector that the library calls its velocity is the limit of log(g(t).inverse() * g(t+e)) / e, and its counterpart in the reference frame the limit of log(g(t+e) * g(t).inverse()) / e: the limit exists and has that value exactly if the motion is differentiable with that velocity. The adjoint of the pose turns the one into the other. Rotations of constant velocity X are exactly the motions g(0) * exp(t X), and a body of constant velocity X in space is at g(0) * exp(t X) up to 1e-18 of the distance covered. The adjoint of an element is the Jacobian of log(g exp(k) g.inverse()) at zero, and the algebra adjoint the derivative of the adjoint.", "quantifier": "all motions through SO3 or SE3, all times, all tangent vectors", "why_tests_cant": "a limit over all step sizes along all motions cannot be sampled, and small steps use the series branches of log", "anchors": ["docs/resim/transforms/liegroup_derivatives.md", "docs/resim/transforms/using_liegroups.md: Derivatives, Exp and Log", "resim/transforms/so3.cc: log, exp, adjoint_times", "resim/transforms/se3.cc: log, exp, adjoint_times"]}
{"id": "C97", "title": "Time curve queries are sound in double arithmetic", "statement": "With times as doubles, a TCurve can be made exactly from controls whose times are in strictly increasing order as doubles compare, and a query is answered exactly from the first control's time to the last's, otherwise it throws; nothing is undefined. The segment evaluated is the first that reaches to the query, and the normalised time it is evaluated at is between 0 and 1, within 2^-50 of the exact one, 0 at the segment's start and 1 at its end, and never goes back when the query goes forward.", "quantifier": "all lists of doubles as control times, all doubles as query times, infinities and not-a-number included", "why_tests_cant": "rounding in the difference, the inverse and the product depends on all bits of three doubles", "anchors": ["resim/curves/t_curve.cc: append, point_at_impl", "resim/curves/t_curve.hh: TCurve", "resim/actor/state/trajectory.cc: point_at"]}
{"id": "C98", "title": "Distance curve queries are sound in double arithmetic", "statement": "With distances as doubles, the distances of a DCurve's control poses along it start at zero, never fall and are within rounding of the sum of the segment lengths; a query is answered exactly from 0 to the length of the curve, otherwise it throws, also for not-a-number. The segment evaluated is the first that reaches to the query, and the fraction of the segment is between 0 and 1, within 2^-50 of the exact one, exactly 0 at the segment's start and exactly 1 at its end, and never goes back when the query goes forward; every segment is evaluated by some query.", "quantifier": "all lists of doubles as segment lengths, all doubles as query distances", "why_tests_cant": "rounding in the running sum and the fraction depends on all bits of all lengths before", "anchors": ["resim/curves/d_curve.cc: append, curve_length, point_at_impl", "resim/curves/d_curve.hh: DCurve"]}
{"id": "C99", "title": "An assertion tests what is written and shows it verbatim", "statement": "REASSERT(condition) and REASSERT(condition, message) throw exactly if the condition is false, with an exception that shows the file, the line, the text of the condition as it is in the source, and the message; the condition and the message are evaluated once each. A condition in parentheses is taken as one whatever is in it.", "quantifier": "all conditions and messages as sequences of tokens, all macros that may be defined where they are used, all program states and evaluation orders", "why_tests_cant": "what the preprocessor makes of a condition depends on its tokens and on the macros in force; a test sees a few conditions", "anchors": ["resim/assert/assert.hh: REASSERT, SELECT_ASSERTER, assert_impl", "resim/assert/assert.cc: AssertException", "docs/resim/assert/index.md: Unrecoverable Errors"]}
{"id": "C100", "title": "The library's test inputs are where the maps invert, and differ where it matters", "statement": "Whatever numbers the pseudo-random generator gives, any count of test rotations, poses, vectors and two-jets from seven up can be had and a smaller one throws. All rotations and poses turn by less than pi, so that log returns the vector they were made from, and one rotation is within 0.01 of pi. Among plain vectors is one of size 1e6. Velocity and acceleration of a test two-jet are independent, so a test can tell them apart.", "quantifier": "all sequences of pseudo-random numbers from -1 to 1, all counts", "why_tests_cant": "these are the inputs of the tests; no test looks at what they cover", "anchors": ["resim/transforms/liegroup_test_helpers.cc: make_test_vectors, make_test_algebra_elements, make_test_group_elements", "resim/curves/two_jet_test_helpers.cc: make_test_two_jet_elements", "resim/testing/random_matrix.hh: random_vector"]}
{"id": "C101", "title": "Test directories never touch each other or anything else", "statement": "Making a TestDirectoryRAII either makes a new directory directly in the temporary directory and changes nothing else, or throws. Whatever identifiers the generator gives, the directory of a living object stays apart from those of all others, and the destructor removes it with all that is in it and nothing else: if tests write only in their directory, everything is afterwards as before. test_file_path with an extension without a slash is a name directly in the directory with this extension, and differs from all paths made with other identifiers or by other objects.", "quantifier": "all file systems, all sequences of objects made and destroyed and of changes by others, all identifiers, all extensions", "why_tests_cant": "a test makes one or two directories with random names; a name that is taken never comes up", "anchors": ["resim/testing/test_directory.cc: TestDirectoryRAII, path, test_file_path", "resim/testing/test_directory.hh: TestDirectoryRAII"]}
{"id": "C102", "title": "Against the mock view server, exactly what is sent with valid credentials arrives, in order and doubled", "statement": "The mock view server lets a request pass exactly if its first bearer token is the valid one, answers 403 to the forbidden token and 401 to everything else; with the valid token it opens its session, answers a readable update with its code and the receiver's reply and an unreadable one with 500, and any other address with 404. A program that sends updates to it, whatever credentials it gets: each post of an update with the valid token reaches the receiver, with the update, the session id of the server and the number of the update, and nothing else does; the receiver is called twice for each such post. A send returns OK exactly if one of its posts has the valid token and the server is set to answer 201; numbers increase. With good credentials all updates arrive in order, numbered from zero. A program with many threads that views objects through View: the receiver gets batches of viewed objects in the order viewed, and all of them if every thread finishes.", "quantifier": "all headers, paths and bodies; all session ids, response codes and base addresses; all histories of sends with all credentials; all programs of View with all schedules", "why_tests_cant": "the library's tests use this server with one or two updates and do not count the calls of the receiver", "anchors": ["resim/visualization/testing/mock_server.cc: MockServer, validate_headers", "resim/testing/mock_server.cc: MockServer::add_post_receiver", "resim/visualization/client/view_client.cc: send_view_update"]}
{"id": "C103", "title": "Against the mock device-code server, a login gives the token exactly if it is completed in time", "statement": "A client that fetches a token from the mock device-code server gets the server's token exactly if, since its request for a code, the login was authorised and no other client has asked for a code after that, at some poll up to which the clock was before the deadline (the request plus the lifetime set last, 600 seconds by default), and the token is not empty. Otherwise it throws: 'Timed out!' exactly if a check finds the deadline reached with no complete login before, 'No token received!' exactly if the token is empty and the login complete in time; nothing else. Authorisations before the request do not count.", "quantifier": "all tokens, intervals and lifetimes, all clocks, all sequences of actions by the user and other clients before and between the polls", "why_tests_cant": "tests authorise at one fixed moment with one client and never let time run out in between", "anchors": ["resim/auth/testing/mock_device_code_server.cc: MockDeviceCodeServer, set_browser_auth_complete, set_timeout_s", "resim/auth/device_code_client.cc: fetch_token"]}
{"id": "C104", "title": "The circle curves that the tests of the curve library are built on run along the unit circle", "statement": "The time-parameterised circle curve of the test helpers can be built with any two frames, runs from 0 to 2 pi, answers at every time in between with a pose within 1e-14 of the pose on the unit circle that turns once in 2 pi, and throws outside. At the five control times, and from 8% to 92% of every quarter, the pose is exact, the velocity is the constant one and the acceleration is zero. The distance-parameterised circle has length 3 pi / 2 with controls every pi / 2, and at every arc length its pose is within 1e-17 of the one on the circle.", "quantifier": "all frames, all times and all arc lengths", "why_tests_cant": "tests compare some tens of sampled parameters against tolerances of 1e-6 and larger, and use the circles as reference for everything else", "anchors": ["resim/curves/test_helpers.cc: make_circle_curve", "resim/curves/d_curve_test_helpers.cc: DCurveCircle<SE3>::points", "resim/curves/t_curve.cc", "resim/curves/d_curve.cc"]}
{"id": "C105", "title": "The turning radius of a body follows from its state; the drone trajectory of the examples passes its waypoints but does not return", "statement": "The path of any motion that has a given rigid body state at some time bends there with curvature |v x (a + w x v)| / |v|^3, from the state's body velocities and acceleration. The drone trajectory of the examples can be built, runs from 0 s to 33 s, is at its three waypoints in exactly the states set there, answers at every nanosecond in between and throws outside. It ends six metres from its start, heading the other way, although the example says that it returns; at the middle waypoint it accelerates along the upward axis of the banked body and turns on a radius of sqrt(1050) metres, not on the 150 metres that the example names.", "quantifier": "all states and motions; all frames and all timestamps of the example", "why_tests_cant": "the example is only looked at in a viewer; no test computes the curvature of a path", "anchors": ["resim/visualization/examples/example_04_actor_trajectory.cc: out_and_back_banked", "resim/actor/state/rigid_body_state.cc", "resim/actor/state/trajectory.cc"]}
{"id": "C106", "title": "The move and copy tracker counts how the value of an object came to it", "statement": "After any program of creations, constructions and assignments from lvalues and rvalues, const or not, the tracker of every object counts exactly the moves and the copies by which the object's value was handed on from where it was created; the content is what was created there, and is lost exactly if an object on the way had been moved from before, or this one since. Being copied or moved from changes no counter of the source.", "quantifier": "all programs of creations, copies, moves and assignments, self-assignment included", "why_tests_cant": "tests perform one copy and one move each and never overwrite, chain or self-assign", "anchors": ["resim/testing/move_copy_tracker.cc: MoveCopyTracker", "resim/testing/move_copy_tracker.hh"]}
{"id": "C107", "title": "A value passes through status values with one copy or one move per step, a reference with none", "statement": "A value put into a StatusValue, passed on any number of times between StatusValues and taken out with value() arrives with the content it had, moved once for every step from a non-const rvalue and copied once for every other step. A StatusValue of a reference gives back the very object that was put in, and no object is copied or moved; it does not compile exactly if the reference cannot bind or an rvalue reference would be copied. value() allows moving exactly from a non-const rvalue that holds a value or an rvalue reference, and never drops const. RETURN_OR_ASSIGN returns the status of a bad StatusValue; given the name of a non-const local variable it moves the value out of it, given an lvalue in parentheses it does not. Assigning a good StatusValue over a bad one costs a copy and a move.", "quantifier": "all kinds of types held, all value categories, all chains of copies and moves", "why_tests_cant": "tests try one step at a time, for a class with two counters, and never look at the variable after RETURN_OR_ASSIGN", "anchors": ["resim/utils/status_value.hh: StatusValue, value, RETURN_OR_ASSIGN", "resim/testing/move_copy_tracker.cc"]}
{"id": "C108", "title": "The payload generator makes as many payloads as asked for, framed as asked for, each fit to be sent", "statement": "Asked for fewer than seven payloads of a type, the generator check-fails; asked for seven or more it returns exactly as many, all of that type, with frames exactly if these are asked for (frames and trajectories always have them), no frame used for two transforms, and each payload survives packing and unpacking in an update, in order, up to a tiny change of translations. A test primitive can be had for every type and name and survives packing likewise.", "quantifier": "all types of payloads, counts, pseudo-random numbers and new frames", "why_tests_cant": "tests ask for seven and for 101 payloads, and not for framed vectors", "anchors": ["resim/visualization/view_server/view_server_test_helper.cc: generate_payload_type", "resim/visualization/proto/view_primitive_test_helper.cc: generate_test_object, generate_test_primitive"]}
{"id": "C109", "title": "Exponentials computed in doubles stay within a few thousand roundings of the exact rigid motion", "statement": "The rotation computed for a tangent vector turns every vector like the matrix exponential up to 100 (1 + angle) times 2^-53 of its length, the computed translation is off by at most 5000 times 2^-53 of the length of the translation part (plus underflow), and the computed differential by 8000 times 2^-53; neither the switch to series at small angles nor cancellation above it costs more, and vectors so small that their squared norm underflows are no exception. Expressions that compose and invert such transforms are off by the corresponding compounded factors only.", "quantifier": "all tangent vectors with rotation part up to 2^500 and all ways to order and fuse the floating-point sums", "why_tests_cant": "tests compare a few random samples with tolerances of 1e-6 to 1e-13 on one machine", "anchors": ["resim/transforms/so3.cc: SO3::exp, SO3::exp_diff", "resim/transforms/se3.cc: SE3::exp", "resim/transforms/liegroup_exp_diff.cc: derivative_of_exp_so3", "resim/transforms/cross_matrix.cc: cross_matrix"]}
{"id": "C110", "title": "Logarithms and interpolations computed in doubles are accurate at every angle", "statement": "The tangent vector computed as the logarithm of a stored rotation or rigid motion has an exponential that agrees with the stored transform up to 100 times the error of the stored rotation and a few thousand roundings, at every angle including half a turn and including angles so small that the translation uses a series; taking the exponential of the computed logarithm gives the transform back to that accuracy. For motions that turn by less than half a turn the computed logarithm is close to the exact tangent vector, computing the exponential and then the logarithm gives the tangent vector back, the computed interpolation at any fraction is close to the exact point on the screw motion, and the computed arc length is close to the length of the translation part.", "quantifier": "all stored transforms within 1/1000 of a rigid motion, all fractions between -1 and 1 and all ways to order and fuse the floating-point sums", "why_tests_cant": "tests compare random samples with tolerances, and random samples do not come near half a turn or the switch of series", "anchors": ["resim/transforms/so3.cc: SO3::log, SO3::interp", "resim/transforms/se3.cc: SE3::log, SE3::interp, SE3::arc_length"]}
{"id": "C111", "title": "Poses and distances of a distance curve computed in doubles are accurate", "statement": "A curve is made from poses that are stored with a small relative error. The distance along the curve at which each pose is reached, as computed, is close to the exact one: the error grows with the length of the curve and the number of poses, by a stated amount. The pose computed for any distance is close, by a stated amount that does not depend on the number of poses, to the pose of the exact curve at a distance close to the one asked for. Every distance from zero to the computed length has an answer, except zero itself when the first two poses coincide.", "quantifier": "all curves of up to 2^40 segments with less than half a turn between successive poses, all distances, and all ways to order and fuse the floating-point sums", "why_tests_cant": "tests query a few distances on a few curves with tolerances; the accumulation of errors over many segments is never reached", "anchors": ["resim/curves/d_curve.cc: DCurve::append, DCurve::point_at, DCurve::point_at_impl", "resim/transforms/se3.cc: SE3::interp, SE3::arc_length"]}
{"id": "C112", "title": "Poses, velocities and accelerations of a time curve computed in doubles are accurate", "statement": "A time curve is made from control points whose poses, velocities and accelerations are stored with a small relative error. Between any two control points there is an exact motion that has the given poses, velocities and accelerations at both ends; it is given by an explicit formula and its velocity and acceleration are its derivatives. Whatever is computed for a time in range is close, by a stated amount in pose, velocity and acceleration, to what this motion has at a time that differs from the one asked for by a few roundings. A curve with two or more control points answers exactly at the times from its first to its last.", "quantifier": "all control points with less than half a turn between successive poses and bounded velocities and accelerations, all numbers of controls, all times, and all ways to order and fuse the floating-point sums", "why_tests_cant": "tests compare a few times on a few curves with tolerances, mostly against the same formulas; the worst error over all data and all times cannot be sampled", "anchors": ["resim/curves/t_curve.cc: TCurve::append, TCurve::point_at, TCurve::unnormalize_derivatives", "resim/curves/t_curve_segment.cc: TCurveSegment::point_at", "resim/curves/two_jet.cc: TwoJetL::operator*", "resim/curves/quintic_poly_coeffs.cc: two_jet_coeffs"]}
{"id": "C113", "title": "States of a trajectory computed in doubles are accurate", "statement": "A trajectory is made from states of a body whose poses, velocities and accelerations are stored with a small relative error. Between any two of them there is an exact motion of the body that has the given states at both ends, given by an explicit formula; its velocities and accelerations are the kinematics of that motion seen in the body frame. The state answered for a time in range is close, by a stated amount in position, orientation, velocities and accelerations, to the state of this motion at a time that differs from the one asked for by a few roundings. A trajectory of two or more states answers exactly for the times from the first to the last, by time stamp or by time since the start.", "quantifier": "all states with less than half a turn between successive poses and bounded velocities and accelerations, all numbers of states, all times, and all ways to order and fuse the floating-point sums", "why_tests_cant": "tests compare a few times on a few trajectories with tolerances; the worst error over all data and all times cannot be sampled", "anchors": ["resim/actor/state/trajectory.cc: Trajectory::append, Trajectory::point_at", "resim/curves/two_jet.cc: TwoJetL::right_two_jet, TwoJetR::left_two_jet", "resim/time/timestamp.hh: as_seconds"]}
{"id": "C114", "title": "A sample mean and covariance computed in doubles are accurate, and usable for a Gaussian unless the samples are nearly degenerate", "statement": "The computed mean of each column differs from the exact mean by at most about the number of samples times the rounding unit times the average magnitude. Each computed covariance differs from the exact unbiased covariance by a stated multiple of the standard deviations, and computed variances are never negative. When the samples are spread out and not close to a hyperplane, a Gaussian can be constructed from the computed covariance. Without that condition it can be refused: the allowance for rounding does not cover two samples on a line, and equal samples can have a positive computed variance.", "quantifier": "all sample matrices of doubles with fewer than 2^32 rows and any number of columns, and all ways to order and fuse the floating-point sums", "why_tests_cant": "tests compare a few random matrices with a tolerance; neither the worst case over all data nor all orders of summation can be sampled", "anchors": ["resim/math/sample_statistics.hh: mean, covariance", "resim/math/multivariate_gaussian.cc: Gaussian::Gaussian, sanitize_eigenvalues"]}
{"id": "C115", "title": "Composed and relative states computed in doubles are accurate", "statement": "Take two states stored in doubles and two motions that are in the intended states. The computed product of the states differs by a small multiple of the rounding unit and of the errors of the data from the state of the one motion after the other: pose, velocity and acceleration. The same holds of inverse_times and the motion of the second body seen from the first. Taking a state relative to another and composing again gives the state back within a stated error, and a state relative to itself is near the identity at rest.", "quantifier": "all pairs of stored states within the stated magnitudes, all motions in the intended states, and all ways to order and fuse the floating-point sums", "why_tests_cant": "tests compose a few random states and compare with a tolerance; the worst case and the relation to motions cannot be sampled", "anchors": ["resim/actor/state/rigid_body_state.cc: operator*, inverse_times", "resim/curves/two_jet.cc: TwoJetR::operator*, TwoJetR::inverse", "resim/transforms/se3.cc: adjoint_times"]}
{"id": "C116", "title": "Transforms, curves and trajectories stay accurate through chains of messages", "statement": "Write a stored transform, a state, a time curve, a distance curve or a trajectory into a message, read it back, write what was read, and so on for any number of messages. The transform read at the end is near the one that was meant: the error of the data is magnified once and every message adds the same small amount, for every angle including half turns, and the rotation read is within a fixed number of roundings of an exact rotation however many messages there were. Velocities and accelerations are read as they were written. What a relayed curve or trajectory answers is near the exact motion through the intended points, and it answers for the same times.", "quantifier": "all stored transforms near a rigid motion, all lists of controls within the stated magnitudes, all numbers of messages up to a stated total error, all query times, and all ways to order and fuse the floating-point sums", "why_tests_cant": "tests send random values through one message and compare with a tolerance; how errors accumulate over a chain, and the worst case near half turns, cannot be sampled", "anchors": ["resim/transforms/proto/liegroup_to_proto.cc: pack_liegroup, unpack_liegroup", "resim/curves/proto/two_jet_to_proto.cc: pack_two_jetl, unpack_two_jetl, pack_two_jetr, unpack_two_jetr", "resim/curves/proto/t_curve_to_proto.cc: pack_t_curve, unpack_t_curve", "resim/curves/proto/d_curve_to_proto.cc: pack_d_curve, unpack_d_curve", "resim/actor/state/proto/trajectory_to_proto.cc: pack, unpack"]}
{"id": "C117", "title": "Approximate equality as computed means closeness to twelve digits, and what went through a message is reported approximately equal", "statement": "Where stored rotations, transforms, two-jets or vectors are reported approximately equal their distance is at most 1e-12 of the smaller length, and where they are reported different it is more than that, up to the last three digits of this bound and up to underflow, in whatever order the sums are computed. Approximately equal transforms take every point to places that are close. A stored transform, point of a curve or actor state that is written into a message and read back is reported approximately equal to what was written: for every angle including half turns and the smallest ones, every translation, and after any number of messages before. Nothing but the same zero translation is approximately the identity's, however small, until the squares underflow.", "quantifier": "all stored numbers, all stored transforms within 4e-14 of a rigid motion (or relayed at least once from one within 1e-3), all translations that are zero or at least 1e-147, all ways to order and fuse the floating-point sums", "why_tests_cant": "tests assert is_approx on random values after one round trip; whether it holds near half turns, for tiny angles and large translations, and what a positive answer guarantees, cannot be sampled", "anchors": ["resim/transforms/so3.cc: SO3::is_approx_transform", "resim/transforms/se3.cc: SE3::is_approx_transform", "resim/curves/two_jet.cc: TwoJetL::is_approx, TwoJetR::is_approx", "resim/transforms/framed_vector.hh: FramedVector::isApprox", "resim/transforms/proto/liegroup_to_proto.cc: pack_liegroup, unpack_liegroup", "resim/curves/proto/two_jet_to_proto.cc: pack_two_jetl, unpack_two_jetl, pack_two_jetr, unpack_two_jetr"]}
{"id": "C118", "title": "Rotations built from an angle and an axis, from Euler angles or from a quaternion are the rotations meant, to within known rounding errors", "statement": "A rotation made from an angle of any size and a normalised axis turns every vector as the exact rotation by that angle about that axis does, to within 99 roundings of the length; the product of three such rotations about the coordinate axes to within 330. A rotation made from a quaternion turns every vector to q v q^-1, up to rounding and to how far the quaternion is from a unit quaternion, and a quaternion and its negative give the same rotation. The quaternion of a rotation is, to within rounding, a unit quaternion that turns as the rotation does; the rotation made from it is reported approximately equal to the rotation it came from, half turns included, and the quaternion of the rotation made from a quaternion is that one normalised, or its negative.", "quantifier": "all angles, all axes that are normalised to within rounding, all quaternions of squared length near one, all stored rotations near a rotation, all ways to order and fuse the floating-point sums", "why_tests_cant": "tests compare a few random rotations with each other to twelve digits; the size of the errors for large angles, near half turns where the conversion to quaternions branches, and for quaternions that are not quite normalised cannot be sampled", "anchors": ["resim/transforms/so3.cc: SO3::SO3, SO3::quaternion, SO3::operator*", "resim/transforms/so3.hh: SO3::SO3, SO3::quaternion", "resim/examples/liegroups.cc: euler angles, quaternions"]}
{"id": "C119", "title": "The interpolation assertions of the Lie group guide hold as computed, for every angle and axis and every transform", "statement": "A fraction of the way from one rotation to another, computed as in the guide, is the first followed by that fraction of the turn that leads to the second, to within rounding. About the same axis it is the rotation about that axis by the angle at that fraction of the shorter way round, to within 7800 roundings, and is reported approximately equal to the rotation made from that angle: in particular half way from any angle beyond a quarter turn to its negative is half a turn. A transform interpolated by a fraction and by the rest, and composed, is reported approximately equal to the transform, for every fraction in [0, 1], every rotation including half turns and every translation.", "quantifier": "all angles, all normalised axes, all fractions in [0, 1], all pairs of angles that do not differ by half a turn to within 1e-12, all stored transforms within 4e-14 of a rigid motion whose translation is zero or at least 1e-147, all ways to order and fuse the floating-point sums", "why_tests_cant": "the guide asserts this for one pair of angles, one axis, one transform and one fraction", "anchors": ["resim/examples/liegroups.cc: main", "resim/transforms/so3.cc: SO3::interp, SO3::inverse, SO3::operator*", "resim/transforms/se3.cc: SE3::interp, SE3::operator*, SE3::is_approx_transform"]}
{"id": "C120", "title": "Exponential and then logarithm gives an approximately equal tangent vector, and small rotations keep their relative precision", "statement": "The logarithm of the exponential of a tangent vector that rotates by at most 1.75 radians is reported approximately equal to the tangent vector, as the guide asserts for one that is drawn at random with entries between -1 and 1. The rotation part comes back to within 2280 roundings relative to its own length, down to 2^-50 radians, however long the translation part is, and the translation part to within 7450 roundings relative to its own length.", "quantifier": "all tangent vectors with a rotation part of at most 1.75 radians (approximate equality: that is at least 2^-50, or with a translation part of at least 1), all ways to order and fuse the floating-point sums, all results of sqrt, sin, cos and atan2 within the documented accuracy", "why_tests_cant": "the guide asserts this for one random draw; precision relative to a tiny rotation is lost silently if the matrix is rounded asymmetrically", "anchors": ["resim/examples/liegroups.cc: main", "resim/transforms/se3.cc: SE3::exp, SE3::log", "resim/transforms/so3.cc: SO3::exp, SO3::log"]}
{"id": "C121", "title": "Distances between poses are precise however far the poses are from the origin, symmetric, and agree with the composed relative pose", "statement": "The distance between two poses is computed to within four roundings relative to the distance itself (unless it is below 2^-499), however far both are from the reference frame. Swapping the arguments does not change it, the triangle inequality holds up to eleven roundings, equal translations have distance exactly zero, and translations that are at least 2^-499 apart have a positive distance. It agrees with the length of the translation of the composed relative pose up to 24 roundings relative to the distances from the reference frame and the error of the stored rotation (for se3_distance: plus the difference of the two orientations times the distance of the reference frame).", "quantifier": "all poses with finite translations (no overflow), stored rotations within any error e (at most 0.001) of a rotation, all ways to order and fuse the floating-point sums", "why_tests_cant": "the tests compare a few random poses near the origin with a fixed tolerance; precision relative to a small distance far from the origin, and underflow, are not sampled", "anchors": ["resim/transforms/se3.cc: se3_distance, se3_inverse_distance", "resim/transforms/se3.hh: se3_distance, se3_inverse_distance"]}
{"id": "C122", "title": "Samples of a Gaussian computed in doubles are an affine image of the standard normal numbers whose square is the requested covariance", "statement": "Each coordinate of a computed sample is the mean plus a fixed linear map applied to the standard normal numbers that were drawn, up to d + 2 roundings of the terms that are added. No square root is taken of a negative number, and negative eigenvalues within the tolerance (a quadrillionth of the range of the covariance, or of one, up to four roundings) count as zero. If the eigendecomposition that the solver returned reproduces the requested covariance up to an error, the linear map has the requested covariance as its square up to that error, two roundings of the largest eigenvalue and the tolerance.", "quantifier": "all dimensions below 2^32, all means, covariances, standard normal numbers and results of the eigenvalue solver, all ways to order and fuse the floating-point sums (no overflow)", "why_tests_cant": "the tests compare sample statistics of a few distributions with loose tolerances; they cannot tell rounding from sampling error", "anchors": ["resim/math/multivariate_gaussian.cc: Gaussian, samples, sanitize_eigenvalues"]}
{"id": "C123", "title": "Samples of a Gaussian object are reproducible, and do not depend on other objects", "statement": "The samples that a Gaussian object gives depend on nothing but its parameters and how many samples were asked of it before, call by call: not on other objects, nor on the order in which objects are used, and they are the same in another program. A copy gives the very samples that the original gives next. A request for n samples gives n, made from different successive draws. Drawing n + m samples at once gives what drawing n and then m gives.", "quantifier": "all programs that make, copy and draw from any number of Gaussian objects, all engines and distributions with whatever state, all dimensions and counts", "why_tests_cant": "tests draw from one or two objects in one order and look at sample statistics, which are the same for reused, shared or reordered numbers", "anchors": ["resim/math/multivariate_gaussian.cc: samples, iid_samples", "resim/math/multivariate_gaussian.hh: SEED, rng_, sample"]}
{"id": "C124", "title": "A scene of framed transforms has one meaning", "statement": "However framed SE3 transforms are inverted, multiplied and bracketed, the result is there exactly if neighbouring frames fit, and it leads from the last frame to the first; otherwise an exception is thrown. If a scene grows by transforms between a known frame and a new one, in either direction, its frames have places such that every transform says where its two frames are to each other; the transform between any two frames can be computed, and every way to compute it gives the same one, the identity for a way back to the start. One more transform between known frames keeps this exactly if it is the one that could have been computed. The examples put the sensor where it should be, and the deliberate bug in one of them throws.", "quantifier": "all expressions of any size and bracketing, all scenes of any size and shape, all rotations and translations", "why_tests_cant": "tests compose two or three transforms in one order; this is about all trees of frames and all paths through them", "anchors": ["resim/transforms/se3.cc: operator*, inverse", "resim/visualization/examples/example_01_framed_transform_composition.cc: main", "resim/examples/view.cc: main"]}
{"id": "C125", "title": "Random test curves are what was asked for, from fresh numbers", "statement": "A random test curve can be had exactly if the times go up, and an exception is thrown otherwise. It then has exactly these times, the frames asked for or none, and at each time a point made from numbers of the generator that were used for nothing before, in this curve or an earlier one: the numbers in a curve of rotations are the next nine for each time, each used once, and two curves asked for one after the other are the parts of the one for all the times. With two or more times it can be queried from the first to the last time and nowhere else; one of rotations goes through its points with continuous derivatives. A refused request has used up numbers too. Which derivative gets which numbers is left open by C++, so a seed does not fix the curve across compilers.", "quantifier": "all seeds and sequences of numbers, all lists of times, framed or not, rotations and poses, both orders of evaluation", "why_tests_cant": "tests look at the number of points for three lists of times with one seed and one compiler; this is about all lists of times, all seeds, every sequence of requests and both evaluation orders", "anchors": ["resim/curves/t_curve_test_helpers.cc: make_t_curve", "resim/curves/two_jet_test_helpers.cc: make_test_two_jet", "resim/testing/random_matrix.hh: random_vector"]}
{"id": "C126", "title": "A stale token is replaced once, and no update is lost", "statement": "Whatever the server does, every request of the view client bears the first token until the credentials are refreshed and the second one ever after. If the server lets in only who bears the second token, every send succeeds nevertheless: all updates arrive, once each and in order, with one refused request and one refresh in all, or none if the first token is right as well. If neither is right, every send returns an error after two refused requests with a refresh between them, and no update is sent. No send throws if there is a server address and the update can be packed.", "quantifier": "all servers, all tokens, all histories of sends of any length", "why_tests_cant": "tests refresh once with one scripted server; this is about all servers and all histories", "anchors": ["resim/auth/testing/mock_auth_client.hh: MockAuthClient", "resim/visualization/client/view_client.cc: send_view_update, set_auth_client"]}
{"id": "C127", "title": "What the comparison of the view tests sees, and what it does not", "statement": "Two primitives with different identifiers are unequal; with the same one, two poses are compared approximately and anything else throws, even a primitive compared with itself. The comparison is symmetric and never looks at names or source places. The test that packs an update passes exactly if there are two messages that unpack to the right identifier and nearly the right pose. The test of the round trip passes exactly if packing and unpacking give two primitives, whatever they are, because it compares the original with itself. The library passes both.", "quantifier": "all primitives, all ways to pack and unpack, right or wrong", "why_tests_cant": "this is about which wrong programs the tests let pass, which the tests cannot say themselves", "anchors": ["resim/visualization/testing/test_helpers.cc: primitives_equal", "resim/visualization/proto/view_update_to_proto_test.cc: TestPack, TestRoundTrip", "resim/visualization/proto/view_update_to_proto.cc: pack, unpack"]}
{"id": "C128", "title": "The shipped examples do what they say", "statement": "The example of matching names the type that the variant holds, for every alternative, however the variant is passed and in whatever order the branches stand; without its default branch it is refused, or, if there is no double, calls a bool an int. The example of sampling always succeeds; each sample is as far from the mean, measured with the inverse of the covariance, as the standard normal sample it is made of is from zero; and its file has 1000 lines from which the written numbers can be read back. The first example of visualization shows a quarter turn and the same turn with a translation, under their names.", "quantifier": "all values held, all orders of the branches, all working eigenvalue solvers, all numbers drawn, all ways to write a number without comma or end of line", "why_tests_cant": "the examples have no tests; a run shows one held value and one draw", "anchors": ["resim/examples/match.cc: main", "resim/examples/gaussian.cc: main", "resim/visualization/examples/example_00_rigid_transform.cc: main"]}
{"id": "C129", "title": "What a variable holds after a message was unpacked into it, also if it was refused", "statement": "Unpacking a transform, a two-jet or a distance curve into a variable changes it only if the message is accepted, so after any messages it holds the value of the last accepted one. Unpacking a time curve loses what the variable held in any case; if the message is refused the variable holds the curve of the points before the first refused one. The functions that return a value give the value of the message, and fail exactly if it is refused.", "quantifier": "all messages, all sequences of messages, all former contents", "why_tests_cant": "the tests unpack good messages into fresh variables", "anchors": ["resim/curves/proto/t_curve_to_proto.cc: unpack_t_curve", "resim/curves/proto/d_curve_to_proto.cc: unpack_d_curve", "resim/curves/proto/two_jet_to_proto.cc: unpack_two_jetl, unpack_two_jetr", "resim/transforms/proto/liegroup_to_proto.cc: unpack_liegroup", "resim/transforms/proto/se3_to_proto.cc: unpack", "resim/curves/proto/t_curve_se3_to_proto.cc: unpack"]}
{"id": "C130", "title": "Passing a type as an object picks the library's function", "statement": "Which function a call with a type object runs depends only on functions around the call, in the library and in its detail namespace, never on what the namespace of the type defines. The pattern of the header works: the overload for the type runs if there is one, else the template, whatever clients define. Without the guard, or with the basic type object as the argument, a client's function can take the call away. A template on the guarded object is never deduced. The type can be had back from its object.", "quantifier": "all programs (sets of functions in namespaces), all types, all places of the call", "why_tests_cant": "a test shows one client function that is not picked", "anchors": ["resim/utils/type.hh: BasicType, Type, TypeC", "resim/utils/type_test.cc: TestADLDisabled"]}
