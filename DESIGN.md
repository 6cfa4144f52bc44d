# Formal model of resim-ai/re-core: design

Source of truth: the C++ text in `/repo` (read only, never built or run here).
Proofs: Lean 4.33.0 with single-module Mathlib imports, project in `/verif/lean`.

## 1. Layout

| folder | contents |
|---|---|
| `lean/Verif/Model/` | executable (or, over the reals, total) model of the C++ functions; every definition cites file and lines |
| `lean/Verif/Spec/`  | small independent specifications (what a user expects), not using helpers of the model |
| `lean/Verif/Proofs/`| helper lemmas |
| `lean/Verif/Props/` | the property theorems named in `MANIFEST.json`, each with a non-vacuity `example` beside it |
| `seeded/LOG.jsonl`  | record of mutation experiments |

## 2. Modelling conventions

* **Outcomes.** A C++ call is modelled by `Outcome α`: `ok a`, `throw msg` (a failed `REASSERT`, i.e. `AssertException`),
  or `ub why` (undefined behaviour: signed overflow, reading an empty container, float to int out of range, ...).
  Undefined behaviour is a separate outcome so that "never UB" is a statement that can fail.
* **int64.** Mathematical integers, every machine operation checked: an addition, subtraction, negation, product or
  division whose exact result leaves the int64 range is `ub`. Inputs are integers with a range hypothesis.
* **double.** Two treatments. (a) Where rounding decides the property (seconds conversion, trajectory times, C75) binary64
  round-to-nearest-even is modelled exactly over the rationals with 53-bit precision. The exponent range is unbounded, which is
  exact for all values that occur there (magnitudes between 1e-9 and 1e19); C75 has the exponent range, subnormals, infinities and NaN. (b) The geometry (SO3, SE3, jets, curves, statistics)
  is modelled in exact real arithmetic: theorems say the *formulas in the code* are right; rounding error of the geometry is
  modelled for composing, inverting and applying transforms (C88), for the exponential maps (C109), the logarithms and interpolations (C110),
  distance curves (C111), time curves (C112), trajectories (C113), sample statistics (C114), composed states (C115), what is relayed through messages (C116) and approximate equality (C117), rotations from angles, axes and quaternions (C118), interpolation as in the guide (C119), exponential and then logarithm (C120), distances (C121), Gaussian samples (C122); there `sqrt` is assumed correctly rounded and `sin`, `cos` and `atan2` accurate to one unit in the last place, as C libraries document. Every such property says so in its manifest note. Doubles are finite there: NaN and infinities are not values, and a
  division by zero is the outcome `ub`.
* **Eigen.** Products, transposes, cross products are the textbook operations. `AngleAxisd(matrix)` is modelled by Eigen's algorithm
  (matrix to quaternion with its four branches, then `atan2`); `AngleAxisd::toRotationMatrix` by Rodrigues' formula. Eigen is
  not part of /repo; this is trusted.
* **Frames.** A frame is a 128-bit identifier; null is all zeros. `new_frame` returns an arbitrary identifier (freshness of random
  UUIDs is probabilistic, not modelled).
* **protobuf.** Messages are records with proto3 semantics (absent sub-messages are default messages, `optional` fields tracked where the
  `.proto` declares them so; `Clear()` resets). Wire encoding is not modelled.
* **std::priority_queue** is any container meeting its contract (a parameter of the model, not one heap algorithm).
* **Threads.** `View` is modelled as a transition system whose atomic steps are the mutex-protected regions in `view.cc`; schedules
  are arbitrary interleavings. Memory-model effects inside a critical section are not modelled (the mutex excludes them).
* **HTTP, JSON, file system, clock, auth server** are environments: the model is a function of an arbitrary stream of responses.

## 3. Trusted base

* Lean 4 kernel; axioms `propext`, `Classical.choice`, `Quot.sound` only (`Verif/Audit.lean` walks the dependencies of every declaration in the project and fails the build on any other axiom). No own axioms,
  no `sorry`, no `native_decide`, no `bv_decide`.
* That the model transcribes the cited lines faithfully (checked by hand; mutation experiments in `seeded/LOG.jsonl` check that
  theorems notice changes).
* The conventions of section 2.

Not modelled: logging and console output, random number generation (fixed seed, distribution of samples), move/copy
semantics except in status values (C19), wrappers (`InOut`, `NullableReference`) kept beyond a call, test-only code (`*_test*`, `testing/`,
`view_server/`) except the generators, mocks and helpers named in section 4, build files, examples other than those named in section 4.

## 4. Plan per property

| id | model | proof |
|---|---|---|
| C01, C02 | `Model/SafeInt`: three functions with checked int64 primitives | case analysis with `omega`; spec is "exact value if in range" |
| C03 | `Model/SampleInterval.numSamplesT` on checked int64 | least `n` characterisation; degenerate `start = end` shown separately (code returns 2 for dt > 1) |
| C04, C05, C06 | loop of `sample_interval` as a fuelled recursion over the sample index emitting a list | invariant `whole*n + numerator = i*T`; samples in closed form; nearest for forward intervals; counterexample for backward intervals and for mid-way overflow |
| C07 | same functions over the reals with int cast checked | floor/ceil algebra |
| C08, C09 | `Model/Timestamp` truncated division | `omega`; negative counterexample for C09 |
| C10, C11 | `Model/Binary64` rounding, `asSeconds`, `asDuration` | relative error lemma, monotone rounding; C10 is refuted (15 ns) and replaced by a 1 ns bound |
| C12-C16 | `Model/EventSchedule`: state machine over any conforming priority queue | refinement to a stable sorted list by induction on histories |
| C17, C18 | `Model/Uuid`: 16 bytes, libuuid print and parse | list induction over hex digits |
| C19 | `Model/Status`, `Model/StatusExample`: status, status values, chains, and the functions and `main` of the shipped example; the argument of `RETURN_OR_ASSIGN` is an object that outlives the statement or a temporary | induction over chains; undefined exactly at a temporary |
| C20, C21, C23, C25 | `Model/Frame`, `Model/Framed`: frame part of every group operation, generic in the group | invariant over an inductive set of reachable objects; case analysis; counterexample for C23 |
| C22, C24, C26 | `Model/SO3`, `Model/SE3` over real matrices | matrix algebra |
| C27, C28 | `exp` with its two branches | even/odd split of the exponential series against `NormedSpace.exp`; alternating series bounds |
| C29, C30 | `log` with Eigen's branches | quaternion identities, trigonometry; C30 small-angle branch has a wrong coefficient, so partial |
| C31 | `interp` | from C27, C29, C30; end point within 1e-15 for all angles (`Props/SmallTurns`); every fraction within 4e-15 of one exact screw motion, additivity alike (`Props/Between`) |
| C32 | distance functions | inverse form proved, direct form refuted by counterexample |
| C33-C35 | `Model/TwoJet` generic in a Lie group interface, instantiated for SO3 and SE3 | algebra; product rule with `HasDerivAt` |
| C36 | `Model/TCurve` (quintic tables) | polynomial identities |
| C37, C38 | `Model/TCurve` (segments) | from C29, C30, C35, C36; SE3 inside the small-angle region: exactness refuted with a witness, and closeness to the same formula with the exact exponential and logarithm (`SE3.vpoint_shadow` in `Proofs/Shadow`), which is exactly twice differentiable (`Props/ExactMotion`) |
| C39-C41, C70 | `Model/TCurve` state machine | invariant over append histories, correctness of the halving search, gluing of continuity and of jets at control times; SE3 controls within 1e-15 for all angles, witness that they are not exact (`Props/SmallTurns`) |
| C42 | `Model/DCurve` state machine | invariant over append histories |
| C43 | same | first-segment search proved, then exactness of exp and log (partial below 0.002 rad, see C30); controls within 1e-15 for all angles, witness that they are not exact (`Props/SmallTurns`) |
| C44 | same | derivative of the screw motion; polynomial bound in the small-angle region; integral of the speed; at the switch of formulas left limits of the coefficients and a strict bound for the cosine (`Proofs/Switch`) |
| C45 | same | exact domain; witnesses for a single control and for a first step without length |
| C46 | same | invariant; witness for an unframed first control |
| C47-C49 | `Model/RigidBodyState` | case analysis, derivatives |
| C50-C52 | `Model/Trajectory` over binary64 seconds | from C11, C39-C41; control states within 1e-15 for all angles (`Props/SmallTurns`); end time refuted by witness, 1 ns bound |
| C53-C58 | `Model/Proto*` | round trips by structural induction |
| C59-C61, C71 | `Model/View` interleaving transition system | mutual exclusion, ledger and per-thread trace invariants over all schedules; counterexamples for C60; step counting for C71 |
| C62-C64 | `Model/ViewClient` over response streams | invariants over call histories; witness against one session for a blank session id |
| C65-C67 | `Model/Auth` over arbitrary answers, clocks and file outcomes | characterisation of the polling loop, invariants over histories; counterexample for C66 |
| C68, C69 | `Model/Stats` over real matrices of any size; solver and random numbers are inputs | affine maps of samples, quadratic forms of an eigendecomposition |
| C72, C73 | `Model/EndToEnd`: `Model/View` with `Model/ViewClient` as its client and `Model/Proto` as packing | projection to a schedule of `Model/View` and a history of `Model/ViewClient`; then C58-C61, C63 |
| C74 | `SO3.expDiff`, `SO3.expDiffCoeffs` in `Model/SO3` | derivative of the closed form of `exp` along a path; coefficients from C28 |
| C75 | `Model/SampleIntervalDouble`: binary64 with exponent range, infinities and NaN | error analysis of each operation; witnesses against order, membership and step |
| C76 | the `unpack` functions of `Model/Proto` on any message | invariant of each return value, carried through the loops; exact condition for undefined behaviour |
| C77 | all constructors, operations, queries and unpackings of the transform, curve and state classes, as one inductive set of obtainable objects | induction over the calls; each operation keeps the invariant |
| C78 | `is_approx` and `is_approx_transform` with Eigen's definition of `isApprox` | Frobenius norms, trace and angle; witnesses for transitivity and change of reference frame |
| C79 | `FramedVector` comparison and sums, with how the argument is passed | case distinction; witnesses |
| C80 | constructors and `quaternion()` of `SO3` | Rodrigues' formula, Mathlib's quaternion algebra, exact conditions for a rotation |
| C81 | `Model/DCurveHeap`: `d_curve.cc` with a heap, curves in variables | refinement: each variable in the heap stands for a value of `Model/DCurve`; witnesses for writes |
| C82 | `Model/TCurve`, `Model/Trajectory` and below, as for C40-C50 | specification with the matrix exponential; along one axis the five exponentials of the segment formula collapse into one whose exponent is the quintic through the end data, and a polynomial of degree five is its own such quintic; error bounds for exponential and logarithm in the small-angle region; which rotation vectors survive `exp` and `log`, exact half turns included (`Spec/HalfTurn`, `Proofs/HalfTurn`), settles when rotations are reproduced |
| C83 | `Model/TCurve`, `Model/DCurve`, `Model/Trajectory` and below | specification with homogeneous matrices; two curves with corresponding controls answer from corresponding pieces (`Proofs/Transport`), and the segment formula uses poses only through their ratio |
| C84 | as for C83 | the piece that answers a query is found by its two controls (`Proofs/Local`) |
| C85 | as for C83, with `Model/Binary64` | the curves inside the two trajectories are equal, because only differences of timestamps are stored; for curves as for C83 with a change of time |
| C86 | as for C83 | scaling lengths commutes with every Lie group operation of the SE3 model (`SE3.lengths_hom`) |
| C87 | the left-rectangle recipe of `resim/examples/time.cc` on top of the sampling models; `as_seconds` exact | each rectangle against the integral over it (`Rectangles.one`), with the distance of the rounded samples from their ideal places (`offset_near`); the narrowing of the count to `int` gives the counterexample `c87_count_wraps` |
| C88 | `operator*`, `inverse` and application of SO3 and SE3 in binary64 (`Model/TransformDouble`): a relation that admits every order of evaluation of an inner product, with or without fused multiply-add | forward error of an inner product by induction over its evaluation (`Evaluates.error`); induction over client expressions with the operator norm of the difference from the exact rotation; a descent on sums of three squares for `c88_exact_rotations` |
| C89 | Distance curves, time curves and trajectories over SE3 with controls on one screw motion; the control lists of `examples/curves.cc`, `examples/trajectory.cc` and `example_02` (`Model/CurveExamples`) | screw motions stated with the matrix exponential (`Spec/OneCircle`); the logarithm of a rotation about an axis is along that axis for any angle (`SO3.log_on_axis`), so that every circular step is a step of the same one-parameter group; induction over the controls for lengths; exact logarithm of the half turn for `c89_orbit_wrong_side`. Partial: helical steps that turn by less than 0.002; the length of a step by the norm of a vector changed by multiples of its cross products with the axis, and the series of the cosine (`Proofs/ShortSteps`) |
| C90 | as for C50, C70 | the exact motion of `c70_se3_close` for the curve inside the trajectory, inverted (`MatRep.left_inv`); inversion keeps distances |
| C91 | as for C41, C43, C51; the control lists and recipes of visualization examples 02 and 03 | conjugation by the mount goes through every factor of the segment formula (`vpoint_left`) if the logarithm commutes with it, which it does below half a turn; poses by the exact exponential and `c70_se3_close`; the examples by C89 and by computation |
| C92 | `LieGuide.interpBetween`; specification `Spec.turnBetween` (angle from the trace) | frames by cases; rotations by one-parameter subgroups and the triangle inequality for the angle; poses by the exact exponential and logarithm (`SE3.xexp`, `xlog`) and closeness of the code's |
| C93 | `LieGuide.eulerAngles`, `expOfAngles`, `Approx` | equality of the two rotations: the exponential fixes the vector of the angles, so the half-angle axis of the product is along it; two tangent equations with no solution (`Proofs/Euler`); round trips by closeness to the exact maps |
| C94 | `Match`: conversion ranks, reference binding, comparison of candidates, constraints, `std::visit` | the best branch is characterised as the one that beats all others (`select_iff`), which is independent of order; recommended branches by cases on the rank |
| C95 | `References`: memory, the two wrappers, function bodies as trees of uses of the wrappers | induction on the body |
| C96 | `SO3`, `SE3` (`exp`, `log`, `Ad`, `ad`); motions are arbitrary functions of time | the logarithm of a rotation is its axial part times a continuous factor that is 1 at the identity, and `SE3::log` multiplies the translation by a matrix that is continuous and 1 there, so both have the exact derivative at the identity; constant velocity by differentiating `g(t) exp(-t X)` |
| C97 | `CurveDouble`: doubles as not-a-number, infinities and rationals with IEEE rounding; `append` and `point_at_impl` of `TCurve` on them | the halving search is correct for any chain under the doubles' `<`; rounding is monotone and has relative error 2^-53, which bounds difference, inverse and product |
| C98 | `CurveDouble`: `append`, `curve_length` and `point_at_impl` of `DCurve` | arc lengths as rounded running sums, induction on the number of segments; the quotient as for C97 |
| C99 | `Assert`: tokens, macro expansion, splitting at commas, choice of the asserter, text of the condition; the calls on a program state | induction on the tokens for the splitting; the rest by cases |
| C100 | `TestElements`: the helpers that make the inputs of the Lie group and two-jet tests, for any pseudo-random numbers from -1 to 1 | norms of the vectors made; the rest from C29 and C30 |
| C101 | `TestDirectory`: file system, `create_directory`, `remove_all`; objects made and destroyed in any order as a state machine | invariant over all runs: living directories exist and are pairwise apart |
| C102 | `MockView`: the two handlers, headers, routing, `stoul`; composed with `ViewClient` and `EndToEnd` (requests of the client answered by this server) | iff for headers and for posts, induction over histories, composition with C72/C73 |
| C103 | `MockDevice`: the two handlers and the flag, composed with `Auth.fetchToken` | iff for each way a fetch ends, for all clocks and all actions of others in between |
| C104 | `CurveExamples.makeCircleCurve`, `threeQuarters` with the curves of C40 and C35 | distance of every answer from the unit circle, at all parameters |
| C105 | `DroneExample.outAndBackBanked` with the trajectories of C50-C52 and C90; `Spec.Bends` for curvature | exact evaluation of the controls, then C50-C52, C90 and the kinematics of C48 |
| C106 | `Model/Tracked`: constructors and assignments of the tracker on a list of objects; `Spec.Came`, `Spec.Emptied` say where a value came from | induction over all programs of such operations |
| C107 | `Model/Tracked`: `StatusValue` over values, const values and references, with the value categories of C++ | induction over the hops; case analysis over types and categories |
| C108 | `Model/TestPayloads`: the generators of payloads and primitives for the tests of the view, for any pseudo-random numbers and any new frames | case analysis over the types, induction over the elements; that they can be sent is C57, C58 |
| C109 | `Model/ExpDouble`: `SO3::exp`, `SO3::exp_diff`, `SE3::exp` and `derivative_of_exp_so3` in binary64, as relations that admit every order and fusing of the sums. Assumed of the C library: `sqrt` correctly rounded, `sin` and `cos` within one unit in the last place | forward error analysis of every step, both branches of the coefficients and subnormal tangent vectors included; Taylor polynomials with remainder; with C88 for composed expressions |
| C110 | `Model/LogDouble`: `SO3::log`, `SE3::log`, `SO3::interp`, `SE3::interp` and `SE3::arc_length` in binary64, with the conversions of Eigen from matrix to quaternion to angle and axis, as relations. Assumed beside C109: `atan2` within one unit in the last place, `stableNorm` within a factor of two; the trace is added up in any order | unit quaternions with their Euclidean norm as metric on rotations; forward error analysis of both branches of the quaternion and all three of the translation coefficient; mean value inequality for the dependence of the translation on the rotation |
| C111 | `Model/DCurveDouble`: `DCurve<SE3>` (`append`, constructors, `point_at`) in binary64, as a relation put together from the models behind C88, C98 and C110 | error propagation through inverse, product, logarithm and exponential; induction over the segments for the distances; the answer is compared with the exact curve at a nearby distance |
| C112 | `Model/TCurveDouble`: `TCurve<SE3>` and `TCurveSegment<SE3>` (`append`, constructors, `point_at`), `TwoJetL::operator*` and the quintic coefficients in binary64, as a relation put together from the models behind C88, C97, C109 and C110 | error propagation through the five terms of a segment, with all constants explicit (`Proofs/TCurveDoubleParts`, `…Coeffs`, `…Steps`), against an exact motion given by a formula and by its derivatives; scaling by the time step once and twice in both directions |
| C113 | `Model/TrajectoryDouble`: `Trajectory` (`append`, both `point_at`) with `left_two_jet` and `right_two_jet` in binary64, on top of the models behind C112 and of `as_seconds` | the inverse of a pose in and out costs a stated error; the exact motion of the body is the inverse of the exact curve, with the order of the screws reversed, and its body-frame kinematics follow from the left derivatives |
| C114 | `Model/StatsDouble`: `mean` and `covariance` in binary64 with any order of the additions; the constructor of `Gaussian` as in C69 | error of inner products; Cauchy's inequality; differences do not underflow; the error of the mean enters the covariance to second order; quadratic forms of a perturbed matrix; two data sets evaluated in every order |
| C115 | `Model/StateDouble`: `RigidBodyState::operator*` and `inverse_times` (`TwoJetR::operator*`, `inverse`) in binary64 | errors of inverse, adjoint, bracket and sum; the exact result is the state of the composed motion (derivatives of products and inverses); the exact round trip from the group and adjoint laws |
| C116 | `Model/MessageDouble`: pack and unpack of transforms, two-jets, time curves, distance curves and trajectories in binary64, and chains of messages | induction over the messages: what is read is within 420 roundings of an exact rotation, so that the error of the data is magnified once only and those of the messages add up; then the error bounds of C111-C113 |
| C117 | `Model/ApproxDouble`: `is_approx` of rotations, transforms, two-jets and vectors in binary64, any order of the sums | the computed squares are within 30 roundings of the exact ones, hence both directions with the constant 1e-12 up to 2e-15; then round trips with sharper bounds on exponential and logarithm (each relative to the length of its own result) |
| C118 | `Model/ConstructDouble`: the constructors of `SO3` from an angle and an axis and from a quaternion, and `quaternion()`, in binary64, any order of the sums | entries of the matrices from the error of each product; quaternions by the norm of Hamilton's quaternions, so that the errors of the four numbers become those of the turned vectors; then with C110 and C117 |
| C119 | `Model/GuideDouble`: `a * (a.inverse() * b).interp(f)` and `g.interp(f) * g.interp(1 - f)` of the guide in binary64, any order of the sums | the logarithm of a rotation by less than half a turn with a sharper constant (34 times the error of the matrix), the one-parameter group of the exact logarithm, then the tolerance of approximate equality (C117) |
| C120 | `Model/TripDouble`: `SE3::exp(x).log()` in binary64, as in the guide | the differences of mirrored entries of the computed matrix are relatively precise (the symmetric parts cancel exactly), hence so are the vector part of the quaternion and the angle; half the Lipschitz constant and a lower bound for the translation; then the tolerance of approximate equality (C117) |
| C121 | `Model/DistanceDouble`: `se3_distance`, `se3_inverse_distance` and the composed relative poses they replace, in binary64 | differences of doubles do not underflow, so that the difference is relatively precise; norm with and without underflowing squares; comparison with product and inverse by C88's estimates |
| C122 | `Model/GaussianDouble`: tolerance, clamping, square roots and one row of `Gaussian::samples` in binary64; the solver and the generator are arbitrary | rounding of inner products of any length (C114); squares of correctly rounded square roots; Cauchy-Schwarz |
| C123 | `Model/GaussianDraws`: programs that make, copy and draw from any number of `Gaussian` objects; engine and distribution are arbitrary machines with states | induction over programs with the invariant that the engine of an object is a function of its history; the order in which the matrix is filled; witnesses |
| C124 | `Model/SceneGraph`: any expression of framed SE3 transforms with `inverse()` and `*`, and the two shipped examples that build scenes | induction over expressions and over how a scene grows, with the invariant that every link agrees with places of its frames; real arithmetic |
| C125 | `Model/TestCurves`: `make_test_two_jet` and `make_t_curve` of the test helpers, for SO3 and SE3, with the generator as state and the order in which C++ evaluates the two arguments left open | induction over the times, with the invariant that all points have the frames asked for; the numbers of a seed are an arbitrary sequence; real arithmetic |
| C126 | `Model/MockAuth`: the authentication client of the tests with the view client of `Model/ViewClient`, against a server that is any state machine fed with requests and bearer tokens | induction over histories of sends, with the token in force as the invariant |
| C127 | `Model/PrimitivesEqual`: `primitives_equal` and the two tests of packing view updates that use it, with the functions under test as parameters | case distinction, and induction over the list of primitives; real arithmetic |
| C128 | `Model/ShippedExamples`: the example programs for matching, sampling and showing a rigid transform | from C94, C69 and C124, and induction over the lines of the file; real arithmetic |
| C129 | `Model/UnpackInto`: the unpackers that write to a variable, with the variable as state, and the ones returning a value that use them | induction over the points of a message and over the messages |
| C130 | `Model/TypeObject`: the class templates of type.hh, with C++ name lookup and overload resolution for one argument | lookup restricted to some namespaces, by induction over the scopes; simplification |

## 5. Disagreements between code and documentation found so far

(kept current as proofs land; each item names the theorem that exhibits it)

1. `num_samples` on equal timestamps gives 2 samples except when `max_dt` is 1 ns, where it gives 1 (`c03_equal_bounds`).
2. Walking a timestamp interval backwards truncates instead of rounding to nearest: 8 to 0 in three steps passes 6 where 5 is nearer (`c05_backward_not_nearest`).
3. `sample_interval` over timestamps throws after having already called the visitor for some extreme intervals (`c06_throws_midway`), and overflows a signed integer after the last sample for others (`c06_not_ub_free`).
4. `to_seconds_and_nanos` gives negative nanos before the epoch (`c09_negative_nanos_iff`); protobuf's convention wants them non-negative.
5. `as_duration(as_seconds(15 ns))` is 14 ns (`c10_round_trip_fails`): the truncation in `as_duration` undoes the promise that small values convert without loss.
6. A string with arbitrary text after an embedded NUL is accepted as a UUID, because the parser only sees `c_str()` (`c18_embedded_nul_accepted`).
7. Composing framed with unframed transforms is allowed when the unframed part is grouped first but refused in the other bracketing (`c23_mixed_bracketing_differs`).
8. `SE3::log` adds where it should multiply in its small-angle series (se3.cc:146), so `exp(log(g))` misses `g` for angles strictly between 0 and 0.002 (`c30_small_angle_fails`); the error is below 1e-15 of the translation (`c30_small_angle_close_partial`).
9. `se3_distance` subtracts the translations of `a_from_ref` and `b_from_ref`, which is the translation of `a_from_b` only for equal rotations; two poses at different places can be at distance zero (`c32_distance_fails`).
10. A `DCurve` whose first control is unframed accepts framed controls with differing point frames later (`c46_unframed_first_fails`).
11. `DCurve::point_at(0)` throws on a curve with one control (`c45_single_control_fails`) and divides zero by zero when the first step has no length (`c45_zero_length_fails`).
12. `Trajectory::end_time()` can be 1 ns before the last control's timestamp, because it goes through `as_duration` (`c52_end_time_fails`). Beyond 2^53 ns after the start a strictly later control can be refused as not later (`c50_later_refused`). `end_time` and `time_duration` of an empty trajectory read `back()` of an empty vector (`c52_empty`).
13. Packing an SE3 pose and unpacking it gives a slightly different pose for rotation angles strictly between 0 and 0.002, because the message holds `log` (item 8; `c55_se3_fails`).
14. A view primitive named with the empty string comes back without a name (`c57_empty_name_lost`).
15. `View::flush` moves the pending objects into the update before sending, so after a failed send they are gone: a retry sends an empty update and succeeds (`c60_false_retry`), and a `view` can return normally though its object was lost in another thread's failed flush (`c60_false_threads`).
16. A session id that consists only of quotes and newlines is stripped to the empty string, which the client takes for "no session": it creates a new session at each send and posts updates to an address without a session (`c62_two_sessions`). Update numbers grow also when a send fails (`c63_increasing`).
17. An existing empty token file makes `get_jwt` return the empty string forever without asking the server (`c66_empty_file`). `save_token` does not report that it could not open or write the file, so it can itself leave an empty or cut token (`c66_cut_file`).
18. `View::set_client` empties the list of kept primitives (they were never sent); see `Model/View`.
19. `covariance` keeps the number of samples in 32 bits: 2^32 rows are refused as fewer than two (`c68_row_count_wraps`).
20. The `Gaussian` constructor checks for `NumericalIssue`, but Eigen's symmetric solver reports failure as `NoConvergence`, which is accepted (`c69_no_convergence_accepted`). A zero-dimensional Gaussian reaches `maxCoeff()` of an empty matrix (undefined in the model).
21. `sample_interval` over doubles can call the function with a value outside the interval (`c75_outside`), out of order (`c75_unordered`), with neighbours farther apart than the step (`c75_step_too_long`), or once with NaN when the quotient underflows (`c75_not_a_number`); finite bounds more than the largest double apart cast an infinity to `int` (`c75_far_apart`).
22. `RETURN_OR_ASSIGN(f())` with `f` returning by value reads a destroyed object: the temporary lives until the end of the declaration that binds it through `std::forward` (status_value.hh:157-158), and the next line calls `status()` on it (`c19_temporary`, `c19_undefined_iff`). `CHECK_STATUS_OK(f())` calls `f` twice, once for the message and once for the condition (`c19_check_twice`). The shipped example of error handling (resim/examples/assert_and_status.cc:139,144) takes values this way, so it is undefined; with variables it would do what its comments say (`c19_example_undefined`, `c19_example_named_partial`).
23. Unpacking a trajectory multiplies the seconds of its start time by 10^9 unchecked: timestamps before 1677 or after 2262, which protobuf allows, overflow a signed integer (`c76_valid_timestamp_undefined`).
24. `FramedVector::isApprox` ignores frames unless its argument is const: for a variable that is not const, or a temporary, the forwarding overload meant for plain vectors is the better match (framed_vector.hh:96-108, `c79_approx_ignores_frame`). The tests use const vectors. `+=` is inherited from Eigen and checks no frames, although sums are documented to fail (`c79_add_in_place_unchecked`).
25. `SO3` constructors neither check nor normalise: `SO3(angle, axis)` with an axis that is not of unit length and `SO3(quaternion)` with a quaternion that is not give something that is no rotation, unless the angle is a multiple of 2π or the vector part zero (`c80_rotation_iff`, `c80_unchecked`).
26. `is_approx` compares translations, velocities and accelerations relative to their length: a zero one is approximately equal to zero only (`c78_zero`), and moving both poses by the same translation can change the answer (`c78_pose_reference`).
27. `DCurve::control_pts()` and `segments()` are const but hold `std::shared_ptr<Group>` rather than pointers to const, and copies of a curve share the poses: a client can change the poses of a const curve and of all its copies, without the arc lengths and steps following (`c81_write_shared`, `c81_stale`).
28. A time curve through samples of a rotation more than half a turn apart does not reproduce the rotation, though the derivatives at the samples say how it turns: the segment takes the logarithm of the difference, hence the shorter way round (`c82_wide_turn_fails`). Nothing in `t_curve.hh` or `trajectory.hh` asks for denser samples.
29. The integration recipe in `docs/resim/time/time.md` and `resim/examples/time.cc` stores the 64-bit result of `num_samples` in an `int`. With 2³¹ + 1 samples the integral of 1 comes out negative (`c87_count_wraps`). With equal end points and a step of 1 ns the count is 1 and the recipe divides by zero (`c03_equal_bounds`).
30. `resim/examples/trajectory.cc` comments out `control_b` and `control_d`, which leaves controls half a turn apart. Half a turn has two logarithms; in exact arithmetic the one taken is the wrong one, and the trajectory leaves the first control to the left as its velocity says, turns back, and passes the circle on the other side: 1.5 s after the start it is below the x axis instead of above (`c89_orbit_wrong_side`). The check of the example, that the distance from the origin is 1, holds all the same (`c89_orbit`). In double arithmetic the side depends on the rounding of the matrix entries.
31. `TCurveSegment::point_at` promises poses and derivatives of one motion (`resim/curves/t_curve_segment.hh`, C38, C70). Over the reals this is false where a partial turn is between 0 and 0.002 radians, because `SE3::exp` then uses truncated series without truncating its derivative accordingly (`c38_se3_small_angle_fails`, `c70_se3_small_angle_fails`). The effect is below double precision: the answers stay within about 1e-15 of an exactly differentiable motion (`c38_se3_close`, `c70_se3_close`, `c90_smooth`).
32. `translate_t_curve` (`resim/visualization/examples/example_03_time_parameterized_closed_curve.cc:53-72`) is shown as the way to get the path of a sensor from that of the robot. It moves the poses and keeps the velocities and accelerations of the robot. This is right only where these are the same at the sensor (`c91_recipe`), as for the sensor of the example, which is on the turning axis (`c91_example03`); with `SENSOR_X` or `SENSOR_Y` not zero, the reported velocity is off by the distance from the axis times the turning rate (`c91_example03_offset`).
33. `resim/examples/liegroups.cc:42-45` and `docs/resim/transforms/using_liegroups.md` say that the assertion "product of the Euler rotations is not approximately the exponential of the angles" fails only if two of the angles are zero. It also fails for (2π, 4π, 4π) (`c93_comment_false`) and for three angles that add up to less than 5e-13 (`c93_small`). For exact equality and angles below half a turn the remark is right (`c93_equal_iff`). The variable `robot_from_world` at lines 172-173 of that file holds the pose of the robot in the world, not its inverse (`c93_frames`).
34. `resim/utils/match.hh` and `docs/resim/utils/match.md`: "all variant cases must match at least one of the functors" includes matches by conversion, so a forgotten arithmetic case can go unnoticed (`c94_forgotten`). "All functors must have the same return type" is only checked for functors that can be chosen (`c94_return_types`). The constraints ask whether the branches can be called on rvalues, whatever the variant is passed as: a branch that takes `T &`, to modify the alternative in place, is rejected although `std::visit` would accept it (`c94_reference`), and a branch that takes `T &&` is accepted for an lvalue variant, where `std::visit` then fails to compile (`c94_rvalue_reference`).
35. `resim/curves/t_curve.cc:142-144`: the range check is `!(time < first) && !(time > last)`, which not-a-number passes; the curve is then evaluated at not-a-number in its first segment (`c97_nan`), where `DCurve` throws for the same argument (`c98_answers`). A query at a control's own time can be evaluated at 1 - 2^-53 instead of 1 (`c97_end`: controls 0 and 49), because the inverse of the step is rounded before the product. Steps that overflow, or whose inverse does, give not-a-number at a control (`c97_extremes`).
36. `resim/curves/d_curve.cc:135-136`: if the first two poses are equal, the fraction at distance 0 is 0/0 (`c98_nan`). A pose whose distance from the one before is lost in the rounded sum is not reached by any query (`c98_absorbed`).
37. `docs/resim/assert/index.md`: "the text of the condition is always copied verbatim" does not hold. `REASSERT` passes `__VA_ARGS__` through another macro, so macros in the condition are expanded before `#cond` sees it, and line breaks become one space (`c99_not_verbatim`; both happen in resim/examples/curves.cc:54-57). With a third argument the macro asserts nothing but calls that argument (`c99_three`). The message is evaluated even if the condition holds (`c99_effects`).
38. `resim/transforms/liegroup_test_helpers.cc`: `make_test_vectors<Eigen::Vector3d>` is the specialisation for rotations, the same type, so the vector of size 1e6 meant for plain vectors is never made (`c100_no_large_vector`). `resim/curves/two_jet_test_helpers.cc`: pose, velocity and acceleration are drawn from the same seed, so velocity and acceleration of all test two-jets are equal and tests on them cannot see the two exchanged (`c100_two_jets_equal`, `c100_blind`).
39. `SE3::exp` switches between a series and the exact formula at 0.002 radians, where the two differ. Over the reals the position on a `DCurve` therefore jumps there, by less than rounding, on every step that is not along its axis (`c44_switch`, `c44_switch_fails`).
40. **The mock view server calls its receiver twice for each update** (resim/visualization/testing/mock_server.cc:121 and 125: the first result is dropped), although the header says it is called with the received update on receipt; a test that counts calls sees twice as many (`c102_receives_iff`, `c102_all_received`). If it is set up to answer updates with 401, the client repeats the post and the receiver is called four times for one update (`c102_sends` with two valid posts).
41. **The mock device-code server does not check the device code** although its header says "What device code to expect from the client" (resim/auth/testing/mock_device_code_server.hh:29, .cc:71-103), and it keeps one flag for all clients: a request for a code by one client takes back the login of another (`c103_poll`). The flag is a plain bool written by the test's thread and read by the server's (mock_device_code_server.cc:86,113): a data race in C++ terms, which the model leaves out.
42. **The drone of example 04 does not return to its start and does not turn on the radius it names**: the comment says it "returns to its start location" (resim/visualization/examples/example_04_actor_trajectory.cc:93-94), it ends six metres away (`c105_not_back`); the angular velocity is computed as `sqrt(TURN_FWD_V_MPS / TURN_R_M)` (:74) where speed over radius is meant, so that the turn has a radius of 32.4 m instead of 150 m (`c105_turn`).
43. **`RETURN_OR_ASSIGN(sv)` with the name of a local variable moves the value out of the variable**, though nothing at the call says so: `std::forward<decltype(status_value)>(status_value)` (resim/utils/status_value.hh:157-158) casts to an rvalue when `status_value` is the bare name of a variable that is no reference, since `decltype` then is not a reference type. With `(sv)` in parentheses, or a const variable, the value is copied (`c107_name_is_moved_from`).
44. **`generate_payload_type` for framed vectors checks no count and ignores `framed`**, contrary to its comment ("If you request less the function will check-fail", resim/visualization/view_server/view_server_test_helper.hh:19-21): line 166-180 of the .cc has no `REASSERT`, every vector has the same coordinates, and the typed tests leave this type out (`c108_framed_vectors`). Without frames the first distance curve is empty, so that asking it whether it is framed throws (`c108_first_curve_empty`).
45. **`Gaussian` can refuse the covariance computed from samples** (resim/math/multivariate_gaussian.cc:59-72): the allowance for negative eigenvalues is 1e-15 times the largest difference of two entries, not times their size. For the two samples (0, 0) and (203251845, 203251846) every order of evaluation gives a covariance with an eigenvalue of -2 or less and an allowance below 1e-6 (`c114_rejected`), though the exact covariance is accepted. Three equal samples of 0.1 have a computed mean above 0.1 and a positive computed variance (`c114_constant`).
46. **Approximate equality is relative, and meaningless below 2^-540** (resim/transforms/se3.cc:211-214, resim/curves/two_jet.cc:98-104,195-201, resim/transforms/framed_vector.hh:98,107): a transform whose translation is nonzero by however little (at least 1e-159), such as a product with the inverse that leaves a rounding error, is never reported as approximately the identity (`c117_not_identity`). On the other hand vectors with entries below 2^-540 are all reported as approximately equal because their squares underflow, such as a vector of entries 2^-600 and its double (`c117_not_relative`).
47. **Samples drawn at once differ from samples drawn one by one (C123).** `samples(2)` does not give what two calls of `sample()` give: the matrix of numbers is filled column by column (so in two or more dimensions the first sample of two uses draws 0 and 2), and the distribution object, which in the common libraries keeps every second number, is made anew in each call (multivariate_gaussian.cc:52-57). A copy of a Gaussian, and any other Gaussian with the same parameters, gives the very same samples, because the seed is fixed and copied (multivariate_gaussian.hh:89-90); nothing in the interface says so.
48. C125: `make_test_two_jet` draws velocity and acceleration in two arguments of one call, and C++ leaves open which is evaluated first. So the same seed gives different two-jets and curves with different compilers (`c125_order`); all else about them is the same in both orders.
49. C127: `TestRoundTrip` (view_update_to_proto_test.cc:73) loops over the update it packed, not the one it unpacked, so it passes for any unpacking that gives two primitives, whatever they are (`c127_round_trip_test`). `primitives_equal` throws for a primitive compared with itself unless it shows a pose, and is blind to names and places (`c127_self`, `c127_blind`).
50. C128: the example of matching needs its default branch. Without it and without a `double` among the alternatives the call compiles and reports a `bool` as an `int` (`c128_match_default`).
51. C129: `unpack_t_curve` empties its target first and appends to it (t_curve_to_proto.cc:36-42), so a refused message destroys what the variable held and leaves part of a curve in it (`c129_t_curve_half`). `unpack_d_curve`, `unpack_liegroup` and the two-jets leave it alone.
52. C130: the guard keeps functions of the client's namespace out, but a template for everything in the library itself, or around the call, still wins over the one for `BasicType<T>`, because `Type<T>` only derives from it (`c130_own_template`).
