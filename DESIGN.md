# Design of the formal model of VIO_Stereo_MSCKF (`eskf_vio_backend`)

Everything here is Lean 4 (4.33.0) with Mathlib.  The C++ in `/repo` was read as text; it was
never built or run.  Paths below are relative to `/repo/eskf_vio_backend`.

## 1. Trusted base

* Lean's kernel, and the axioms `propext`, `Classical.choice`, `Quot.sound` (section 7 explains how the
  list per theorem is obtained).  No axiom of our own, no `sorry`, no `native_decide`, no `bv_decide`.
* The transcription C++ -> Lean.  Every model definition cites the file and lines it transcribes.
* C++ library semantics as used: `std::deque/vector/map/unordered_map/list`, Eigen block operations.
* Modelling decisions of section 2 and the simplifications of section 6.

## 2. Modelling decisions

**Scalars.**  The code uses `Scalar = float` (`include/utility/typedef.hpp`).  The model is written once over
an abstract scalar type `K` with operations only (`Add Sub Mul Neg Div Zero One` and `ScalarFn`: `sqrt`,
comparisons, literals, `acos`, `atan2`, ...) and *no laws*.
 - *Structural* theorems (control flow, sizes, ids, queues, undefined behaviour) hold for every such `K`,
   hence also for IEEE floats with rounding and NaN.
 - *Numeric* theorems instantiate `K := Real` and speak about exact arithmetic.  They do not say anything about rounding.
 - *Witnesses* (counterexamples) use a concrete computable instance, or `Real`.

**Time** (`fp64`).  The loader, the attitude queue and the propagation queue compare times.  These are modelled over a type `T` with
a linear order and a subtraction that is only assumed monotone (law class `TimeLaws`).  Exact rationals and
any monotone rounding of them are instances, so the theorems cover finite IEEE doubles.

**External numerics** (Eigen SVD, Householder QR, self-adjoint eigensolver, LDLT, `rand()`) are oracles: a structure
`Ext` of arbitrary functions.  Structural theorems hold for all oracles.  Numeric theorems assume the mathematical
specification of the one oracle they need (e.g. "the eigensolver returns an orthogonal diagonalisation"), as an explicit hypothesis, at the
matrix in question.

**Undefined behaviour** is a distinct outcome: `Res a := ok a | ub tag`.  Dereferencing null, `front`/`back` of an empty deque, an
out-of-range `operator[]`, mismatching dynamic Eigen sizes all give `ub`.  Nothing is totalised silently.

**uint32_t** is `Nat` with explicit wrap-around operations (`sub32`, `add32`).

**Shared pointers.**  `Feature` objects are shared between the manager's map and the frames' maps, so they live in a heap
(reference -> object).  `unordered_map`s are association lists with unique keys; iteration order is the list order and theorems
hold for every order.

**Matrices** of dynamic size are `rows, cols, entry function`.  `conservativeResize` fills new entries from an arbitrary `junk`
function, so no theorem can depend on uninitialised memory.

**Statics.**  The function-local statics of `DataLoader`, `gravity_w`, the `Configurator` singleton are explicit state.

## 3. Modules

| module | contents |
|---|---|
| `Verif/Basic.lean` | `Res` (defined result or undefined behaviour), 32-bit arithmetic, checked container access |
| `Verif/Scalar.lean` | operations on scalars and times (`ScalarFn`, `TimeOps`, `TimeCast`), law classes (`TimeOrd`, `TimeLaws`, `CastLaws`), instances for the reals and the rationals |
| `Verif/PReal.lean` | partial reals: real numbers with one extra value standing for NaN and infinity |
| `Verif/Model/Loader.lean` | `data_loader.*`, `data_typedef.*` |
| `Verif/Model/Features.lean` | `feature_manager.*` with a heap of shared features |
| `Verif/Model/Frames.lean` | `frame_manager.*`, window part of `backend.cpp` |
| `Verif/Model/Math.lean` | `math_lib.hpp`, the fixed-size Eigen operations used |
| `Verif/Model/Matrix.lean` | the dynamic-size Eigen operations used |
| `Verif/Model/Ext.lean` | decompositions as oracles |
| `Verif/Model/Attitude.lean` | `attitude_estimate.*` |
| `Verif/Model/Propagator.lean` | `sequence_propagator.*`, `imu_state.*` |
| `Verif/Model/Triang.lean`, `Pnp.lean` | `trianglation.*`, `perspective_n_point.*` |
| `Verif/Model/Update.lean` | `multi_view_vision_update.*`, `Utility::Inverse` |
| `Verif/Model/Config.lean` | `config.*` |
| `Verif/Model/Backend.lean` | `backend.cpp`, `backend_config.cpp`, `backend_initialize.cpp`, histories of API calls |
| `Verif/Model/Demo.lean` | `apps/test_eskf_vio_backend.cpp` |
| `Verif/Spec/*.lean` | specifications stated without the model's helpers |
| `Verif/Lemmas/Loader, LoaderRuns, LoaderOrder` | loader histories, conservation, time order |
| `Verif/Lemmas/Assoc, Features, Window` | association lists, feature manager, refinement of the message log |
| `Verif/Lemmas/Quat, Deriv, Attitude` | real quaternions, derivatives, agreement of reals and partial reals |
| `Verif/Lemmas/Matrix, Decomp` | model matrices as Mathlib matrices; decompositions that meet the specifications exist |
| `Verif/Lemmas/UpdateSafe, UpdateOk, InitOk, BackendSafe, AnyRun` | absence of undefined behaviour, the backend invariant, facts about every defined call |
| `Verif/Props/Loader` | C01 - C10 |
| `Verif/Props/Window` | C11 - C23 |
| `Verif/Props/Attitude` | C24 - C31 |
| `Verif/Props/Propagator, PropagatorNum, PropagatorNan` | C31 - C39 |
| `Verif/Props/UpdateCov, Kalman, UpdateState, UpdateJac, Select, UpdateDims` | C40 - C52 |
| `Verif/Props/Triang, Pnp` | C53 - C63 |
| `Verif/Props/Config` | C64 - C67 |
| `Verif/Props/Backend, Safety, Restart, FilterCov` | C67 - C79 |
| `Verif/Props/Math` | C80, C81 |
| `Verif/Spec/Reckon`, `Verif/Props/Reckon` | C82 |
| `Verif/Lemmas/ErrMap`, `Verif/Props/Motion` | C87, C88: uniform motion, change of world frame |
| `Verif/Spec/ErrState`, `Verif/Props/Linear` | C89: F as a linearisation |
| `Verif/Spec/Triang`, `Verif/Props/TriangStep` | C90: steps of the iterative triangulation |
| `Verif/Spec/Exact`, `Verif/Lemmas/Svd`, `Verif/Props/Exact`, `Verif/Props/ExactRun` | C91, C92: a world without noise |
| `Verif/Spec/Euler`, `Verif/Props/Euler` | C93: Euler angles |
| `Verif/Spec/Rotation`, `Verif/Props/Rotation` | C94: rotation matrices and quaternions |
| `Verif/Props/InitPose` | C95: poses and success of the initialisation |
| `Verif/Spec/Demo`, `Verif/Props/Demo`, `Verif/Props/DemoCases` | C96 - C100: the demo program |
| `Verif/Lemmas/UpdateInv`, `Verif/Lemmas/ZeroCov`, `Verif/Props/Fixed` | C101: what starts without uncertainty is never corrected |
| `Verif/Spec/Gauge`, `Verif/Props/Gauge` | C102: moves of the whole world are invisible to the update |
| `Verif/Props/TwoViews` | C54 in terms of rays |
| `Verif/Model/Tests`, `Verif/Props/Tests` | C103, C104: the test programs of triangulation and PnP |
| `Verif/Spec/Heading`, `Verif/Lemmas/Turn, TurnMeas, TurnSel, TurnUpd, TurnInit, TurnRun`, `Verif/Props/HeadingLib, Heading` | C105, C106: a world turned about gravity |
| `Verif/Props/Origin` | C107: the linear triangulation and the origin of the world |
| `Verif/Spec/Shift`, `Verif/Lemmas/Shift`, `Verif/Props/Shift` | C108: all time stamps moved by a constant; every model function commutes with the move |
| `Verif/Spec/Float`, `Verif/Lemmas/Float`, `Verif/Props/Float` | floating point numbers with rounding, overflow and NaN (`Fl`), single and double precision as instances; C109: attitudes under rounding; an invariant of attitudes for any scalar type (`quat_run`) |
| `Verif/Props/Ieee` | the laws of times and conversions hold in IEEE single and double precision, rounding to even; C68 for these types |
| `Verif/Props/Lost` | C110: attitudes that are not numbers |
| `Verif/Props/Memory` | C111: which attitudes are forgotten |
| `Verif/Props/Size` | C112: bounds for window, map and covariance |
| `Verif/Model/Hash` | `RunOnce` where every map may be iterated in another order after every change |
| `Verif/Lemmas/Hash`, `Verif/Props/Hash` | C113: the iteration order of the hash maps |
| `Verif/Model/Alias`, `Verif/Props/Alias` | the loader with shared message objects; C114 |
| `Verif/Props/Packets` | C115: packets tile the IMU stream |
| `Verif/Props/PnpStep` | C116: PnP passes are Gauss-Newton steps |
| `Verif/Spec/Names`, `Verif/Lemmas/Names`, `Verif/Props/Names` | C117: feature ids are only names |
| `Verif/Lemmas/ResetSafe`, `Verif/Props/Reset` | C118: `Reset` in the middle of a history |
| `Verif/Props/Running` | C119: when a running filter falls back to initialisation |
| `Verif/Props/Startup` | C120: two successive good images start the filter |
| `Verif/Spec/Cams`, `Verif/Lemmas/Cams`, `Verif/Lemmas/CamsRun`, `Verif/Props/Cams`, `Verif/Props/AllOrders` | C121: the camera order inside an observation, also together with map order, ids, scores and memory |
| `Verif/Model/Process`, `Verif/Props/Process` | C122: several backends in one process |
| `Verif/Props/Rest` | C123: the attitude estimator at rest |
| `Verif/Props/Noise` | C124: growth of the bias variance |
| `Verif/Props/Reuse` | C125: observations used by several updates |
| `Verif/Lemmas/Converge`, `Verif/Props/Converge` | C126: convergence of dead reckoning |
| `Verif/Props/Steady` | C127: turns about a fixed axis |
| `Verif/Props/Correction` | C128: corrections and residuals |
| `Verif/Props/Drift` | C129: errors of the newest published state |
| `Verif/Props/Sequential` | C130, C131: information form of the filter step; blocks of measurements, scale of the variances |
| `Verif/Model/Print`, `Verif/Props/Print` | C132: what is printed |
| `Verif/Spec/Offset`, `Verif/Lemmas/Offset`, `Verif/Props/Unlearned` | C133: two filters whose covariances differ by a shift of the world |
| `Verif/Props/Symmetric` | C134: symmetry of the covariance to the last bit, a single precision arithmetic that can be evaluated |
| `Verif/Props/Yaw` | C135: what the transition matrix makes of the uncertainty of the heading |
| `Verif/Props/Clock` | C136: time steps under rounding |
| `Verif/Props/Variance` | C137: signs of variances under rounding |
| `Verif/Props/Mixing` | C138: the interpolated sample under rounding |
| `Verif/Props/Stall` | C139: the position under rounding |
| `Verif/Model/Timer`, `Verif/Props/Timer` | `TickTockTimer`; C140 |
| `Verif/Props/Cases` | concrete cases for the hypotheses of theorems whose files have none |
| `Verif/Props/Degenerate` | C80: inverse and normalisation, the zero quaternion included |
| `Verif/Props/Values` | values that nothing else reads: default parameters (C66), parallax sum (C23) |
| `Verif/Props/KalmanOpt` | C83 |
| `Verif/Lemmas/Gram, Stack` | the update depends on the stacked equation only through its inner products; these are sums over features |
| `Verif/Spec/Runs`, `Verif/Lemmas/Agree, AgreeRun` | pairs of histories; states that agree on everything the code can read |
| `Verif/Props/Order, OrderRun` | C84, C85: order of the features, choice of the decompositions |
| `Verif/Props/Junk` | C86: contents of uninitialised memory |

Each theorem of `Verif/Props` is followed by an `example` that meets its hypotheses.

## 4. Plan per property

"Refute + partial" means: the property as a user would state it is false of this code; the negation is proved with a concrete
witness and a `_partial` theorem states what does hold.

| id | model and proof |
|---|---|
| C01 | loader state machine over all operation lists; invariant offset = -1 |
| C02 | one-step characterisation plus ghost "previous push" over histories |
| C03 | refute (5,3,4) + partial: pushes in increasing order give sorted queues |
| C04 | induction over operation lists; ghost logs of accepted and delivered messages |
| C05 | case analysis of PopOne |
| C06 | induction on total queue length from sorted queues |
| C07 | loop as structural recursion on the queue with `ub` on empty; invariant from the guard |
| C08 | field reasoning over a linear ordered field |
| C09 | refute (static survives Clear / second instance) + partial: first pushes after a larger time jump |
| C10 | reference liveness recorded by the model; refuted by witness; partial: value read is that of the handed-out message |
| C11-C14 | induction over operation lists, list lemmas |
| C15 | invariant over heap and manager, all histories |
| C16-C17 | refinement to a log of messages (spec = list of frames with their message), simulation over insert / marginalise steps |
| C18 | refute with concrete history + partial (= C16) |
| C19 | arithmetic mod 2^32 |
| C20-C22 | direct |
| C23 | refute: decision independent of the threshold |
| C24-C27 | induction on queue; nearest-item spec by minimal distance |
| C28 | real quaternions; norm of normalised product |
| C29 | refute in a NaN-carrying scalar; partial: off the axis |
| C30 | refute with exact angle formula: rotation by `2 atan(theta/2)`; partial: axis correct, small-angle error bound |
| C31 | refute: the two rotate oppositely; partial: equal when rate is zero |
| C32-C33 | real quaternions, induction over samples |
| C34 | block congruence F C F^T + G Q G^T on Mathlib matrices |
| C35 | written entries of F, G cover all non-constant entries |
| C36 | fold argument |
| C37-C39 | direct / list induction |
| C40-C43 | block index arithmetic; T C T^T; principal submatrices |
| C44-C45 | Joseph form identity using S^+ S S^+ = S^+, eigensolver spec |
| C46-C47 | orthogonal matrices; push-through identity |
| C48 | `HasDerivAt` along the retraction |
| C49-C52 | structure of update |
| C53-C56 | SVD/ldlt oracle; rank argument; loop invariants; derivatives |
| C57-C63 | guards, loops with fuel and explicit divergence, weights |
| C64-C67 | file system = partial function name -> lines of numbers |
| C68-C79 | whole-system state machine: `Api` operation lists, invariants |
| C80-C81 | real algebra / `Real.arccos` |
| C82 | invariant of the queue over all histories: neighbours are one step of dead reckoning apart |
| C83 | completing the square with the exact inverse of the innovation covariance |
| C84 | relation between two runs; the update reads the stacked equation only through its inner products, which are sums over the selected features |
| C85 | as C84 for one update; the projection on the left null space is unique when the landmark columns are independent |
| C86 | relation between two runs: equal sizes and equal entries in range |
| C87 | induction on the samples; the trapezoidal rule is exact for constant acceleration |
| C88 | relation between two runs, kept by every operation; F and G commute with the block rotation |
| C89 | derivative of the step in closed form; the difference from F is the time step times a differentiable function that vanishes at zero |
| C90 | the normal equation as a bilinear form by induction on the views; derivative of the weighted sum; a four-camera witness in which every robust step is rejected |
| C91 | triangulation of exact views is in the kernel of the linear system, so residuals vanish, the correction is zero and the re-propagation reproduces the queue |
| C92 | invariant `ExactState` over histories, with the window refinement `Rel` to attribute observations to frames |
| C93 | first column and third row by the arctangent, the rest from orthogonality |
| C94 | the four branches of the conversion, each from the cofactors of a rotation matrix |
| C95 | the triangulated points lie on the rays of camera 0, so that the first normal equation of the pose estimation is zero |
| C96 | induction on the lines; the program is a history of calls |
| C97 | C68 for that history: all messages carry the same ids |
| C98 | induction on the passes; order of the published times from C79 |
| C99 | induction on the buffered samples |
| C100 | C66, C67 for the shipped values; composition of rigid transformations |
| C101 | zero rows of a positive semidefinite covariance are zero rows of the gain and survive every step; invariants over calls |
| C102 | the Jacobian of every view kills the move together with the matching move of the point; the null space projection removes the point |
| C103 | two rays of the six are not parallel, so C54 applies; the other test is one unfolding |
| C104 | the drawn indices, C60 for the end, the residuals at the true pose, and the sign of the first component of the normal equation |
| C105 | a relation between the states of both worlds, preserved by every call: turned measurement rows, stacked systems, gain, correction, covariance, triangulation, PnP, initialisation, replay |
| C106 | C105 with the identity as turn: a state related to itself has unit quaternions |
| C107 | false for inexact observations: two views for which the form minimised by the SVD is worked out in closed form; for exact ones from C54 |
| C108 | `f (s.shift) = (f s).mapOk shift` for every function, then induction over the calls |
| C109 | error bound of product and normalisation in the standard model of rounding, case analysis over infinities and NaN, then an invariant of attitudes over all calls |
| C110 | NaN absorbs in products and normalisation; the newest attitude as an invariant over all calls; symbolic run of the first sample |
| C111 | invariant over all calls while initialisation fails; induction over the number of images for the growing run |
| C112 | the invariant of C68 with the number of ids per message; features are named in the messages of the window |
| C113 | two runs side by side whose maps are permutations of each other; triangulations act on different features and commute; normal equations and the Kalman step are sums over the features |
| C114 | the loader over addresses and an object store simulates the loader over copies; invariant: nothing that is still to come touches an object in a queue; concrete histories for the converse |
| C115 | induction over the history with a marked queue (taken from the stream / made by the loader); a packet request splits it |
| C116 | the normal equation as a bilinear form, a sum over the points; completing the square; a symmetric equation is solvable when its right-hand side is orthogonal to the kernel |
| C117 | renaming commutes with every function of the model; features that no map refers to keep their id, so that a renaming can fix a whole state; the ids held are those of the frames by the relation between window and log of C16; joined with C113 |
| C118 | the invariant of C68 without its idle part: a queue that is not empty has entries of one size and none newer than the newest attitude; an update of another size fails without touching the window |
| C119 | a pushed sample is still queued or not newer than the newest attitude, and the newest state of a running filter has the time of the newest attitude |
| C120 | attitudes have unit norm; after a call that handles an image and leaves the filter idle the window holds that image alone |
| C121 | two runs side by side; another camera order permutes rows, so the inner products of columns, the normal equations and, by C85, the Kalman step are unchanged |
| C122 | simulation of one backend of the shared process by a process of its own; the shared statics stay before all later times |
| C123 | refute: in the plane of measured and estimated gravity a step is a rotation, which turns away; induction over the samples with the integral of the error along a fixed axis; partial: a zero error is kept |
| C124 | refute: one propagation step adds G Q Gᵀ to the bias block; induction over the samples; the parameters by C67 |
| C125 | refute: Rel of the log, C50 and C51 give rows for every report of the window; log induction; witness; Kalman step iterated, closed form by induction with the inverse of a shifted matrix |
| C126 | mean value inequality for the local errors on Mathlib quaternions, where multiplication by a unit is an isometry; induction over the samples; squeeze |
| C127 | the normalised increment is the turn by 2 atan(x/2); turns about one axis add; induction over the samples; bounds of the arc tangent by monotonicity |
| C128 | the inverse of the innovation covariance is unique, so the gain is a function of P and H; linear algebra |
| C129 | one step with imperfect samples against one with perfect ones: normalising is 1-Lipschitz outside the unit ball; induction over the queue; C82 |
| C130 | the filter step is the only solution of `C (1 + HᵀH P / R) = P`, `d = C Hᵀ r / R`; two steps solve the equations of the stacked one |
| C131 | the same equations are homogeneous in P, C, R |
| C132 | lines of a feature are the pairs that `GetNorm` answers (C19), with the simulation of C16; lengths of the two camera lists; diagonal of a PSD matrix |
| C133 | simulation: the transition matrix keeps what sits in the position alone, the measurement is blind to it (C102), augmentation and marginalisation copy and drop it with the frames (C42, C43) |
| C134 | addition commutes under rounding, so the symmetrisation at the end of the correction is exact; the cloned block multiplies by 0 and 1 only, which changes no bit unless an entry is not finite, and then all entries it meets are NaN; marginalisation and storing copy |
| C135 | the direction is differentiated from the turned world; `F` acts on it blockwise (as for C89), unit rotations keep cross products and lengths |
| C136 | a subtraction rounds relative to its result, so two roundings per step whatever the epoch; induction over the samples; Sterbenz for the single rounding |
| C137 | signs: `(g q) g` keeps the sign of `q` under monotone odd rounding, zero times anything is zero or NaN; the counterexample is evaluated in the arithmetic of C134 |
| C138 | different doubles differ by a multiple of the least subnormal, so the denominator does not vanish; monotone rounding keeps the quotient in the unit interval; invariant that queued times are doubles |
| C139 | a fixed point of the step in computable single precision, induction over the samples; small increments vanish by the definition of rounding to nearest, in the binade of the position and the one below; error of one step by the bound of each rounding, induction over the queue |
| C140 | telescoping sum; relative error of four roundings; evaluation for the clock that is set back |

## 5. What is not modelled

Logging (`Log*`) other than `Information()` and the covariance tests (C132), the conversion of numbers to text, the empty `gnss_update`, the stub `EstimatePoseP3P`, thread
safety (the code has none), memory exhaustion, rounding of `float` in numeric theorems (C109, C134, C136, C137, C138, C139, C140 excepted), the text-to-number conversion of `operator>>` (an oracle `numGet`).

## 6. Disagreements and simplifications

### 6.1 Where the code does not do what its interface suggests

Each item is a theorem of the development (property in brackets); nothing was repaired in the model.

Data loader
* A message is accepted when it is newer than the previously *pushed* one, accepted or not.  After 5, 3 the message 4 is accepted behind 5, so a queue can be unsorted [C03].
* The last pushed times are function-local statics: `Clear` does not reset them and two loaders share them [C09].
* The offset is only taken from a message when it is NaN, but it starts at -1: times are shifted by +1 and never start at 0 [C01].
* `PopOneMessage` reads its features reference after `pop_front` [C10].  `runOnce` in the backend model uses the value the slot held and goes on; the fact itself is
  `C68_freed_read`.
* Two images within one IMU period come out unsorted [C06].
* A push changes the time stamp inside the caller's object.  Pushing the same object again moves it again, and since it is then newer than itself it is queued twice; pushed into a second loader it changes inside the queue of the first [C114].
* The last sample of a packet is also the first of the next one, and both are the same object [C114].

Window
* A track that is lost and found again continues with the old first frame, so its observations are attributed to the wrong frames [C18], and the measurement update then dereferences a
  null frame [C69].
* The parallax is computed and not used; its threshold has no effect [C23].
* Marginalising the second newest of two frames would separate frames and observations [C16]; the backend only does that with at least three frames.
* A maximal window size of 0 makes `DecideMargPolicy` read before the first frame [C40].

Attitude estimator
* Gravity exactly along z gives 0/0: the level start stores NaN [C29].  A zero acceleration sample gives NaN later [C28].
* `DeltaQ(theta)` is `(1, theta/2)` normalised, a turn by `2 atan(theta/2)` instead of `theta`; the initial attitude is never aligned off the axis [C30].
* The estimator turns by the negative gyroscope rate, the propagator by the positive one [C31].
* For the same reason its correction by gravity has the wrong sign.  At rest the error grows with every sample until it exceeds a right angle, and the error integral, which is summed per sample and not per second, makes this fast: its growth rate at 200 Hz is about 0.14 per second [C123].
* A queue with a single item newer than the asked time yields nothing [C26].
* A rotation vector whose square overflows turns the attitude into the zero quaternion without an error, and it stays zero [C109].
* `attitude_estimate.cpp:21-24` divides the cross product of measured and expected gravity by its length.  When the first sample is exactly parallel to gravity (a level device at rest, or simulated data without noise) this is 0/0: the attitude contains NaN, every later attitude is a product with it, and every attitude that the run ever publishes contains NaN.  `Reset` keeps the attitude queue and does not help [C110].
* The check of the first acceleration's length (`attitude_estimate.cpp:16`) lets NaN through, because a comparison with NaN is false [C110].
* `RunOnce` cleans the attitude queue only when the window has at least two frames (`backend.cpp:92`).  A failed initialisation leaves one frame, so in a dark or featureless scene every sample is kept for ever [C111].

Geometry
* Analytic triangulation accepts a NaN point, since the depth test is `z < 0` [C53], and rejects exact points further than 1e6 from the origin [C54].
* Iterative triangulation divides by the world z of the start point [C55].
* Its weight jumps from 1 to nearly sqrt 2 at a residual of 0.01, so residuals between 0.01 and 0.02 are weighted up; and since steps minimise the weighted errors while acceptance compares plain
  ones, all robust steps can be rejected [C90].
* `QuaternionToEuler` multiplies by 57.295779579, which agrees with 180/pi to nine digits only [C93].
* PnP does not normalise its start quaternion unless it steps; the zero quaternion stays zero [C57].
* RANSAC does not end for one or two points [C60], returns the pose tried last instead of the best one [C61], and keeps stale inlier flags of a reused vector; a NaN residual counts as inlier [C62].
* The Huber weight is negative for some arguments when its parameter exceeds 4 [C63].

Configuration
* The static `tempMat` keeps the numbers of the previous file, so a short or blank file takes over foreign values [C65]; surplus rows (also the `\r` line of a CRLF file) write out of range [C65].
* `maxFeatures` is never read from a file.

Backend
* Unknown camera number, empty observation, repeated id and re-found track lead to undefined behaviour [C69].
* `Reset` only changes the status.  The stale queue items have the size of the old window and make every later update fail [C76].  When the sizes agree (a window of one frame) the filter runs on from the old state instead, and the state that the initialisation computes is not used [C118].
* The extrinsics are in the estimated state, but their covariance starts at zero and nothing ever adds to it: they are never refined.  The same holds for the first frame [C101].
* After a re-initialisation the replayed attitude items have had their bias removed and the propagator removes it again [C77].

Demo program
* `maxTimeStamp` is compared with the shifted time, so data are read up to 99 s [C96]; both loaders also push the first line behind the limit.
* A line that ends early silently repeats the numbers of the line before; the first line reads uninitialised variables [C97].
* The main loop runs once per IMU line.  An image that is not paired with a sample uses up a pass, and data are left in the loader [C99].

Several backends in one process
* Two backends fed with the same time stamps lose the second copy of every message: the loader compares with the last message given to any backend, and the call still returns true [C122].
* Configuring one backend replaces the gravity of all others [C122].

Conventions
* The linear triangulation minimises an algebraic error whose weight depends on the distance to the origin of the world, so for inexact observations the result depends on where the filter was started [C107].
* A constant gyroscope offset is not absorbed by the bias: the attitude filter stores its samples with the bias removed, and the replay in `InitializePropagator` removes it again [C77].

Test programs
* The test of the iterative triangulation prints its result as the set point, so both printed points agree whatever the method does [C103].
* The tests of the plain and the weighted PnP cannot reach the true pose, since the spoiled observations all pull to one side [C104].

Weights
* The bias random walk enters with the unsquared figure and the squared sample period, so its strength depends on the IMU rate and vanishes for a fast IMU; with the shipped configuration the bias variance grows 500 times faster than the figure says [C124].
* Every update uses all observations of the selected features in the window again, although the covariance already counts them; the filter grows more certain with every image without new information [C125].
* No residual is tested against its covariance: an outlier that passes the triangulation moves the state without a bound and the covariance shrinks as for a perfect measurement [C128].
* The attitude increment is the first order formula, normalised: a turn about a fixed axis comes out short by x³/12 per step [C127].
* The propagation does not symmetrise its covariance (sequence_propagator.cpp:134), and `G Q Gᵀ` evaluated from left to right is not symmetric under rounding: after the first step of a filter at rest the entries (3,0) and (0,3) differ. Updates without features store it as it is; an update with features removes the asymmetry [C134].
* The covariance is corrected as `(I - K H) P` (multi_view_vision_update.cpp:301-313). In single precision this gives negative variances for ordinary values: prior variance 4.625, coefficient 9.4375, noise 0.0021739. The code only prints an error and goes on [C137].
* The propagation `F P F^T + G Q G^T` (sequence_propagator.cpp:134) can do the same: a positive semidefinite covariance in which position and velocity are tied, so that the position is certain one sample ahead, gives a negative variance of the position after one step of 4 ms with noise 0.001 [C137].
* The position is a `float` that each sample increments (sequence_propagator.cpp:102-103). A kilometre from the origin and at 200 Hz a motion of 5 mm/s is below half a unit in the last place: the position never changes, whatever the number of samples; the same holds of every motion whose way in a sample is at most 2^-27 of the distance from the origin [C139].
* `TickTockTimer` reads `system_clock`, not `steady_clock` (tick_tock.cpp:7, 12): the reported time is negative when the clock is set back [C140].
* `F` integrates the position with the old velocity and the attitude with `I - dt [w]`, the nominal state with mid values and a normalised quaternion. A turn of the world about gravity, which no camera can see, is therefore not carried into the same turn when the body accelerates or tilts, and the filter gains information about the heading that the data do not contain [C135].

### 6.2 Simplifications of the model

* `shared_ptr` arguments of the loader are non-null in `Verif/Model/Loader` and each push hands over a fresh message object.  `Verif/Model/Alias` lifts this: C114 shows that a caller who does so sees no difference, and what happens otherwise.
* Iteration order of `unordered_map` is the list order of the model (insertion order). `Verif/Model/Hash` lifts this for the feature map and the maps of the frames: C113 shows that the order changes nothing a caller sees, unless more features are triangulated than an update may use. The cameras inside an observation are in the order of the message; C121 shows that this order changes nothing either, under a condition on the landmarks and on the singular vectors of the library.
* Sums of dot products run left to right; Eigen leaves the order open.
* Matrix sizes are natural numbers; `uint32_t` wrap-around is modelled where a data-dependent subtraction, multiplication or addition occurs (row counts, frame ids).
* Comparisons of a `float` with a `double` literal are comparisons in the scalar type. `lt_literal`, `gt_literal` (`Verif/Props/Ieee`) show that the two agree for every `float` other than the rounded literal itself.
* Eigen decompositions are functions of the matrix (`Ext`); `householderQ` is a square orthogonal matrix of the row size.  The conversion of `rand()` to the `fp32` key is arbitrary.
* `PReal` has one value for NaN and both infinities, with every comparison false.  An infinity that the code would compare (for example `inf > threshold`) is not told apart from NaN.
* The "check cov" loops (sequence_propagator.cpp:137-144, multi_view_vision_update.cpp:317-325) only print; they are left out of the functions and modelled apart (`covAlarm`, C132).
* The log output of `Initialize` reads the front of the propagation queue, which is kept as a check.
* One backend per process in `BProc`; `MProc` (C122) has any number of them, with the statics they share. Calls do not overlap in time (the code has no locks).
* C68 and C79 assume times that are not NaN (a linear order); C24 - C27 use comparison laws that also hold with NaN.
* `Fl` (used for C109) has one zero and arbitrary `atan2`, `acos`, `asin`, `log`; its operations round once each, so fused or extended precision operations are not covered.
* The readings of the system clock are integers given with each call of the timer, counts of nanoseconds as in libstdc++; the overflow of their difference is the outcome `none`.
* Ghost fields (`lambdas`, `outer`, `tried`, `freedRead`) record what happened and are never read by the model.

## 7. Axioms

`tools/axioms.sh` prints `#print axioms` for every theorem of `MANIFEST.json`; its output is kept in `AXIOMS.txt`.  Every line is a subset of
`propext`, `Classical.choice`, `Quot.sound`.

## 8. Tests against wrong programs

`seeded/LOG.jsonl` has one line per edited model: the definition, the edit, the claim it breaks, the theorems that failed in the build of the edited copy, and the theorems
that were tightened afterwards.  A helper lemma is named as failing when it is the first one on the way to the property theorem of the claim: Lean then does not build the modules
behind it.
