# Formal model of StaticMapping in Lean 4 - design

The source is `/repo` (C++), read as text. The model lives in `lean/Verif`:

* `Verif/Model/*.lean` - executable, total definitions, one per function of the C++ code,
  each with a comment citing file and lines and naming every simplification.
* `Verif/Spec/*.lean` - small specifications, written without reference to the model's helpers.
* `Verif/Proofs/*.lean` - helper lemmas.
* `Verif/Props/*.lean` - the property theorems (named `Cnn_...`), each with an `example`
  showing a concrete non-trivial case meeting its hypotheses.

Conventions

* `CHECK` failures / `LOG(FATAL)` / uncaught exceptions are the outcome `Outcome.abort`;
  undefined behaviour is `Outcome.ub`; both are distinct from every normal result.
* Fixed-width integers are modelled with their width wherever wrap-around can matter
  (`SimpleTime`, id packing, occupancy bytes); otherwise unbounded `Int`/`Nat`.
* Floating point coordinates are modelled by exact numbers (rationals, reals or an arbitrary
  ordered field) wherever a property is about geometry; such theorems are about exact arithmetic.
  Where rounding decides the outcome it is modelled: `toF32`/`toF64` round a rational to the
  nearest `float`/`double` (Model/Floats), and C25, C26, C42-C44, C50, C53, C75, C86, C87, C89, C91, C93, C94, C96-C98, C100, C102 and
  C103 are stated with it, in whole or in part. Theorems that only move data (serialisation, filters, queues) are about opaque values
  and hold for floats too.
* Rigid motions are elements of an arbitrary group acting on points where only the algebra
  matters, or explicit affine maps where coordinates matter.
* Threads are modelled as interleavings of atomic steps (one step per critical section or
  shared read/write, in the order of the code). Weak memory effects are outside the model.
* External calls (PCL, Eigen, GTSAM, libpointmatcher, ROS, the file system, random source,
  hash-table iteration order, `nth_element`) are parameters; every theorem quantifies over
  them, with assumptions stated as hypotheses.
* Where the code does not satisfy the property as stated, the negation is proved with a
  concrete witness (`..._fails`) and the strongest part that holds is kept as `..._partial`.

## Plan per property

| id | what is modelled | how it is proved |
|----|------------------|------------------|
| C01 | `SimpleTime` with 32-bit fields, `FromNanoSec`, `ToNanoSec` on 64-bit words | arithmetic on `Nat` below the word sizes, `omega` |
| C02 | operators `+ - /= == < <= > >=` | arithmetic; equality with 1 ns tolerance is not transitive / not compatible with `<`: negation + partial |
| C03 | `ToLocalTime`, `ToPclTime` with 64-bit wrap | arithmetic |
| C04 | `TimeStampBinarySearch` loop with abort outcome | loop invariant, well-founded recursion on `end-start` |
| C05 | `VoxelCastingBresenham` loop on integers, with final CHECK | closed form of the error accumulator by induction on steps |
| C06 | `VoxelCastingDDA` | same |
| C07 | `CubicBox` over rationals | case analysis + linear arithmetic |
| C08 | `Octree::BuildTree` with fuel-free recursion on remaining depth | induction on depth; multiset counting |
| C09 | byte-level writer and reader streams | induction on the point list |
| C10 | same reader on truncated input, with stream state bits | negation (witness) + partial (header truncation, exact-size reads) |
| C11 | cloud holder state machine with a file map | refinement to "logical points"; negation for transform after save |
| C12 | clouds and affine maps over a commutative ring | algebra (`ring`), list induction |
| C13 | homogeneous normal transform | negation with a translation; partial for zero translation |
| C14 | `BuildNormals` with an arbitrary admissible selection; compaction loop | induction on range length; `List.Perm` |
| C15 | GPS ingest state machine | induction over message history |
| C16 | `InterpolateGps` over rationals | bracket lemma + field arithmetic |
| C17 | `TRIM_DATA` | negation (bracket lost) + partial |
| C18 | accumulation state machine | induction over the stream; chunking spec |
| C19 | three-thread transition system | inductive invariant over schedules; shutdown loss: negation |
| C20-C22 | each filter's `Filter` with its state | list induction; negations for re-entrancy defects |
| C23 | filter factory fold | induction over chain |
| C24 | voxel-grid buckets, arbitrary iteration order | grouping lemmas |
| C25-C26 | map insertion with byte-valued occupancy | invariant over insertions; ray lemma from C05 |
| C27 | submap grouping | chunking spec |
| C28-C29 | thread transition systems | invariants; negation for the check-then-act races |
| C30 | submap/frame poses over an arbitrary group | group algebra |
| C31 | submap swap state machine | refinement; negation for shared handle |
| C32 | file-name strings, decimal rendering | injectivity of rendering |
| C33 | id comparisons | case analysis |
| C34 | `SaveMaps` grouping loop | chunking spec |
| C35 | package grid over rationals | linear arithmetic over floor steps |
| C36 | pool transition system, any number of workers | inductive invariant over schedules |
| C37-C39 | loop detector | list lemmas; state-machine induction; metric algebra |
| C40 | view graph | invariant over histories; bounding-box negation |
| C41 | GPS caching in the optimiser | state-machine induction; negation for the triggering frame |
| C42-C43 | quantile, error elements, iteration loop | counting; loop lemma |
| C44 | registrator input state machine | negation (empty cloud keeps the old one) + partial |
| C45 | extrapolator queue and cache | invariant; negation for stale cache |
| C46 | bag buffer machine | invariant; negation for the tail |
| C47 | KITTI byte reader | induction |
| C48 | id packing, connection strings | arithmetic; parser/printer round trip |
| C49 | histogram and correlation | counting; Cauchy-Schwarz |
| C50 | XML parameter assignment | list induction; negation for the submap filter |
| C51 | path strings | list induction |
| C52 | component labelling (BFS) | invariant of the work-list, connectivity |
| C53 | threshold export of the voxel map | list induction |
| C54 | factor/variable bookkeeping of the optimiser | state-machine induction; exact lists |
| C55 | mapping loop driving the extrapolator and the IMU tracker | invariant over all event sequences; negation for late IMU |
| C56 | package loading, renumbering, reconnecting | list induction; negation for the origin attribute |
| C57 | motion compensation and the fractions it uses, through collector and filters | list induction; interpolation as a parameter; negation for the voxel grid |
| C58 | front end: key frames, reference clouds, poses | invariant over all sequences of clouds; negation for late clouds |
| C59 | odometry storage, interpolation, trimming | as C16, C17 |
| C60 | reading of the configuration, checks at the start | equivalence with a specification of "usable", for every conversion function |
| C61 | submap matching decisions and scores of the four matchers | case analysis over engine results; negation for plain NDT |
| C62 | line-based ground filter | loop invariant of the line extraction, exactness of the listing; four negations |
| C63 | six-number poses (Euler angles) | real trigonometry with `Complex.arg` for `atan2` |
| C64 | averages of poses | real trigonometry; negation across the half turn |
| C65 | cells of the normal distributions transform | list induction, linear algebra; five negations |
| C66 | score, gradient and Hessian of NDT over threads | calculus (108 second derivatives), sums over schedules; two negations |
| C67 | loop and step length of NDT | invariant, termination; negation on a concrete cell |
| C68 | one point-to-plane step of the fast ICP | the system is the gradient of the cost; convexity; Rodrigues bound |
| C69 | the inertial tracker | invariant over histories; negation for a zero reading |
| C70 | queue of inertial messages and the two trackers | invariant over histories; negations for equal stamps, late messages and intermediate poses |
| C71 | pose setters of frames and submaps | real algebra: the quaternion of any matrix is not zero; Lipschitz bound |
| C72 | reader-writer locks of submaps and clouds, other mutexes | lock order and a maximal waiting thread; all schedules, any number of threads |
| C73 | GpsAlign over Isam, Submap, SaveMaps | reference: the unaligned map; equality with its image, saved files by equivariance of saving |
| C74 | Switches (state of the builder as seen by its public calls) | invariant over call sequences, chosen messages described by the calls before them; composed with Gps and Isam |
| C75 | PathExport (text of the table character by character) | fold unrolled; a reader of tables written in Spec recovers the rows; rounding bound |
| C76 | Gicp: transformation with six parameters, cost, gradient, covariances, loop over real numbers; the search tree, the decomposition and the minimiser are parameters | derivatives of each entry of the rotation by HasDerivAt, sums over pairs; positive definiteness through the decomposition, inverse of a positive definite matrix; induction on the rounds |
| C77 | Scripts of lock operations and accesses per call; any number of threads interleaved | Lockset invariant on top of the lock invariant of C72 (the lock operations are proved to be those of C72) |
| C78 | State machine of the five parties with one step per shared access; frames_ slots taken before they are filled | Invariant over all schedules |
| C79 | Table of times per block and thread, events enter/leave; 64 bit unsigned division, conversion to int | Invariant relating the table to the events; sorting facts |
| C80 | Composition of the models FrontEnd, Submap, Isam, GpsAlign, SaveMaps into one run (`buildMap`), with the schedule of the submap thread as a parameter | Chain of key frames from C58, grouping from C27, final poses from C73, files from C34 |
| C81 | Poses as a group acting on points; what each sensor measures is specified from the true motion and mounting; transform look-up as chains of fixed joints; IMU over an ordered field with lever arm | Group identities; induction over the transform chain |
| C82 | `GpsInit`: headings as first columns of real rotation matrices, acos with NaN outside [-1, 1], the decision of AddFrame over a sequence of frames | greatest element of a sorted list; Mathlib's angle between vectors as the specification; a rotation is determined by two independent directions (cofactors of a rotation) |
| C83 | `MathHelpers`: clamp and power over any ordered type / monoid; the two loops of the angle with fuel and with the arithmetic as a parameter; line and plane over the reals, the singular value decomposition as a parameter | distance to a set (Mathlib) as the specification of the line; least squares by shifting to the centroid and diagonalising |
| C84 | The conversions of msg_conversion.cc field by field; the `if` chain of the bag loop and the call-backs as a function from a message to an insertion; composed with the bag reader of C46. | Case analysis on the type of the message; induction over the delivered messages; the delivered part comes from C46. |
| C85 | publish_edges over the exported view graph (C40, C54); the calls of the show functions as observations of the connecting thread's runs (C29); the local map's range test. | Exported graph as an explicit list of items; loops sorted into buckets by their first submap; induction over the events with C29's invariant. |
| C86 | `Model/Floats`, `Model/Seconds`: rounding to 53 bits, `ToSec`, `FromSec` and the interpolation share | rounding lemmas (relative error, monotonicity, exactness) in `Proofs/Floats`; bounds by linear arithmetic; counterexamples by evaluation in the kernel |
| C87 | `Model/PlaceFloat`: `TransformPoint` with every rounding of single precision | error accumulated factor by factor, Cauchy-Schwarz for the row of a near rotation |
| C88 | `Model/KittiPose`: `%.8g` formatting and the loop over submaps | a separate reader of scientific notation; value of the printed text computed digit by digit, relative error of the decimal rounding |
| C89 | `Model/OctreeF`: the cubes and the tree with every rounding and the tolerance of `CHECK_DOUBLE_EQ` | cubes on a binary grid are halved without rounding (integer bounds), induction over the depth; counterexamples by evaluation in the kernel |
| C90 | `Model/Mrvm` (no new definitions): histories of scans seen from one voxel | the effect of a scan on a voxel (C26) folded over the history; monotonicity of the update in value and probability; step counts by evaluation over the 206 table values |
| C91 | Model/CastF: both casters with float division, long to int conversion and checked int operations; insertion into the voxel map on top | refinement of the exact casters (C05) under range bounds; monotonicity of rounding for the upper face, the error bound for the lower; witnesses by evaluation |
| C92 | Model/MrvmOdds: the update with its numerical pieces (table, addition, logistic) as parameters, each within 2^-19 of its exact value | the logistic function is 1-Lipschitz, log-odds in use are below 2.4 (bound on e); margins of all 206 exact values to the next integer by evaluation in the kernel; direction from a lower bound on the exact change |
| C93 | sums and quotients of filter_voxel_grid.cc (double) and of the averaged OutputToPointCloud (float) with flRound | monotone rounding: k times a float is exact in double, so partial sums stay between k*min and k*max; error of a rounded sum by induction |
| C94 | the three tools as functions from the loaded cloud to the written file and exit code; PCL sampling and libLAS rounding as stated assumptions | text parsed back with the reader of C75; error bounds of float and double rounding; loops by induction |
| C95 | Eigen's `slerp` and the conversion of a matrix to a quaternion written out over the reals; odometry messages as position and quaternion | trigonometric identities for the dot products; the matrix of a quaternion as a quadratic function; rigid motions as 4x4 matrices |
| C96 | Floats with infinities and not-a-number, the point filters, motion of a point, the validity check, filling a submap | error bounds for sum of squares and correctly rounded square root; induction over filters, points and frames |
| C97 | `Model/ProcMon`: `fgets`, `sscanf` and `strstr` on the texts of the files, the counters as `uint64_t`, the share in `double` and `float`, the loop of the monitor with uninitialised variables | Induction on the words and lines of the files; rounding error of the share |
| C98 | `PlaneSampler`: detector (ordered map of voxels, segmentation a parameter) and sampling loop, float roundings made | map invariant against the list of points of a cell; loop invariant on the two counters; witnesses by evaluation |
| C99 | Model/ImuGps: the members, AddImuData, AddGpsData; GTSAM's preintegration is the list of what it was given, its prediction and optimiser are parameters | induction over the history from the end with an invariant on graph, keys and pending measurements |
| C100 | Map packages with `toF64` / `toF32` roundings where the code rounds (corners, centres, edges, cut and joined points), the stack array of pieces | Error bounds of the roundings, the pieces overlap by more than the rounding; recovery lemma for float subtraction; witnesses by kernel computation |
| C101 | Xml: bytes, forests in first-child/next-sibling form, the writer with escapes and indentation, the parser as a loop over tags with a stack of open elements | fuel independence; suffix lemmas for every scanning function; induction on the forest for the round trip and, with prefix splitting, for cut-off files |
| C102 | `XmlNum`: `string_to_integer` with its overflow test in 32 bits, `%.17g` / `%.9g` and `strtod` as rational arithmetic with rounding to 53 and 24 bits | the digits read are an invariant modulo 2^32, the first digit and the length bound the number; a number whose distance from a double is less than 2^-54 of it is rounded to it, and 17 digits are that near |
| C103 | a disk as a function from names to texts and clouds; the writers of both description files, the XML layer of C101, the numbers of C102 and the readers, composed | the round trips of C101 and C102 applied to documents made of lists, the connection texts of C48 and the contents of C56 |
| C104 | Text of hand-written XML as an inductive relation to documents; parser (Model/Xml), number conversions (Model/XmlNum), options (Model/Config) and filter factory (Model/FilterConfig) composed in Model/ConfigText | Induction over the relation for the parser; C60 and C50 theorems carried over to texts |
| C105 | Model/PathMatch: matcher in two and three dimensions over the reals, cost functions, calibration; least squares solver and minimiser are parameters | Trigonometry of atan2 as the argument of complex numbers; list induction; distance to a line from C83 |
| C106 | Lum: AddNewCloud, the five rounds of AlignAll and the graph of PCL's LUM, which lives on between calls | invariant of the rounds: the clouds of the graph are those before plus one copy per round, the pairs are those at the given poses |
| C107 | filter_range_image.cc as functions over the reals: rows and columns from atan2, angle test, picture with its reused row buffer | points in polar form (distance, elevation, azimuth); atan2 of a polar pair; floor arithmetic; the triangle angle of Mathlib for the angle test; induction over the rows of the picture |
| C108 | the guess of the encoding and the decoders of pugixml on lists of bytes, with the byte order of the machine as a parameter | a text is a list of Lean's Unicode characters, its UTF-8 form is that of Lean's strings, UTF-16 and UTF-32 as in the standard; induction over the text; omega for the bit fields |
| C109 | Model/LeastNorm: the solver with QR, Cholesky and SVD as parameters with exact contracts | rank-revealing decomposition, orthogonality of the shortest solution to the kernel; existence of the decomposition by Gram-Schmidt |
| C110 | Model/PointToPoint: the step with the SVD as parameter | cost split into rotation and translation parts, trace bounds of rotations and reflections; existence of the SVD by the spectral theorem |
| C111 | main up to the first message; pcl's argument search, ros::init, tf2's name check and the shell's bracket patterns are small definitions; the settings files of the scripts are in the model character by character | characterisation of the argument search on well formed lines; inversion of the start-up; evaluation of the settings files by the kernel |
| C112 | weights and errors of the constraints given to the optimiser, for shifts | weighted least squares in an inner product space: best iff all pulls cancel, existence by projection on a finite-dimensional range, telescoping along the chain |
| C113 | calls of the optimiser of several trajectories as a state machine (frames, variables, pending and given constraints); loaders as lists of calls; weights in the world of shifts | invariant by induction over the calls; acceptance by an order predicate on ids; anchor bound by moving one variable towards its prior (Huber loss is Lipschitz) |
| C114 | candidates, guess, edges and verdict of the loop detector over the reals, matcher and Euler measure as parameters | case analysis; rotation algebra for the start; Cauchy-Schwarz for the slope; witnesses |
| C115 | points read from arrays, box, gather, copying of answers in any thread order; builder and search as parameters | inductions over lists; permutation argument for the indices; witness with a reversed tree |
| C116 | the extrapolator of C45 with the queue of odometry stamps | refinement to the machine without odometry, by induction over the history |
| C117 | the grid of C65 with the search by position | uniqueness of cell numbers, membership of the box, case analysis of the tables |
| C118 | threads with programs over wrappers, one step per atomic operation | invariant value plus increments to come, by induction over the schedule; multiset of handed-out numbers |
| C119 | the collector and thread handles of a builder as a small machine | characterisation of the safe histories by induction |
| C120 | hash of an integer vector on 64-bit words, hash tables as lists of buckets | induction over the operations with the invariant that every entry is in its bucket; pigeonhole over the pixels |
| C121 | Model/NdtGridF: the passes of VoxelGridCovariance with float and double roundings and 64-bit products | monotone rounding for the cells, exact products of floats, a chain of error bounds for the covariance, perturbation of the quadratic form |
| C122 | InterpolateGps, InterpolateOdom and InterpolateTransform with every operation rounded (share as double, then float) | error of one rounded linear interpolation; seconds compared with the literals through monotonicity of ToSec; the search as in C16 |
| C123 | Products of 4 x 4 matrices of `double` with each operation rounded (fused or not); the front end as a fold that multiplies the newest key frame's pose by the matcher's result and keeps the product at a key frame | Error of an entry by chaining the rounding bounds; squares of lengths via Frobenius norms and (x+y)^2 <= (1+s)x^2 + (1+1/s)y^2, so no square roots; induction over the chain with Bernoulli's inequality; the drift by a rotation whose float rounding is an exact multiple of it |
| C124 | The condition of a key frame with distance, sum of the absolute Euler angles and conversion to float; the loop that multiplies the newest key frame's pose by the result | Angle of a product of three turns at most the sum of the angles, by half-angle quaternions; diagonal entries of a rotation at least the cosine of its angle, so each Euler angle is at most that angle; singular orientation by its pitch; induction over the rounds |
| C125 | the residual function over the real numbers, with Eigen's slerp and quaternion product written out | Rodrigues' formula from half angles; the mapper's compensation through the uniqueness of the quaternion up to sign |
| C126 | Every rounding of filter_range_image.cc:88-126 with the rounding functions and the arc tangent as parameters bounded by IEEE 754 / two units in the last place | relative errors of sums, products, quotients and roots; an angle moves by at most twice the relative error of its coordinates; monotone comparison with the borders of the pixel |
| C127 | Every rounding of the compensation of a point (matrix to quaternion, slerp, quaternion to matrix, product, cast to float) with rounding, arc cosine and sine as parameters | absolute errors step by step; the factor sin(t a)/sin(a) is Lipschitz in cos(a) (Cauchy's mean value theorem), so the badly conditioned arc cosine near 1 does no harm |
| C128 | `Replay`: arrivals of recorded messages and the two steps of a round of scan matching (cloud taken and pose predicted; result added) in any order, with the extrapolator as a parameter or as the IMU queue of C70; submap thread and saving as in C80 | a run followed by what is left to do is the clouds one by one, by induction on the events; with an IMU a simulation by an extrapolator that knows all messages; submaps are functions of the frames |
| C129 | `SubmapSwap` (as for C31) and `Memory` (stored inertial messages), `Gps` (trimming) | invariant of a submap at rest: marked as matched, idle time at least the ticks since, out of memory once the ticks exceed the delay; frames untouched by all calls but their own access |
| C130 | `withMatcher` puts `alignScore` (C61) into the front end of C58 | unfolding one round for the fallback; equality of the two configurations for the independence; two computed runs for the refutations |
| C131 | Crash: the states in which a disk can be left while files are saved one after the other; the readers and the XML text of C101, C103 | splitting of the states at the description file; a beginning of the text is refused (C101) or misses only the last line end |
| C132 | DiskFull: the cloud holder of CloudHolder with a file of which only a beginning is kept; texts of C101, C103 | composition with C09, C10 (what the reader makes of a cut file), prefix_load of C131 |
| C133 | NormalEst: the arithmetic of one group of CalculateNormals over the reals | normal equations; kernel of the matrix and of the covariance; rank and nullity |
| C134 | Standing: IcpFast::Align on points of space, from selection (C42), step (C109) and loop (C43) put together; target by CalculateNormals (C14, C133) | pairs on their planes give the zero step by least norm (C109); the loop keeps it |
| C135 | the start of the inner minimisation of generalised ICP and the loop around the steps of the minimiser (Model/GicpInner) | trigonometric identities for the start; induction on the number of steps left; witness with the first axis straight down |
| C136 | `fastAlign` of Model/Standing and the estimator of Model/NormalEst on a turned and moved target | the cost of a step is invariant, the shortest minimiser is unique (midpoint argument), so steps turn with the frame; induction over the iterations |
| C137 | Standing, IcpFast, LeastNorm with lists in two orders | permutations: sorted distances, counts and sums are the same; the loop follows |
| C138 | Replay, Extrapolator, ImuTracker, ImuQueue with all stamps later | simulation: the later state is an image of the state, every step commutes with it; negation at stamp zero |
| C139 | Loop, CloseLoop and LoopCheck as they are; Spec/WorldFrame says which two histories are the same map in two frames of the world | relative poses cancel the motion; horizontal and vertical distances are kept by shifts and turns about the vertical; induction over the history; negation by a map lying on its side |
| C140 | Mrvm and VoxelCasting as they are; Spec/MapOrigin moves voxels, points, clouds and maps | every step of the casting and of the insertion commutes with a shift by whole voxels; induction over points, voxels of a ray and clouds; negation by a shift of half a voxel |
| C141 | Filters as they are; Spec/Heading turns points, clouds and filters | the decision of a filter does not change under the turn, so its scan commutes with it; chains by induction; cells: keys are odd functions, so a quarter turn renames cells; negations by witnesses |
| C142 | Spec.Poly3 (polynomials of degree three, valleys and hills) beside the model of trialValueSelectionMT | algebra around the valley; each of the four cases of the rule; the falling order by exact computation |
| C143 | Spec.dimPoint, dimCloud, dimMap: everything with brightness removed; SameShape | every function commutes with removing brightness; two inputs of the same shape are equal without brightness |
| C144 | the filters, output of the static map, submapPairMatch and keyRounds, each with two settings | sublists, by induction over points, cells and voxels; two drives along a line for the counterexample |
| C145 | Replay (whole run with schedules), Collector, Loop, Gps | the run on the beginning is extended to a run on the whole recording that works on all clouds; by C128 all such runs have the same frames, and frames are only appended; submaps by the invariant of the submap thread; the rest by induction on the messages |
| C146 | Spec.pointUnit, cloudUnit, poseUnit, cellsUnit, mapUnit, groundUnit: everything with lengths multiplied by s | every function commutes with the change of unit: quotients by cell sizes and comparisons with limits do not change; the ground filter only below its starting values of 10^9, with a counterexample beyond |

The sections "Trusted base", "What is modelled" and "Disagreements between code and property"
below are kept current as modules are added.

## Trusted base

* Lean 4.33.0's kernel, and the axioms `propext`, `Classical.choice`, `Quot.sound` only
  (checked by `vcheck`, which replays every module).
* Mathlib lemmas (checked by the same kernel).
* The faithfulness of the model to the C++ text, which is by reading only.
* What the model replaces by a parameter, with any assumption in the theorem's hypotheses:
  * exact numbers instead of `float`/`double` where the list under "Conventions" does not say
    otherwise (NaN and infinities only where they are an explicit case: C42, C44, C49, C96); where
    rounding is modelled, round-to-nearest-even of every single operation without overflow or
    subnormal numbers (Model/Floats says which);
  * the eigen-solver and `nth_element` (C14), PCA, SVD and `atan2` (C49), the angle test of
    depth clustering (C52), row/column projection of the range image (C20-C22, C52), ground
    line fitting (C20-C22) where it is not modelled in its own property;
  * random draws (C21), hash-table iteration order (C24), OpenMP schedules (C25, C26), thread
    schedules (C19, C27-C29, C36), directory listing order (C47);
  * GTSAM's ISAM2 (C41, C54): a factor list and a variable set, with its documented exceptions
    (unknown key, key inserted twice) as aborts; the numerical estimate is a parameter;
  * libnabo's nearest neighbours and the linear solver of the ICP step (C42, C43);
  * rotations in the extrapolator (`RotOps`, C45, C55), the Euler-angle norm in the loop check
    (C39);
  * pugixml in C50 and C56: an element is the list of its attributes; the text itself, its parser
    and the printing of numbers are modelled in C101-C104 and C108; decimal integers are modelled
    digit by digit where the text matters (C32, C48, C97);
  * ROS transport, `boost::filesystem`, glog output.
* Sequential consistency: threads are interleavings of atomic steps.

## What is modelled

| module | source | functions |
|--------|--------|-----------|
| Time | common/simple_time.{h,cc} | all of `SimpleTime`, `TimeStampBinarySearch` (builder/data/data_types.h) |
| VoxelCasting | common/math.cc | `VoxelCastingBresenham`, `VoxelCastingDDA` |
| Octree | common/bounding_box.cc, common/octree.cc | `CubicBox` sub-division and containment, `BuildTree` |
| CloudIO | builder/data/cloud_types.{h,cc} | `SaveToFile`, `LoadFromFile`, byte layout |
| CloudHolder | builder/data/cloud_types.cc | `InnerCloudData`: clear, load, save, transform |
| CloudGeom | builder/data/cloud_types.{h,cc} | point transforms, `ApplyTransform*`, `operator+=`, output transforms |
| Normals | builder/data/cloud_types.cc | `CalculateNormals`, `BuildNormals`, compaction |
| Gps | builder/data/data_collector.cc | GPS ingest, `InterpolateGps`, `TRIM_DATA` |
| Collector | builder/data/data_collector.{h,cc}, builder/map_builder.cc | accumulation, filter queue, delivery to scan matching (threads) |
| Filters, FilterConfig | pre_processors/* | every filter compiled into the factory, factory, XML parameters |
| DepthCluster | pre_processors/filter_range_image.cc | depth clustering |
| Mrvm, MrvmParallel | builder/multi_resolution_voxel_map.{h,cc} | settings, insertion (sequential and per OpenMP schedule), output |
| Submap, SubmapSwap | builder/submap.cc, frame*.cc, memory_manager.cc, map_builder.cc | frame insertion, submap thread, poses, swapping |
| Connect | builder/map_builder.cc, submap.cc | pair matching jobs and the connecting thread |
| Names | submap.cc, frame.cc, map_package.cc, file_utils.cc, macro_defines.cc | ids, file names, path functions |
| SaveMaps, MapPackage | map_builder.cc, map_package.cc, tools/join_pieces.cc | map output, pieces, joining |
| ThreadPool | common/simple_thread_pool.h | all |
| Loop, LoopCheck | back_end/loop_detector.cc | candidate selection, status machine, consistency check |
| ViewGraph | back_end/view_graph.cc | all except pixel drawing |
| Isam | back_end/isam_optimizer.{h,cc} | factor bookkeeping of `AddFrame` and what it calls |
| IcpFast, Registrator | registrators/icp_fast.cc, interface.cc, ndt*.cc, icp_pointmatcher.cc | outlier rejection, iteration, convergence, input clouds |
| Extrapolator | builder/pose_extrapolator.cc, imu_tracker.cc, map_builder.cc | queue, prediction, IMU buffer, the mapping loop's calls |
| Playback | ros_node/playable_bag.cc, kitti_reader.cc, static_mapping_node.cpp | bag buffer, KITTI reader and playback |
| MultiTraj | builder/trajectory.cc, multi_trajectory/* | id keys, connection text, package loading |
| M2dp | descriptor/m2dp.{h,cc} | histograms, axes, score |
| FrontEnd | builder/data/cloud_types.cc, builder/map_builder.cc | `ApplyMotionCompensation`, `CloudPreProcessing`, the scan matching loop |
| Odom | builder/data/data_collector.cc | odometry ingest, `InterpolateOdom`, trimming |
| Config | builder/map_builder.cc, builder/option_loader, registrators/interface.cc | configuration file, checks of `Initialise`, matcher parameters |
| MatchScore | builder/map_builder.cc, submap.cc, registrators/* | submap matching, scores, threshold |
| Ground2 | pre_processors/filter_ground_removal2.* | all |
| Euler | common/math.{h,cc} | Euler angles, six-number poses, averages |
| NdtGrid | registrators/pclomp/voxel_grid_covariance_omp* | `applyFilter`, leaves, neighbour search |
| NdtDeriv, NdtLoop | registrators/pclomp/ndt_omp* | constants, derivatives, step length, main loop |
| IcpStep | registrators/icp_fast.cc | system, motion and update of a point-to-plane step |
| ImuTracker | builder/imu_tracker.cc | the three observations; `FromTwoVectors` as in Eigen, its axis for opposite vectors is a parameter |
| ImuQueue | builder/pose_extrapolator.cc | how messages reach the trackers; a tracker is the list of calls made on it |
| PoseNormal | common/math.h, builder/frame_base.{h,cc} | `NormalizeRotation`, pose getters and setters; Eigen's matrix-to-quaternion conversion |
| Locks | common/mutex.h, builder/submap.cc, builder/data/cloud_types.cc | the lock operations of every call on submaps and clouds; `boost::shared_mutex` as a compatibility table |
| GpsAlign | builder/map_builder.cc 570-612, 748-762, back_end/isam_optimizer.cc 350-383 | end of ConnectAllSubmap, CalculateCoordTransformToGps, GetGpsCoordTransform, RunFinalOptimazation |
| Switches | builder/map_builder.cc 53-114, 156-213, 715-717, 780-805 | constructor, InitialiseInside (flags), Insert*Msg, EnableUsing*, FinishAllComputations (flag) |
| PathExport | builder/trajectory.cc 71-143 | OutputPathToPointcloud, std::to_string(double) |
| Gicp | registrators/pclomp/gicp_omp_impl.hpp | computeCovariances, computeRDerivative, operator(), df, fdf, estimateRigidTransformationBFGS, computeTransformation, applyState |
| Races | `builder/submap.cc`, `builder/data/cloud_types.cc`, `builder/frame_base.cc` | which data each call touches under which lock |
| Pipeline | `builder/map_builder.cc`, `builder/submap.cc`, `builder/memory_manager.cc` | which clouds are in memory and in use |
| Profile | `common/performance/simple_prof.{h,cc}` | RegisterTimer, ~SimpleTimer, GetStatistics, ~TimerManager |
| EndToEnd | builder/map_builder.cc 221-229, composition of 261-397, 430-520, 562-613 | InsertFrameForSubmap, the whole run |
| Extrinsics | builder/map_builder.cc 115-185, ros_node/tf_bridge.cc, urdf_reader.cc, static_mapping_node.cpp 318-357, back_end/isam_optimizer.cc 153-161, 209-262, builder/data/data_collector.cc 174-186 | mounting transforms, their look-up and use; tf2's chain composition is modelled from its documentation |
| GpsInit | back_end/isam_optimizer.cc | AnalyseAllFramePoseForMaxRotation, GPS branch of AddFrame, measurement of SolveGpsCorrdAlone |
| MathHelpers | common/math.{h,cc} | Clamp, Power, NormalizeAngleDifference, DistanceToLine, PlaneFitting |
| Node | ros_node/msg_conversion.cc, ros_node/static_mapping_node.cpp | ToLocalHeader, ToLocalTime, ToLocalImu, ToLocalOdom, ToLocalNavSatMsg, the call-backs, sensor arguments, bag loop |
| Display | ros_node/static_mapping_node.cpp, builder/map_builder.cc | publish_edges, the show functions' calls in ConnectAllSubmap |
| Floats | IEEE 754 binary32/binary64 (no overflow, underflow, NaN) | rounding to nearest even |
| Seconds | common/simple_time.h:113, common/simple_time.cc:38, builder/data/data_collector.cc:233-241, 283-291 | ToSec, FromSec, interpolation factor |
| PlaceFloat | builder/data/cloud_types.cc:167-179, 232-247 | TransformPoint, ApplyTransformInplace, ApplyTransformToOutput with rounding |
| KittiPose | builder/map_builder.cc:626-644 | the kitti_pose.txt part of OutputPath, `%.8g` |
| OctreeF | common/bounding_box.cc:30-107, common/octree.cc:39-84 | cubes and octree with the rounding of `double` |
| CastF | common/math.cc 35-174, builder/multi_resolution_voxel_map.cc 54-123, common/point_utils.h 56-64 | VoxelCastingBresenham, VoxelCastingDDA, InsertPointCloud with float and int |
| MrvmOdds | builder/multi_resolution_voxel_map.h 126-132, .cc 36-40, 63-69 | odds_table_, update_prob, ProbabilityToOdd, OddToProbability |
| AverageF | pre_processors/filter_voxel_grid.cc, builder/multi_resolution_voxel_map.cc | VoxelGrid::Filter, OutputToPointCloud (output_average) with float and double rounding |
| Tools | tools/path_statistic.cc, tools/pcd_sampler.cc, tools/pcd_to_las.cc | main of the three tools |
| Slerp | common/math.h, builder/data/cloud_types.cc, builder/data/data_types.cc, builder/data/data_collector.cc | `InterpolateTransform` with Eigen's `slerp`, `ApplyMotionCompensation`, `PoseInMatrix`, `SetPose`, odometry `AddSensorData` |
| Invalid | filter_range.cc, filter_axis_range.cc, filter_random_sample.cc, filter_ground_removal.cc, bounding_box.cc, cloud_types.cc, point_utils.h, submap.cc | Range::Filter, AxisRange::Filter, ContainsPoint, GroundRemoval::SetInputCloud, TransformPoint, FATAL_CHECK_POINT, FATAL_CHECK_CLOUD, InsertFrame on IEEE values (sign of zero and subnormal limit left out) |
| (tests) | common/test, pre_processors/test, builder/data/test | Verif/Props/RepoTests.lean runs the repository's unit tests (those without random data) on the model's definitions: boxes, octree depth, time search, filter configurations, voxel grid with float rounding, motion of a point |
| ProcMon | common/performance/process_info.cc | the monitor thread: all functions |
| PlaneSampler | pre_processors/plane_detector.h, random_sample_with_plane_detect.h | PlaneDetector, RandomSamplerWithPlaneDetect (unused by the current code) |
| ImuGps | builder/sensor_fusions/imu_gps_tracker.{h,cc} | ImuGpsTracker, AddImuData, AddGpsData |
| PackageF | builder/map_package.cc, tools/join_pieces.cc | SaveTrajectoriesAsMapPackage and main with number types |
| Xml | third_parties/pugixml/pugixml.cc:1228-1252, 1469-1512, 1826-1890, 2446-2814, 3042-3552, 3906-4315, 5484-5503, 6343-6356, 7143-7169 | writer with default flags, parser with default options, attribute and child lookup |
| XmlNum | third_parties/pugixml/pugixml.cc:4476-4680 | `string_to_integer`, `integer_to_string`, `get_value_*`, `set_value_*`, `as_*` of an attribute; not: overflow and underflow of doubles, infinities, not-a-number |
| MapFiles | builder/map_package.cc:199-227, tools/join_pieces.cc:34-84, builder/trajectory.cc:32-58, builder/map_builder.cc:807-815, builder/multi_trajectory/multi_trajectory_map_builder.cc:51-55,139-230 | storing and joining packages, storing and loading maps of trajectories |
| ConfigText | builder/map_builder_options.cc, pre_processors/filter_factory.cc, filter constructors | Initialise from the bytes of a file, supported filters with their parameters |
| PathMatch | back_end/deprecated/map_gps_matcher.cc, builder/cost_functions/gps_map_match.h, odom_map_match.h, builder/deprecated/offline_calibration.cc | InsertPositionData, RunMatch without files, GpsEnuToMapPathNormal, GpsEnuToMap3D, OdomToMapPath, OfflineCalibrationOdomToLidar |
| Lum | registrators/multiview_registrator_interface.h, multiview_registrator_lum_pcl.h | AddNewCloud, AlignAll (PCL's pairing and solver are parameters) |
| RangePixel | pre_processors/filter_range_image.cc | geometry of Filter, angle test of LabelOneComponent, ToPng |
| XmlEnc | third_parties/pugixml/pugixml.cc | guess_buffer_encoding, parse_declaration_encoding, convert_buffer and the decoders |
| LeastNorm | registrators/icp_fast.cc | SolvePossiblyUnderdeterminedLinearSystem |
| PointToPoint | registrators/icp_fast.cc | ComputePointToPoint |
| StartNode | static_mapping_node.cpp:91-383, mapping*.sh | main (start-up), script lines |
| Objective | back_end/isam_optimizer.cc | noise models, the sum of errors of pose constraints, the sum made small by SolveGpsCorrdAlone (all rotations the identity) |
| JoinMaps | back_end/multi_trajectory/multi_trajectory_optimizer.cc, builder/multi_trajectory/multi_trajectory_map_builder.cc | AddVertex, AddSubmapConnection, AddSubmap, RunFinalOptimizing, LoadBaseMap, LoadIncrementalMap; noise models |
| CloseLoop | back_end/loop_detector.cc:215-234, 282-316 | CloseLoop, matching of all candidates, close_succeed |
| GpuKnn | registrators/cuda/icp_cuda.cu:22-141 | knn_cugar |
| OdomExtrap | builder/pose_extrapolator.cc:91-121, 135-175, 201-210, 249-254 | AddOdometryData, TrimOdometryData, EstimateGravityOrientation |
| NdtDirect | registrators/pclomp/voxel_grid_covariance_omp_impl.hpp:373-446 | getNeighborhoodAtPoint and the variants for 7, 26 and 1 cells |
| AtomicWrap | common/atomic_wrapper.h:40-96, common/example/atomic_wrapper_example.cc | AtomicWrapper |
| LifeCycle | builder/map_builder.cc:53-112, 156-170, 715-747 | Initialise, InsertPointcloudMsg, FinishAllComputations, destructor |
| CellHash | common/eigen_hash.h, pre_processors/filter_voxel_grid.cc, filter_range_image.h, builder/multi_resolution_voxel_map.h | hash of a cell, insertion, search, growth of a table |
| NdtGridF | registrators/pclomp/voxel_grid_covariance_omp_impl.hpp 60-395 | applyFilter with rounding, cell of the search (377-379) |
| InterpF | builder/data/data_collector.cc, common/math.h | `InterpolateGps`, `InterpolateOdom`, `InterpolateTransform` with rounding |
| PoseChain | builder/map_builder.cc:269,349,381-390; registrators/ndt.cc:61, ndt_gicp.cc:103 | pose products of `ScanMatchProcessing`, cast of float results |
| MotionFilter | builder/map_builder.cc:349,369-390; builder/map_builder.h:79-83 | condition of a key frame, loop over matched clouds |
| PlaneFactor | registrators/deprecated/icp_factor.h | IcpPointToPlaneFactor: constructor members, operator() |
| RangePixelF | pre_processors/filter_range_image.cc | resolutions, shift, row and column of a point with float and double rounding |
| CompensateF | builder/map_builder.cc, common/math.h | MotionCompensation and InterpolateTransform with rounding |
| Replay | map_builder.cc:156-191, 260-397 with pose_extrapolator.cc:90-133, 177-197 | the loop with the extrapolator inside it, split into two steps |
| Memory | data_collector.cc:73-81, map_builder.cc:171-191 | what becomes of stored inertial messages |
| LostTrack | builder/map_builder.cc:310-334, 383-384 | the matcher of the scan-matching loop, flag and score unused |
| Crash | builder/map_builder.cc:596-612, 807-814, builder/map_package.cc:199-227, third_parties/pugixml/pugixml.cc:7187-7193 | states of the disk when saving is interrupted |
| DiskFull | builder/data/cloud_types.cc:428-458, submap.cc:219-241 | SaveToFile, Clear, CloudInMemory on a full disk |
| NormalEst | builder/data/cloud_types.cc:73-103 | CalculateNormals of one group |
| Standing | registrators/icp_fast.cc:455-529, cloud_types.cc:336-345 | IcpFast::Align on points |
| GicpInner | registrators/pclomp/gicp_omp_impl.hpp:189-251 | `stateOf`, `innerLoop`, `innerEstimate`, `bfgsSolver`; PCL's BFGS is a parameter |
| Spec/Date | specification only | the same state, call, event and recording at a later date |
| TrackerLog | builder/pose_extrapolator.cc:53-59, 256-285; common/simple_time.h:113-115 | InitializeWithImu, AdvanceImuTracker, ToSec (effect of the recorded calls on the tracker) |
| Spec/WorldFrame | back_end/loop_detector.cc | rigid motions of the map, positions behind the distances the detector compares |
| Spec/MapOrigin | builder/multi_resolution_voxel_map.cc, common/math.cc | shifts of voxels, points and maps |
| Spec/Heading | pre_processors/*.cc | turns of a scan about the vertical |

Not modelled: third_parties (what the code relies on from them is a parameter or, for pugixml's text
format, C101, C102, C104 and C108), the windows of the
viewers (tools/bin_viewer.cc, tools/pcl_viewer_normals.cc), tools/cloud_compressor.cc (all of it under `#if 0`),
tools/check_cuda.cu, the two plotting scripts, ROS transport and tf, the drawing of pixels by CImg, the wiring of
libpointmatcher's default chain (icp_pointmatcher.cc:165-247) and test code.

## Disagreements between code and property

Each item is a theorem (`..._fails` unless another name is given) with a concrete witness.

* C02: `==` has a tolerance of 1 ns, so it is not transitive and two different stamps can be
  equal while one is also less than the other.
* C08: points outside the root cube are kept when the root stays a leaf; a negative depth limit
  never terminates.
* C10: a file cut inside the points can be read as a shorter cloud without an error.
* C11: a transform applied after the cloud was saved is lost by a swap; so are normals.
* C12: the output-parameter form with the input as output loses the points.
* C13: normals are transformed as points, so they get the translation.
* C14: computing normals twice, or for an empty cloud, is undefined behaviour.
* C16: two GPS samples less than a microsecond apart stop the program when interpolating (at
  exactly a microsecond the exact model stops too, the program with its `double`s does not: C122).
* C17: trimming can drop the sample just before the trim time although it is still needed.
* C19: at shutdown clouds are lost, by two different races.
* C20: the ground filter lists points of sparse voxels neither as inliers nor as outliers, and
  reorders its output.
* C22: an axis filter without configured limits and a random filter with a rate above 0.999
  repeat their inliers when run again; the range image is empty the second time.
* C23: `StatisticRemoval` in first place empties the cloud and its stamp.
* C25, C26: the maximal intensity is cut to an integer; with OpenMP the point limit can be
  exceeded; a hit voxel can be lowered by an earlier ray of the same cloud.
* C27: with the inner voxel map option no submap can be completed. `frame_count` 0 stops the
  program.
* C28, C29: a submap can be lost between two reads at the end of the run; a single submap is
  never added to the optimiser.
* C31: a handle to a cloud kept by a caller is emptied by swapping.
* C32: a configured prefix that begins with "f_" lets submap and frame files collide.
* C34: a group without points writes no part (numbers are then not consecutive); step 0 divides
  by zero.
* C35: points farther from their submap's position than the border can be lost; a package of no
  submaps is undefined behaviour.
* C36: a pool of zero workers never runs its tasks.
* C37: a candidate number of 0 divides by zero.
* C38: the repeated evidence need not be consecutive.
* C39: which edge comes first decides acceptance, and the order comes from a concurrent vector.
* C40: the drawing box is wrong when all coordinates are negative, and grows with each drawing.
* C41: the GPS observation of the frame at which the GPS frame is solved is lost.
* C42: no finite match stops the program (`C42_stops`).
* C44: giving an empty cloud silently keeps the older cloud.
* C45: a cached prediction survives the addition of the true pose for the same stamp.
* C46: the messages of the last buffer delay are never delivered.
* C47: playback ends at the first scan without a point; every scan leaks 4 MB; at most 250000
  points are read.
* C49: an object used twice counts the first cloud too; `r` below 1e-6 is undefined behaviour;
  backward viewing directions are not perpendicular to their plane.
* C50: the voxel size of the submap filter is ignored; filters with invalid parameters stay in
  the chain.
* C52: clusters of an earlier cloud are kept (out-of-range read); an image of one column is
  undefined behaviour.
* C53: a threshold of 1 is undefined behaviour.
* C55: a late IMU message stops the process.
* C56: the origin is saved as `enu_x`/`enu_y` and read as `utm_x`/`utm_y`.
* C57: a voxel grid resets the fraction of every point, so nothing behind it is compensated.
  (`EigenPointCloud::ApplyMotionCompensation` shadows its parameter by a variable initialised with
  itself, which is undefined behaviour; its fractions ignore those of the points.)
* C58: a cloud out of time order becomes the reference of the next match without a pose, and stops
  the program with the fast ICP.
* C59: ingest does not compare stamps: equal stamps make a query stop the program.
* C60: the default configuration always stops the program; a null name is undefined behaviour; the
  submap matcher is examined only while mapping; an empty export path is undefined behaviour.
  (`inner_filters` is stored and never used; only the first section of each name is read.)
* C61: plain NDT reports a distance as its score; an empty submap stops the program or reads an
  unwritten score. (The result of `Align` is ignored.)
* C62: points exactly on a ground line are kept, so flat ground is kept; one early gap switches a
  segment off; points outside the range are removed; far points overflow an integer.
* C64: two headings on both sides of a half turn are averaged to the opposite heading.
* C65: covariances start from the identity and are scaled by (n-1)/n instead of n/(n-1); a target
  without a full cell, or too fine a grid, leaves the old search tree with an empty list of
  cells; cell numbers can overflow although the size is checked.
* C66: the coefficient of z in the second derivative of x for the angle about y has the wrong sign;
  angles below 1e-4 are rounded to zero in the derivatives but not in the score.
* C67: the line search is switched off by the test that should switch it on, every step is at least
  half the tolerance long, and so the result can have a lower score than the guess.
* C69: an acceleration reading that cancels the gravity estimate, such as a first reading of zero,
  stops the program (`CHECK_GT`).
* C70: of two messages with the stamp of the newest pose the first is dropped; a message stamped before
  a guess already made is left out of later guesses; adding a pose changes the integrated rotation.
* C74: the node switches sensors off after `Initialise`, but the optimiser and the loop detector got
  copies of the settings in `Initialise`; the warning "isam_optimizer_options.use_gps is set to
  false" is not true of them. Switching off before `Initialise` is overridden by the file.
* C74: `use_odom_` is not initialised by the constructor; an odometry message before
  `EnableUsingOdom` reads it. With odometry switched on, the first message ends the program
  (`LOG(FATAL)`).
* C76: in generalised ICP (gicp_omp_impl.hpp) the cost moves a point by R_x R_g p + t_g + t_x, but
  the gradient by the angles uses R_g p + t_g instead of R_g p (line 328), and the neighbour search
  uses R_x (R_g p + t_g) + t_x (lines 438-440). All three agree only if t_g = 0. Clouds with fewer
  than 20 points leave the list of covariances empty (line 63), which is then indexed (line 452).
* C77: `InnerPointCloudData::SaveToFile` assigns `filename_` while holding the mutex shared only,
  `GetInnerCloud`, `GetEigenCloud`, `GetTime`, `Submap::InsertFrame`, `FrameBase::TransformToNext`
  and `FrameBase::GlobalPose` take no lock: each can race with a call of another thread that does
  take the lock.
* C78: pair matches may end out of order, so `UpdateInactiveTime` can clear a submap that is still
  the source of an alignment; `frames_.size()` of a `tbb::concurrent_vector` counts elements under
  construction, which `SubmapProcessing` may then read.
* C79: `GetStatistics` takes `back()`/`front()` of an empty vector and divides by zero when a block
  was entered and not left; `sum / size` is an unsigned division; `int factored_time` overflows for
  totals of 2^31 units.
* C80: the key frames after the last complete submap are matched and kept in `frames_`, but none of
  their points is ever saved (`C80_tail_fails`).
* C81: the odometry constraint is put on the pose of the tracking frame, but with the transform
  between the odometry sensor and the lidar; `tracking_to_odom_` is set and never used
  (`C81_odom_fails`). `SetTrackingToImu` ignores the height of the IMU (`C81_acc_fails`).
  `InsertPointcloudMsg` transforms the caller's cloud in place (`C81_twice_fails`).
* C82: the turn is measured over all frames, but only readings before the turn are used when the
  frame is solved; the reading of the frame at which it is solved is dropped. A straight drive that
  ends in a turn is therefore solved with readings on a line, which fit also a map rotated about
  that line; only the prior on the frame decides.
* C82: `acos(v0.dot(v_f))` is not clamped; the product of the first heading with itself can exceed 1
  by rounding, then the value is NaN, `std::sort` is undefined and a NaN maximum makes `NaN < angle`
  false, so that the frame is solved at once.
* C83: `DistanceToLine` multiplies the product with the unnormalised direction by the normalised
  one, so it is wrong for a direction whose length is not one (its only caller, the deprecated GPS
  matcher, passes unit vectors).
* C83: `NormalizeAngleDifference<float>` returns a value above π for the single precision π; for
  arguments above 2^56 the double version never returns. `Power` with a negative exponent recurses
  until the integer overflows.
* ros_node/static_mapping_node.cpp: `pcl::removeNaNFromPointCloud` does nothing on a cloud whose
  flag `is_dense` is set, so a driver that sets the flag wrongly brings NaN points into the mapper;
  `ToLocalOdom` leaves `child_frame_id` empty (C84).
* builder/map_builder.cc: the first submap is given to the optimiser (466-470) without calling
  show_submap_function_, so it never appears on /submap (C85).
* `SimpleTime::ToSec` cannot tell stamps of today apart that differ by less than about 0.2
  microseconds, and `FromSec(TimeMax().ToSec())` casts 2^32 to `uint32_t` (undefined behaviour)
  (C86_dates_fails, C86_round_trip_fails).
* Points are placed with a pose rounded to `float`: 20 km from the origin points of a scan that are
  a millimetre apart fall together (C87_far_fails).
* kitti_pose.txt has a line for each submap, while KITTI's evaluation expects one for each scan
  (C88_scan_fails).
* The path cloud numbers frames with `float` intensities: beyond frame 16777216 two frames share a
  number (C75_number_fails).
* C89: the checks in `CubeBoundingBox(min, max)` compare edges computed in double precision with a
  tolerance of 1e-15, which is less than one rounding of any edge above 8 m: a 100 m cube around
  (12.3, 45.6, 7.8) stops the program (C89_stops_fails). Around (0, 0, 1.7) the rounded sub-cube
  does not contain the centre of its parent, and the points there are dropped (C89_lost_fails).
* C90: probabilities are truncated to 1/256 after every ray. Every miss takes at least one step, but
  a hit with a probability below 129/256 changes nothing (C90_weak_hits_fails), although
  `Initialise` accepts hit probabilities from 0.501.
* C91: with the supplied voxel size of 0.1 the point (1, 0, 0) lies in voxel 9 of the float 0.1 but
  is counted to voxel 10; indices beyond 32 bits wrap; `FATAL_CHECK_POINT` runs after the cast and
  only for voxels with room; the `isnan` tests in both casters look at `int`s and can never be true;
  VoxelCastingDDA shifts negative `int`s to the left (undefined in C++14).
* C93: the static map averages in float. Three equal points at x = 7549747/8388608 in a grid of 0.1
  are averaged to a value in the neighbouring voxel; with the supplied settings (output_average, at
  most 10 points) a point can be moved to the next voxel. The voxel-grid filter sums in double and
  does not have this.
* C94: pcd_sampler accepts a negative ratio and then keeps every point; pcd_to_las ignores the
  result of loadPCDFile and writes 0 for fields that are not float or double.
* C95: rotations closer than the machine epsilon are mixed linearly and the result is not
  normalised; odometry quaternions are never normalised; the compensation inside the fast ICP reads
  an uninitialised matrix (the loop variable shadows the parameter).
* C96: `AxisRange`, box removal and the random sampler keep points whose coordinates are not-a-
  number; `pcl::removeNaNFromPointCloud` trusts `is_dense`; a checked submap then aborts the
  program. `Range::Filter` puts one byte per point on the stack (a variable-length array).
* C50: `Range` has no `ConfigsValid`: a lower limit above the upper one is accepted and removes
  every point.
* `RandomSamplerWithPlaneDetect::Filter` compares each index with `plane_indices.front()` without
  asking whether indices are left, and `PlaneDetector::SetInputCloud` never clears the voxels of the
  previous cloud (C98).
* C99: the IMU/GPS tracker takes its gravity from the time constant, holds the first velocity to
  uninitialised memory, and treats stamp 0 as "no message yet".
* C100: the edges of a piece are `centre ± width/2` after rounding, so with no border the outermost
  point of the map may be in no piece (`C100_edge_fails`); `parts` is a variable-length array on the
  stack (`C100_stack_fails`); points near the origin come back slightly moved (`C100_exact_fails`).
* A tab in an attribute value (for instance in the file prefix of a map package) is written
  unescaped and read back as a space (C101_tab_fails), so the file named in the description is not
  the file that was written.
* Switches in configuration files are read from the first character of the text, so a switch behind
  a line end or a blank is off, while numbers are read behind white space (C102_bool_space_fails).
* A parameter that is no number is taken as zero without a message (C102_no_number_fails).
* join_pieces loses all points of a package silently when the file prefix contains a tab, when the
  output path does not end with a slash or when the description file is put in another directory
  (C103_join_fails).
* A matcher parameter that is a switch, written between blanks as in config/lidar_only.xml (` false
  `), is always off, even when it reads ` true ` (C104_switch_fails).
* The matcher of GPS tracks averages yaw angles between 0 and 2 pi: a track with the heading of the
  map is turned by 180 degrees for arbitrarily small errors, and in the plane the iterations stay
  there (C105_noise_fails).
* The calibration of the odometer takes (cos yaw cos pitch, sin yaw cos pitch, sin pitch) as the
  direction of a submap, but with the Euler angles of this project the forward axis has -sin pitch
  as its third coordinate (C105_heading_fails).
* C106: `AlignAll` never empties `lum_`, so a second call after adding a cloud writes the old clouds
  and not the new one, or uses pairs of the new cloud with an old one (reads outside of it). Within
  a call the poses found by one round are not used by the next.
* C105: `OutputError` drops the height of the direction without normalising it again, so on a slope
  a point on the path is reported beside it.
* C107: `RangeImage` converts the row to an integer by cutting towards zero, so points up to one row
  below the field of view are kept in row 0; equal upper and lower angles are accepted and divide by
  zero; the search for neighbours goes two columns to each side but uses the angle of one column; in
  `ToPng` a pixel beyond the limit keeps what the row above left in the buffer, in the first row
  uninitialised memory is written.
* C108: pugixml refuses a UTF-16 file without byte order mark that starts with an empty line (or
  anything but `<`), ignores declared encodings other than Latin-1, and leaves out broken surrogates
  without a report.
* The point-to-point step changes the clouds handed to it (C110_inputs_fails); nothing calls it.
* A step of the fast ICP has no limit: two planes that are nearly parallel turn a millimetre of
  distance into a shift of any size (C109_noise_fails).
* Without `-cfg` the node calls `Initialise(NULL)`, which opens a stream with a null file name
  (C111_no_settings_fails).
* `-imu` without `-imu_frame_id` and with `-urdf` always ends in a failed check: the default frame
  `/novatel_imu` begins with a slash, which tf2 refuses (C111_imu_frame_fails).
* A bag or KITTI path that does not exist only gives a warning; the node then waits for live
  messages (C111_recording_fails).
* `-pubs [map][path][edge]` in the scripts is not quoted; a file name that fits the bracket pattern
  replaces it and switches the displays off (C111_shell_fails).
* C112: loop constraints are plain least squares with the same weight as the match of two
  neighbouring submaps (isam_optimizer.cc:81-84; only odometry has a robust kernel), so a wrong loop
  moves the submaps at its ends by at least a quarter of its error however large it is
* C112: the first solution for the GPS frame keeps a prior at the identity (sigma 20 m), so exact
  GPS data give the shift times n/(n + 0.0000565)
* C113: `AddVertex` gives the optimiser the pending constraints without clearing them, so the prior
  of a trajectory's first submap is counted again with every further submap until the first
  connection (C113_prior_once_fails). Every trajectory has a prior, also one whose place is to be
  found by loops: a map stored at the wrong place moves by at most 0.4 m per loop at its first
  submap (C113_far_fails). The search window of the loop detector leaves out the last base submap
  (C113_last_fails).
* C114: the initial guess of a loop match has its z coordinate set to 0 in the frame of the older
  submap (loop_detector.cc:290, marked as a trick). On level ground that drops the difference in
  height; on a slope it moves the start by the distance times the slope (C114_slope_fails).
  `CheckResult` compares places implied through the current poses of the older submaps, so right
  matches are refused when those have drifted by more than 0.25 m relative to each other
  (C114_true_loop_fails).
* C114: `LoadTrajectoryFromFile` gives a submap a file name but never a cloud, and `Submap::Cloud`
  checks that there is one, so when maps are joined the first loop candidate stops the program
  (C114_joined_fails). The join node is not built by the CMake files of the project.
* C115: `knn_cugar` puts the reference points into the order of the tree (lines 95-98) and returns
  indices into that order without mapping them back through `kd_index` (line 130), so the caller
  gets wrong points (C115_index_fails).
* C116: `AddOdometryData` builds a 3x3 matrix from `pose.block(0, 3, 3, 1)`
  (pose_extrapolator.cc:168; `block(0, 0, 3, 3)` is meant), so the second odometry message is
  undefined behaviour, or stops the program where Eigen's assertions are compiled in. Nothing in the
  project calls it.
* C117: the 26-cell search (`DIRECT26`) uses PCL's table of neighbours, which does not hold the cell
  itself, so the cell a point is in never counts for it; the 7-cell search lists it explicitly.
* C118: assigning one `AtomicWrapper` to another is a load and a store, not one step; increments
  between the two are lost.
* C119: `FinishAllComputations` asks the collector before testing that there is one, joins
  `scan_match_thread_` without testing that it is joinable (unlike the submap thread), and the
  destructor joins nothing; the end flag is never reset, so that a second `Initialise` may wait for
  ever. The line "Remaining Point Cloud" shows the finished share.
* C120: the hash of an integer vector mixes neighbouring values so weakly that neighbouring cells
  share it; a range image of 40 x 1800 pixels has at most 4480 different hashes (C120_near_fails,
  C120_crowded_fails).
* C121: with cell sides that are not powers of two the grid is built with `x * (1 / leaf)` and
  searched with `x / leaf`, which differ in single precision (side 3 m, point 14.999999 m: cells 5
  and 4); the 64-bit product that should refuse large clouds itself overflows when one stray point
  is 2000 km away.
* C122: the check `delta_time > 1.e-6` passes at exactly 1000 ns, since 1000 * 1e-9 is above 1e-6 in
  `double`; at the time of the later reading the position can lie beyond it by a rounding;
  `InterpolateTransform` takes a `float`, so odometry queries 20 ns apart can get the same pose.
* C123: poses are never brought back to rotations, so with a matcher that returns floats lengths can
  grow with every key frame, by three per cent after a million.
* C124: the Euler angles are added up, so a turn below the configured angle can make a key frame;
  the configured time is read but not used; an angle of a thousandth of a degree or less switches
  the test off.
* C125: the cost term depends on which of the two quaternions of a half turn it is given, and it
  does not normalise; the order of its four numbers (w, x, y, z) is not the order in which Eigen
  stores a quaternion.
* Replaying a recording is reproducible only if inertial messages come before clouds with later
  stamps: between the prediction and the result of a match a late message is accepted but not used
  (C128_imu_fails).
* Nothing reads or trims the inertial messages stored in the collector: `imu_data_` grows for the
  whole run (C129_imu_fails); `TrimSensorData` is never called.
* C130: `ScanMatchProcessing` (map_builder.cc:333) ignores the flag returned by `Align`, and
  `InsertFrameForSubmap` (221-229) ignores the score; a failed match is stored and becomes the
  reference of the next clouds.
* C131: files are written under their final names and old ones are not removed first, so a run
  interrupted while saving into a used directory leaves a mixture that the joining tool accepts;
  nothing is flushed to the device.
* C132: `SaveToFile` does not look at the state of the stream and `CloudInMemory` ignores the result
  of `Deserialize`. When the disk fills up while a submap is moved out of memory, it later comes
  back with the missing points at the origin, and the run goes on.
* C133: the normal is computed relative to the sensor's position. A patch in a plane through the
  origin of the frame of the cloud passes the rank test but has a singular matrix, so its normal is
  not a number; for patches that are not flat, the normal depends on where the origin is.
* C134: the target keeps one mean point per group of up to seven points, with the normal of the
  group, and the farthest pairs are rejected. A scan matched with itself therefore does not in
  general give "no motion": four points of the ground and a post move up by a metre.
* C135: an estimation of generalised ICP forgets the turn about the vertical when the first axis of
  the alignment found so far points straight up or down (both arctangents are taken of 0, 0),
  gicp_omp_impl.hpp:207-209; a limit of 0 steps still makes one step and then throws (240-250).
* C136: the normals of a target cloud are computed from sums that are not centred
  (cloud_types.cc:78-102), so they change when the origin of the cloud is moved, although the
  surface does not.
* C137: with compensation of motion the share of a point is its place in the list, not its time, so
  a driver that lists points in another order gets another match (C137_compensated_fails); nothing
  switches compensation on.
* C138: `last_linear_acceleration_time_ > SimpleTime()` makes the time zero mean 'none', so two
  accelerations at stamp zero are not averaged (C138_tracker_fails); `SimpleTime::operator-` gives
  zero for a negative difference, so a young pose at stamp zero is thrown away (C138_zero_fails).
   Nothing in the project documents that stamps
  must be positive.
* C139: the loop detector bounds horizontal distance and height separately (loop_detector.cc), so
  what it finds depends on the inclination of the map's first pose.  Nothing levels the map: it begins
  with the identity, and the gravity alignment is commented out (map_builder.cc:358-367).
* C140: which points share a voxel of the static map, and so what its averages and probabilities
  are, depends on where the map begins relative to the grid of voxels; only shifts by whole voxels
  leave the map as it is.
* C141: what the ground removal by cells, the down-sampling, the box and the limits along x and y
  keep depends on the heading of the sensor (their cells and limits are fixed to its axes).
* C142 (trialValueSelectionMT, ndt_omp_impl.hpp:675-757): the formula for the minimum of the cubic
  is only right if the trial is larger than the end it is compared with. More and Thuente change the
  sign of the square root otherwise; the code does not, and so picks the local maximum
  (C142_down_fails). As the loop of the search is skipped in every standard setting (C67), this has
  no effect there.
* C144 (map_builder.cc:369-390): the number of key frames is not monotone in the distance asked for,
  as each is measured from the previous key frame (C144_key_fails).
* An inertial message that arrives after a cloud with a later stamp changes where that cloud is put
  if the scan matcher has not taken it yet; so a longer recording can move the last frames of a
  shorter one (C145_imu_fails).
* C146: filter_ground_removal.cc starts its search for the highest and lowest point of a cell with
  -1e9 and 1e9, so heights of 10^9 units and more are judged differently in another unit
  (C146_ground_fails).

Noticed while reading, outside the properties: `frames_` is read and written without a lock by
two threads (a data race in C++ terms; the model treats each access as atomic); the range filter
puts an array of the cloud's size on the stack; `AddOdometryData` reads a 3x1 block of a
translation vector at an index outside it; `common::Power` does not terminate for negative
exponents; `DistanceToLine` assumes a unit direction.
