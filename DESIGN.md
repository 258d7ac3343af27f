# Formal model of deprecated-acrobotics

## 1. Trusted base

* Lean 4.33.0's kernel, and the Mathlib that ships with it (used as ordinary, kernel-checked proofs).
* Axioms: at most `propext`, `Classical.choice`, `Quot.sound`. No axiom is added here;
  no `sorry`, `admit`, `native_decide`, `bv_decide`.
* My reading of /repo. The code was never executed. Each definition of the model cites file and lines.
* External software is not modelled; it enters as parameters or as documented behaviour:
  numpy (array shapes, `argmin` first minimum, broadcasting, `meshgrid`, `linspace`), fcl (a
  collision oracle on pairs of placed shapes), pyquaternion (quaternion to rotation matrix,
  axis-angle), casadi/ipopt (a constraint set and an objective; the solver itself is not
  modelled), urdfpy/lxml (element tree of boxes), matplotlib/ipywidgets (no-op or counted calls),
  SWIG/numpy.i typemaps (row-major buffers), libstdc++ (`std::queue`, `std::priority_queue`).

### Numbers

* Graph searches and dynamic programming: an abstract ordered cost type with an addition that only
  has to be *monotone* (in the argument the algorithm accumulates in). Rounded IEEE addition
  without NaN satisfies this, real addition too. Optimality theorems are therefore about the cost
  as the program accumulates it; corollaries give plain sums in exact arithmetic.
* Geometry and kinematics: exact real numbers (ℝ). Rounding is not modelled. `arctan2 y x` is
  `Complex.arg (x + i y)`, which has numpy's branch cuts. In the inverse kinematics, where a zero
  can go into `arctan2`, its sign is modelled: `atan2` takes two bits for the signs of zeros, as
  numpy does.

### Effects

* Python exceptions are values (`Except PyErr α`), one constructor per exception class.
* Objects mutated in place (graph nodes, link matrices, `qsol`, the collision priority list) are
  explicit states passed from call to call.
* `while` loops take fuel. Where the code terminates we prove that enough fuel always suffices,
  where it does not we prove that no fuel suffices.
* C++ undefined behaviour (null or dangling dereference, uninitialised output) is an outcome
  value, never silently totalised.

## 2. Layout

* `Verif/Model/*`  the model, function by function, with citations.
* `Verif/Spec/*`   small independent specifications (paths, costs, rigid motions, ...).
* `Verif/Proofs/*` lemmas.
* `Verif/Props/*`  the property theorems, named `Cxx_...`, with satisfiability examples.

A property that is false of the code has a theorem `Cxx_..._refuted` with a concrete witness and a
theorem `Cxx_..._partial` for what does hold.

## 3. Plan per property

* **C01** dp.shortest_path is optimal. Model `dp.py` whole (matrices with explicit dimensions, broadcasting, argmin). Backward induction over stages; spec: selections of one index per stage and right-fold cost.
* **C02** dp value function is the optimal cost-to-go. Same model; induction over the stages for the value table and first-argmin index.
* **C03** dp never invents a path for impossible inputs. Same model with errors as values; case analysis (IndexError for <2 stages, ValueError of argmin/min on empty axis).
* **C04** pygraph.get_shortest_path is optimal. Model `pygraph.py` (object store, deque, BFS). Layer invariant over the queue; corollary of C05 with no limit.
* **C05** pygraph step limit is respected and optimal under it. Layer invariant: after layer k every node's dist is the minimum over admissible chains. Attained + lower bound.
* **C06** pygraph partial path ends at the furthest reachable column. Same invariant; `max` over visited nodes gives furthest layer.
* **C07** pygraph search terminates and a re-run starts afresh. Measure = number of unvisited nodes + queue length; the state after init depends only on data.
* **C08** pygraph path segments tile the path. Model `get_shortest_path_segments` with fuel; refute by concrete data, prove for a single split (partial).
* **C09** pygraph path segments search terminates without crashing. Refute: IndexError for short input; non-termination for every fuel by an invariant.
* **C10** C++ BFS returns a shortest path. Model `graph.cpp`/`graph.h` BFS and the Python wrapper; same layer argument.
* **C11** C++ Dijkstra returns a real path with its real cost. Dijkstra parametrised by an arbitrary bag-preserving queue discipline; invariant dist = cost along parents.
* **C12** C++ Dijkstra returns a shortest path. libstdc++ heap modelled; refuted by concrete witness; optimality for a queue that pops a true minimum, and with the real heap for at most two columns (partial); three columns refuted.
* **C13** C++ Graph: any history of runs gives the same shortest path. Call histories as lists of operations; invariant of the graph object.
* **C14** C++ Graph API never dereferences an invalid node. UB as an outcome; refuted by concrete histories; safe histories characterised (partial).
* **C15** Graph weights are used if and only if they fit. Model of `set_weights`/`init` and cost function.
* **C16** add_data_column stores every row unchanged. Buffer model of the numpy.i typemap and the copy loop.
* **C17** get_shortest_path reports unreachable points as failure. Model of `planning.get_shortest_path`; refuted for the first column; proved for later columns.
* **C18** _check_dtype converts all columns or none. Model of `_check_dtype` on tagged arrays.
* **C19** The three shortest-path solvers agree. Corollary of C01, C04, C10 in exact arithmetic.
* **C20** Rotation and pose helpers build rigid motions. Explicit matrices over ℝ.
* **C21** tf_inverse inverts every rigid transform. Explicit block matrices over ℝ; rigid = orthogonal with det 1 and last row.
* **C22** create_grid enumerates the cartesian product exactly once. Model meshgrid + flatten as list programs; permutation, count and order.
* **C23** van der Corput numbers. Loop model of `vdc` over ℚ/ℝ; digit reversal.
* **C24** next_prime yields exactly the odd primes in order. Generator model as a state machine; invariant against Mathlib's `Nat.Prime`.
* **C25** Halton sampler continues its sequence across calls. Sampler object as state; append law; injectivity through C23.
* **C26** sample_SO3 yields unit quaternions / proper rotations. Formulas over ℝ; unit norm; quaternion matrix orthogonal.
* **C27** A box polyhedron is exactly the placed box. `get_polyhedron`/`get_vertices` over ℝ; convex hull by explicit convex combination.
* **C28** Box edges form the box wireframe. Finite table of index pairs, lifted to all sizes and transforms.
* **C29** Collection collision test is the any-pair test in moved frames. Oracle for shape pairs; list-any characterisation.
* **C30** Link transform follows the Denavit-Hartenberg convention for every call history. Matrix object as state; every entry that varies is overwritten.
* **C31** Forward kinematics is the product of the link transforms. Fold of matrices.
* **C32** Symbolic and numeric kinematics agree. Refuted for prismatic joints; proved for revolute chains.
* **C33** Robot collision answers do not depend on earlier queries. Priority list as state; invariant: permutation; refinement to the pure any-test.
* **C34** Self collision checks exactly the intended pairs. Double loop over link indices.
* **C35** Arm2 inverse kinematics is sound. Planar two-link lemma over ℝ with arctan2.
* **C36** Arm2 inverse kinematics is complete. Same; uniqueness of the elbow/shoulder choice modulo 2π.
* **C37** Spherical wrist inverse kinematics is sound. Refuted at the singularity; proved for sin θ2 ≠ 0.
* **C38** Spherical wrist inverse kinematics is complete. atan2 of scaled sine and cosine.
* **C39** Kuka inverse kinematics is sound. Wrist-centre decoupling; composition of the arm and wrist lemmas.
* **C40** Kuka inverse kinematics is complete. Same as C39 in the other direction.
* **C41** KukaOnRail inverse kinematics is sound for every parameter set. Refuted for non-default parameters; proved exactly for the default ones; which solutions are right for others.
* **C42** AnthropomorphicArm inverse kinematics is sound. As C35.
* **C43** Shipped robots have the documented forward kinematics. Matrix computation.
* **C44** IK results stay valid after later calls. Returned references into a heap model; refuted for SphericalWrist; proved for Kuka (copies).
* **C45** TolerancedNumber keeps its nominal inside the bounds. Constructor as Except.
* **C46** Discretised tolerances stay in range and include the bounds. linspace over ℝ.
* **C47** Euler-toleranced samples are valid poses within tolerance. Grid + pose model.
* **C48** Position-toleranced samples keep the orientation. Grid + pose model.
* **C49** Axis-angle samples rotate about the axis only. Rodrigues/quaternion model.
* **C50** Free-orientation samples keep the position. Samples + pose.
* **C51** point_to_frame and create_transform agree. Matrix equality.
* **C52** Line paths. linspace.
* **C53** Circle paths. Rodrigues rotation preserves distance and the component along the axis.
* **C54** Symmetric tolerances are centred on the nominal pose. List model of tolerance construction.
* **C55** Angles given in degrees are recognised. Refuted for negative degrees; exact characterisation.
* **C56** Task parsing dispatches exactly on the declared types. Parser over a JSON-like dictionary.
* **C57** URDF export/import round trip. Element tree of boxes; refuted for rotated boxes; proved for axis-aligned.
* **C58** URDF export always writes the file. File as optional state; refuted for the empty scene.
* **C59** cart_to_joint_no_redundancy returns exactly the collision-free IK solutions. Generic robot interface, state-passing collision check.
* **C60** cart_to_joint_simple uses all samples. Refuted; only the last sample counts (exact characterisation).
* **C61** cart_to_joint_incremental stops. Refuted: non-termination for every fuel; partial when each batch adds solutions.
* **C62** Resampling shrinks tolerances around the solution. Real interval arithmetic.
* **C63** The iterative planner supports every path point type. Refuted: NameError.
* **C64** The iterative planner reports consistent results. Loop invariant over iterations.
* **C65** Planning tasks without obstacles can be solved. Refuted: AttributeError; dispatch proved.
* **C66** Grid plans follow the path without collisions. Composition of C59, C10, C39.
* **C67** Tool-first collision checking planner runs. Refuted: AttributeError on Link.shape.
* **C68** Collision certificates are sound with margin eps. Farkas-style separation argument.
* **C69** A feasible joint pose is free of link-obstacle collisions. Refuted for multi-shape links; proved for one shape per link.
* **C70** The optimisation objective is the graph path cost. Finite sums.
* **C71** GUI layout slots. Interval arithmetic.
* **C72** GUI buttons can be pressed in any order. State machine of callbacks; refuted with event sequences; safe sequences proved.
* **C73** C++ Graph: reset forgets the past. Call histories; the state after reset is a function of columns and weights.
* **C74** Angles of a free-orientation sample. Refuted by a quarter turn about z; position and rigidity proved; exact for pitch below a right angle.
* **C75** start_pose.rpy means the same orientation for both tolerances. Refuted by half a turn; exactly up to ten for rational angles.
* **C76** Planner columns hold the solutions as ik returned them. Heap of arrays (Model/Aliasing); refuted for SphericalWrist, proved for robots that never overwrite an answer and for Kuka.
* **C77** A successful optimal path. The nonlinear program as constraint list and objective (Model/Optimization), the solver a parameter with a contract; refuted by base shapes and self-collisions; proved up to base, tool and self-collision through C68, C69 and C32.
* **C78** Optimal paths for every robot and kind of path point. Building the program as `Except`; refuted; proved for six links.
* **C79** Robot.plot. Segments as pairs of points (Model/Plot); refuted by a shifted base, proved for links and tool and for bases at the origin.
* **C80** Animation frames. The list of line objects as state; refuted by the base, proved for all frame orders.
* **C81, C82** Kinematic chain and reference frames. Direct computation; orthogonality from rigidity.
* **C83, C84** The task editor shows the current task, its solution belongs to the current path. State machine of Model/Gui with drawings; refuted by event sequences, proved right after show_path and plan.
* **C85, C86** Keys of the result of `get_shortest_path_segments`. Loop invariant `SegRep` (costs, start columns); C86 refuted for every result with several segments.
* **C87** Quaternion cost. Trace identity for unit quaternions, angle in four dimensions for the triangle inequality.
* **C88** Compose C87 with C04 and C01; for quat_graph.py also with C26.
* **C89** Unfold the constructor and the grid with the C47 lemmas; `linspace 0 1 n` gives the fractions.
* **C90** Membership in a translated box is three intervals; the rest is linear arithmetic. Seams: compute the z-axis of the nominal pose at 3pi/4.
* **C91** Write every placement as a rotation `torchRot a` and a position; compare coordinates in the frame before the rotation.
* **C92** C48 for the samples; height against the tops of the boxes.
* **C93** Heap order invariant: `siftUp` with a hole that may violate the order towards its parent, `siftDown` with a stale copy in the hole.
* **C94** Rows are described by FreeChoice (an iff), then C88_least_rotation_dp; errors by the shapes of the cost arrays.
* **C95** Direct; unit norm from quatOf_unit.
* **C96** What the loops return is characterised exactly in C96_returns.
* **C97** C60_last gives the columns, selection_get the chosen rows, C11_dijkstra_sound the success.
* **C98** Induction over the history; the names only change by submit events.
* **C99** Unfold solve at the default settings, then C64/C65/C66 with the samples of C50.
* **C100** Unfold solve and setInitialPath.
* **C101** Instance of C50 with the default arguments.
* **C102** Case split on the list.
* **C103** In the frame of each link the segment is explicit (segment_point); box membership is linear arithmetic.
* **C104** Product of the six link matrices; rotX(-pi/2) rotZ t = rotY t rotX(-pi/2).
* **C105** Induction over the path; C47_nominal, C28 for the edges.
* **C106** Induction over the path; the link matrices are rewritten completely in every call (WF).
* **C107** Invariant that no parent is null over all calls; Searched/Final of the breadth-first search read off per node.
* **C108** The rectangles are computed from the slots; disjointness by linear arithmetic for every pair.
* **C109** Induction over the events.
* **C110** Instantiates C97 with the shared state of robot, helper arm and arrays; completeness from C40 and the periodicity of the link transforms.
* **C111** C66_succeeds with completeness of the inverse kinematics (C36, C40): full turns change no link transform, hence no collision.
* **C112** Induction over the links: a rotation by s-t moves a vector v by at most |s-t||v|, links are isometries.
* **C113** Boxes in the frames of the links; explicit frames of one configuration; separating planes for all checked pairs, a common cube for the pair left out.
* **C114** The grid of every point in closed form; the columns of C60; soundness of the search (C11); the inverse kinematics of C39. The last frame of every point has a free configuration with the elbow up (bounds on the sines and cosines of the angles of the torch; each link and each part of the torch in a box of its own).
* **C115** Closed form of the samples of free points (C50), columns of C60, soundness of the search (C11). C114_any and C115_any: whatever path the scripts show is sound, with any queue and costs that may overflow.
* **C116** The rounds of C64; a failure carries none of the keys the script reads.
* **C117** The incremental planner exactly (C61_exact), the task files in closed form, soundness of the search (C11).
* **C118** Membership in an upright box in closed form; the positions of the paths (C52, C53).
* **C119** The unit of each angle is guessed on its own (C55).
* **C120** The wrist has a solution for every orientation (zyz_exists), the arm one iff the triangle closes.
* **C121** The first call of ik raises; nothing before it has an effect.
* **C122** One box per link, all joints from the world without rotation.
* **C123** False: three points of small_passage and three of industrial_1 touch.
* **C124** False: the weld ends in the air.
* **C125** False: the tolerance is on another angle.
* **C126** False: the axis is replaced by that of the current orientation.
* **C127** Proved for every solver; a path over the table is constructed.
* **C128** Proved from the distances between shoulder, elbow, wrist centre and flange.
* **C129** Proved: no good path is excluded by the formulation.
* **C130** Proved exactly; the naive claim that the nominal pose is always tried is false.
* **C131** False of the code: `init` after a search appends to the vectors that hold the nodes, which move, and `print_graph` follows the old addresses (C131_second_init, C131_refuted). Proved: the data pointers are right in every history without a late `set_graph_data`, and the parents are readable if every search is followed by `reset` before `init`. This also justifies keeping values instead of addresses in Model/CppGraph.
* **C132** False of the code for some draws: a nearly folded elbow is rounded, and the solutions are off by up to a millimetre. The error of a rounded elbow in closed form (Proofs/Snapped), and the wrist lemmas of C37. For the Kuka (Props/RandomKuka) the wrist centres of pose and solution are compared: both arms start at the same shoulder, the folded one ends at distance 0.02 from it, the other one not.
* **C133** C33_answer with the frames of the three links in closed form; the box of a link in its frame is the beam from joint to joint.
* **C134** False: the documentation shows an older order of the arguments.
* **C135** The solutions in closed form; different sides differ in the first joint, different elbows in the third, different wrists in the fourth.
* **C136** Bound |R R^T - 1| through quadratic forms, link by link; the witness from a Taylor bound of exp(i) and the gap between neighbouring float32 numbers.
* **C137** Place a point of the first link in the floor plate for every first angle; every column of the planner is then empty.
* **C138** Lebesgue measure of the ball in four dimensions, in polar coordinates of two planes, with the squares of the radii replaced by their sum and a share; linear maps that keep the length keep the measure.
* **C139** The points of a box are the indices of one residue class (digit reversal and the Chinese remainder theorem); step functions on the boxes approximate continuous ones; with C138 the cube is carried to the rotations.
* **C140** False of the code: only the configurations at the path points are checked. On half of the way every point moves by at most half of the bound of C112; a body further away than that is not touched.
* **C141** False of the code: adding samples can make Dijkstra's path longer.
* **C142** The probability that the grid planner fails falls exponentially with the number of samples.
* **C143** False of the Kuka: its third angle can exceed half a turn.
* **C144** False of the code: the planned path never crosses the half turn, even where that would be shorter.
* **C145** Proved for the Kuka; the search has to be exact (see C12).
* **C146** Proved; C146_never is the other side: a point that no sample reaches makes the loop endless. C146_line and C146_passage find a free configuration at every point of the two scripts, as in C114.
* **C147** False of the code (it minimises squares); proved with the factor sqrt((points - 1) * joints), and no smaller factor holds (C147_sharp).
* **C148** Proved; gives a way to use the planners so that C140 holds for the scene, for any robot and for the KukaOnRail in the task editor too.
* **C149** Proved: the path relaxation property, and exactness of visiting column by column (run_dijkstra, which does not keep this order, is only exact under conditions: C12).
* **C150** Proved as a relation between two runs that is kept by every step of the planners; both results and exceptions are covered.
* **C151** Proved with the bound on the reach of C147/C148 and C150.
* **C152** Proved as a relation between two runs, where the samples of one are the moved samples of the other.
* **C153** False of the code: the length that Dijkstra's search finds depends on the direction. Exact arithmetic; a rounded sum depends on the order of the terms.
* **C154** Float32 rounding breaks the correspondence in general; multiplying by a power of two keeps it unless a value overflows or becomes subnormal.
* **C155** False of the code: the search can miss the shorter path once more configurations are free. Exact arithmetic; the witness is an arm with one joint.
* **C156** A scene counts as the set of its placed shapes.
* **C157** False of the code: the position is not set.

## 4. Where the code and a property disagree

A property of properties.jsonl that is false of the code keeps its full statement. Its theorem
`…_refuted` proves the negation with a concrete witness, and `…_partial` proves what does hold.
In MANIFEST.json the status is `partial`.

* **C08, C09** pygraph.py:208-259. After a split `res["i"]` counts from the start of the remaining data but
  is used as an index of all data, so with three segments the pieces overlap or the loop never ends. With
  at most two columns the loop is not entered and `paths[0]` raises IndexError.
* **C12** graph.cpp:69-123. Distances change while nodes sit in `std::priority_queue`, and the search stops
  as soon as every goal was popped once, so the answer can be dearer than the best path. It is right for at most two columns and can be wrong for three.
* **C14** graph.cpp:221-254, 288-313, 324-329. `reset` leaves `path_found` true (then `get_path` follows a null pointer); a second `init`
  appends to the node array of the first. Columns need not have one width: `run_bfs` reads past the end of a
  vector exactly if some column is wider than the one before it.
* **C17** planning.py:473. `_check_dtype` reads `.dtype` of `[]`, a list: AttributeError in place of
  `success: False`.
* **C32** robot.py:60-74. The symbolic link transform ignores the joint type. It is right only for revolute
  joints. KukaOnRail has a prismatic one.
* **C37, C39** robots.py:76-85. In the singular position of the wrist (approach axis parallel to z) the two
  outer angles are computed from zeros and the orientation is wrong. Which wrong orientation comes out
  depends on the signs of zeros: for `SphericalWrist.ik` of the pose of its own base, with the positive
  zeros of `np.eye`, both solutions are half a turn about z away (C37_at_base).
* **C41** robots.py:387. KukaOnRail creates its inner Kuka with default lengths whatever it was given.
* **C44, C76** robots.py:63, 87-90. SphericalWrist.ik returns its cached array, so a later call changes an
  earlier answer.
* **C55, C75** io.py:62-71. Degrees are recognised by an angle above ten; negative ones are not. The
  conversion is applied for `euler_tolerance` only.
* **C57, C58** urdfio.py. The export writes no rotation, and no file at all for an empty scene (an older
  file stays in place).
* **C60, C96** planning.py:106-113 and examples/rotation_table.py:51-60. `q_sol` is emptied for every
  sample, so only the last one counts; in the example the frame of the table is multiplied into the
  already moved frame.
* **C61** planning.py:328-344. The counter of tries counts solutions, so without solutions the loop does not end.
* **C63** planning.py:149. The name `TolPositionPoint` does not exist; every point that is not a
  FreeOrientationPt raises NameError.
* **C65** planning.py:24-84. Without a scene the attribute `scene` is missing: AttributeError in `solve`.
* **C67** planning.py:362. `Link` has no attribute `shape`.
* **C69, C77, C78** optimization.py. Polyhedra are numbered by shape and used by link; six joints are
  hard-coded; tool, base and self-collision are not constrained.
* **C72, C83, C84** gui/task_editor.py. Callbacks raise in several orders; the axes are not cleared on
  loading; a solution survives the loading of other paths.
* **C74** path.py:204 and util.py. `yaw_pitch_roll` angles are stored as if they were roll, pitch, yaw about moving
  x, y, z axes.
* **C79, C80** robot.py:219, 251-281. The base is drawn at the origin, and not at all in animations.
* **C86** pygraph.py:225-232. Column 0 is missing from `split_points` and the last start appears twice.
* **C95** samplers.py. `Quaternion` is not imported; `random_quaternion_near` can end without a return.
* **C102** geometry.py:97-101. `is_in_collision_multi` raises TypeError for every non-empty list.
* **C103** robots.py. The boxes of PlanarArm have negative lengths; those of Arm2, SphericalArm and
  SphericalWrist do not cover the arm; those of Kuka do for `d4 ≤ 0.62`.
* **C104** robots.py:423-441. The parameters of Puma are for the modified convention, so axes one and two
  coincide.
* **C109** gui/gui_template.py:14-16, 57. The steps of the frequency slider start at 0.1, so it shows 3.1 while
  the first curve has frequency 3; and the radio button "red" is on while the curve has another colour.
* **C113** robot.py:116-118. The comment says that link neighbours are not checked; `k=3` also leaves out the
  links next to the neighbours, and the Kuka can run with its third link through its first.
* **C116** examples/iterative_grid_refining.py:17. With the published pyquaternion the script never ends: it
  raises KeyError when a point is unreachable and AttributeError (no `random_near`) when none is.
* **C118** examples/small_passage.json, small_passage_2.json. The path lies in the lower face of the lintel.
* **C119** examples/tasks/industrial_1.json, retract_1. The pitch of −20 degrees is read as −20 radians.
* **C123** examples/tasks/small_passage.json, industrial_1.json. Three points of each touch an obstacle of the scene of the same name.
* **C124** examples/tasks/industrial_1.json, weld_1. Its end point is that of retract_1, so the weld leaves the seam at once and ends in the air.
* **C125** examples/tasks/torch_obstacle.json. The tolerance of kingpin.py on the second angle is on the first angle in the file.
* **C126** planning.py:222. The axis of the tolerance is replaced by the axis of the current orientation.
* **C132** robots.py:121-125, 214-233 and 76-85. The rounding of the elbow cosine and the singular wrist make the random
  round trips of tests/test_robot.py fail for some draws.
* **C134** docs/source/tolerances_on_a_path.ipynb:33 and path.py:20. The page passes the nominal value first, the
  constructor takes it last, and the line of the page raises.
* **C136** planning.py:206-208. The configurations of a found path are float32, so `fk` uses float32 cosines and
  sines, and pyquaternion refuses the pose of most of them (ValueError). The run recorded in
  notebooks/iterative_grid_refining_plots.ipynb ended, so it used another pyquaternion (which also had `random_near`).
* **C137** examples/path_in_box.py:24-34. The editor is opened on a Kuka at the origin, which stands in the floor of
  the box of the default scene, so "Plan" can never succeed there.
* **C140** planning.py:296-301. Only the configurations at the path points are checked; the motion in between can run
  through an obstacle.
* **C141** planning.py:388-455, graph.cpp:69-126: adding configurations to the columns can make
  the path that Dijkstra's search finds longer (6 with two samples per point, 10 with four).
* **C143** robots.py:337. The Kuka adds a quarter turn to the third angle after solving the arm, so this angle lies
  between minus a quarter and three quarters of a turn, unlike all others.
* **C144** robots.py:182-281, planning.py:283-315. The planner only sees angles up to half a turn, so it turns a joint
  the long way round where going on would be shorter.
* **C147** graph.cpp:178-186. The search adds up squares of joint changes, so the planned path need not have the least
  travel; `cost_function` (168-176), which adds up absolute changes, is not called.
* **C153** graph.cpp:69-126. The queue is not reordered when a distance changes, so the length that is found depends on
  the direction: 10 through five columns, 6 through the same columns in reverse order.
* **C155** graph.cpp:69-126. For the same reason the planned path can become longer when an obstacle is taken away:
  length 19 among the obstacles, length 33 without them.
* **C157** robots.py:342-343. The comment says that the wrist gets the position of the target; the assignment writes
  the last row of the matrix, so the wrist is left in the origin. ik itself uses only the rotation.
* **C120** robots.py:182-281. Solutions are returned for poses out of reach by less than a millionth.

Further observations, each part of a proved theorem: an inverted interval is accepted by
`TolerancedNumber` when no nominal value is given (C45); a joint type other than `r` and `p` raises
UnboundLocalError (C30, C31); a robot without links but with a tool raises IndexError (C31); the arm
solvers accept targets up to 1e-6 (in the elbow cosine) out of reach (C36, C42); `max_iters = 0` raises
UnboundLocalError (C64); `TolOrientationPt` needs `Quaternion.random_near`, which the published
pyquaternion does not have (C64); an unreachable point of the seam ends
kingpin.py with IndexError (C114); empty rows in small_passage.py raise IndexError or ValueError
(C94); `sample_SO3` returns None for an unknown representation (C26); the end piece of the torch does
not touch its neck (C91); three of the thirty samples of a weld point are copies of others (C89).

## 5. What is modelled, file by file

| file | modelled in | left out |
| --- | --- | --- |
| acrobotics/dp.py | Dp | nothing |
| acrobotics/pygraph.py | Search, PyGraph, QuatCost | `__str__` |
| acrobotics/cpp/src/graph.cpp, graph.h | Search, CppGraph, CppPrint, CppPointers, CppTravel, CppUnused | text formatting, the unused constant MAX_ITER |
| acrobotics/cpp/graph.py, graph.i, SWIG | ShortestPath (typemap of `add_data_column`, `get_path`) | generated glue |
| acrobotics/util.py | Util, Grid, Sampling, SampleSO3, Plot | `get_default_axes3d` |
| acrobotics/samplers.py | Sampler | constructor (stores nothing) |
| acrobotics/geometry.py | Geometry, Plot | fcl itself (oracle), colours |
| acrobotics/robot.py | Robot, FkFloat, Plot, TaskPlot | `Link.plot` (delegates), timer and window of the animation |
| acrobotics/resources/robots.py | Robots, Aliasing | geometry of Puma (not lists, constructing its collections raises) |
| acrobotics/resources/torch_model.py, workpiece_model.py, path_on_table.py | Resources | `__main__` blocks |
| acrobotics/path.py | Path, TaskPlot, Quat | `__str__` |
| acrobotics/planning.py | Planning, ShortestPath, Task, TaskPlot, Aliasing | printing, clock |
| acrobotics/optimization.py | Optimization | CasADi and IPOPT (contract of the solver is a hypothesis) |
| acrobotics/io.py | Io | json library, opening of files |
| acrobotics/urdfio.py | Urdf | text formatting, urdfpy beyond its documented result |
| gui/task_editor.py | Gui, Layout | widgets of matplotlib, colours |
| gui/gui_template.py | Layout | colours beyond the name, positions |
| examples/small_passage.py | Passage | drawing window |
| examples/rotation_table.py | RotationTable | path of the example, drawing |
| examples/kingpin.py, tool_first_cc.py, iterative_grid_refining.py | Examples | drawing, printing, `numpy.save` |
| examples/follow_line_orientation_free.py, weld_circle.py, the task files in examples and examples/tasks | Tasks | drawing, the settings file that is read and not used |
| examples/quat_graph.py | QuatGraph | printing |
| examples/optimization_based.py | OptScript | drawing (lines 29-37) |
| examples/task_to_urdf.py and the scene files in examples/scenes | Scenes | drawing; materials and visuals of the files |
| examples/path_in_box.py, multiple_paths.py | BoxScript | drawing window, the unused rail robot |
| docs/source/robots_and_links.ipynb, geometry_nb.ipynb, tolerances_on_a_path.ipynb | DocArm | pictures; imports of the old module name `recources` and of the removed class `TrajectoryPt` |

Not modelled: setup.py, tests (their expectations are instances of theorems; the fixed tests are replayed on the model in Props/RepoTests and Props/KukaTests, the random round trips are C132), notebooks, build
files, the `.Result` data of /benchmark.

How the model was compared with recorded behaviour (the code cannot be run here):

* The expectations of /repo/tests: Props/RepoTests, Props/KukaTests and C132.
* The outputs recorded in docs/source: the examples in Props/DocArm. All agree.
* notebooks/iterative_grid_refining_plots.ipynb records a planned path of fifteen configurations with nine
  digits. `tools/recorded.py` puts it into the forward kinematics of the model: the flange is at the points
  of `path_ori_free` to within 4e-8 (float32 in the search). The recorded length 2.3054163 is the sum of the absolute joint changes,
  that is `cost_function` of graph.cpp:168-176; at this commit the searches use `cost_function_2`
  (squares) instead, which is what the model has, so the number itself cannot come from this version.

Simplifications that a reader should know:

* Exact reals in geometry and kinematics; no rounding, NaN or infinities there. Signs of zeros are modelled
  where `arctan2` of robots.py looks at them. A zero that comes out of sums or products has an arbitrary
  sign (class `Zeros`: one bit per argument, base, target and solution), so theorems hold for all signs; a
  negation turns it and a square root gives a positive zero. Within one execution equal real matrices have
  equal signs in this model. That is a simplification only where two calls with equal real arguments are
  compared, and no theorem does so where a sign matters: C135_kuka_twice and C135_rail_twice ask for a bent
  wrist for this reason.
* An arrays' dtype matters only where the code branches on it (`_check_dtype`); `astype("float32")` is an
  arbitrary function on numbers. Model/FkFloat has `fk` with arbitrary functions for the cosine and sine of
  a joint value, for the float32 configurations that the iterative planner passes to it (C136).
* `Shape.is_in_collision` (geometry.py) passes the same result object to every call of `fcl.collide` and looks
  only at the returned number. The collision oracle assumes that this number depends on the two placed
  shapes alone.
* Random draws are arbitrary sequences, a fresh one per call, so theorems hold for every draw. C138, C142,
  C145, C146 and the chances in C115 and C116 speak of their distribution: they take the draws of `np.random.random` to be independent and uniform
  on `[0, 1)` (`drawLaw` for one orientation, `allDraws` for all points and samples). C142, C145 and C146 for the Kuka
  use an exact test of boxes (`boxOracle`), and C144 and C145 exact costs.
* Objects that are shared or changed in place are states or memory cells where the sharing can be
  observed: nodes of the graphs, `Link._T`, `collision_priority`, `SphericalWrist.qsol`, the axes and the
  line objects of an animation, the attributes of the editor.
* fcl, CasADi/IPOPT, pyquaternion, urdfpy, matplotlib and libstdc++ enter as described in the headers of
  the model files. The heap of libstdc++ is transcribed (C93 shows that it is a priority queue as long as
  the keys do not change).

## 6. Axioms and seeded errors

AXIOMS.md (written by tools/axioms.py) lists the axioms of every theorem of MANIFEST.json. None uses
anything besides `propext`, `Classical.choice` and `Quot.sound`.

seeded/LOG.jsonl has one line for every wrong program that was tried: the definition, the edit, the claim
that becomes false, the declarations that failed to compile, the property theorems that depend on them
and the theorems that were tightened when an edit survived. The outcome is "killed", "survived", "does not
compile" (the edited model itself was rejected and no theorem was tested) or "build stopped" (the only module
that failed ran out of the time or memory allowed, which does not show that its theorems fail). A build was stopped
soon after the first failing proof, so `failed` can be incomplete, and `property_theorems_failed` is read off
the dependencies between declarations: the theorems that use a failed one, not theorems seen to fail one by
one. The ids b8_1 to b8_69 are random edits, for which no claim was chosen beforehand.
