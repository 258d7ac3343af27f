{"id": "C01", "title": "dp.shortest_path is optimal", "statement": "For at least two non-empty stages and a cost function returning one cost per pair of states, dp.shortest_path returns exactly one state per stage, the accumulated cost of the returned states is the reported length, and no other choice of one state per stage is cheaper.", "quantifier": "all numbers of stages, all stage sizes, all state data, all cost functions (including negative costs and costs with rounding addition)", "why_tests_cant": "Optimality is a statement about every alternative path of every instance; a test compares against one precomputed answer.", "anchors": ["acrobotics/dp.py: shortest_path, apply_cost_function, calculate_value_function, extract_shortest_path"]}
{"id": "C02", "title": "dp value function is the optimal cost-to-go", "statement": "calculate_value_function returns, for every stage and state, the minimum cost of completing the path from that state, and the returned index is the first successor state that attains it; the last stage has value zero.", "quantifier": "all lists of cost matrices with matching shapes, every stage and every state", "why_tests_cant": "Bellman optimality at every state of every instance.", "anchors": ["acrobotics/dp.py: calculate_value_function"]}
{"id": "C03", "title": "dp never invents a path for impossible inputs", "statement": "dp.shortest_path raises an exception (and returns no path) when there are fewer than two stages or when any stage is empty; it never returns success for them.", "quantifier": "all inputs with 0 or 1 stages, or with an empty stage at any position", "why_tests_cant": "The position of the empty stage and the shape of the rest are unbounded.", "anchors": ["acrobotics/dp.py: shortest_path, calculate_value_function, extract_shortest_path"]}
{"id": "C04", "title": "pygraph.get_shortest_path is optimal", "statement": "pygraph.get_shortest_path succeeds exactly when every column is non-empty, returns one sample per column, reports the accumulated cost of that path, and no other choice of samples is cheaper.", "quantifier": "all numbers of columns, all column sizes, all finite-cost node data", "why_tests_cant": "Ranges over all graphs and all competing paths.", "anchors": ["acrobotics/pygraph.py: get_shortest_path, Graph.run_multi_source_bfs, Graph.get_path, path_index_to_path"]}
{"id": "C05", "title": "pygraph step limit is respected and optimal under it", "statement": "get_shortest_partial_path reports success exactly when some selection of one sample per column has every step cost strictly below max_step_cost; the returned path then respects the limit on every step and is the cheapest such path.", "quantifier": "all data, all limits", "why_tests_cant": "Both directions (no admissible path missed, no inadmissible step taken) quantify over all paths.", "anchors": ["acrobotics/pygraph.py: get_shortest_partial_path, Graph.get_reachable_neighbours, Graph.run_multi_source_bfs"]}
{"id": "C06", "title": "pygraph partial path ends at the furthest reachable column", "statement": "When get_shortest_partial_path fails with a split index i, column i is the last column any admissible path from column 0 reaches, and the returned partial path is a cheapest admissible path from column 0 to column i with its cost; it reports 'Stuck after first trajectory point' exactly when no admissible step reaches column 1.", "quantifier": "all data, all limits", "why_tests_cant": "Maximality over all admissible paths.", "anchors": ["acrobotics/pygraph.py: get_shortest_partial_path, Graph.find_partial_path, Graph.get_path"]}
{"id": "C07", "title": "pygraph search terminates and a re-run starts afresh", "statement": "run_multi_source_bfs terminates on every graph (each node is expanded at most once), and running it again on the same graph object, after any history of earlier runs with any limits, gives exactly the result of running it on a fresh graph.", "quantifier": "all data, all histories of runs and limits", "why_tests_cant": "Termination and independence of an unbounded history of mutations.", "anchors": ["acrobotics/pygraph.py: Graph.run_multi_source_bfs, Graph.reset"]}
{"id": "C08", "title": "pygraph path segments tile the path", "statement": "When get_shortest_path_segments reports success, its segments, concatenated in order, contain exactly one sample for every column of the data, in column order, and every step inside a segment costs less than max_step_cost.", "quantifier": "all data with any number of necessary splits, all limits", "why_tests_cant": "The number of splits is unbounded; tests only exercise one split.", "anchors": ["acrobotics/pygraph.py: get_shortest_path_segments"]}
{"id": "C09", "title": "pygraph path segments search terminates without crashing", "statement": "get_shortest_path_segments returns a result dictionary for every list of columns: it neither loops forever nor raises.", "quantifier": "all data and limits", "why_tests_cant": "Non-termination cannot be observed by a test, and depends on the split pattern.", "anchors": ["acrobotics/pygraph.py: get_shortest_path_segments"]}
{"id": "C10", "title": "C++ BFS returns a shortest path", "statement": "planning.get_shortest_path(Q, method='bfs') on non-empty columns returns success with one configuration per column; 'length' is the accumulated cost of the returned configurations and no other choice of one configuration per column is cheaper.", "quantifier": "all numbers of columns, all column sizes, all joint data, all weights (also negative)", "why_tests_cant": "Optimality over all paths of all instances.", "anchors": ["acrobotics/planning.py: get_shortest_path", "acrobotics/cpp/src/graph.cpp: multi_source_bfs, get_path_nodes, get_path_cost, run_bfs, get_path"]}
{"id": "C11", "title": "C++ Dijkstra returns a real path with its real cost", "statement": "Whatever order the priority queue yields nodes in, method='dijkstra' terminates, returns one configuration per column, and the reported length is exactly the accumulated cost of the returned configurations.", "quantifier": "all instances and all pop orders of the queue", "why_tests_cant": "Quantifies over all schedules of the queue.", "anchors": ["acrobotics/cpp/src/graph.cpp: multi_source_dijkstra, get_path_nodes, get_path_cost, run_dijkstra"]}
{"id": "C12", "title": "C++ Dijkstra returns a shortest path", "statement": "planning.get_shortest_path(Q, method='dijkstra') with non-negative weights returns a path of minimum accumulated cost.", "quantifier": "all instances", "why_tests_cant": "The stored test has one instance; the failing ones need a particular relaxation order.", "anchors": ["acrobotics/planning.py: get_shortest_path, PlanningTask.solve", "acrobotics/cpp/src/graph.cpp: multi_source_dijkstra", "acrobotics/cpp/include/graph.h: dijkstraSortFunction"]}
{"id": "C13", "title": "C++ Graph: any history of runs gives the same shortest path", "statement": "After init, for every sequence of run_bfs calls and resets that ends with a run, get_path(n) and get_path_cost() give exactly the answer of a single fresh run_bfs.", "quantifier": "all sequences of operations on the object", "why_tests_cant": "Unbounded operation histories on mutable state.", "anchors": ["acrobotics/cpp/src/graph.cpp: reset, reset_node_array, run_bfs, multi_source_bfs, get_path"]}
{"id": "C14", "title": "C++ Graph API never dereferences an invalid node", "statement": "Every sequence of public calls (add_data_column, init, set_weights, reset, run_bfs, run_dijkstra, get_path, get_path_cost) on non-empty data returns normally, in particular get_path after reset and init called twice.", "quantifier": "all call sequences", "why_tests_cant": "Crash points depend on the call history.", "anchors": ["acrobotics/cpp/src/graph.cpp: init, graph_data_to_node_array, reset, get_path_nodes, get_path"]}
{"id": "C15", "title": "Graph weights are used if and only if they fit", "statement": "Weights given to set_weights (or get_shortest_path) are the ones used in the cost when their number equals the number of joints; otherwise every joint silently gets weight one.", "quantifier": "all weight vectors, all joint counts, set before init", "why_tests_cant": "All lengths and values.", "anchors": ["acrobotics/cpp/src/graph.cpp: set_weights, init, cost_function_2", "acrobotics/planning.py: get_shortest_path"]}
{"id": "C16", "title": "add_data_column stores every row unchanged", "statement": "After add_data_column of an (nrows x ncols) float32 array, the graph column holds nrows joint vectors and entry j of vector i is mat[i][j].", "quantifier": "all array shapes and contents", "why_tests_cant": "All shapes; an index-arithmetic slip only shows for non-square data.", "anchors": ["acrobotics/cpp/src/graph.cpp: add_data_column"]}
{"id": "C17", "title": "get_shortest_path reports unreachable points as failure", "statement": "planning.get_shortest_path returns {'success': False} whenever one of the columns is empty, as produced by the cart_to_joint functions for an unreachable path point, and never raises for it.", "quantifier": "all lists of columns and all positions of the empty column", "why_tests_cant": "Depends on which position is empty.", "anchors": ["acrobotics/planning.py: get_shortest_path, _check_dtype, cart_to_joint_no_redundancy"]}
{"id": "C18", "title": "_check_dtype converts all columns or none", "statement": "_check_dtype on a non-empty list of arrays leaves the list untouched when its first column is float32 and otherwise replaces every column of the caller's list by its float32 conversion, keeping the number of columns and rows; an empty Python list in front raises before anything is converted, and one further back raises after exactly the columns before it were converted.", "quantifier": "all lists of columns, with and without empty Python lists", "why_tests_cant": "All lengths and dtypes.", "anchors": ["acrobotics/planning.py: _check_dtype"]}
{"id": "C19", "title": "The three shortest-path solvers agree", "statement": "On the same non-empty columns and the same pairwise cost, dp.shortest_path, pygraph.get_shortest_path and the C++ BFS report the same minimum cost (exact arithmetic).", "quantifier": "all instances, all cost functions", "why_tests_cant": "Equivalence of three algorithms on all inputs.", "anchors": ["acrobotics/dp.py: shortest_path", "acrobotics/pygraph.py: get_shortest_path", "acrobotics/cpp/src/graph.cpp: run_bfs"]}
{"id": "C20", "title": "Rotation and pose helpers build rigid motions", "statement": "rot_x, rot_y, rot_z return rotation matrices (orthogonal, determinant one) that fix their own axis, compose additively in the angle and invert by negating the angle; pose_x/y/z and translation return the homogeneous transform with that rotation and the given translation.", "quantifier": "all real angles and offsets", "why_tests_cant": "All real inputs.", "anchors": ["acrobotics/util.py: rot_x, rot_y, rot_z, pose_x, pose_y, pose_z, translation"]}
{"id": "C21", "title": "tf_inverse inverts every rigid transform", "statement": "For every rigid transform T, tf_inverse(T) is a rigid transform with T tf_inverse(T) = tf_inverse(T) T = I, tf_inverse is an involution and reverses products; it reads only the first three rows of T.", "quantifier": "all rigid transforms", "why_tests_cant": "All real inputs.", "anchors": ["acrobotics/util.py: tf_inverse"]}
{"id": "C22", "title": "create_grid enumerates the cartesian product exactly once", "statement": "create_grid of N ranges returns, each exactly once, the rows whose i-th entry comes from the i-th range; their number is the product of the range lengths and the order is that of numpy's default 'xy' meshgrid (second axis slowest, then first, then the others in order).", "quantifier": "all numbers of axes >= 1 (no axis: no rows), all range lengths and values", "why_tests_cant": "Unbounded dimension and sizes.", "anchors": ["acrobotics/util.py: create_grid"]}
{"id": "C23", "title": "van der Corput numbers", "statement": "vdc(n, base) for base >= 2 terminates, lies in [0,1), is the base-b digit reversal of n, is different for different n, and among any base^k consecutive indices starting at a multiple of base^k there is exactly one value in each interval [i/base^k, (i+1)/base^k).", "quantifier": "all n, all bases >= 2, all k", "why_tests_cant": "Stratification and injectivity are universal statements.", "anchors": ["acrobotics/util.py: vdc"]}
{"id": "C24", "title": "next_prime yields exactly the odd primes in order", "statement": "The k-th value produced by next_prime is the k-th odd prime, for every k; no odd prime is skipped, no composite is produced.", "quantifier": "all k", "why_tests_cant": "Unbounded generator.", "anchors": ["acrobotics/util.py: next_prime"]}
{"id": "C25", "title": "Halton sampler continues its sequence across calls", "statement": "A HaltonSampler of dimension d produces rows of d values in [0,1); any split of the requests get_samples(n1), get_samples(n2), ... yields the same points as one call get_samples(n1+n2+...), and no point is ever repeated.", "quantifier": "all dimensions, all histories of calls", "why_tests_cant": "Unbounded call histories.", "anchors": ["acrobotics/util.py: HaltonSampler.__init__, HaltonSampler.get_samples"]}
{"id": "C26", "title": "sample_SO3 yields unit quaternions / proper rotations", "statement": "For all random numbers in [0,1], sample_SO3 builds n unit quaternions, whose transforms are rigid with zero translation; an unknown sampling method raises ValueError.", "quantifier": "all n, all random draws", "why_tests_cant": "Random inputs.", "anchors": ["acrobotics/util.py: sample_SO3"]}
{"id": "C27", "title": "A box polyhedron is exactly the placed box", "statement": "For non-negative sides and rigid tf, the points x with A x <= b for (A,b)=get_polyhedron(tf) are exactly the images under tf of the points with |coordinate| <= half side, and exactly the convex hull of get_vertices(tf).", "quantifier": "all sizes, all rigid transforms, all points", "why_tests_cant": "A set equality over R^3.", "anchors": ["acrobotics/geometry.py: Shape.get_polyhedron, Shape.get_normals, Shape.get_vertices, tf_apply"]}
{"id": "C28", "title": "Box edges form the box wireframe", "statement": "get_edges returns 12 different edges, each joining two vertices that differ in exactly one box coordinate (hence of length |dx|, |dy| or |dz|, four of each), and every vertex lies on exactly three of them.", "quantifier": "all sizes, all rigid transforms", "why_tests_cant": "All real inputs.", "anchors": ["acrobotics/geometry.py: Shape.get_edges"]}
{"id": "C29", "title": "Collection collision test is the any-pair test in moved frames", "statement": "Collection.is_in_collision returns True iff some shape of one collection, placed at tf_self*tf_shape, collides with some shape of the other, placed at tf_other*tf_shape; it is symmetric, monotone in the shapes, False for an empty collection, invariant under moving both collections by one rigid motion, and giving no transform equals giving the identity.", "quantifier": "all collections, all transforms, any symmetric/invariant pairwise shape test", "why_tests_cant": "All collection sizes.", "anchors": ["acrobotics/geometry.py: Collection.is_in_collision, Shape.is_in_collision"]}
{"id": "C30", "title": "Link transform follows the Denavit-Hartenberg convention for every call history", "statement": "get_link_relative_transform(q) equals Rot_z(theta) Trans_z(d) Trans_x(a) Rot_x(alpha), with theta=q for revolute and d=q for prismatic joints, is rigid, and does not depend on earlier calls although the matrix object is reused.", "quantifier": "all DH parameters, joint values and call histories", "why_tests_cant": "All reals and all histories of the cached matrix.", "anchors": ["acrobotics/robot.py: Link.get_link_relative_transform"]}
{"id": "C31", "title": "Forward kinematics is the product of the link transforms", "statement": "fk(q) equals tf_base times the link transforms in order times the tool tip (when there is a tool); it is rigid when base and tool are; fk_all_links lists all prefixes, so its last entry times the tool tip is fk; moving the base by a transform moves fk by that transform.", "quantifier": "all robots (any number and type of links), all joint values, bases and tools", "why_tests_cant": "Unbounded number of links.", "anchors": ["acrobotics/robot.py: Robot.fk, Robot.fk_all_links"]}
{"id": "C32", "title": "Symbolic and numeric kinematics agree", "statement": "fk_casadi(q) and fk_all_links_casadi(q) equal fk(q) and fk_all_links(q).", "quantifier": "all robots and joint values", "why_tests_cant": "All robots; fails only for prismatic joints.", "anchors": ["acrobotics/robot.py: Link.get_link_relative_transform_casadi, Robot.fk_casadi, Robot.fk_all_links_casadi"]}
{"id": "C33", "title": "Robot collision answers do not depend on earlier queries", "statement": "is_in_collision(q, scene) is True iff the base geometry, some link or the tool collides with the scene, or (if enabled) the robot self-collides; the answer is the same after every history of earlier queries although the link priority list is reordered, and that list always remains a permutation of the links.", "quantifier": "all robots, scenes, joint values and histories of queries", "why_tests_cant": "Unbounded histories of mutation.", "anchors": ["acrobotics/robot.py: Robot.is_in_collision"]}
{"id": "C34", "title": "Self collision checks exactly the intended pairs", "statement": "is_in_self_collision is True iff two links whose indices differ by at least three collide, or the tool collides with a link other than the last one; with another collision matrix, iff two links marked in it collide, or the tool with a link other than the last one.", "quantifier": "all robots, joint values", "why_tests_cant": "All numbers of links.", "anchors": ["acrobotics/robot.py: Robot.__init__ (collision_matrix), Robot._check_self_collision, Robot.is_in_self_collision"]}
{"id": "C35", "title": "Arm2 inverse kinematics is sound", "statement": "Every joint vector returned by Arm2.ik(T) moves the arm (base at the origin, no tool) exactly to the position of T, unless the elbow cosine was snapped to +-1, in which case the squared distance to the shoulder is off by at most 2*a2*a3*1e-6.", "quantifier": "all link lengths with a2*a3 != 0, all targets, all returned solutions", "why_tests_cant": "All real targets.", "anchors": ["acrobotics/resources/robots.py: Arm2.ik"]}
{"id": "C36", "title": "Arm2 inverse kinematics is complete", "statement": "Arm2.ik succeeds for the position of fk(q) for every q, and for non-singular q one of the returned solutions equals q modulo 2*pi.", "quantifier": "all link lengths with a2*a3 != 0, all q", "why_tests_cant": "All real inputs.", "anchors": ["acrobotics/resources/robots.py: Arm2.ik"]}
{"id": "C37", "title": "Spherical wrist inverse kinematics is sound", "statement": "Both joint vectors returned by SphericalWrist.ik(T) give the wrist the orientation of T for every base orientation.", "quantifier": "all rigid targets and bases", "why_tests_cant": "Fails exactly on the measure-zero singular set, which random tests miss.", "anchors": ["acrobotics/resources/robots.py: SphericalWrist.ik"]}
{"id": "C38", "title": "Spherical wrist inverse kinematics is complete", "statement": "For every q with sin(q2) != 0, one of the two solutions of SphericalWrist.ik(fk(q)) equals q modulo 2*pi.", "quantifier": "all q", "why_tests_cant": "All real inputs.", "anchors": ["acrobotics/resources/robots.py: SphericalWrist.ik"]}
{"id": "C39", "title": "Kuka inverse kinematics is sound", "statement": "Every joint vector q returned by Kuka.ik(T) satisfies fk(q) = T, for every rigid base transform and every rigid tool.", "quantifier": "all rigid T, base, tool, all link parameters with a2*d4 != 0", "why_tests_cant": "All real inputs; tests sample 20 random configurations.", "anchors": ["acrobotics/resources/robots.py: Kuka.ik, Arm2.ik, SphericalWrist.ik"]}
{"id": "C40", "title": "Kuka inverse kinematics is complete", "statement": "Kuka.ik succeeds for T = fk(q) for every q; at most eight solutions are returned, and for non-singular q one of them equals q modulo 2*pi.", "quantifier": "all q, base, tool", "why_tests_cant": "All real inputs.", "anchors": ["acrobotics/resources/robots.py: Kuka.ik"]}
{"id": "C41", "title": "KukaOnRail inverse kinematics is sound for every parameter set", "statement": "Every joint vector returned by KukaOnRail(a1,a2,d4,d6).ik(T, q_fixed) has first entry q_fixed and satisfies fk(q) = T.", "quantifier": "all constructor parameters, T, base, tool, rail positions", "why_tests_cant": "Tests use the default parameters only.", "anchors": ["acrobotics/resources/robots.py: KukaOnRail.__init__, KukaOnRail.ik"]}
{"id": "C42", "title": "AnthropomorphicArm inverse kinematics is sound", "statement": "Every joint vector returned by AnthropomorphicArm.ik(T) moves the arm (base at the origin, no tool) exactly to the position of T when the elbow cosine is not snapped; reachable targets always succeed, and for non-singular q one of the four solutions equals q modulo 2*pi.", "quantifier": "all link lengths with a2*a3 != 0, all targets", "why_tests_cant": "All real inputs.", "anchors": ["acrobotics/resources/robots.py: AnthropomorphicArm.ik"]}
{"id": "C43", "title": "Shipped robots have the documented forward kinematics", "statement": "PlanarArm, SphericalArm, AnthropomorphicArm, Arm2 and Kuka have the closed-form kinematics of the Siciliano textbook / tests for every joint vector.", "quantifier": "all joint values and link lengths", "why_tests_cant": "All reals; tests sample 5 configurations.", "anchors": ["acrobotics/resources/robots.py: PlanarArm, SphericalArm, AnthropomorphicArm, Arm2, Kuka", "tests/test_robot.py: TestForwardKinematics"]}
{"id": "C44", "title": "IK results stay valid after later calls", "statement": "The solutions returned by an ik call (SphericalWrist.ik, Kuka.ik) are not changed by later ik calls on the same robot.", "quantifier": "all sequences of ik calls", "why_tests_cant": "Aliasing of cached arrays over unbounded histories.", "anchors": ["acrobotics/resources/robots.py: SphericalWrist.__init__ (qsol), SphericalWrist.ik, Kuka.ik"]}
{"id": "C45", "title": "TolerancedNumber keeps its nominal inside the bounds", "statement": "Constructing a TolerancedNumber with a nominal outside [lower, upper] raises ValueError and every constructed one (lower <= upper) has lower <= nominal <= upper, the midpoint by default.", "quantifier": "all bounds and nominals", "why_tests_cant": "All reals.", "anchors": ["acrobotics/path.py: TolerancedNumber.__init__"]}
{"id": "C46", "title": "Discretised tolerances stay in range and include the bounds", "statement": "discretise() returns num_samples equally spaced values, all within [lower, upper], non-decreasing, starting at lower and ending at upper (for at least two samples).", "quantifier": "all ranges and sample counts", "why_tests_cant": "All counts.", "anchors": ["acrobotics/path.py: TolerancedNumber.discretise"]}
{"id": "C47", "title": "Euler-toleranced samples are valid poses within tolerance", "statement": "TolEulerPt.get_samples returns one rigid transform per combination of the discretised axes; its position lies within the position tolerance, its rotation is Rx Ry Rz of angles within the angle tolerance, and without tolerances the only sample is nominal_transform().", "quantifier": "all tolerance combinations", "why_tests_cant": "All combinations and sizes.", "anchors": ["acrobotics/path.py: TolEulerPt.get_samples, TolEulerPt.nominal_transform, TolEulerPt._check_for_tolerance"]}
{"id": "C48", "title": "Position-toleranced samples keep the orientation", "statement": "TolPositionPt.get_samples returns rigid transforms that all have the given orientation and a position within the tolerance box, one per grid point.", "quantifier": "all tolerances and unit quaternions", "why_tests_cant": "All combinations.", "anchors": ["acrobotics/path.py: TolPositionPt.get_samples"]}
{"id": "C49", "title": "Axis-angle samples rotate about the axis only", "statement": "AxisAnglePt.get_samples returns, for each sampled angle, the nominal orientation followed by the rotation with that angle about the fixed axis; positions are unchanged and angle zero gives the nominal orientation.", "quantifier": "all unit axes, unit quaternions and angle ranges", "why_tests_cant": "All reals.", "anchors": ["acrobotics/path.py: AxisAnglePt.get_samples"]}
{"id": "C50", "title": "Free-orientation samples keep the position", "statement": "FreeOrientationPt.get_samples and TolOrientationPt.get_samples with rep='transform' return num_samples rigid transforms located exactly at the path point; an unknown rep raises ValueError.", "quantifier": "all draws, all positions, all counts", "why_tests_cant": "Random inputs.", "anchors": ["acrobotics/path.py: FreeOrientationPt.get_samples, TolOrientationPt.get_samples"]}
{"id": "C51", "title": "point_to_frame and create_transform agree", "statement": "point_to_frame([x,y,z,rx,ry,rz]), io.create_transform([x,y,z],[rx,ry,rz]) and a tolerance-free TolEulerPt all describe the same rigid transform.", "quantifier": "all reals", "why_tests_cant": "All reals.", "anchors": ["acrobotics/path.py: point_to_frame", "acrobotics/io.py: create_transform"]}
{"id": "C52", "title": "Line paths", "statement": "create_line returns num_points positions on the segment, the i-th being start + i/(n-1) (end - start), beginning at the start pose and ending at the end point.", "quantifier": "all end points and counts", "why_tests_cant": "All counts.", "anchors": ["acrobotics/io.py: create_line"]}
{"id": "C53", "title": "Circle paths", "statement": "create_circle returns num_points positions, all at the distance of the start point from mid and in the plane through start orthogonal to axis, starting and (for at least two points) ending at the start point.", "quantifier": "all mid, start, non-zero axis and counts", "why_tests_cant": "All reals.", "anchors": ["acrobotics/io.py: create_circle"]}
{"id": "C54", "title": "Symmetric tolerances are centred on the nominal pose", "statement": "create_symmetric_position_tolerance and create_symmetric_euler_tolerance return one path point per position; exactly the axes with a positive tolerance are toleranced, with range nominal +- tolerance and nominal value in the middle.", "quantifier": "all positions and tolerances", "why_tests_cant": "All list lengths and reals.", "anchors": ["acrobotics/io.py: create_symmetric_position_tolerance, create_symmetric_euler_tolerance"]}
{"id": "C55", "title": "Angles given in degrees are recognised", "statement": "guess_angle_unit(v) returns the angle in radians for every angle given in degrees with |v| > 10.", "quantifier": "all angles", "why_tests_cant": "Sign-dependent.", "anchors": ["acrobotics/io.py: guess_angle_unit, create_symmetric_euler_tolerance"]}
{"id": "C56", "title": "Task parsing dispatches exactly on the declared types", "statement": "parse_path returns num_points path points of the class belonging to the declared tolerance for every valid description, and raises for every unknown path or tolerance type; parse_obstacles returns one placed box per entry in order and raises for every other shape type; import_paths parses every path of the file in order.", "quantifier": "all task descriptions", "why_tests_cant": "All descriptions.", "anchors": ["acrobotics/io.py: parse_path, parse_obstacles, parse_shape, parse_task_data, import_paths"]}
{"id": "C57", "title": "URDF export/import round trip", "statement": "Importing an exported scene gives back the same boxes (sizes, positions, orientations) in the same order.", "quantifier": "all scenes", "why_tests_cant": "All scenes; orientation is only lost for rotated boxes.", "anchors": ["acrobotics/urdfio.py: export_urdf, create_urdf_data, import_urdf"]}
{"id": "C58", "title": "URDF export always writes the file", "statement": "export_urdf writes a URDF file for every scene.", "quantifier": "all scenes", "why_tests_cant": "Edge case of an unbounded family.", "anchors": ["acrobotics/urdfio.py: export_urdf"]}
{"id": "C59", "title": "cart_to_joint_no_redundancy returns exactly the collision-free IK solutions", "statement": "Column i of the result contains, in order, all and only the IK solutions of all samples of path point i that are not in collision; it is [] exactly when there are none.", "quantifier": "all robots, paths, scenes, draws", "why_tests_cant": "All lengths.", "anchors": ["acrobotics/planning.py: cart_to_joint_no_redundancy"]}
{"id": "C60", "title": "cart_to_joint_simple uses all samples", "statement": "Column i of cart_to_joint_simple contains the collision-free IK solutions of all discretised samples of path point i and all fixed-joint values.", "quantifier": "all robots, paths, scenes", "why_tests_cant": "Only shows with several samples per point.", "anchors": ["acrobotics/planning.py: cart_to_joint_simple"]}
{"id": "C61", "title": "cart_to_joint_incremental stops", "statement": "cart_to_joint_incremental terminates after at most max_tries samples per path point and, when enough solutions exist, returns at least min_samples collision-free configurations per point.", "quantifier": "all robots, paths, scenes, sample streams", "why_tests_cant": "Non-termination.", "anchors": ["acrobotics/planning.py: cart_to_joint_incremental"]}
{"id": "C62", "title": "Resampling shrinks tolerances around the solution", "statement": "get_new_bounds(l,u,m) with l<=m<=u returns an interval inside [l,u] that contains m and is at most 2/red as wide (half for the default); iterating it nests the intervals.", "quantifier": "all bounds, all m in them, all reductions > 0, all iteration counts", "why_tests_cant": "All reals and iteration counts.", "anchors": ["acrobotics/planning.py: get_new_bounds, resample_trajectory_point"]}
{"id": "C63", "title": "The iterative planner supports every path point type", "statement": "cart_to_joint_iterative accepts position-toleranced and axis-angle path points as well as free-orientation points.", "quantifier": "all path points", "why_tests_cant": "Class dispatch over all types.", "anchors": ["acrobotics/planning.py: SolutionPoint.__init__, resample_trajectory_point, SolutionPoint.resample"]}
{"id": "C64", "title": "The iterative planner reports consistent results", "statement": "When cart_to_joint_iterative succeeds on free-orientation points, it reports exactly max_iters costs and paths, the returned path and length are those of the last iteration, every configuration on every path was an IK solution of a sample and collision-free when checked, and it fails as soon as one point has no solution.", "quantifier": "all robots, paths, scenes, draws, max_iters >= 1", "why_tests_cant": "Unbounded iterations.", "anchors": ["acrobotics/planning.py: cart_to_joint_iterative, SolutionPoint.calc_joint_solutions"]}
{"id": "C65", "title": "Planning tasks without obstacles can be solved", "statement": "PlanningTask(path).solve(robot) works without a scene, and solve dispatches on the method name, raising for unknown names.", "quantifier": "all tasks and method names", "why_tests_cant": "Input-dependent attribute errors.", "anchors": ["acrobotics/planning.py: PlanningTask.__init__, PlanningTask.solve"]}
{"id": "C66", "title": "Grid plans follow the path without collisions", "statement": "If PlanningTask.solve(robot, 'grid') succeeds, the returned path has one configuration per path point, each being the (float32 rounding of a) collision-free configuration whose forward kinematics equals one of the samples of that point.", "quantifier": "all tasks, robots with a sound IK, draws", "why_tests_cant": "End-to-end over all inputs.", "anchors": ["acrobotics/planning.py: PlanningTask.solve, cart_to_joint_no_redundancy, get_shortest_path"]}
{"id": "C67", "title": "Tool-first collision checking planner runs", "statement": "cart_to_joint_tool_first_cc returns the collision-free joint solutions.", "quantifier": "all inputs", "why_tests_cant": "Every input fails.", "anchors": ["acrobotics/planning.py: cart_to_joint_tool_first_cc"]}
{"id": "C68", "title": "Collision certificates are sound with margin eps", "statement": "If multipliers satisfy create_collision_constraints for the polyhedra (Ar,br) and (Ao,bo), then every point of one is at distance at least eps from every point of the other; in particular they do not intersect.", "quantifier": "all polyhedra of any size, all multipliers", "why_tests_cant": "All reals.", "anchors": ["acrobotics/optimization.py: create_collision_constraints"]}
{"id": "C69", "title": "A feasible joint pose is free of link-obstacle collisions", "statement": "If q and multipliers satisfy create_cc_for_joint_pose, then no robot link shape, moved by the forward kinematics of q, comes closer than eps to a scene shape.", "quantifier": "all robots, scenes, q", "why_tests_cant": "All robots; breaks for links with several shapes.", "anchors": ["acrobotics/optimization.py: create_cc_for_joint_pose, create_cc", "acrobotics/geometry.py: Collection.get_polyhedrons"]}
{"id": "C70", "title": "The optimisation objective is the graph path cost", "statement": "The objective minimised by get_optimal_path equals the C++ path cost with unit weights of the same joint path.", "quantifier": "all paths of 6-joint configurations", "why_tests_cant": "All reals.", "anchors": ["acrobotics/optimization.py: get_optimal_path", "acrobotics/cpp/src/graph.cpp: get_path_cost, cost_function_2"]}
{"id": "C71", "title": "GUI layout slots", "statement": "create_layout_slots(rows, cols, margin) with a margin small enough gives rows x cols rectangles inside the unit square, pairwise disjoint; each is its cell of the grid less the margin on all four sides.", "quantifier": "all rows, cols, margins with 0 <= 2*margin < slot size", "why_tests_cant": "All sizes.", "anchors": ["gui/task_editor.py: create_layout_slots"]}
{"id": "C72", "title": "GUI buttons can be pressed in any order", "statement": "No sequence of submit/load/plan/show events makes a TaskEditor callback raise.", "quantifier": "all event sequences and planner outcomes", "why_tests_cant": "Unbounded event histories.", "anchors": ["gui/task_editor.py: TaskEditor.load_scene, load_paths, plan, show_path, plot_setup"]}
{"id": "C73", "title": "C++ Graph: reset forgets the past", "statement": "After init and any later calls (both searches, resets, new weights, queries, added columns), reset followed by run_bfs or run_dijkstra gives exactly the get_path and get_path_cost answers of a graph that only saw the same columns, the current weights and this one search.", "quantifier": "all data, all call sequences after init, all queues", "why_tests_cant": "Tests try a few call sequences; the claim is about every sequence.", "anchors": ["acrobotics/cpp/src/graph.cpp: reset, reset_node_array, run_bfs, run_dijkstra, set_weights, add_data_column"]}
{"id": "C74", "title": "Angles of a free-orientation sample describe the sampled orientation", "statement": "point_to_frame applied to a sample of FreeOrientationPt.get_samples with the default rep='rpy' gives the transform of the sampled orientation at the path point.", "quantifier": "all draws, positions and counts", "why_tests_cant": "Random inputs; the two Euler conventions agree for some orientations.", "anchors": ["acrobotics/path.py: FreeOrientationPt.get_samples, point_to_frame"]}
{"id": "C75", "title": "start_pose.rpy means the same orientation for both tolerances", "statement": "For the same start_pose.rpy, a path with position_tolerance and a path with euler_tolerance have the same nominal orientation.", "quantifier": "all angles", "why_tests_cant": "Only angles above ten (degrees) differ.", "anchors": ["acrobotics/io.py: parse_path, create_symmetric_position_tolerance, create_symmetric_euler_tolerance, guess_angle_unit"]}
{"id": "C76", "title": "Planner columns hold the solutions as ik returned them", "statement": "The columns of cart_to_joint_no_redundancy contain the collision-free joint solutions with the values they had when robot.ik returned them, although the arrays are only copied once per path point.", "quantifier": "all robots of the library, paths, scenes, draws, states of the heap", "why_tests_cant": "Aliasing of cached arrays only shows with several samples per point.", "anchors": ["acrobotics/planning.py: cart_to_joint_no_redundancy", "acrobotics/resources/robots.py: SphericalWrist.ik, Kuka.ik"]}
{"id": "C77", "title": "A successful optimal path follows the path without collisions", "statement": "If get_optimal_path reports success, the returned array has one row per path point, the forward kinematics of each row is at the position of the point, and is_in_collision is False for it in the given scene.", "quantifier": "all paths, robots, scenes, start values, and every solver that only reports success at feasible values", "why_tests_cant": "Quantifies over robots, scenes and solvers; the example robots have no base shapes and few self-collisions.", "anchors": ["acrobotics/optimization.py: get_optimal_path, create_cc", "acrobotics/robot.py: is_in_collision, fk_casadi"]}
{"id": "C78", "title": "Optimal paths for every robot and kind of path point", "statement": "get_optimal_path without a start value raises no exception of its own, for every robot with at least one joint and every non-empty path; only the solver can raise.", "quantifier": "all robots, all path point types, scenes", "why_tests_cant": "Tests use the six-joint Kuka and free-orientation points only.", "anchors": ["acrobotics/optimization.py: get_optimal_path", "acrobotics/path.py"]}
{"id": "C79", "title": "Robot.plot draws the robot where the collision check sees it", "statement": "Robot.plot draws exactly the edges of all boxes of base, links and tool, placed as is_in_collision places them, whatever calls went before.", "quantifier": "all robots, joint values, call histories", "why_tests_cant": "Pictures are not tested; all robots and placements.", "anchors": ["acrobotics/robot.py: plot, plot_kinematics", "acrobotics/geometry.py: Collection.plot, Shape.plot"]}
{"id": "C80", "title": "Animation frames show the configurations of the path", "statement": "After any sequence of animation frames ending with frame i, the lines on the axes are exactly the edges of the robot's boxes at configuration i of the path.", "quantifier": "all robots, paths, frame orders", "why_tests_cant": "Frame order and robots are unbounded; the animation is only looked at.", "anchors": ["acrobotics/robot.py: animate_path"]}
{"id": "C81", "title": "plot_kinematics draws the kinematic chain", "statement": "The line of plot_kinematics runs through the base origin and all link origins in order, with frames at base, links and the tool tip given by fk.", "quantifier": "all robots with at least one joint, joint values, call histories", "why_tests_cant": "Pictures are not tested.", "anchors": ["acrobotics/robot.py: plot_kinematics"]}
{"id": "C82", "title": "plot_reference_frame draws a right-handed triad", "statement": "plot_reference_frame draws three orthogonal segments of the given length from the origin of the frame along its axes, in right-handed order; identity by default.", "quantifier": "all rigid transforms and lengths", "why_tests_cant": "All transforms.", "anchors": ["acrobotics/util.py: plot_reference_frame"]}
{"id": "C83", "title": "The editor shows exactly the current task", "statement": "After loading a scene or paths the axes of the task editor show exactly the robot, the current scene and the frames of the current paths.", "quantifier": "all event histories, robots, files", "why_tests_cant": "Unbounded event histories; pictures are not tested.", "anchors": ["gui/task_editor.py: plot_setup, load_scene, load_paths, show_path"]}
{"id": "C84", "title": "The editor's solution belongs to the current path", "statement": "Whenever the task editor has a solution, it has one collision-free configuration for every point of the current path.", "quantifier": "all event histories, robots, files, draws", "why_tests_cant": "Unbounded event histories.", "anchors": ["gui/task_editor.py: plan, load_paths, show_path"]}
{"id": "C85", "title": "Segment reports are consistent", "statement": "Every result of get_shortest_path_segments either says it is stuck and holds nothing else, or holds a first segment that is the cheapest admissible choice for its columns, gives every segment exactly its own cost, sets single_path exactly when there is one segment (which then covers all columns), and on failure says that the segments do not reach the end.", "quantifier": "all cost types and functions, data, limits, numbers of rounds", "why_tests_cant": "Depends on every combination of columns, costs and limit.", "anchors": ["acrobotics/pygraph.py:208-259 get_shortest_path_segments"]}
{"id": "C86", "title": "split_points are the start columns", "statement": "The split_points of a result with several segments are the columns at which the segments start.", "quantifier": "all cost types and functions, data, limits", "why_tests_cant": "Unbounded data; the wrong entry is easy to miss because the last entry is right.", "anchors": ["acrobotics/pygraph.py:216-244 get_shortest_path_segments"]}
{"id": "C87", "title": "The quaternion cost is half the rotation angle", "statement": "The cost between two unit quaternions is half the angle of the rotation between the orientations: symmetric, independent of signs, between 0 and pi/2, zero exactly for equal orientations, unchanged when both are turned by the same rotation, and it satisfies the triangle inequality.", "quantifier": "all unit quaternions", "why_tests_cant": "A statement about all pairs and triples of real quaternions.", "anchors": ["acrobotics/pygraph.py:20-21 cost_function", "examples/small_passage.py:43-50 cost_function"]}
{"id": "C88", "title": "Quaternion search minimises the total rotation", "statement": "On columns of unit quaternions both searches return one quaternion per column such that the total angle turned through is least, and report half of that angle.", "quantifier": "all lists of non-empty columns of unit quaternions", "why_tests_cant": "Optimality over all selections, for all real data.", "anchors": ["acrobotics/pygraph.py:173-182 get_shortest_path", "acrobotics/dp.py:42-48 shortest_path", "examples/quat_graph.py"]}
{"id": "C89", "title": "Weld lines are evenly spaced and carry the stated tolerances", "statement": "create_weld_line with n points returns n points. Point k sits at fraction k/(n-1) of the line plus the offset, first and last at the ends. Each has 30 samples, all rigid and exactly at its position, the first angle within half a radian, the second exact, the third within pi. A negative n raises. The samples are exactly three first angles half a radian apart combined with ten third angles over a closed full turn, so at most 27 of the 30 differ.", "quantifier": "all starts, goals, angles, offsets and n", "why_tests_cant": "The number of points and all geometry are unbounded real data.", "anchors": ["acrobotics/resources/workpiece_model.py:34-45 create_weld_line"]}
{"id": "C90", "title": "The workpiece is an open box and its weld paths follow the seams", "statement": "For all dimensions the five shapes fill exactly an outer box without a cavity that is open on one side, without overlap. For every number of points the three paths keep 4 cm from all walls and their z-axes point exactly at the seams. The paths run exactly between the given end points; the shipped workpiece is 1.6 by 0.8 by 1.02.", "quantifier": "all dimensions with positive walls, all n at least 2", "why_tests_cant": "Sets of points in space and all n.", "anchors": ["acrobotics/resources/workpiece_model.py:11-31", "acrobotics/resources/workpiece_model.py:48-71"]}
{"id": "C91", "title": "The torch model is a consistent tool", "statement": "For all values of its two angles the torch consists of five boxes with rigid placements and a rigid tip frame; the tip is 1 cm in front of the end piece with its z-axis along it, everything lies in one plane, the end piece starts on the axis of the neck, and the tip is outside all boxes. With the shipped angles the end piece does not touch the neck. The exact space every part takes and the position of the tip are given for all angles.", "quantifier": "all angles; tip outside for end pieces not bent backwards", "why_tests_cant": "Real angles; sets of points.", "anchors": ["acrobotics/resources/torch_model.py:14-71"]}
{"id": "C92", "title": "The paths over the table are free of the table", "statement": "For every number of points both paths have that many points, evenly spaced in y; samples of the first point down, within 5 cm of the sine curve; every point and sample is at height 0.2 and keeps 2 cm from all shapes of both scenes. The space both scenes take is given exactly: the path passes midway between the two boxes.", "quantifier": "all n", "why_tests_cant": "All n, and sets of points.", "anchors": ["acrobotics/resources/path_on_table.py:12-57"]}
{"id": "C93", "title": "The priority queue pops a node of least distance", "statement": "While distances do not change, the queue of the compiled search holds what was pushed and not yet popped, its next pop returns one of these nodes of least distance, and pushing any nodes and popping them all returns them sorted.", "quantifier": "all sequences of pushes and pops, all distances", "why_tests_cant": "Unbounded sequences of operations.", "anchors": ["acrobotics/cpp/src/graph.cpp:69-123 multi_source_dijkstra", "acrobotics/cpp/include/graph.h:39-45"]}
{"id": "C94", "title": "Torch orientations in the small passage are free of collision and turn least", "statement": "The script small_passage.py ends, for a path of two or more points that each have a drawn orientation at which the torch does not touch the scene, with one frame per point: the tip is at the point, the orientation is one of those drawn, the torch drawn there does not touch the scene, and no other choice of such orientations turns less in total. Otherwise it raises IndexError or ValueError, never returning a path.", "quantifier": "all paths, scenes, collision oracles, tools with a rigid tip frame, numbers of samples and random draws in [0,1]", "why_tests_cant": "Unbounded paths, draws and scenes; optimality over exponentially many choices.", "anchors": ["examples/small_passage.py:16-101", "acrobotics/dp.py:4-48", "acrobotics/path.py:195-214"]}
{"id": "C95", "title": "samplers.Sampler draws unit quaternions", "statement": "random_quaternion returns a unit quaternion for every draw, and random_quaternion_near returns a quaternion near the given one.", "quantifier": "all draws in [0,1], all distances", "why_tests_cant": "Every draw; a test that calls the method once sees one draw.", "anchors": ["acrobotics/samplers.py:13-29"]}
{"id": "C96", "title": "Planning on the rotating table returns the reachable configurations", "statement": "cart_to_joint_simple of rotation_table.py returns for every path point exactly the collision free inverse kinematics solutions of the sampled frames moved by one of the table positions.", "quantifier": "all paths, samples, table positions, fixed joint values, inverse kinematics and collision answers", "why_tests_cant": "Unbounded lists of samples and table positions.", "anchors": ["examples/rotation_table.py:26-66"]}
{"id": "C97", "title": "The editor plans redundant robots with ten values of the first joint", "statement": "For a robot with more than six joints the Plan button, when it succeeds, leaves a solution with one configuration per path point, each a collision free inverse kinematics solution of the last sample of the point with the redundant joint at one of the ten values -1/2, ..., 1/2; and it succeeds whenever every point has such a configuration.", "quantifier": "all robots with seven or more joints, scenes, paths, draws, inverse kinematics and collision answers, float conversions and states of the editor", "why_tests_cant": "Continuum of configurations, unbounded paths; success is an existence claim over all inputs.", "anchors": ["gui/task_editor.py:162-178", "acrobotics/planning.py:92-118"]}
{"id": "C98", "title": "The editor reads the files named last and keeps its log", "statement": "Whatever buttons were pressed before, Load scene reads the file in the working directory whose name was submitted last (the default before that), Load paths likewise, and a submitted name, a loaded file or a shown path never removes a line from the log.", "quantifier": "all histories of events, file contents and robots", "why_tests_cant": "Histories of any length.", "anchors": ["gui/task_editor.py:91-134", "gui/task_editor.py:162-186"]}
{"id": "C99", "title": "The frames the planners try are the ones the settings say", "statement": "A fresh planning task whose points have free orientation is solved with 500 drawn rotations per point: every configuration of a successful answer solves its point turned by one of them, and solve succeeds whenever each point has a collision-free solution for one of them. The iterative planner makes three rounds with 500 rotations, and its round k+1 turns the frame of the same point's configuration of round k to rotations drawn within distance pi/4/2^(k+1).", "quantifier": "all tasks with free-orientation points, scenes, draws, determined robots, float conversions and numbers of rounds", "why_tests_cant": "Unbounded numbers of points and continuum of draws; success is an existence claim.", "anchors": ["acrobotics/planning.py:23-83", "acrobotics/planning.py:121-313", "acrobotics/path.py:195-244"]}
{"id": "C100", "title": "The optimiser starts where set_initial_path says", "statement": "A fresh planning task starts the optimiser at six zeros per path point; a vector handed to set_initial_path becomes the start of every point, a matrix is accepted exactly when it has one row per point and is then the start, and arrays of other dimensions raise.", "quantifier": "all tasks, paths, scenes and initial paths", "why_tests_cant": "Paths of any length and all arrays.", "anchors": ["acrobotics/planning.py:23-83"]}
{"id": "C101", "title": "discretise makes one hundred samples", "statement": "discretise of a free-orientation point gives 100 rows, each the position followed by the angles of one of the drawn rotations; discretise of a point with orientation tolerance gives 100 frames at the position with rotations drawn within distance 1/10.", "quantifier": "all points, orientations and draws", "why_tests_cant": "Continuum of points and draws.", "anchors": ["acrobotics/path.py:195-244"]}
{"id": "C102", "title": "A shape can be tested against a list of shapes", "statement": "Shape.is_in_collision_multi answers whether the shape touches one of a list of shapes. False: for every non-empty list the call raises TypeError, as the inner call lacks the transforms; with an empty list the answer is False.", "quantifier": "all shapes and lists of shapes", "why_tests_cant": "All list lengths.", "anchors": ["acrobotics/geometry.py:97-101"]}
{"id": "C103", "title": "The collision shapes cover the arm", "statement": "In every configuration each point of the line from the base through the origins of the link frames lies inside a collision shape of a link, so that an obstacle the line runs through is reported by is_in_collision after any history of calls. True for Kuka (a1 <= 0.24, a2 <= 0.7, d4 <= 0.62, d6 <= 0.115), for KukaOnRail from its first revolute joint and for AnthropomorphicArm, on any rigid base; false for PlanarArm, whose shapes have a negative side and contain no point, and for a Kuka with d4 > 0.62.", "quantifier": "all configurations, lengths in the given ranges, rigid bases, scenes and histories of calls", "why_tests_cant": "Continuum of configurations and obstacles.", "anchors": ["acrobotics/resources/robots.py:12-24", "acrobotics/resources/robots.py:93-108", "acrobotics/resources/robots.py:284-320", "acrobotics/resources/robots.py:354-387", "acrobotics/robot.py:100-215"]}
{"id": "C104", "title": "The six joints of the Puma are independent", "statement": "Some configuration of the shipped Puma is isolated among the configurations with the same pose. False: the end of the Puma is a turn by q1 + q2 about the vertical axis of a frame that depends on the other joints only, so the first two joints turn about the same axis, the end never comes closer to the axis than |d3 + d4|, and its height stays within |a3| + |a4| of d1.", "quantifier": "all lengths and joint values", "why_tests_cant": "Continuum of configurations; the tests have no case for the Puma.", "anchors": ["acrobotics/resources/robots.py:412-441", "acrobotics/robot.py:23-90"]}
{"id": "C105", "title": "The plot of a planning task shows its points and obstacles", "statement": "PlanningTask.plot puts on the axes, for every path point in order, a marker at its nominal position and for a TolEulerPt the axes of its nominal frame, which is at the marker; then exactly the edges of the obstacles at their places, and nothing if no scene was given.", "quantifier": "all paths of points made by the five constructors, all scenes", "why_tests_cant": "Unbounded paths, continuum of positions and tolerances; no test plots anything.", "anchors": ["acrobotics/planning.py:85-89", "acrobotics/path.py:105-107", "acrobotics/path.py:155-156", "acrobotics/path.py:182-183", "acrobotics/path.py:222-223", "acrobotics/path.py:249-250"]}
{"id": "C106", "title": "plot_path draws every configuration with falling opacity", "statement": "plot_path draws every configuration of a joint path in order exactly as plot draws it, whatever was called before, the i-th of n with opacity 1 - 0.8 i/(n-1): 1 for the first, 0.2 for the last, strictly decreasing.", "quantifier": "all robots with revolute and prismatic joints, joint paths and histories of calls", "why_tests_cant": "Paths and histories of any length.", "anchors": ["acrobotics/robot.py:246-249", "acrobotics/robot.py:217-226"]}
{"id": "C107", "title": "The printed graph is the table of shortest distances", "statement": "After any calls print_graph follows no null pointer and prints one line per node. Before a search every line shows the node's own indices, infinite distance and (0, 0). After run_bfs the line of row j of column i shows the least cost over all choices from columns 0..i that end in this row, and as parent a row of column i-1 whose printed distance plus the step cost is this distance. print_path goes wrong exactly when get_path does and otherwise prints the samples that get_path returns; print_graph_data prints the columns as added.", "quantifier": "all histories of calls; all non-empty columns, weights and cost arithmetics with some finite path", "why_tests_cant": "Unbounded histories and columns; the printed text is never compared in the tests.", "anchors": ["acrobotics/cpp/src/graph.cpp:387-449", "acrobotics/cpp/include/graph.h:82-97"]}
{"id": "C108", "title": "Every click in the editor reaches one button", "statement": "The layout of the task editor has each of its seven widgets once, in a proper rectangle inside the figure and outside the 3D view; no point of the figure is in two of them, so a click calls at most one callback, the one that the label of the button under the mouse says, and none elsewhere; submitted texts go to the file name the box is for. The widgets are in one column in the order of use, 'Show solution' beside 'Plan'.", "quantifier": "all points of the figure, all files and random draws", "why_tests_cant": "A continuum of points; no test opens the editor.", "anchors": ["gui/task_editor.py:35-84", "gui/task_editor.py:146-160"]}
{"id": "C109", "title": "The template's curve is that of its sliders", "statement": "In gui_template.py the drawn curve is amp*sin(2*pi*freq*t) for the values the sliders show and has the colour of the radio button that is on, after any events; the values shown are the last ones set by the user or a reset, with limits and steps.", "quantifier": "all event sequences and values", "why_tests_cant": "Unbounded event sequences; no test opens the template.", "anchors": ["gui/gui_template.py:33-47", "gui/gui_template.py:53-74"]}
{"id": "C110", "title": "Planning for the robot on a rail in the editor is sound and complete over the rail positions", "statement": "For a KukaOnRail with more than six joints 'Plan' tries ten rail positions; after success each configuration touches neither scene nor robot, has the rail at one of the ten positions and, with default parameters, reaches the last sample of its point unless singular; and 'Plan' does succeed when every last sample is reached by a free, non-singular configuration at one of the ten positions.", "quantifier": "all scenes, bases, tools, paths, states of the robot, random draws", "why_tests_cant": "Unbounded paths, scenes and states; no test plans for KukaOnRail.", "anchors": ["gui/task_editor.py:162-178", "acrobotics/planning.py:92-118", "acrobotics/resources/robots.py:389-409"]}
{"id": "C111", "title": "The grid planner finds a path for the shipped arms whenever the samples can be reached", "statement": "solve(robot, 'grid') succeeds for a Kuka (any base and tool) and an Arm2 when every point of a non-empty path has a sample reached by a configuration that touches neither the scene nor the robot and is away from the singularities; for a KukaOnRail the grid planner raises TypeError.", "quantifier": "all parameters with a2*d4 != 0, scenes, paths, histories, queues, random draws", "why_tests_cant": "Infinitely many scenes and paths; a test sees a few.", "anchors": ["acrobotics/planning.py:283-313", "acrobotics/resources/robots.py:182-281", "acrobotics/resources/robots.py:322-351"]}
{"id": "C112", "title": "Rounding the joint values moves the robot by a bounded amount", "statement": "If joint values change, every point of every link and of the tool moves by at most the sum, over the joints, of the change times the length of arm beyond that joint; for the Kuka by at most delta*(a1 + 2*a2 + 4*d4 + 6*d6 + 6*x) when no value changes by more than delta. So a path returned by the grid planner, whose configurations are rounded to float32, is within that bound of the sampled frames it was planned for, and distances from obstacles shrink by at most the same amount.", "quantifier": "all robots, configurations, roundings, scenes and paths", "why_tests_cant": "A continuum of configurations; the tests compare a handful, and never after the conversion to float32.", "anchors": ["acrobotics/planning.py:115", "acrobotics/planning.py:310", "acrobotics/robot.py:123-133", "acrobotics/robot.py:144-153", "acrobotics/resources/robots.py:182-281"]}
{"id": "C113", "title": "Two links that run through each other are reported", "statement": "The self-collision check of the shipped Kuka reports every configuration in which two links that are not neighbours have a common point (the source says it leaves out link neighbours). False: the band of the collision matrix also leaves out the links next to the neighbours, and there is a configuration in which the third link runs through the first, with a cube of 2 cm inside both, that is reported free. True for links with an index difference of at least three, after any history of calls. Neighbours touch in every configuration of Kuka and KukaOnRail, so they have to be left out. The exact space every link takes in its own frame is given for all shipped robots.", "quantifier": "all configurations, link lengths, rigid bases, scenes and histories of calls", "why_tests_cant": "The tests look at two configurations; the missed ones are a region of a six-dimensional space.", "anchors": ["acrobotics/robot.py:115-118", "acrobotics/robot.py:167-182", "acrobotics/robot.py:189-215", "acrobotics/resources/robots.py:31-58", "acrobotics/resources/robots.py:97-106", "acrobotics/resources/robots.py:169-178", "acrobotics/resources/robots.py:284-315", "acrobotics/resources/robots.py:354-385"]}
{"id": "C114", "title": "What kingpin.py computes", "statement": "For every robot with determined answers, kingpin.py raises IndexError exactly when some point of the seam has no collision-free solution for any of its 600 frames; otherwise it ends with a path of ten configurations, the i-th being the rounding to float32 of a collision-free solution for point i. For the Kuka with the torch of the script, with any collision library and any earlier use of the robot, these configurations touch neither the scene nor themselves and put the tip of the torch at one of the 600 frames of its point, away from snapped elbows and stretched wrists; conversely a path is found when every point can be welded by a regular free configuration. In every frame the wire points between straight into the upright plate and straight down. The scene is a table, a plate on it, an upright plate and a block, and the seam runs along the whole inner edge of the two plates. All 6000 frames are within the reach of the Kuka, which returns four or eight solutions for each, so that only collisions can make the script fail. With a collision library that is exact for boxes they do not: at every point the frame with the wire straight down is reached with the elbow up and nothing touching, and the script ends with a path.", "quantifier": "all robots with determined answers, collision libraries, histories of the robot, lawful queues and roundings", "why_tests_cant": "The script is not run by any test, and it needs matplotlib, CasADi and fcl.", "anchors": ["examples/kingpin.py:6-94", "acrobotics/planning.py:283-313", "acrobotics/planning.py:388-455", "acrobotics/path.py:37-107"]}
{"id": "C115", "title": "What tool_first_cc.py computes", "statement": "For every robot with determined answers and all random numbers, tool_first_cc.py never raises. It says \"No path found\" exactly when some of its five points has no collision-free solution for any of the thousand orientations drawn for it; otherwise it ends with a path of five configurations, the i-th being the rounding of a collision-free solution for point i. With the Kuka of the script, independent uniform draws and an exact test of boxes it finds a path with positive probability.", "quantifier": "all robots with determined answers, random numbers, lawful queues and roundings", "why_tests_cant": "The random orientations differ in every run.", "anchors": ["examples/tool_first_cc.py:13-53", "acrobotics/planning.py:283-313", "acrobotics/planning.py:388-455", "acrobotics/path.py:159-184"]}
{"id": "C116", "title": "iterative_grid_refining.py ends when every point can be reached", "statement": "When every one of the fifteen points has a collision-free solution for one of the orientations drawn in the first round, the script ends with its costs, times and path. False: the published pyquaternion has no random_near, so the script raises AttributeError in its second round. Exactly: with the published pyquaternion the script never ends; it raises KeyError when some point is unreachable in the first round and AttributeError when all are reachable (with exact cosines in fk; see C136 for float32), for the shipped Kuka with any collision library and any earlier use. With a random_near: when it ends there are five costs, five times and a path of fifteen configurations whose cost is the last cost, each configuration being the rounding of a collision-free solution for a frame drawn at the pose of the round before; and it does end when every pose has a reachable sample. With the Kuka of the script, independent uniform draws and an exact test of boxes the first round succeeds, and AttributeError is raised, with positive probability.", "quantifier": "all robots with determined answers, random numbers, lawful queues and roundings", "why_tests_cant": "The script is not run by any test; the branch needs a successful first round.", "anchors": ["examples/iterative_grid_refining.py:11-29", "acrobotics/planning.py:232-280", "acrobotics/path.py:226-244"]}
{"id": "C117", "title": "What follow_line_orientation_free.py and weld_circle.py compute", "statement": "For every robot with determined answers and all random numbers, follow_line_orientation_free.py (ten points on a line) and weld_circle.py (which solves the small passage of fifteen points, not the circle) end, with one configuration per point, when each point gets fifty collision-free solutions in some number of rounds of random orientations, and never end when some point does not. The i-th configuration is the rounding of a collision-free solution for an orientation drawn at point i; for a robot with sound inverse kinematics it puts the tool at that point and touches nothing. The initial path and the iteration counts the scripts set have no influence.", "quantifier": "all robots with determined answers, random numbers, lawful queues and roundings", "why_tests_cant": "The outcome depends on random numbers and one of the outcomes is an endless loop.", "anchors": ["examples/follow_line_orientation_free.py:10-20", "examples/weld_circle.py:17-71", "examples/line_orient_free.json:1-24", "examples/small_passage_2.json:1-80", "acrobotics/planning.py:316-351"]}
{"id": "C118", "title": "The paths of the shipped task files avoid their obstacles", "statement": "Each of the five task files of /examples can be loaded and no point of its path lies in an obstacle. False of small_passage.json and small_passage_2.json: the lintel of the gate starts exactly at the height of the path, so the three middle points of fifteen lie in its lower face, and no others; any lower point is free. The opening of the gate is exactly 35 mm wide, below height 0. The other three files keep 2 cm distance from all obstacles.", "quantifier": "all points of the five files, all distances below the path, gates at all places", "why_tests_cant": "No test loads these files.", "anchors": ["examples/line_orient_free.json:1-24", "examples/line_x_tol.json:1-25", "examples/small_passage.json:1-36", "examples/small_passage_2.json:1-80", "examples/weld_circle.json:1-21", "acrobotics/io.py:84-142"]}
{"id": "C119", "title": "The angles in the editor's task files are read as they are meant", "statement": "Every line with tolerances on the angles in the task files of the editor gets the angles that are written: in degrees when one of them is beyond \u00b110, otherwise in radians. False of the line retract_1 of industrial_1.json, rpy [135, -20, 0]: its points get 135 degrees and -20 radians. Exactly: a line is read as meant iff all angles are within \u00b110 or each is 0 or more than 10; so all other lines are.", "quantifier": "all lines with three angles and tolerances, all numbers of points", "why_tests_cant": "guess_angle_unit is not tested with negative angles.", "anchors": ["examples/tasks/industrial_1.json:1-87", "examples/tasks/path_in_box.json:1-31", "examples/tasks/torch_obstacle.json:1-31", "acrobotics/io.py:61-80"]}
{"id": "C120", "title": "Kuka.ik returns None exactly for poses out of reach", "statement": "The ik of Kuka returns None exactly when no configuration reaches the pose. False: for poses out of reach by less than a millionth of the arm lengths it returns solutions, as Arm2.ik rounds |c| slightly above 1. Exactly: a pose is reached by some configuration iff the triangle of shoulder, elbow and wrist centre closes for one of the two sides of the shoulder, i.e. the wrist centre is between |a2 - d4| and a2 + d4 from the shoulder; ik returns None iff it fails to close by more than a millionth, eight solutions iff it closes on both sides and four iff on one. The same for KukaOnRail with the rail at a given place, but ik always uses the default lengths.", "quantifier": "all arm lengths with a2 d4 ≠ 0, bases, tools, poses, histories of calls", "why_tests_cant": "The tests call ik with poses computed by fk, which are in reach; the set of reachable poses has no finite description by samples.", "anchors": ["acrobotics/resources/robots.py:182-281", "acrobotics/resources/robots.py:284-351", "acrobotics/resources/robots.py:354-409"]}
{"id": "C121", "title": "Which robot works with which planner", "statement": "The planners and the inverse kinematics of the robots fit only in some pairs. PlanningTask.solve with KukaOnRail raises TypeError in every grid method as soon as there is one pose to solve, as its ik needs the rail position. cart_to_joint_simple with Arm2, AnthropomorphicArm, SphericalWrist or Kuka raises TypeError as soon as there is a pose and a value for the redundant joint, as their ik takes the pose only. Robots without ik (PlanarArm, SphericalArm, Puma) raise AttributeError in all of them. cart_to_joint_simple with KukaOnRail raises ValueError at the first pose if the value for the redundant joint is not one number.", "quantifier": "all tasks with a scene, paths, samples, fixed joint values, robots of these classes, histories", "why_tests_cant": "No test calls a planner with a robot of another class than the one it was written for.", "anchors": ["acrobotics/planning.py:52-83", "acrobotics/planning.py:92-118", "acrobotics/planning.py:232-351", "acrobotics/resources/robots.py:9-42", "acrobotics/resources/robots.py:389-409"]}
{"id": "C122", "title": "The scene files of the editor hold the scenes they stand for", "statement": "All five scene files load, whatever else is on the disk. task_to_urdf.py replaces small_passage.urdf in its folder by exactly the shipped file and touches no other file; importing it gives the obstacles of small_passage_2.json. circle.urdf gives the obstacles of weld_circle.json. path_in_box.urdf is exactly what export_urdf writes for the workpiece, and importing it gives the workpiece. torch_obstacle.urdf holds the boxes of kingpin.py up to rounding (1e-15).", "quantifier": "all contents of the disk, all folders", "why_tests_cant": "No test loads the files of the editor.", "anchors": ["examples/task_to_urdf.py:14-22", "acrobotics/urdfio.py:80-127", "examples/scenes/circle.urdf:1-30", "examples/scenes/small_passage.urdf:1-70", "examples/scenes/path_in_box.urdf:1-110", "examples/scenes/torch_obstacle.urdf:1-90", "examples/scenes/industrial_1.urdf:1-130"]}
{"id": "C123", "title": "The paths of the editor avoid the scenes of the same name", "statement": "Each task of the editor and the scene of the same name load, and no point of a path lies in an obstacle. False of small_passage (exactly the points 6, 7 and 8 touch the lintel) and of industrial_1 (exactly the last point of the approach, the first of the weld and the first of the retraction touch, and only the table and the side plate). The others keep a distance of 3 cm (circle), 4 cm (path_in_box) and 1.4 cm (torch_obstacle).", "quantifier": "all points of all paths, all obstacles, all contents of the disk", "why_tests_cant": "No test loads the files of the editor.", "anchors": ["examples/tasks/circle.json:1-24", "examples/tasks/small_passage.json:1-26", "examples/tasks/path_in_box.json:1-31", "examples/tasks/torch_obstacle.json:1-31", "examples/tasks/industrial_1.json:1-87", "examples/scenes/circle.urdf:1-30", "examples/scenes/small_passage.urdf:1-70", "examples/scenes/path_in_box.urdf:1-110", "examples/scenes/torch_obstacle.urdf:1-90", "examples/scenes/industrial_1.urdf:1-130"]}
{"id": "C124", "title": "The motions of industrial_1 join", "statement": "Each motion of the task industrial_1 starts where the one before ends. False: the approach ends where the weld starts, but the weld ends 5 cm beside and above the end of the seam, where the retraction starts; only the first of its ten points is on the seam, and it ends at the end of the retraction. Two lines of the editor join exactly when the end point of the first is the start of the second.", "quantifier": "all motions, all points of the weld, all lines with two or more points", "why_tests_cant": "No test loads the files of the editor.", "anchors": ["examples/tasks/industrial_1.json:1-87", "acrobotics/io.py:27-28", "acrobotics/io.py:69-111"]}
{"id": "C125", "title": "The editor's torch_obstacle and path_in_box are the tasks of kingpin.py and workpiece_model.py", "statement": "Every frame that kingpin.py asks for at a point is asked for, to a thousandth, at that point of torch_obstacle.json. False: the file puts the tolerance on the first angle instead of the second, so no frame of the file is near any frame of the script at the same point; the positions agree to 1e-8, with 100 frames per point instead of 600. path_in_box.json agrees with the path of workpiece_model.py: the same positions, the same angles to 1e-8, tolerance on the same angles, but 100 frames per point instead of 30.", "quantifier": "all points, all frames of both, all random draws", "why_tests_cant": "No test loads the files of the editor.", "anchors": ["examples/tasks/path_in_box.json:1-31", "examples/tasks/torch_obstacle.json:1-31", "examples/kingpin.py:22-41", "acrobotics/resources/workpiece_model.py:34-55", "acrobotics/io.py:69-81"]}
{"id": "C126", "title": "Resampling an axis-angle point stays within its tolerance", "statement": "Resampling an axis-angle point around a solution that it allows gives a point whose samples are all allowed by the point before. False: SolutionPoint.resample takes the axis of the solution's own orientation instead of the axis of the point, so a tool that points down and may turn about the vertical is turned about the first axis. Exactly, for every solution: position and orientation of the solution, half the range, the same number of samples, the solution turned about the axis of its own orientation; in the unit orientation there is no axis and the next round raises ZeroDivisionError.", "quantifier": "all axis-angle points, robots, solutions, reductions, numbers of samples", "why_tests_cant": "No test resamples a point with a tolerance about an axis.", "anchors": ["acrobotics/planning.py:200-229", "acrobotics/path.py:159-180"]}
{"id": "C127", "title": "What optimization_based.py hands to the solver and plots", "statement": "In optimization_based.py, `ik` at the start of the line has eight solutions which all reach it; the solver is given the problem of the straight line over the table and, as start value, fifteen copies of the sixth solution. If the solver succeeds and its values are feasible, the plotted path has fifteen configurations of six joints, each with the flange at its point of the line, all links away from the table and no collision reported; without success the script raises KeyError. Such a path exists. With any other number of points than the library's fifteen the script raises.", "quantifier": "all solvers, all numbers of points of the script, all histories of calls", "why_tests_cant": "The script is not run by the tests; the solver is not deterministic across versions.", "anchors": ["examples/optimization_based.py:9-27", "acrobotics/resources/path_on_table.py:24-29", "acrobotics/optimization.py:8-48"]}
{"id": "C128", "title": "A reaching Kuka does not collide with itself", "statement": "With the flange of the Kuka 0.8 m or more from the origin of the base, no two links that the self-collision check compares have a common point, in any configuration and for every rigid base; is_in_collision then answers whether the base or a link touches the scene.", "quantifier": "all configurations with the flange at least 0.8 m away, all rigid bases, scenes and histories of calls", "why_tests_cant": "Infinitely many configurations.", "anchors": ["acrobotics/robot.py:115-118", "acrobotics/resources/robots.py:285-318"]}
{"id": "C129", "title": "The optimization problem admits exactly the good paths", "statement": "For robots with six revolute joints and one shape per link, the joint paths admitted by the problem of get_optimal_path are exactly those that reach the position of every path point with all links at the margin from all obstacles; each of them is the result with some solver; and what is minimised is the sum over steps and joints of the squared change of the joint value.", "quantifier": "all paths with positions, robots with six revolute joints and one shape per link, scenes, joint paths", "why_tests_cant": "The tests run the solver on one problem.", "anchors": ["acrobotics/optimization.py:8-48", "acrobotics/optimization.py:51-107"]}
{"id": "C130", "title": "When the nominal pose is one of the samples", "statement": "Without a nominal value, the middle of a range of positive length is one of its samples exactly if their number is odd and at least three; with the default arguments (ten samples) it never is. A given nominal value is a sample exactly if it is one of the equally spaced values. The nominal frame of a TolEulerPt is one of its samples if this holds for all its entries, and only if it holds for the position entries. No point of a weld line and no point of path_pos_tol has its nominal pose among its samples. The constructor stores the nominal values of the first three entries of both lists.", "quantifier": "all ranges, numbers of samples, nominal values, points, weld lines and numbers of points", "why_tests_cant": "The tests use integers for which the middle is a sample.", "anchors": ["acrobotics/path.py:20-34", "acrobotics/path.py:41-103", "acrobotics/resources/workpiece_model.py:34-45", "acrobotics/resources/path_on_table.py:12-21", "examples/path_in_box.py:31-32"]}
{"id": "C131", "title": "Pointers between nodes and data", "statement": "Whatever the order in which columns are added and init, reset and the searches are called, the pointer jv of every node leads to the row of the graph data that its path and sample index name, as long as set_graph_data is not called after init; set_graph_data leaves all of them dangling. The parent pointer of every node can be read as long as every search is followed by a reset before the next init, and after a search it leads to the node the search chose. Adding the data, init, a search that gives a node a parent and init again makes print_graph read freed memory.", "quantifier": "all call histories of a graph, all growth policies of std::vector (the last sentence: doubling)", "why_tests_cant": "A read of freed memory usually returns the old values, so a test sees nothing; the tests call init once.", "anchors": ["acrobotics/cpp/include/graph.h:17-37", "acrobotics/cpp/src/graph.cpp:128-153", "acrobotics/cpp/src/graph.cpp:271-286", "acrobotics/cpp/src/graph.cpp:387-396", "acrobotics/cpp/src/graph.cpp:443-454"]}
{"id": "C132", "title": "The random round trips of the tests, for all draws", "statement": "Drawing joint values, computing the pose with fk, solving it with ik and comparing the poses of all solutions, as tests/test_robot.py does with a tolerance of 1.5e-7: for AnthropomorphicArm this passes with exact solutions if the cosine of the elbow angle is at most 1 - 1e-6 in absolute value or exactly one, for Arm2 if the same holds for the elbow of the forward and of the backward solutions (or these do not exist), for SphericalWrist on every base if the second joint value is not a multiple of half a turn, for Kuka and KukaOnRail with every base and tool, after every history, if all solutions returned have a bent elbow and wrist. It does not pass for all draws: an elbow that is folded almost but not quite always fails for AnthropomorphicArm, for Kuka (sine of the third joint value between -1 + 1e-7 and -1 + 1e-6, whatever the other joint values) and for KukaOnRail, and so does the wrist at (pi/2, 0, 0).", "quantifier": "all draws, all call histories, all rigid bases of the wrist and of the Kuka, all rigid tools (for the failures: with a tip at most one metre away along each axis)", "why_tests_cant": "The tests draw twenty samples; the failing draws have a probability of about one in a thousand or less, so the tests fail now and then.", "anchors": ["tests/test_robot.py:240-398", "acrobotics/resources/robots.py:110-160", "acrobotics/resources/robots.py:182-281", "acrobotics/resources/robots.py:65-90", "acrobotics/resources/robots.py:284-410"]}
{"id": "C133", "title": "The planar arm of the documentation collides exactly where its beams and its pen are", "statement": "For the planar arm that docs/source/robots_and_links.ipynb builds, for all lengths and joint values, with any tool or none, any scene and after any history of calls, is_in_collision answers True exactly when one of the three beams (0.1 thick, from joint to joint, in the directions q1, q1+q2, q1+q2+q3) or the tool in the frame of the last link has a point in common with a box of the scene, or the tool has a point in common with one of the first two beams. The pen of the page is the beam 0.05 thick and 0.3 long in front of the last link, and fk returns the frame at its far end. The four answers (after any history), the fk matrix, the ik success and the vertices recorded on the pages come out of the model.", "quantifier": "all link lengths, joint values, tools, scenes and call histories, with the exact collision oracle", "why_tests_cant": "The pages show four calls with one arm.", "anchors": ["docs/source/robots_and_links.ipynb:156-169", "docs/source/robots_and_links.ipynb:211-226", "docs/source/robots_and_links.ipynb:453-494", "acrobotics/robot.py:189-215", "acrobotics/robot.py:167-182"]}
{"id": "C134", "title": "The order of the arguments of TolerancedNumber on the page about tolerances", "statement": "docs/source/tolerances_on_a_path.ipynb writes TolerancedNumber(nominal, lower, upper). This gives a number with that nominal value and those bounds. (False: the constructor takes lower, upper, nominal, and the order of the page raises ValueError for every range that is not a single number; in the order of the code the result is the described number.)", "quantifier": "all nominal values and bounds with lower \u2264 nominal \u2264 upper", "why_tests_cant": "The page is not a test and is not run.", "anchors": ["docs/source/tolerances_on_a_path.ipynb:32-34", "acrobotics/path.py:20-31"]}
{"id": "C135", "title": "ik returns every configuration that reaches the target exactly once, away from singular positions", "statement": "For Arm2, AnthropomorphicArm, SphericalWrist and Kuka with all link lengths that are not zero, and for KukaOnRail with its default lengths at every position on the rail, all targets, bases, tools and earlier calls: if the (wrist centre of the) target is not on the first axis and no returned solution has a stretched or folded elbow or a stretched wrist, then a configuration reaches the target (fk gives exactly its position, orientation or pose) if and only if it is in the returned list up to full turns of the joints, and then it is there at exactly one place. A returned solution with a stretched or folded arm (not folded onto the shoulder, and for the Kuka with a bent wrist) is in the list a second time, up to full turns. The two solutions for a stretched wrist differ by half a turn of the first and of the third joint.", "quantifier": "all lengths, targets, joint values, bases, tools and call histories, over the reals", "why_tests_cant": "The tests compare fk of the returned solutions with the target; they neither count the solutions nor look for missing or equal ones.", "anchors": ["acrobotics/resources/robots.py:65-86", "acrobotics/resources/robots.py:110-160", "acrobotics/resources/robots.py:192-286", "acrobotics/resources/robots.py:322-351"]}
{"id": "C136", "title": "The pose of a planned configuration is accepted as a rotation", "statement": "After a round, the iterative planner turns fk of every configuration of the path into a quaternion. For every configuration of float32 numbers this succeeds. False: the configurations are float32, so their cosines and sines are too, and pyquaternion refuses a matrix whose rows are not orthogonal to within 1e-8: with correctly rounded cosines the Kuka at (1, 1, 0, 0, 0, 0) gives ValueError, and so does the planner when all solutions of one point are like that. Two float32 numbers with c^2 + s^2 = 1 exactly have c = 0 or s = 0. What holds, for all robots: the pose is accepted when every |c^2 + s^2 - 1| <= delta with (1 + delta)^ndof <= 1 + 1e-8, in particular with double precision for up to a hundred joints. With the published pyquaternion and any cosines and sines, two or more rounds always raise: ValueError in the first round or AttributeError in the second; iterative_grid_refining.py raises KeyError, ValueError or AttributeError.", "quantifier": "all robots, configurations, cosine and sine functions with the given accuracy, random numbers, scenes and collision libraries", "why_tests_cant": "Needs the float32 results of a successful search; no test runs the iterative planner.", "anchors": ["acrobotics/planning.py:200-224", "acrobotics/planning.py:255-269", "acrobotics/robot.py:35-58", "acrobotics/robot.py:124-134", "examples/iterative_grid_refining.py:11-29"]}
{"id": "C137", "title": "The editor started by path_in_box.py can plan the path in the box", "statement": "path_in_box.py prints the angles -3pi/4, 0, pi ten times and opens the editor on a Kuka at the origin. With the box as scene some click on Plan finds a solution. False: the Kuka stands in the floor of the box. Standing upright at any height between -0.1 and 0.11, at least 0.1 from the sides, its first link runs into the floor in every configuration, so with any collision library that reports boxes running into each other Plan raises in every state of the editor with the box as scene. With the shipped files, loading the default scene and path succeeds, Plan logs ten zeros and raises AttributeError, no solution is stored, and Show solution says so. Well inside the box the first link is free exactly at the heights outside -0.1..0.11 and 0.91..1.12. multiple_paths.py shows ten markers on its line and the edges of the table.", "quantifier": "all configurations, collision libraries that see overlaps, states of the editor, random numbers, directories, contents of the rest of the disk", "why_tests_cant": "No test opens the editor or imports the examples.", "anchors": ["examples/path_in_box.py:18-35", "examples/multiple_paths.py:8-15", "gui/task_editor.py:95-114", "gui/task_editor.py:127-134", "gui/task_editor.py:162-186", "acrobotics/resources/robots.py:288-320", "acrobotics/resources/workpiece_model.py:15-31", "acrobotics/resources/workpiece_model.py:49-55"]}
{"id": "C138", "title": "The random orientations are uniformly distributed over the rotations", "statement": "As the docstring of sample_SO3 says, its random samples are uniform on the rotations: for every n, if the 3n numbers come independently and uniformly from [0,1), the n rotations returned (as transforms, and as quaternions) are independent, and the distribution of each does not change when every rotation is turned by a fixed one from the left or from the right; only one distribution on the rotations has this property. The same holds for the samples of a path point with free orientation, which all lie at the point. It holds for the frames that point_to_frame makes of the default rows too, for almost all draws, although such a frame is not the rotation that was drawn. random_quaternion of samplers.py would be uniform as well if its file had the import.", "quantifier": "all numbers of samples, all fixed rotations, all measurable sets of rotations, all positions, all draws (almost all for the rows)", "why_tests_cant": "A test draws finitely many samples; uniformity is a statement about measure on a continuum.", "anchors": ["acrobotics/util.py:233-259", "acrobotics/path.py:186-217", "acrobotics/path.py:256-266", "acrobotics/samplers.py:13-21"]}
{"id": "C139", "title": "The Halton samples leave no gaps, in the cube and in the rotations", "statement": "Cut the cube into equal boxes, along dimension j into a power of the sampler's base of that dimension. After any history of requests, as many consecutive rows as there are boxes have exactly one point in each box, and any number of consecutive rows has in each box the share that belongs to its size, up to less than one point. The averages of every continuous function over the points tend to its integral. The Halton orientations of sample_SO3 are the first members of one sequence of rotations; the averages of every continuous function over it tend to the average over all rotations; and for every rotation and tolerance, enough samples contain a rotation that agrees with it within the tolerance.", "quantifier": "all dimensions from 1, all histories of requests, all resolutions and boxes, all windows, all continuous functions, all rotations and tolerances", "why_tests_cant": "Even spacing is a statement about all windows of an infinite sequence and a limit; tests see finitely many points.", "anchors": ["acrobotics/util.py:211-230", "acrobotics/util.py:233-259"]}
{"id": "C140", "title": "A planned path stays free of collisions between its configurations", "statement": "Whenever the grid planner succeeds, the robot collides neither with the scene nor with itself while all joints move at constant speed from each configuration of the path to the next. False: an Arm2 that has to reach a point on its right and one on its left swings through a cube in between. True if at every configuration of the path the robot keeps further away from the scene and from itself than it can move on half of the way to its neighbours; for a Kuka whose joints turn by at most delta per step, a margin of delta/2 (|a1| + 2|a2| + 4|d4| + 6|d6| + 6 rho) is enough (rho the size of links and tool).", "quantifier": "all robots, scenes, paths, moments of the motion and histories of calls", "why_tests_cant": "A motion has infinitely many configurations; a test checks the ones it samples, as the planner does.", "anchors": ["acrobotics/planning.py:52-79", "acrobotics/planning.py:283-315", "acrobotics/robot.py:155-215", "acrobotics/resources/robots.py:163-281", "acrobotics/resources/robots.py:284-320"]}
{"id": "C141", "title": "More configurations to choose from never make the path longer", "statement": "When configurations are added to the columns of a search, the length of the path that get_shortest_path reports does not grow. False: with two samples per point Dijkstra's search reports 6, with four, among them these two, 10; and with one orientation per point the grid planner plans a path of length 19, with two, the first ones the same, one of length 33. It holds for the breadth-first search, for at most two columns, and for a queue that pops a node of least current distance; with the latter the grid planner's path does not get longer either when more orientations are tried per point. Whether the grid planner succeeds is monotone with every queue.", "quantifier": "all columns, weights, counts of samples, robots with determined answers, scenes and draws", "why_tests_cant": "A user who raises the number of samples and gets a worse path sees random noise; no test compares two runs, and no finite comparison shows that the breadth-first search never does this.", "anchors": ["acrobotics/planning.py:283-315", "acrobotics/planning.py:388-455", "acrobotics/planning.py:52-61", "acrobotics/cpp/src/graph.cpp:21-126"]}
{"id": "C142", "title": "With enough samples the grid planner almost surely succeeds", "statement": "If every point of a path of FreeOrientationPt can be reached, in some orientation, by a configuration that touches neither a box of the scene nor the robot itself and is not singular, then the probability that solve(robot, \"grid\") fails with n samples per point is at most (number of points) * (1 - u)^n for some u > 0, and for almost all random numbers it succeeds from some n on. For any robot with determined answers the same holds with u the least probability that a random orientation at a point has a collision-free solution; for the Kuka with any rigid base and tool and an exact collision test u > 0 follows. With any number of samples from one on it succeeds with positive probability.", "quantifier": "all Kuka dimensions, rigid bases and tools, scenes of boxes, non-empty paths, queues that neither lose nor invent nodes, numbers of samples; almost all random numbers", "why_tests_cant": "A failed run with a finite number of samples says nothing about whether more samples would help; the statement is about a limit and about all random numbers.", "anchors": ["acrobotics/planning.py:52-61", "acrobotics/planning.py:283-315", "acrobotics/path.py:186-214", "acrobotics/util.py:233-257", "acrobotics/resources/robots.py:284-351"]}
{"id": "C143", "title": "ik returns angles between minus and plus a half turn", "statement": "Every joint angle returned by an ik method lies in [-pi, pi] (robots.py:206). This holds for Arm2, AnthropomorphicArm and SphericalWrist, for every robot and target. It is false for Kuka and KukaOnRail: their third angle lies in [-pi/2, 3 pi/2] (and can exceed pi), the others in [-pi, pi]. Consequence: a non-singular configuration strictly within these ranges is returned with exactly the same numbers when ik is asked for the frame that fk computed from it (Arm2, Kuka).", "quantifier": "all dimensions, bases, tools, targets, signs of zeros and earlier calls", "why_tests_cant": "Ranges are about all real targets, including those on the axes, where the sign of a zero decides between -pi and pi.", "anchors": ["acrobotics/resources/robots.py:65-90", "acrobotics/resources/robots.py:110-160", "acrobotics/resources/robots.py:182-281", "acrobotics/resources/robots.py:322-351", "acrobotics/resources/robots.py:389-409"]}
{"id": "C144", "title": "No free way through the samples is shorter than the planned path", "statement": "If a way with one collision-free, non-singular configuration per path point, each reaching one of the sampled frames, exists, the path that solve(robot, \"grid\") returns costs at most as much (sum of squared joint changes). False of the code: joint values beyond the half turn are not considered, so an arm is turned the long way round. True for ways strictly within the ranges of C143 when the search is exact (a queue that pops a node of least current distance, or at most two path points with the heap that the code uses), for Arm2 and Kuka.", "quantifier": "all dimensions, scenes, tasks with path points of any kind, random numbers, ways, earlier calls; exact arithmetic", "why_tests_cant": "A test would have to know all ways through the samples.", "anchors": ["acrobotics/planning.py:52-61", "acrobotics/planning.py:283-315", "acrobotics/planning.py:388-455", "acrobotics/resources/robots.py:182-281", "acrobotics/resources/robots.py:322-351", "acrobotics/cpp/src/graph.cpp:69-126"]}
{"id": "C145", "title": "With more and more samples the planned path approaches the shortest free way", "statement": "Take a path of points with free orientation and a Kuka among boxes, with any base and tool, and a search that is exact (a queue that pops a node of least current distance, or at most two points with the heap of the code). For every way that visits the points in free, non-singular configurations with joint values strictly within the ranges of ik and with orientations of its choice, and every eps > 0, the probability that solve(robot, \"grid\") does not return a path costing at most the way plus eps falls exponentially with the number of samples per point. Almost surely the cost of the planned path comes and stays below every number above the infimum over all such ways. The reported cost is the cost of the path.", "quantifier": "all dimensions with a2*d4 != 0, bases, tools, scenes of boxes, paths, ways, eps and random numbers; exact arithmetic, exact test of boxes", "why_tests_cant": "It is a limit over infinitely many samples, compared with uncountably many ways.", "anchors": ["acrobotics/planning.py:52-61", "acrobotics/planning.py:283-315", "acrobotics/path.py:186-214", "acrobotics/util.py:233-257", "acrobotics/resources/robots.py:322-351", "acrobotics/cpp/src/graph.cpp:69-126"]}
{"id": "C146", "title": "The incremental planner ends with probability one when every point can be reached", "statement": "PlanningTask.solve with \"grid_incremental\" draws one orientation after another at a point until the point has fifty free configurations (max_tries of cart_to_joint_incremental is compared with the configurations found, so it does not limit the tries). For a path of points with free orientation: if at every point a sample gives a free configuration with probability at least u > 0, then the probability that the call has not returned a path within 50*n tries per point is at most 50 * (number of points) * (1-u)^n, almost surely the call returns, and a number of tries that is enough has a mean of at most 2500 * (number of points) / u. If at one point the probability is 0, the loop almost surely never ends. For a Kuka among boxes, one free, non-singular configuration at each point, with joint values strictly within the ranges of ik, is enough. The script follow_line_orientation_free.py therefore ends with probability one and plans a path of ten free configurations, and weld_circle.py one of fifteen: with the wire straight up and the elbow down the torch reaches every point of the small passage and nothing touches.", "quantifier": "all paths, robots with a determined ik, bases, tools, scenes of boxes and numbers of tries; independent uniform draws, exact arithmetic, exact test of boxes", "why_tests_cant": "It is a statement about an unbounded loop under random draws; a test sees finitely many tries of one seed.", "anchors": ["acrobotics/planning.py:78-81", "acrobotics/planning.py:316-351", "acrobotics/path.py:186-214", "acrobotics/resources/robots.py:322-351", "examples/follow_line_orientation_free.py:1-27", "examples/weld_circle.py:17-71", "examples/small_passage_2.json:1-80"]}
{"id": "C147", "title": "The planned path has the least joint travel", "statement": "Of all paths that take one configuration from each column, the one that get_shortest_path returns has the least travel, the sum over all moves and joints of the absolute change of the joint value (what cost_function of graph.cpp adds up, and what the length recorded in notebooks/iterative_grid_refining_plots.ipynb is). At this commit the searches use cost_function_2, which adds up squares.", "quantifier": "all numbers of joints and points, all proper columns; exact arithmetic; queues for which the search is exact, and the heap of the code with two columns", "why_tests_cant": "A test compares a few paths; that the travel is within a factor of the least one, and that no better factor holds, are statements about all columns.", "anchors": ["acrobotics/cpp/src/graph.cpp:69-126", "acrobotics/cpp/src/graph.cpp:168-186", "acrobotics/cpp/src/graph.cpp:256-264", "acrobotics/planning.py:388-455"]}
{"id": "C148", "title": "Planning among enlarged boxes keeps the whole motion clear of the boxes", "statement": "The planners test only the configurations of the path, and these before they are rounded to float32 (C140, C112). Enlarge every box of the scene by M on every side and plan. If the path that solve returns (\"grid\" or \"grid_incremental\", Kuka with any base and tool) moves no joint by more than delta from one configuration to the next, the rounding changes no joint value by more than eps, and (eps + delta/2) * (|a1| + 2*|a2| + 4*|d4| + 6*|d6| + 6*rho) <= M, where rho bounds the size of the links and of the tool, then the robot touches no box of the original scene while all joints move at constant speed from each configuration to the next. For any robot: a configuration that is clear of the enlarged boxes makes every configuration safe that moves no point of the robot by more than M. The grid planner with any robot keeps the whole motion clear if a change of every joint by eps + delta/2 moves no point of the robot by more than M; for a robot with n revolute joints (eps + delta/2) * n * (sum of the link lengths + rho) <= M is enough. The planning button of the task editor with a KukaOnRail does so if (eps + delta/2) * (1 + |a1| + 2*|a2| + 4*|d4| + 6*|d6| + 6*rho) <= M.", "quantifier": "all Kuka sizes, bases, tools, scenes of boxes, paths, random draws, queues and roundings, and all moments of the motion; exact test of boxes", "why_tests_cant": "A test can only look at finitely many moments of the motion.", "anchors": ["acrobotics/planning.py:284-313", "acrobotics/planning.py:316-351", "acrobotics/planning.py:388-455", "acrobotics/robot.py:145-215", "acrobotics/geometry.py:88-95"]}
{"id": "C149", "title": "The unused functions of graph.cpp relax edges correctly", "statement": "visit(n) changes exactly the nodes of the next column that are reached cheaper through n: they get the new distance and n as parent, their visited flag and all other nodes stay. init_unvisited appends the nodes of all columns but the first, column by column. sort_function is a strict weak order whose sorted lists end in a nearest node. With the start nodes set up as in the searches: after visiting any nodes in any order, every finite distance is the cost of a choice of rows that ends in that row, and the parent explains it; if the nodes of a choice are visited in their order, whatever is visited besides, the distance of its last row is at most the cost of the choice; so visiting the first column and then the list of init_unvisited gives every node the least cost and a parent that attains it, for all costs. The order matters: visiting a middle column too early can leave the last column unreached.", "quantifier": "all columns of rows, weights, costs (any monotone arithmetic), nodes and sequences of visits", "why_tests_cant": "The functions have no callers and are private, so no test can reach them.", "anchors": ["acrobotics/cpp/src/graph.cpp:11-15", "acrobotics/cpp/src/graph.cpp:155-166", "acrobotics/cpp/src/graph.cpp:188-201"]}
{"id": "C150", "title": "Planners see the robot only through its answers", "statement": "Take two robots, each in its own scene and after any earlier calls, whose ik, fk and is_in_collision give the same answers. A planning task with the same path and settings then has the same outcome with both, for the methods grid, grid_iterative and grid_incremental and for unknown method names: the same path, cost and history of rounds, or the same exception. In particular a task that ended without an exception has the same outcome when the same robot solves it again with the same random numbers. cart_to_joint_simple, with the same fixed joint values, likewise gives the same columns or the same exception.", "quantifier": "all pairs of robots and scenes with equal answers, all states of the robots, tasks, queues, random numbers and methods other than optimization", "why_tests_cant": "A test compares one robot with itself on one task; the claim relates all pairs of runs, with robot objects in different internal states.", "anchors": ["acrobotics/planning.py:52-83", "acrobotics/planning.py:177-280", "acrobotics/planning.py:283-351", "acrobotics/robot.py:124-215"]}
{"id": "C151", "title": "Boxes out of reach do not matter", "statement": "If two scenes have the same boxes within reach of the robot (every box with a point at most R from where the robot stands is in both or in none, in any order and number), with R at least the sum of the lengths of the links and the size of the last body, then is_in_collision gives the same answer in both scenes for every configuration and after any earlier calls, and PlanningTask.solve with a Kuka has the same outcome in both for the methods that search a grid. The same holds for planning with any robot with revolute joints whose ik keeps no state (Arm2: R at least 1.5 (|a1| + |a2| + |a3|) + 0.1), and for cart_to_joint_simple with a KukaOnRail, where R includes the farthest position on the rail that is tried.", "quantifier": "all robots with rigidly placed boxes, configurations, pairs of scenes, reaches R; for planning all Kukas, robots with revolute joints and KukaOnRails, bases, tools, tasks, positions on the rail, random numbers", "why_tests_cant": "The set of scenes and configurations is infinite; the claim that a box is far enough needs the triangle inequality along the chain of links.", "anchors": ["acrobotics/robot.py:145-215", "acrobotics/geometry.py:161-178", "acrobotics/planning.py:52-83", "acrobotics/resources/robots.py:284-351", "acrobotics/planning.py:92-118", "acrobotics/resources/robots.py:163-281", "acrobotics/resources/robots.py:354-410"]}
{"id": "C152", "title": "Moving robot, scene and path together changes nothing", "statement": "Move the base of the robot and every shape of the scene by the same rigid motion: every configuration collides with the scene, and with itself, exactly as before, and ik gives for the moved frame the solutions that it gave for the original frame (Kuka, and KukaOnRail for every position on the rail). Move in addition the position of every path point, of any of the five classes, by the same vector (intervals of tolerance included): all samples move by that vector, PlanningTask.solve with a Kuka has the same outcome for the methods grid, grid_iterative and grid_incremental, and cart_to_joint_simple with a KukaOnRail gives the same columns: the same joint path and cost, or the same exception.", "quantifier": "all rigid motions for the collision check and ik, all translations for planning; all bases, tools, scenes with rigid poses, paths, random numbers, earlier calls", "why_tests_cant": "A test compares a few positions of the robot, with rounding; the claim relates the runs of the planner for all translations and all samples.", "anchors": ["acrobotics/planning.py:52-83", "acrobotics/planning.py:92-118", "acrobotics/planning.py:177-280", "acrobotics/planning.py:283-351", "acrobotics/path.py:67-93", "acrobotics/path.py:136-153", "acrobotics/path.py:172-241", "acrobotics/robot.py:124-176", "acrobotics/resources/robots.py:322-353", "acrobotics/resources/robots.py:389-410"]}
{"id": "C153", "title": "A path searched backwards is as long as forwards", "statement": "The cost of a step is the same in both directions, so get_shortest_path reports the same length when the columns of configurations are given in reverse order, and PlanningTask.solve(method=\"grid\") reports the same cost for the path points in reverse order with the same samples.", "quantifier": "all columns of configurations with finite entries, non-negative weights, both search methods; all robots with a determined answer, tasks and samples", "why_tests_cant": "A test compares the two directions for a few paths, where the search often finds the same path; the difference shows only for particular columns.", "anchors": ["acrobotics/planning.py:52-61", "acrobotics/planning.py:283-315", "acrobotics/planning.py:388-455", "acrobotics/cpp/src/graph.cpp:21-126", "acrobotics/cpp/src/graph.cpp:178-186"]}
{"id": "C154", "title": "Other units for the weights or the joints keep the chosen path", "statement": "get_shortest_path only adds and compares step costs, so it makes the same choices in two calls whose step costs correspond through a map that keeps sums and the order. With all weights multiplied by the same positive number it returns the same path and the length times that number; with all joint values multiplied by the same number other than zero it returns the same choice of configurations and the length times the square of that number; with an offset added to the values of each joint it returns the same choice and the same length. This holds for both search methods and for Dijkstra's search also where the path is not the shortest one. The three searches of pygraph.py, which take the cost function and the limit of a step as arguments, have corresponding outcomes in the same sense.", "quantifier": "all columns of configurations, all weights, factors and offsets; both search methods, the queue as libstdc++ implements it; the general form for all cost arithmetics and maps between them, and for every outcome including faults", "why_tests_cant": "A test compares the paths for one change of units on a few columns. The queue compares distances that change while nodes are in it, so that the same choices are made everywhere in the search is not visible from single results.", "anchors": ["acrobotics/planning.py:388-455", "acrobotics/cpp/src/graph.cpp:21-126", "acrobotics/cpp/src/graph.cpp:178-186", "acrobotics/cpp/src/graph.cpp:203-264", "acrobotics/cpp/include/graph.h:39-45", "acrobotics/pygraph.py:39-162", "acrobotics/pygraph.py:165-259"]}
{"id": "C155", "title": "Taking obstacles away never makes planning worse", "statement": "If the grid planner finds a path and some obstacles are then taken out of the scene, it finds a path again for the same task and samples, and that path is not longer than the one before.", "quantifier": "all arms with answers that depend only on the pose or configuration (the robots of the package as instances), all scenes, tasks, samples and states; for the length the queue as libstdc++ implements it", "why_tests_cant": "A test removes one obstacle in one scene. Whether the search misses the path it found before depends on the order in which the new configurations enter the queue.", "anchors": ["acrobotics/planning.py:52-61", "acrobotics/planning.py:283-315", "acrobotics/planning.py:388-455", "acrobotics/robot.py:167-215", "acrobotics/cpp/src/graph.cpp:69-126"]}
{"id": "C156", "title": "The order of the obstacles does not matter", "statement": "Two scenes with the same shapes at the same places, listed in any order and with any repetitions, give the same answer of is_in_collision for every configuration and after any earlier calls, although the check stops at the first shape that is touched and reorders its list of links. Planning has the same outcome in both: the same path and cost, or the same exception, for PlanningTask.solve with a Kuka and the methods grid, grid_iterative and grid_incremental, and for cart_to_joint_simple with a KukaOnRail. Two task files with the same obstacle entries in any order give such scenes.", "quantifier": "all scenes, robots, configurations, earlier calls, tasks, methods other than optimization, random numbers, collision oracles", "why_tests_cant": "A test plans in one scene and one reordering of it. The order of the checks differs in every call, because the list of links is reordered by the hits.", "anchors": ["acrobotics/robot.py:189-215", "acrobotics/geometry.py:161-176", "acrobotics/planning.py:52-61", "acrobotics/planning.py:283-315", "acrobotics/io.py:127-142"]}
{"id": "C157", "title": "Kuka.ik leaves its wrist at the end of the arm", "statement": "Kuka.ik sets the base frame of its helper robot wrist behind every solution of the arm and leaves the last one there. Afterwards wrist.fk, for the last three angles of the last solution, gives the position of the flange.", "quantifier": "all lengths, bases, tools, rigid targets in reach, earlier states of the helper robots", "why_tests_cant": "A test of ik looks at the solutions. The base frame of the wrist is a side effect, of which ik itself uses only the rotation.", "anchors": ["acrobotics/resources/robots.py:322-351"]}
