{"id": "C01", "title": "Expression arithmetic is pointwise arithmetic on values", "statement": "Any formula built with +, -, unary -, multiplication by a double, by a constant expression or by a matrix on the left, adding a double or vector, double minus expression, stacking, slicing and sum() over variables and constants evaluates, at every assignment x of the decision variables, to the same formula applied to the operands' values (with a one-row constant broadcast to all rows); it raises an error exactly when the row counts are incompatible.", "quantifier": "all expression formulas of any depth, any sizes, all assignments x", "why_tests_cant": "Formulas are unbounded trees and x ranges over a continuum; tests only sample a few formulas at a few points.", "anchors": ["src/placo/problem/expression.cpp: Expression::operator+, operator-, operator*, operator/, slice, sum, value, piecewise_add", "src/placo/problem/variable.cpp: Variable::expr"]}
{"id": "C02", "title": "Comparison operators mean what they read", "statement": "e1 >= e2, e1 <= e2 and e1 == e2 (also with a double or a vector on either side) build a constraint that is satisfied at x if and only if every row of e1's value at x compares that way with the matching row of e2's value.", "quantifier": "all pairs of expressions, doubles, vectors; all x", "why_tests_cant": "A sign slip would only show on particular sides of the inequality; must hold at every x.", "anchors": ["src/placo/problem/expression.cpp: operator>=, operator<=, operator==", "src/placo/problem/constraint.h: ProblemConstraint"]}
{"id": "C03", "title": "Vector minus expression", "statement": "v - e evaluates at every x to v minus the value of e.", "quantifier": "all vectors v, expressions e of the same row count, all x", "why_tests_cant": "Symmetric test data (v equal to the value, zero vectors) hides a sign error.", "anchors": ["src/placo/problem/expression.cpp: operator-(const Eigen::VectorXd, const Expression&)"]}
{"id": "C04", "title": "Expression minus double", "statement": "e - f subtracts f from every row of e, for any number of rows, as e + (-f) does.", "quantifier": "all expressions of any row count, all doubles, all x", "why_tests_cant": "One-row expressions behave; only multi-row inputs expose the size mismatch.", "anchors": ["src/placo/problem/expression.cpp: Expression::operator-(const double)"]}
{"id": "C05", "title": "mean() is the arithmetic mean of the rows", "statement": "e.mean() evaluates at every x to the sum of the rows of e divided by the number of rows.", "quantifier": "all expressions with at least one row, all x", "why_tests_cant": "Square expressions (rows == columns) hide a division by the wrong dimension.", "anchors": ["src/placo/problem/expression.cpp: Expression::mean, Expression::sum"]}
{"id": "C06", "title": "Variables partition the decision vector", "statement": "After any sequence of add_variable calls, the index ranges of the variables are disjoint, contiguous, in creation order, and cover exactly 0..n_variables-1; so variable values read after a solve are the consecutive slices of the solution vector.", "quantifier": "all sequences of add_variable calls with any sizes", "why_tests_cant": "Sequences are unbounded; overlap could depend on history.", "anchors": ["src/placo/problem/problem.cpp: Problem::add_variable, Problem::solve", "src/placo/problem/variable.cpp: Variable::expr, Variable::size"]}
{"id": "C07", "title": "Variable slices select the right entries", "statement": "variable.expr(start, rows) evaluates at every x to the rows consecutive entries of that variable's own slice beginning at start, with defaults meaning the whole variable; a range not inside the variable is not a defined request.", "quantifier": "all variables, all in-range start/rows, all x", "why_tests_cant": "Index arithmetic must be right for all offsets, not only the ones tried.", "anchors": ["src/placo/problem/variable.cpp: Variable::expr"]}
{"id": "C08", "title": "add_limit bounds the absolute value", "statement": "problem.add_limit(e, t) adds a constraint satisfied at x if and only if every row of e's value at x lies between -t_i and t_i.", "quantifier": "all expressions, all bound vectors of the same row count, all x", "why_tests_cant": "Must hold on both sides at every x and for every row.", "anchors": ["src/placo/problem/problem.cpp: Problem::add_limit"]}
{"id": "C09", "title": "QP objective equals the weighted sum of squares", "statement": "For every set of soft equality constraints, the quadratic objective built (without sparsity) differs from 1/2 * (sum over soft equalities of weight*||A x + b||^2 + regularization*||x||^2) by a constant independent of x; hence minimisers coincide.", "quantifier": "all lists of constraints of any size, all weights and regularization, all x", "why_tests_cant": "Equality of two quadratic functions for all problems; tests only compare a few optima.", "anchors": ["src/placo/problem/problem.cpp: Problem::solve (soft equality accumulation, regularization)"]}
{"id": "C10", "title": "Sparsity option does not change the objective", "statement": "With use_sparsity enabled the assembled objective is the same as with use_sparsity disabled.", "quantifier": "all lists of soft equality constraints", "why_tests_cant": "The shortcut is exact on constraints touching one contiguous column range, which is what tests use.", "anchors": ["src/placo/problem/problem.cpp: Problem::solve (use_sparsity branch)", "src/placo/problem/sparsity.cpp: Sparsity::detect_columns_sparsity"]}
{"id": "C11", "title": "Interval sets stay sorted, disjoint and represent the union", "statement": "After any sequence of add_interval(start,end) with start<=end, the intervals are sorted, pairwise disjoint, non-empty, and an index belongs to one of them exactly when it belongs to one of the added intervals; sparsity + sparsity is the union.", "quantifier": "all sequences of add_interval calls over all integers", "why_tests_cant": "Merging depends on the whole history of insertions; five overlap cases interact.", "anchors": ["src/placo/problem/sparsity.cpp: Sparsity::add_interval, Sparsity::operator+, Sparsity::Interval::contains"]}
{"id": "C12", "title": "Column sparsity detection covers exactly the non-zero columns", "statement": "detect_columns_sparsity(M) contains column j exactly when column j of M is not numerically zero (threshold 1e-12), for every matrix.", "quantifier": "all matrices of all sizes", "why_tests_cant": "Run boundaries at first/last column and alternating patterns are unbounded in number.", "anchors": ["src/placo/problem/sparsity.cpp: Sparsity::detect_columns_sparsity"]}
{"id": "C13", "title": "Hard inequalities are exactly the QP's inequality rows", "statement": "A point together with slack values satisfies the inequality system handed to the QP solver if and only if every hard inequality constraint holds at that point and all slacks are non-negative; each row and slack index belongs to exactly the constraint that produced it.", "quantifier": "all lists of constraints mixing hard/soft and equality/inequality, all points", "why_tests_cant": "Row offset bookkeeping over arbitrary interleavings of constraint kinds.", "anchors": ["src/placo/problem/problem.cpp: Problem::solve (G, h, hard_inequalities_mapping, soft_inequalities_mapping)"]}
{"id": "C14", "title": "Soft inequalities only penalise violations", "statement": "For every x, minimising the QP objective over the slack variables leaves, for each soft inequality row, exactly weight times the square of its violation (zero when the row is satisfied).", "quantifier": "all soft inequality constraints, all x", "why_tests_cant": "Statement about a minimum over a continuum for each x.", "anchors": ["src/placo/problem/problem.cpp: Problem::solve (slack variables)"]}
{"id": "C15", "title": "Equality rewriting is lossless", "statement": "When hard equalities are eliminated through the QR change of variables, the points reachable by the reduced problem are exactly the points satisfying all hard equalities, and every other constraint keeps its value under the change of variables; so feasible set and objective are unchanged up to the regularization of the free part.", "quantifier": "all full-row-rank equality systems, all other constraints, all free variable values", "why_tests_cant": "Equivalence of two feasible sets in arbitrary dimension.", "anchors": ["src/placo/problem/problem.cpp: Problem::solve (rewrite_equalities), Problem::get_constraint_expressions"]}
{"id": "C16", "title": "Failed solves do not touch variables", "statement": "If solve() raises, every variable keeps its previous value and version; if it returns, every variable's version increases by exactly one and its value is its slice of the solution.", "quantifier": "all problems, all histories of solve calls, all solver outcomes", "why_tests_cant": "Needs all failure points, including those tests cannot trigger on demand.", "anchors": ["src/placo/problem/problem.cpp: Problem::solve", "src/placo/problem/variable.h: Variable::version, Variable::value"]}
{"id": "C17", "title": "Active constraint reporting", "statement": "After a successful solve, an equality is reported active; a hard inequality is reported active exactly when one of its rows is in the solver's active set; a soft inequality exactly when one of its slacks is at most 1e-6.", "quantifier": "all lists of constraints, all active sets and slack vectors", "why_tests_cant": "Index-to-constraint mapping must be right for every interleaving.", "anchors": ["src/placo/problem/problem.cpp: Problem::solve (is_active)", "src/placo/problem/constraint.h: ProblemConstraint::is_active"]}
{"id": "C18", "title": "Inconsistent problems are reported as errors, not undefined behaviour", "statement": "A problem containing a constraint that refers to more columns than there are variables, or with empty or mismatched sizes, makes solve() raise QPError.", "quantifier": "all problems and histories (e.g. clear_variables while constraints remain)", "why_tests_cant": "Out-of-bounds writes may silently succeed in a test run.", "anchors": ["src/placo/problem/problem.cpp: Problem::solve, Problem::clear_variables"]}
{"id": "C19", "title": "The QP handed to the solver has consistent dimensions", "statement": "For every problem that passes validation, objective, equality and inequality matrices passed to the QP solver all have the same number of columns.", "quantifier": "all combinations of hard/soft constraints and of rewrite_equalities", "why_tests_cant": "Only one option combination breaks it, as undefined behaviour.", "anchors": ["src/placo/problem/problem.cpp: Problem::solve (call to solve_quadprog)"]}
{"id": "C20", "title": "Constraint order does not matter", "statement": "Reordering the constraints of a problem does not change the objective nor the set of points satisfying the hard constraints.", "quantifier": "all permutations of all constraint lists", "why_tests_cant": "Factorially many orders.", "anchors": ["src/placo/problem/problem.cpp: Problem::solve"]}
{"id": "C21", "title": "Polygon constraint is the signed distance test", "statement": "in_polygon_xy(P, polygon, margin) is satisfied exactly when, for every edge of the polygon, the signed distance from P to the edge's line, counted positive on the right side of the edge, is at least margin; for a clockwise convex polygon with margin 0 it accepts every convex combination of the vertices.", "quantifier": "all polygons of any number of vertices with distinct consecutive vertices, all points, all margins", "why_tests_cant": "Geometric statement over a continuum, any number of edges including the wrap-around edge.", "anchors": ["src/placo/problem/polygon_constraint.cpp: PolygonConstraint::in_polygon_xy, in_polygon"]}
{"id": "C22", "title": "Polynom value is the true derivative", "statement": "polynom.value(x, k) equals the k-th derivative at x of the polynomial with those coefficients, for every k (zero beyond the degree).", "quantifier": "all coefficient vectors of any length, all k, all x", "why_tests_cant": "Infinite family of degrees and derivative orders.", "anchors": ["src/placo/tools/polynom.cpp: Polynom::value, Polynom::derivative_coefficient"]}
{"id": "C23", "title": "Problem polynomials agree with the solved polynomial", "statement": "For every assignment of the coefficients, the expression ProblemPolynom.expr(x, k) evaluates to the same number as get_polynom().value(x, k) once the problem is solved with that assignment.", "quantifier": "all degrees, all x, all derivative orders, all coefficient values", "why_tests_cant": "Two independent code paths must agree for every degree and order.", "anchors": ["src/placo/problem/problem_polynom.cpp: ProblemPolynom::expr, get_polynom", "src/placo/tools/polynom.cpp: Polynom::value"]}
{"id": "C24", "title": "Integrator expressions follow the discrete dynamics", "statement": "integrator.expr(k) evaluates, for every assignment of the inputs, to the state reached after k steps of X <- A X + B u from X0; expr(k, d) to its d-th component; expr(k, order) to the k-th input; out-of-range steps or orders raise an error.", "quantifier": "all system sizes, horizons, steps and inputs", "why_tests_cant": "Induction on the number of steps; tests check a few steps numerically.", "anchors": ["src/placo/problem/integrator.cpp: Integrator::Integrator, Integrator::expr"]}
{"id": "C25", "title": "Integrator transition matrices solve the differential equation", "statement": "For the chain of integrators of any order, the transition matrices used for a duration dt map the state to the value at dt of the true solution of the continuous system with constant input; composing durations s and t equals the duration s+t.", "quantifier": "all orders, all durations, all states and inputs", "why_tests_cant": "Statement about exact solutions of ODEs for all orders.", "anchors": ["src/placo/problem/integrator.cpp: Integrator::AB_matrices, Integrator::upper_shift_matrix"]}
{"id": "C26", "title": "Planned and executed trajectories agree", "statement": "For every t inside the horizon and every derivative order, the value of the expression integrator.expr_t(t, d) at the solution equals integrator.get_trajectory().value(t, d); at step boundaries it equals expr(k, d).", "quantifier": "all t in the horizon, all orders, all solutions", "why_tests_cant": "Two code paths (planning and execution) must agree for a continuum of t.", "anchors": ["src/placo/problem/integrator.cpp: Integrator::expr_t, Integrator::Trajectory::value, Integrator::update_trajectory"]}
{"id": "C27", "title": "Trajectory duration", "statement": "trajectory.duration() equals the number of steps times dt.", "quantifier": "all horizons and dt", "why_tests_cant": "Off-by-one is invisible unless duration is compared against the horizon.", "anchors": ["src/placo/problem/integrator.cpp: Integrator::Trajectory::duration"]}
{"id": "C28", "title": "Trajectory cache reflects the last solve", "statement": "get_trajectory() raises if the variable was never solved, and otherwise returns the trajectory of the most recent solve, for every history of solves, reads and changes of t_start.", "quantifier": "all histories of solve / get_trajectory / value / t_start assignment", "why_tests_cant": "Cache invalidation depends on the whole history.", "anchors": ["src/placo/problem/integrator.cpp: Integrator::update_trajectory, Integrator::get_trajectory, Integrator::value"]}
{"id": "C29", "title": "Cubic spline interpolates its points and is C1", "statement": "After any accepted sequence of add_point, pos(t_i)=x_i and vel(t_i)=dx_i for every point, and pos is continuous with vel as its derivative between the first and last point.", "quantifier": "all increasing point sequences of length at least two, all t", "why_tests_cant": "Continuum of t and unbounded number of points.", "anchors": ["src/placo/tools/cubic_spline.cpp: CubicSpline::add_point, interpolation, fit, compute_splines"]}
{"id": "C30", "title": "Cubic spline clamps outside its range", "statement": "For t before the first (after the last) point, pos and vel equal their values at the first (last) point; with no point they are 0 and with one point constant.", "quantifier": "all point sequences, all t", "why_tests_cant": "All t outside the range.", "anchors": ["src/placo/tools/cubic_spline.cpp: CubicSpline::interpolation"]}
{"id": "C31", "title": "Cubic spline time stamps stay strictly increasing", "statement": "For every history of add_point and clear (including rejected calls) the stored points have strictly increasing times; a rejected add_point leaves the spline unchanged.", "quantifier": "all histories of add_point/clear/reads", "why_tests_cant": "Invariant over unbounded histories.", "anchors": ["src/placo/tools/cubic_spline.cpp: CubicSpline::add_point, clear"]}
{"id": "C32", "title": "Angular splines take the short way and keep the angle", "statement": "In an angular spline every stored value is congruent to the requested angle modulo 2*pi and differs from the previous stored value by at most pi.", "quantifier": "all histories of add_point on angular splines, all angles", "why_tests_cant": "Accumulates over unbounded histories of turns.", "anchors": ["src/placo/tools/cubic_spline.cpp: CubicSpline::add_point", "src/placo/tools/utils.cpp: wrap_angle"]}
{"id": "C33", "title": "Cubic spline duration", "statement": "duration() equals last point time minus first point time for every spline with at least two points.", "quantifier": "all histories of add_point, reads, duration", "why_tests_cant": "Depends on whether an interpolation was performed before the call.", "anchors": ["src/placo/tools/cubic_spline.cpp: CubicSpline::duration"]}
{"id": "C34", "title": "3D splines are never half updated", "statement": "CubicSpline3D.add_point either adds the point to all three axes or to none; the three axes always have the same time stamps.", "quantifier": "all histories of add_point/clear", "why_tests_cant": "Invariant over histories including rejected calls.", "anchors": ["src/placo/tools/cubic_spline_3d.cpp: CubicSpline3D::add_point"]}
{"id": "C35", "title": "Segment intersection is exact", "statement": "For non-parallel segments, lines_intersection returns the unique common point of the two supporting lines; intersects is true exactly when the two closed segments share a point; line_pass_through exactly when the other line meets this closed segment.", "quantifier": "all pairs of non-parallel segments", "why_tests_cant": "Continuum of configurations.", "anchors": ["src/placo/tools/segment.cpp: Segment::get_lambdas, lines_intersection, intersects, line_pass_through"]}
{"id": "C36", "title": "Half line test", "statement": "s1.half_line_pass_through(s2) is true exactly when the half-line supporting s1 (from s1.start through s1.end) meets the segment s2, as documented.", "quantifier": "all pairs of non-parallel segments", "why_tests_cant": "Symmetric test configurations satisfy both readings.", "anchors": ["src/placo/tools/segment.cpp: Segment::half_line_pass_through", "src/placo/tools/segment.h: half_line_pass_through"]}
{"id": "C37", "title": "Axis mask keeps exactly the selected rows", "statement": "After set_axises(s, frame), apply(M) returns, in order, the rows of M (rotated into the chosen frame) named by the letters of s, ignoring case.", "quantifier": "all strings over x,y,z in any case and length, all matrices", "why_tests_cant": "Unbounded strings and matrices.", "anchors": ["src/placo/tools/axises_mask.cpp: AxisesMask::set_axises, AxisesMask::apply"]}
{"id": "C38", "title": "Rejected axis specifications leave the mask unchanged", "statement": "If set_axises raises, the mask behaves afterwards as it did before the call.", "quantifier": "all invalid strings, all prior masks", "why_tests_cant": "Failure atomicity for every prior state and every position of the bad letter.", "anchors": ["src/placo/tools/axises_mask.cpp: AxisesMask::set_axises"]}
{"id": "C39", "title": "Rejected priorities leave the object unchanged", "statement": "If configure(name, priority, weight) raises because of an unknown priority, name, priority and weight are those before the call.", "quantifier": "all strings, all prior states", "why_tests_cant": "Failure atomicity.", "anchors": ["src/placo/tools/prioritized.cpp: Prioritized::configure"]}
{"id": "C40", "title": "wrap_angle normalises", "statement": "wrap_angle(a) lies in (-pi, pi], is congruent to a modulo 2*pi, and is idempotent.", "quantifier": "all real angles", "why_tests_cant": "Continuum with a discontinuity at odd multiples of pi.", "anchors": ["src/placo/tools/utils.cpp: wrap_angle"]}
{"id": "C41", "title": "flatten_on_floor keeps position and yaw only", "statement": "flatten_on_floor(T) has zero height, a rotation purely about z whose yaw is the yaw of T, keeps x and y, and applying it twice equals applying it once.", "quantifier": "all rigid transforms", "why_tests_cant": "Continuum of transforms, including those where the x axis is vertical.", "anchors": ["src/placo/tools/utils.cpp: flatten_on_floor, frame_yaw"]}
{"id": "C42", "title": "rotation_from_axis maps the axis onto the vector", "statement": "rotation_from_axis(axis, v) is a rotation matrix sending the unit axis onto v/|v| for every non-zero v, including v parallel or opposite to the axis; unknown axis names raise.", "quantifier": "all non-zero vectors, all three axes", "why_tests_cant": "Degenerate opposite direction is a measure-zero case.", "anchors": ["src/placo/tools/utils.cpp: rotation_from_axis, safe_acos"]}
{"id": "C43", "title": "Inverse kinematics never leaves joint limits", "statement": "With joint limits enabled, if solve(apply) succeeds at every step, then after any number of steps from a configuration inside the limits every joint remains inside its limits, whatever the tasks are.", "quantifier": "all robots, all task sets, all numbers of steps", "why_tests_cant": "Invariant over unbounded executions with arbitrary objectives.", "anchors": ["src/placo/kinematics/kinematics_solver.cpp: KinematicsSolver::compute_limits_inequalities, KinematicsSolver::solve"]}
{"id": "C44", "title": "Inverse kinematics respects velocity limits", "statement": "With velocity limits enabled, every accepted step moves each joint by at most dt times its velocity limit; with dt = 0 solve raises instead.", "quantifier": "all robots, states, task sets", "why_tests_cant": "All feasible points of the QP, not the sampled optimum.", "anchors": ["src/placo/kinematics/kinematics_solver.cpp: KinematicsSolver::compute_limits_inequalities"]}
{"id": "C45", "title": "Masked degrees of freedom do not move", "statement": "After any sequence of mask_dof/unmask_dof/mask_fbase, every accepted step leaves each currently masked degree of freedom unchanged and no other is forced to zero.", "quantifier": "all sequences of mask calls, all solutions", "why_tests_cant": "Depends on history of calls and all feasible steps.", "anchors": ["src/placo/kinematics/kinematics_solver.cpp: KinematicsSolver::mask_dof, unmask_dof, mask_fbase, solve"]}
{"id": "C46", "title": "Scaled tasks share one scale in [0,1]", "statement": "With scaled tasks, every accepted step achieves A*dq = s*b for one common s in [0,1] for all scaled tasks.", "quantifier": "all sets of scaled tasks, all feasible steps", "why_tests_cant": "All feasible points; sharing across tasks.", "anchors": ["src/placo/kinematics/kinematics_solver.cpp: KinematicsSolver::solve (scaled tasks)"]}
{"id": "C47", "title": "Gear task enforces the gear equation", "statement": "If a gear task is met exactly by a step, then after the step each target joint equals the sum of ratio*source over its registered sources.", "quantifier": "all sets of gears with distinct target and source joints, all states and steps", "why_tests_cant": "All configurations and any number of gears.", "anchors": ["src/placo/kinematics/gear_task.cpp: GearTask::update, add_gear, set_gear"]}
{"id": "C48", "title": "Gears chained on the same joint", "statement": "add_gear on a joint whose source is the same joint, or repeated for the same source, is summed as documented.", "quantifier": "all sequences of add_gear calls", "why_tests_cant": "Collision of indices only appears in particular histories.", "anchors": ["src/placo/kinematics/gear_task.cpp: GearTask::add_gear, GearTask::update", "src/placo/kinematics/gear_task.h"]}
{"id": "C49", "title": "Joints task reaches its targets", "statement": "If a joints task is met exactly by a step, every listed joint equals its target after the step and the task constrains no other joint.", "quantifier": "all target maps, all states and steps", "why_tests_cant": "Unbounded maps with distinct offsets.", "anchors": ["src/placo/kinematics/joints_task.cpp: JointsTask::update"]}
{"id": "C50", "title": "Task registry never dangles in the kinematics solver", "statement": "For every history of add/remove/clear on tasks, the solver only holds live tasks, never frees a task twice, never frees a task owned by the caller, and each solver-created task is freed at most once.", "quantifier": "all histories of add_task (owned and external), remove_task, clear, destruction", "why_tests_cant": "Memory safety over unbounded histories.", "anchors": ["src/placo/kinematics/kinematics_solver.cpp: remove_task, clear, ~KinematicsSolver", "src/placo/kinematics/kinematics_solver.h: add_task"]}
{"id": "C51", "title": "Removing a caller-owned task from the dynamics solver does not free it", "statement": "DynamicsSolver.remove_task(task) on a task the caller owns (added by reference) leaves the task alive, as the kinematics solver does.", "quantifier": "all histories of add/remove with external tasks", "why_tests_cant": "Undefined behaviour may pass silently.", "anchors": ["src/placo/dynamics/dynamics_solver.cpp: DynamicsSolver::remove_task", "src/placo/dynamics/dynamics_solver.h: add_task"]}
{"id": "C52", "title": "CoM polygon constraint keeps the next CoM inside", "statement": "If a step satisfies the CoM polygon constraint, the first-order predicted CoM (or DCM in dcm mode) after the step satisfies the polygon test with the requested margin.", "quantifier": "all polygons, robots states and steps", "why_tests_cant": "All feasible steps.", "anchors": ["src/placo/kinematics/com_polygon_constraint.cpp: CoMPolygonConstraint::add_constraint"]}
{"id": "C53", "title": "Distance constraint bounds the predicted distance", "statement": "A step satisfying the distance constraint keeps the first-order predicted distance at most distance_max.", "quantifier": "all states and steps", "why_tests_cant": "All feasible steps.", "anchors": ["src/placo/kinematics/distance_constraint.cpp: DistanceConstraint::add_constraint"]}
{"id": "C54", "title": "Joint-space half-spaces hold after the step", "statement": "A step satisfying the joint-space half-spaces constraint leaves the actuated configuration in {q : A q <= b}; matrices of the wrong size raise.", "quantifier": "all A, b, states and steps", "why_tests_cant": "All feasible steps.", "anchors": ["src/placo/kinematics/joint_space_half_spaces_constraint.cpp"]}
{"id": "C55", "title": "Regularization task penalises exactly the weighted motion", "statement": "The regularization objective equals the sum over joints of weight_j * dq_j^2 where weight_j is the last weight set for that joint (or the default), for every history of set calls; the floating base is penalised only if asked.", "quantifier": "all histories of weight changes and solves", "why_tests_cant": "Caching of the matrix depends on history.", "anchors": ["src/placo/kinematics/regularization_task.cpp: RegularizationTask::update, set_joint_weight"]}
{"id": "C56", "title": "Failed kinematics solve leaves the robot unchanged", "statement": "If KinematicsSolver.solve raises, the robot's q, qd and qdd are unchanged; if it succeeds with apply, q is integrated by dq and, when dt > 0, qd and qdd are the finite differences.", "quantifier": "all outcomes of the underlying QP, all states", "why_tests_cant": "All failure points.", "anchors": ["src/placo/kinematics/kinematics_solver.cpp: KinematicsSolver::solve"]}
{"id": "C57", "title": "Inverse dynamics satisfies the equation of motion", "statement": "A successful dynamics solve returns torques, accelerations and contact forces with M qdd + h + damping*qd (+ extra force) = tau + sum J^T f, for every number and order of contacts, and tau is zero on the floating base unless it is masked.", "quantifier": "all robots, contact lists, states, feasible solutions", "why_tests_cant": "Column bookkeeping of contact variables for every contact list.", "anchors": ["src/placo/dynamics/dynamics_solver.cpp: DynamicsSolver::solve"]}
{"id": "C58", "title": "Unilateral contacts never pull and stay in the friction pyramid", "statement": "Every feasible wrench of a unilateral point or planar contact has non-negative normal force and tangential components bounded by mu times the normal force, in the surface frame.", "quantifier": "all contact orientations, mu, feasible forces", "why_tests_cant": "All feasible points.", "anchors": ["src/placo/dynamics/contacts.cpp: PointContact::add_constraints, Contact6D::add_constraints, add_friction_cone"]}
{"id": "C59", "title": "Planar contact centre of pressure is inside the sole", "statement": "For every feasible wrench of a unilateral planar contact with positive normal force, the reported ZMP lies inside the length x width rectangle.", "quantifier": "all wrenches, lengths, widths", "why_tests_cant": "All feasible points.", "anchors": ["src/placo/dynamics/contacts.cpp: Contact6D::add_constraints, Contact6D::zmp"]}
{"id": "C60", "title": "Unilateral line contact is well formed", "statement": "A unilateral line contact adds its constraints without size mismatch and keeps the centre of pressure on the line.", "quantifier": "all line contacts", "why_tests_cant": "Undefined behaviour on fixed-size products may not crash in release builds.", "anchors": ["src/placo/dynamics/contacts.cpp: LineContact::add_constraints, LineContact::zmp"]}
{"id": "C61", "title": "Tangential weight penalises the tangential forces", "statement": "weight_tangentials of a planar contact penalises the two tangential force components and not the normal force.", "quantifier": "all wrenches and weights", "why_tests_cant": "The wrong slice still yields a plausible solution.", "anchors": ["src/placo/dynamics/contacts.cpp: Contact6D::add_constraints"]}
{"id": "C62", "title": "Dynamics joint limit overshoot is bounded", "statement": "With joint limits enabled, from rest inside the limits, along every sequence of integrated solver steps a joint never exceeds its limit by more than qdd_safe*dt^2.", "quantifier": "all step sequences of any length, all accelerations accepted by the constraint", "why_tests_cant": "Invariant over unbounded executions with adversarial accelerations.", "anchors": ["src/placo/dynamics/dynamics_solver.cpp: DynamicsSolver::compute_limits_inequalities, solve (integrate)"]}
{"id": "C63", "title": "Dynamics joint limits are never exceeded", "statement": "With joint limits enabled, a joint starting inside its limits never exceeds them.", "quantifier": "all step sequences", "why_tests_cant": "Overshoot needs a state closer to the limit than 2*qdd_safe*dt^2.", "anchors": ["src/placo/dynamics/dynamics_solver.cpp: DynamicsSolver::compute_limits_inequalities"]}
{"id": "C64", "title": "Torque and velocity limits hold for every feasible solution", "statement": "With torque limits enabled every actuated torque is within its (overridden) limit; with velocity limits the next velocity is within its limit; with velocity-vs-torque limits the torque lies in the speed-dependent trapezoid; missing dt raises.", "quantifier": "all robots, states, feasible solutions", "why_tests_cant": "All feasible points and override maps.", "anchors": ["src/placo/dynamics/dynamics_solver.cpp: DynamicsSolver::compute_limits_inequalities, set_torque_limit"]}
{"id": "C65", "title": "Default task gains are critically damped", "statement": "With the default kd, a scalar task that is met exactly makes the error follow e'' = -kp e - 2 sqrt(kp) e', whose solutions are (a + b t) exp(-sqrt(kp) t); an explicit non-negative kd is used as given.", "quantifier": "all kp >= 0, all initial errors", "why_tests_cant": "Statement about all solutions of an ODE.", "anchors": ["src/placo/dynamics/task.cpp: Task::get_kd", "src/placo/dynamics/joints_task.cpp", "src/placo/dynamics/gear_task.cpp"]}
{"id": "C66", "title": "Relative position task uses the true relative acceleration", "statement": "If the dynamics relative position task is met exactly, the second derivative of the position of frame b seen from frame a equals kp*error + kd*derror + ddtarget.", "quantifier": "all smooth motions of two frames", "why_tests_cant": "Needs second derivatives of moving frames for all motions.", "anchors": ["src/placo/dynamics/relative_position_task.cpp: RelativePositionTask::update"]}
{"id": "C67", "title": "set_T_world_frame places the frame", "statement": "After update_kinematics; set_T_world_frame(f, T); update_kinematics, get_T_world_frame(f) = T and all joint values are unchanged; also through ensure_on_floor.", "quantifier": "all frames, transforms, joint configurations, any root joint placement", "why_tests_cant": "Continuum of configurations; ordering with respect to update_kinematics matters.", "anchors": ["src/placo/model/robot_wrapper.cpp: set_T_world_frame, get_T_world_fbase, set_T_world_fbase, update_kinematics"]}
{"id": "C68", "title": "Consecutive frame placements compose", "statement": "Calling set_T_world_frame twice in a row leaves the last requested frame where it was requested.", "quantifier": "all pairs of calls", "why_tests_cant": "Depends on stale cached placements.", "anchors": ["src/placo/model/robot_wrapper.cpp: set_T_world_frame"]}
{"id": "C69", "title": "Floating base pose round-trips", "statement": "get_T_world_fbase after set_T_world_fbase(T) returns T for every rigid transform T (through the quaternion storage).", "quantifier": "all rotation matrices, including those with trace near -1", "why_tests_cant": "Four algebraic branches of the quaternion conversion.", "anchors": ["src/placo/model/robot_wrapper.cpp: set_T_world_fbase, get_T_world_fbase"]}
{"id": "C70", "title": "Unknown joint names raise", "statement": "Every joint accessor raises for a joint name that is not in the model.", "quantifier": "all names, all accessors", "why_tests_cant": "Out-of-range reads may return plausible values.", "anchors": ["src/placo/model/robot_wrapper.cpp: get_joint_offset, get_joint_v_offset, set_joint_velocity, set_velocity_limit"]}
{"id": "C71", "title": "Joint Jacobian time variation", "statement": "joint_jacobian_time_variation(joint, ref) by name returns the same as by index.", "quantifier": "all joints, states", "why_tests_cant": "Equal at special states only.", "anchors": ["src/placo/model/robot_wrapper.cpp: joint_jacobian_time_variation"]}
{"id": "C72", "title": "Static gravity compensation torques leave the floating base unactuated", "statement": "static_gravity_compensation_torques(frame) equals g - J^T f for a contact wrench f and is zero on the six floating base rows, whenever the base block of J is invertible; get_torques has the same property for given contact forces.", "quantifier": "all gravity vectors, Jacobians, accelerations", "why_tests_cant": "Linear-algebra identity in arbitrary dimension.", "anchors": ["src/placo/model/robot_wrapper.cpp: static_gravity_compensation_torques", "src/placo/humanoid/humanoid_robot.cpp: get_torques"]}
{"id": "C73", "title": "Torques for an acceleration with a fixed frame", "statement": "torques_from_acceleration_with_fixed_frame returns the joint torques for which, with the frame held fixed by a contact wrench, the equation of motion gives the requested joint acceleration.", "quantifier": "all mass matrices, accelerations", "why_tests_cant": "Correct at zero acceleration, where it is usually exercised.", "anchors": ["src/placo/model/robot_wrapper.cpp: torques_from_acceleration_with_fixed_frame"]}
{"id": "C74", "title": "Configuration noise respects joint limits", "statement": "add_q_noise(n) with 0 <= n <= 1 keeps every bounded joint that was inside its limits inside them and does not touch unbounded joints or the floating base.", "quantifier": "all configurations, all random draws, all n in [0,1]", "why_tests_cant": "All random draws.", "anchors": ["src/placo/model/robot_wrapper.cpp: add_q_noise"]}
{"id": "C75", "title": "Support sequence is walkable", "statement": "make_supports on at least three footsteps with alternating sides yields supports in which any two consecutive supports share a footstep or hand over between consecutive footsteps, single supports appear for footsteps in order, double supports hold two consecutive footsteps, and start/end flags are only on the first/last support.", "quantifier": "all footstep lists of any length, all option flags", "why_tests_cant": "Unbounded lists and eight flag combinations.", "anchors": ["src/placo/humanoid/footsteps_planner.cpp: FootstepsPlanner::make_supports"]}
{"id": "C76", "title": "Planned footsteps alternate sides", "statement": "Every plan alternates left/right, begins with the two given feet, and has the requested number of steps (repetitive) or at most max_steps added steps (naive).", "quantifier": "all configurations, targets and initial frames", "why_tests_cant": "Loop invariant for any number of steps.", "anchors": ["src/placo/humanoid/footsteps_planner.cpp: FootstepsPlanner::plan", "src/placo/humanoid/footsteps_planner_repetitive.cpp: plan_impl", "src/placo/humanoid/footsteps_planner_naive.cpp: plan_impl"]}
{"id": "C77", "title": "Step clipping stays in the envelope", "statement": "ellipsoid_clip, box_clip and conic_clip return a step inside the corresponding envelope for all positive step limits, leave steps already inside unchanged, preserve direction, and are idempotent.", "quantifier": "all steps and positive limits", "why_tests_cant": "Continuum, asymmetric forward/backward limit.", "anchors": ["src/placo/humanoid/humanoid_parameters.cpp: ellipsoid_clip, box_clip, conic_clip"]}
{"id": "C78", "title": "Every planned step is inside the envelope", "statement": "clipped_opposite_footstep always returns a foot placement whose displacement from the neutral stance is inside the clipping envelope, whatever the requested step and however often it was shrunk because of overlap.", "quantifier": "all requests, frames, parameters", "why_tests_cant": "Loop with data-dependent number of iterations.", "anchors": ["src/placo/humanoid/footsteps_planner.cpp: FootstepsPlanner::clipped_opposite_footstep, opposite_footstep"]}
{"id": "C79", "title": "Footstep overlap detects every overlap", "statement": "a.overlap(b) is true whenever the two foot rectangles (with margin) intersect, and it is symmetric.", "quantifier": "all pairs of footsteps", "why_tests_cant": "Crossing rectangles with no corner inside the other are missed by corner tests.", "anchors": ["src/placo/humanoid/footsteps_planner.cpp: Footstep::overlap, polygon_contains"]}
{"id": "C80", "title": "Naive planner stops only at the target", "statement": "If the naive planner stops before max_steps, the last two planned footsteps are at the requested left and right targets.", "quantifier": "all targets and starting poses", "why_tests_cant": "Only targets in the corners of the reachable box expose early stopping.", "anchors": ["src/placo/humanoid/footsteps_planner_naive.cpp: FootstepsPlannerNaive::plan_impl"]}
{"id": "C81", "title": "Trajectory part lookup", "statement": "For a trajectory whose parts are contiguous in time, every query time inside the trajectory is served from a part containing it, earlier times from the first and later times from the last part; the lookup terminates; an empty trajectory raises.", "quantifier": "all part lists, all times", "why_tests_cant": "Binary search over unbounded lists.", "anchors": ["src/placo/humanoid/walk_pattern_generator.cpp: _findPart, Trajectory::get_part_t_start, get_part_t_end, get_support"]}
{"id": "C82", "title": "Querying a previous support does not modify the trajectory", "statement": "get_prev_support(t, n) is a pure query: the trajectory answers all later queries as before.", "quantifier": "all trajectories, t, n, later queries", "why_tests_cant": "The corruption only shows in later queries at other times.", "anchors": ["src/placo/humanoid/walk_pattern_generator.cpp: Trajectory::get_prev_support"]}
{"id": "C83", "title": "Support polygons are up to date", "statement": "support_polygon() of a footstep or support always corresponds to its current frame(s), after any sequence of apply_offset, left multiplication, opposite_footstep and update_supports.", "quantifier": "all histories of mutations and reads", "why_tests_cant": "Cache invalidation over histories.", "anchors": ["src/placo/humanoid/footsteps_planner.cpp: Footstep::support_polygon, Support::support_polygon, apply_offset, operator*, opposite_footstep", "src/placo/humanoid/walk_pattern_generator.cpp: update_supports"]}
{"id": "C84", "title": "LIPM quantities are consistent", "statement": "For every assignment, the LIPM expressions pos/vel/acc/dcm/zmp at a timestep equal the corresponding trajectory queries at that time, and zmp = pos - acc/omega^2, dcm = pos + vel/omega.", "quantifier": "all timesteps, omegas, assignments", "why_tests_cant": "Two code paths over all timesteps.", "anchors": ["src/placo/humanoid/lipm.cpp: LIPM::dcm, zmp, LIPM::Trajectory::dcm, zmp"]}
{"id": "C85", "title": "ZMP velocity is the derivative of the ZMP", "statement": "LIPM trajectory dzmp(t) is the time derivative of zmp(t), and equals the LIPM expression dzmp.", "quantifier": "all t, all trajectories", "why_tests_cant": "A sign error vanishes where the jerk is zero.", "anchors": ["src/placo/humanoid/lipm.cpp: LIPM::Trajectory::dzmp, LIPM::dzmp"]}
{"id": "C86", "title": "Chained LIPMs are continuous", "statement": "In a planned CoM trajectory, consecutive parts are contiguous in time, cover the whole duration, and the CoM position, velocity and acceleration at the end of a part equal those at the start of the next part, for every solution of the QP.", "quantifier": "all support lists, all QP solutions", "why_tests_cant": "Any number of parts and all solutions.", "anchors": ["src/placo/humanoid/walk_pattern_generator.cpp: plan_com", "src/placo/humanoid/lipm.cpp: LIPM::LIPM(previous)"]}
{"id": "C87", "title": "Cubic swing foot leaves and lands where asked", "statement": "For 0 < rise_ratio < 1 and elapsed_ratio in [0,1), the cubic swing trajectory starts at the given position and velocity at t_start, ends at the target with zero velocity at t_end, and is at the requested height during the remaining part of the plateau.", "quantifier": "all durations, ratios, positions", "why_tests_cant": "Continuum of parameters with data-dependent number of knots.", "anchors": ["src/placo/humanoid/swing_foot_cubic.cpp: SwingFootCubic::make_trajectory"]}
{"id": "C88", "title": "Swing foot trajectory boundary conditions", "statement": "SwingFoot.make_trajectory starts at start and ends at target, with zero horizontal velocity at both ends and the requested height at 1/4 and 3/4 of the time; remake_trajectory keeps horizontal position and velocity at the replanning time and lands on the new target at rest horizontally.", "quantifier": "all t_start < t_end, positions, replanning times before t_end", "why_tests_cant": "Continuum of parameters; needs invertibility of the fitting systems.", "anchors": ["src/placo/humanoid/swing_foot.cpp: SwingFoot::make_trajectory, remake_trajectory"]}
{"id": "C89", "title": "Trimming keeps the future of the trajectory", "statement": "When replanning fails, the returned trajectory answers every query at times after t_replan as the old trajectory did, and starts at t_replan.", "quantifier": "all trajectories, replanning times, query times", "why_tests_cant": "All query times and part lists.", "anchors": ["src/placo/humanoid/walk_pattern_generator.cpp: trim_old_trajectory"]}
{"id": "C90", "title": "Support phases have their own start time", "statement": "In a planned trajectory every support's t_start is the time at which that support phase begins.", "quantifier": "all support sequences produced by make_supports", "why_tests_cant": "Only one flag combination pre-fills a wrong time.", "anchors": ["src/placo/humanoid/footsteps_planner.cpp: make_supports", "src/placo/humanoid/walk_pattern_generator.cpp: plan_com"]}
{"id": "C91", "title": "Walk tasks switch consistently", "statement": "For every sequence of mode changes and updates after initialize_tasks, the solver contains exactly one of the CoM task and the trunk task created by WalkTasks, matching the current mode at the last update, and remove_tasks leaves none of its tasks behind.", "quantifier": "all sequences of trunk_mode changes, update_tasks and remove_tasks", "why_tests_cant": "Unbounded histories.", "anchors": ["src/placo/humanoid/walk_tasks.cpp: update_com_task, initialize_tasks, remove_tasks"]}
{"id": "C92", "title": "Task error report has one entry per task", "statement": "get_tasks_error reports position and orientation errors of both feet under distinct names.", "quantifier": "all states", "why_tests_cant": "The overwritten entries have the same shape.", "anchors": ["src/placo/humanoid/walk_tasks.cpp: get_tasks_error"]}
{"id": "C93", "title": "Double support timing is consistent", "statement": "Whenever the timestep counts are positive, each support phase's planned duration equals its number of planning timesteps times its LIPM dt, for every elapsed ratio and time ratio.", "quantifier": "all parameters and ratios", "why_tests_cant": "Rounding and clamping interplay.", "anchors": ["src/placo/humanoid/walk_pattern_generator.cpp: plan_com, support_default_duration, support_default_timesteps", "src/placo/humanoid/humanoid_parameters.cpp"]}
{"id": "C94", "title": "camera_look_at points the camera at the target", "statement": "When camera_look_at returns true, the pan/tilt angles put the target on the camera's optical axis in the planar head model; it returns false exactly when the target is too close.", "quantifier": "all targets", "why_tests_cant": "Trigonometric identity over a continuum.", "anchors": ["src/placo/humanoid/humanoid_robot.cpp: camera_look_at"]}
{"id": "C95", "title": "Hard tasks are met exactly by every accepted step", "statement": "After any sequence of solver calls, whenever the kinematics solver accepts a solve, the returned step meets every row of every hard task exactly, and of every scaled task up to the common scale factor.", "quantifier": "all robots, states, registered tasks and constraints, call histories", "why_tests_cant": "The task matrices, masks and histories range over unbounded sets.", "anchors": ["src/placo/kinematics/kinematics_solver.cpp: solve", "src/placo/problem/problem.cpp: solve"]}
{"id": "C96", "title": "The IK step minimises the documented weighted least squares", "statement": "Without user constraints, the accepted step respects every limit and mask, and its weighted least-squares task error (plus the scale penalty) is at most that of every other admissible step.", "quantifier": "all robots, states, tasks with non-negative weights, admissible steps", "why_tests_cant": "Optimality quantifies over all admissible steps of a continuous space.", "anchors": ["src/placo/kinematics/kinematics_solver.cpp: solve"]}
{"id": "C97", "title": "Hard user constraints hold at every accepted step", "statement": "Whatever the tasks, limits and masks, every hard inequality or equality added by a registered constraint holds at the step returned by an accepted kinematics solve.", "quantifier": "all robots, states, tasks, lists of user constraints", "why_tests_cant": "Constraint sets and solutions are unbounded.", "anchors": ["src/placo/kinematics/kinematics_solver.cpp: solve (constraints loop)"]}
{"id": "C98", "title": "Distance task reaches its distance to first order", "statement": "For frames that do not coincide, the distance task is met by a step exactly when distance plus its derivative along the step equals the target distance.", "quantifier": "all frame positions, Jacobians, targets and steps", "why_tests_cant": "A derivative identity over a continuum of configurations.", "anchors": ["src/placo/kinematics/distance_task.cpp: DistanceTask::update"]}
{"id": "C99", "title": "Yaw constraint bounds the predicted relative yaw", "statement": "A step satisfies the yaw constraint exactly when the first-order prediction of the relative yaw of the two frames is within [-angle_max, angle_max].", "quantifier": "all relative rotations, Jacobians and steps", "why_tests_cant": "The error of the Jacobian only shows for tilted frames, over a continuum.", "anchors": ["src/placo/kinematics/yaw_constraint.cpp: YawConstraint::add_constraint"]}
{"id": "C100", "title": "Cone constraint bounds the predicted tilt", "statement": "A step satisfying the cone constraint keeps the first-order prediction of the angle between the two z axes at most angle_max, whatever the number of slices and range.", "quantifier": "all relative rotations, slices, ranges, Jacobians and steps", "why_tests_cant": "The slicing only covers some directions; the failing cases depend on parity and range.", "anchors": ["src/placo/kinematics/cone_constraint.cpp: ConeConstraint::add_constraint"]}
{"id": "C101", "title": "Self-collision constraint keeps predicted distances above the margin", "statement": "A step satisfies the self-collision constraint exactly when, for each pair closer than the trigger, the first-order prediction of the signed distance is at least the margin.", "quantifier": "all sets of pairs, distances (positive, negative, zero), Jacobians and steps", "why_tests_cant": "Unbounded numbers of pairs; contact at exactly zero distance is a measure-zero case.", "anchors": ["src/placo/kinematics/avoid_self_collisions_constraint.cpp"]}
{"id": "C102", "title": "Hard dynamics tasks are met exactly", "statement": "After a successful dynamics solve, every hard task is met exactly: A qdd = b for an acceleration task, A tau = b for a torque task, with the A and b computed at the state of the robot before the solve.", "quantifier": "all robots, tasks, contacts, constraints, settings and states", "why_tests_cant": "The equality must hold for every combination of tasks, contacts and limits, whatever the solver returns.", "anchors": ["src/placo/dynamics/dynamics_solver.cpp: DynamicsSolver::solve"]}
{"id": "C103", "title": "Hard torque task imposes the requested torques", "statement": "After a successful solve with a hard torque task, the torque of each joint in the task is torque + kp q - kd qd.", "quantifier": "all tables of targets, robots and states", "why_tests_cant": "Unbounded tables of joints and gains.", "anchors": ["src/placo/dynamics/torque_task.cpp: TorqueTask::update"]}
{"id": "C104", "title": "Position and CoM tasks command a PD acceleration", "statement": "An acceleration meets the position (or CoM) task exactly when, on each selected axis, the acceleration J qdd + dJ qd of the point equals kp error + kd velocity error + ddtarget, in the frame of the mask.", "quantifier": "all masks, gains, targets, states, Jacobians", "why_tests_cant": "Equivalence between linear constraints and the acceleration law for arbitrary Jacobians.", "anchors": ["src/placo/dynamics/position_task.cpp: PositionTask::update", "src/placo/dynamics/com_task.cpp: CoMTask::update"]}
{"id": "C105", "title": "Orienting the trunk from an IMU", "statement": "After ensure_on_floor_oriented(R) or update_from_imu(R), the orientation of the trunk is R, the support frame keeps the position of T_world_support and is exactly at T_world_support, and the joints are unchanged.", "quantifier": "all histories of calls, configurations and rotations", "why_tests_cant": "Holds for all rotations and kinematic chains, after any history of cached placements.", "anchors": ["src/placo/humanoid/humanoid_robot.cpp: ensure_on_floor_oriented, update_from_imu"]}
{"id": "C106", "title": "Changing the support does not move a robot whose foot is on the floor", "statement": "update_support_side(new frame) then ensure_on_floor places the new frame at the projection on the floor of its placement; if the frame already was on the floor no frame of the robot moves; asking for the current support frame changes nothing.", "quantifier": "all histories of calls and configurations", "why_tests_cant": "All configurations and histories.", "anchors": ["src/placo/humanoid/humanoid_robot.cpp: update_support_side, ensure_on_floor"]}
{"id": "C107", "title": "Mass matrix is symmetric and includes rotor inertias", "statement": "mass_matrix() is symmetric, equal to the upper part of crba outside the diagonal, and its quadratic form is the one of crba plus sum (gear ratio)^2 (rotor inertia) v^2.", "quantifier": "all matrices, sizes, velocities", "why_tests_cant": "All sizes and values.", "anchors": ["src/placo/model/robot_wrapper.cpp: mass_matrix"]}
{"id": "C108", "title": "Planned ZMP stays in the support polygons", "statement": "When plan_com succeeds with hard constraints and a sound QP solver, at every planning timestep of every part the ZMP read from the returned trajectory lies inside the polygon of that part's support, at least zmp_margin away from every edge; and a part whose support is an end support ends with the CoM above the support frame with zero velocity and zero acceleration.", "quantifier": "all support lists, initial states, parameters, polygons, solver answers", "why_tests_cant": "Composes the integrator, the polygon constraint, the equality elimination and the trajectory evaluation for any number of supports and timesteps.", "anchors": ["src/placo/humanoid/walk_pattern_generator.cpp: constrain_lipm, plan_com", "src/placo/humanoid/lipm.cpp: zmp, get_trajectory", "src/placo/problem/polygon_constraint.cpp: in_polygon_xy"]}
{"id": "C109", "title": "plan_com has no undefined behaviour", "statement": "For supports of one or two footsteps with a positive duration and a non-empty polygon, plan_com returns true or false and never reads out of range nor raises; and it returns true whenever the solver answers and there is no hard end constraint.", "quantifier": "all such support lists, parameters, solver answers", "why_tests_cant": "Any number of supports and timesteps, every solver answer.", "anchors": ["src/placo/humanoid/walk_pattern_generator.cpp: constrain_lipm, plan_com"]}
{"id": "C110", "title": "The PID on the DCM has a defined state", "statement": "For every sequence of calls of update_tasks_and_pid the integral is the leaky sum of the errors weighted by the durations, the last error is the one of the last call, and no uninitialized member is read.", "quantifier": "all sequences of calls, gains, errors and durations", "why_tests_cant": "Reading an uninitialized member gives arbitrary values that usually look fine; the sum is over sequences of any length.", "anchors": ["src/placo/humanoid/walk_tasks.cpp: update_tasks_and_pid", "src/placo/humanoid/walk_tasks.h: integral, last_error"]}
{"id": "C111", "title": "Position and CoM tasks move the point at the rate of its error", "statement": "A position (or CoM) task of the kinematics solver is met by a step exactly when, on every selected axis of the chosen reference (world, frame, custom), the point moves along the step at the rate target - position; with all the axes, the linearised step puts the point on its target.", "quantifier": "all robots, placements, Jacobians, targets, masks, steps", "why_tests_cant": "The equality is between a linear system and a derivative, for every mask, frame and robot.", "anchors": ["src/placo/kinematics/position_task.cpp: PositionTask::update", "src/placo/kinematics/com_task.cpp: CoMTask::update", "src/placo/tools/axises_mask.cpp: AxisesMask::apply"]}
{"id": "C112", "title": "Orientation task turns the frame onto its target", "statement": "An orientation task is met by a step exactly when the angular velocity has, on every selected axis (of the world, of the target, or custom), the component of a rotation vector that brings the frame on its target; with all the axes, turning at this angular velocity for a unit of time gives exactly the target orientation.", "quantifier": "all rotations, Jacobians, targets, masks, steps", "why_tests_cant": "Every rotation (including half turns) and every mask.", "anchors": ["src/placo/kinematics/orientation_task.cpp: OrientationTask::update"]}
{"id": "C113", "title": "Relative position Jacobian is the derivative of the relative position", "statement": "relative_position_jacobian is the derivative of the position of frame b seen from frame a, whatever the motion of both frames, so the relative position task is met exactly when this position moves, on every selected axis, at the rate of its error.", "quantifier": "all motions of two frames, targets, masks, steps", "why_tests_cant": "A missing rotation term only shows when frame a turns.", "anchors": ["src/placo/kinematics/relative_position_task.cpp: RelativePositionTask::update", "src/placo/model/robot_wrapper.cpp: relative_position_jacobian"]}
{"id": "C114", "title": "Relative orientation task turns frame b onto its target in frame a", "statement": "The relative orientation task is met exactly when the angular velocity of frame b relative to frame a has, on every selected axis, the component of a rotation vector that brings the relative orientation on its target.", "quantifier": "all motions of two frames, targets, masks, steps", "why_tests_cant": "Every pair of rotations and every motion.", "anchors": ["src/placo/kinematics/relative_orientation_task.cpp: RelativeOrientationTask::update"]}
{"id": "C115", "title": "Axis align task turns the axis onto its target", "statement": "For every non-zero axis and target, the axis align task is met exactly when the axis starts to move as in the rotation that brings it on its target, and the angle between both then decreases at the rate of its value; its equations are always finite.", "quantifier": "all orientations, axes, targets, Jacobians, steps", "why_tests_cant": "The singular orientations have measure zero, but one of them is the aligned pose itself.", "anchors": ["src/placo/kinematics/axis_align_task.cpp: AxisAlignTask::update"]}
{"id": "C116", "title": "Wheel task is rolling without slipping on the lowest point", "statement": "The wheel task is met exactly when the point of the wheel at its lowest rim point does not slip (forward, and sideways except for an omniwheel) and the height of the lowest point over the surface decreases at the rate of its value; its equations are always finite.", "quantifier": "all placements of the wheel and surface, radii, Jacobians, steps", "why_tests_cant": "Needs the minimum over the rim and the derivative of the lowest point, for every placement.", "anchors": ["src/placo/kinematics/wheel_task.cpp: WheelTask::update"]}
{"id": "C117", "title": "Centroidal momentum task", "statement": "With a time step, the task is met exactly when the angular momentum at the velocity dq / dt is the one asked for on every selected axis; without one it raises.", "quantifier": "all centroidal maps, momenta, masks, dt, steps", "why_tests_cant": "All masks and maps.", "anchors": ["src/placo/kinematics/centroidal_momentum_task.cpp: CentroidalMomentumTask::update"]}
{"id": "C118", "title": "Kinetic energy regularization is the kinetic energy", "statement": "The squared residual of the task is exactly the kinetic energy of the velocity dq / dt; without a time step it raises.", "quantifier": "all sizes, mass matrices, dt, steps", "why_tests_cant": "Identity over matrices of every size.", "anchors": ["src/placo/kinematics/kinetic_energy_regularization_task.cpp: KineticEnergyRegularizationTask::update"]}
{"id": "C119", "title": "Manipulability task follows the gradient of the measure", "statement": "For a regular Jacobian, the squared residual of the task is, up to a constant, lambda^2 |dq|^2 minus (plus when minimizing) the derivative along dq of the manipulability sqrt(det(J J^T)) of the chosen rows, floating base excluded.", "quantifier": "all sizes, Jacobians, Hessians, lambda, types, steps", "why_tests_cant": "Derivative of a determinant of any Jacobian with any number of joints.", "anchors": ["src/placo/kinematics/manipulability_task.cpp: ManipulabilityTask::update, mask_matrix"]}
{"id": "C120", "title": "Constraint configuration", "statement": "After any history of configure calls, a constraint of the problem has exactly the priority and weight of the last call, states the same thing, and names other than hard and soft are rejected.", "quantifier": "all histories, names, weights", "why_tests_cant": "Histories of any length and all names.", "anchors": ["src/placo/problem/constraint.cpp: ProblemConstraint::configure", "src/placo/tools/prioritized.cpp: priority_from_string"]}
{"id": "C121", "title": "Dynamics orientation task imposes the PD angular acceleration", "statement": "Whatever the motion of the robot, the orientation task of the dynamics solver is met by its accelerations exactly when, along every selected axis, the angular acceleration of the frame is kp times the rotation vector to the target plus kd (2 sqrt(kp) when negative) times the angular velocity error plus the desired angular acceleration.", "quantifier": "all motions, Jacobians, rotations, gains, masks", "why_tests_cant": "The acceleration includes the time variation of the Jacobian, which only shows on moving robots.", "anchors": ["src/placo/dynamics/orientation_task.cpp: OrientationTask::update", "src/placo/dynamics/task.cpp: Task::get_kd"]}
{"id": "C122", "title": "Dynamics relative orientation task imposes the PD relative angular acceleration", "statement": "The relative orientation task is met by the accelerations exactly when, along every selected axis, the derivative of the angular velocity of b relative to a, seen from a, follows the PD law on R_a_b, omega_a_b and domega_a_b.", "quantifier": "all motions of two frames, targets, gains, masks", "why_tests_cant": "The error terms vanish at rest and in simple poses.", "anchors": ["src/placo/dynamics/relative_orientation_task.cpp: RelativeOrientationTask::update"]}
{"id": "C123", "title": "Dynamics self-collision constraint bounds the approach of the pairs", "statement": "With a time step, accelerations satisfy the constraint exactly when, for each pair closer than the trigger, outside the margin the predicted rate of the distance keeps an approach speed that can be cancelled before the margin, and inside the margin the distance accelerates by at least the safe value; without a time step it raises.", "quantifier": "all robot motions, pairs of bodies, Jacobians, margins, triggers", "why_tests_cant": "Second derivative of a distance between moving points, for every motion.", "anchors": ["src/placo/dynamics/avoid_self_collisions_constraint.cpp: AvoidSelfCollisionsConstraint::add_constraint"]}
{"id": "C124", "title": "Quintic swing foot interpolates", "statement": "For every pair of distinct times, the 18x18 system is regular and the trajectory is at start and target with a null velocity (and a null horizontal acceleration) at its ends, is at the given height at a quarter and three quarters, and vel is the derivative of pos; for equal times the coefficients are not finite.", "quantifier": "all times, heights, positions", "why_tests_cant": "Regularity of a parametrised 18x18 matrix for every pair of times.", "anchors": ["src/placo/humanoid/swing_foot_quintic.cpp: SwingFootQuintic::make_trajectory, Trajectory::pos, Trajectory::vel"]}
{"id": "C125", "title": "optimal_transformation is globally optimal", "statement": "optimal_transformation raises exactly on ill-formed inputs; otherwise it gives a proper rotation and a translation minimising the sum of squared distances over all rigid transformations, and recovers any exact rigid correspondence, even for flat or mirrored clouds.", "quantifier": "all clouds of any size", "why_tests_cant": "Global optimality over SO(3), including degenerate and reflected clouds.", "anchors": ["src/placo/tools/utils.cpp: optimal_transformation"]}
{"id": "C126", "title": "Sampled directions are unit, distinct and regularly spaced", "statement": "directions_2d(n) gives n distinct unit vectors each turned by one n-th of a turn from the previous one; directions_3d(n, epsilon) gives n distinct unit vectors with regularly spaced, symmetric heights, turned by i over the golden ratio; a single direction with a null epsilon is not finite.", "quantifier": "all n, all non-negative epsilon", "why_tests_cant": "All sizes, exact trigonometry.", "anchors": ["src/placo/tools/directions.cpp: directions_2d, directions_3d"]}
{"id": "C127", "title": "Frame tasks handle a position and an orientation task together", "statement": "configure gives both tasks the priority, their own weights and derived names (or raises, leaving the priorities, weights and targets unchanged); the target placement can be read back; with full masks both tasks have no error exactly when the frame (or the relative placement) is at the target.", "quantifier": "all states, names, weights, placements, masks", "why_tests_cant": "All placements and masks.", "anchors": ["src/placo/kinematics/frame_task.cpp: FrameTask", "src/placo/kinematics/relative_frame_task.cpp: RelativeFrameTask", "src/placo/dynamics/frame_task.cpp", "src/placo/dynamics/relative_frame_task.cpp"]}
{"id": "C128", "title": "interpolate_frames turns at constant speed along the shortest rotation", "statement": "The slerp used by interpolate_frames gives A at 0 and B at 1, and in between A turned about a fixed unit axis by t times an angle of [0, pi] which takes A to B; when the two orientations are within the threshold of Eigen (where it interpolates linearly), every coefficient is within 8 sqrt(2 eps) of that rotation.", "quantifier": "all rotations A, B, all t, all eps in (0, 1]", "why_tests_cant": "All pairs of rotations, including opposite quaternions and half turns; branches of the conversion to quaternions.", "anchors": ["src/placo/tools/utils.cpp: interpolate_frames"]}
{"id": "C129", "title": "The kinematic walk keeps its feet on footholds and moves them continuously", "statement": "After reset, whatever the calls (next_step, update, update_T_world_support, reset): no exception is raised, the feet stay flat on the floor, the next place of the flying foot is reachable from the support foot (neutral stance moved by the clipped request), the support alternates. During a step the support foot does not move, the flying foot goes straight from its place to the next one with a height within [0, walk_foot_height], and the trunk is above the middle of the feet; the targets are continuous between steps. reset raises when walk_foot_rise_ratio is not in (0, 1).", "quantifier": "all parameters with positive step limits, all histories of calls, all requests, times and frames", "why_tests_cant": "Histories of any length, all requests and frames.", "anchors": ["src/placo/humanoid/dummy_walk.cpp: DummyWalk"]}
{"id": "C130", "title": "The kick goes from start to target", "statement": "make_trajectory gives a trajectory that is at start at t_start and at target at t_end.", "quantifier": "all times, positions and frames", "why_tests_cant": "No test exercises it; all positions.", "anchors": ["src/placo/humanoid/kick.cpp: Kick::make_trajectory, KickTrajectory::pos, KickTrajectory::vel"]}
{"id": "C131", "title": "The hard equalities of a solution hold whatever the QP solver returns", "statement": "When solve succeeds, the values written in the variables satisfy each row of each hard equality up to the tolerance 1e-6 (exactly when the equalities are eliminated), without any assumption on the QP solver; when the equalities are not eliminated, an answer violating a row by more than the tolerance on either side makes solve raise QPError with the variables unchanged.", "quantifier": "all problems, settings, solver answers", "why_tests_cant": "All answers of the external solver, including wrong ones.", "anchors": ["src/placo/problem/problem.cpp: Problem::solve"]}
{"id": "C132", "title": "The feet of a planned walk stand on the footsteps and move continuously", "statement": "For footsteps of alternate sides and the supports made of them, plan returns a trajectory (when the CoM can be planned) whose feet can be read at all times; a foot of a support stays flat at the place of its footstep during the whole support; both feet move continuously from t_start to t_end, so that a flying foot leaves from a footstep and lands on the next one.", "quantifier": "all lists of at least three footsteps of alternate sides, all parameters with positive durations and a rise ratio in (0, 1), all flags of make_supports, any QP solver, all times", "why_tests_cant": "All footstep lists of any length, all times; the feet are interpolated by splines filled part by part.", "anchors": ["src/placo/humanoid/walk_pattern_generator.cpp: WalkPatternGenerator::plan, plan_feet_trajectories, plan_sgl_support, plan_dbl_support, get_T_world_foot"]}
{"id": "C133", "title": "get_v_world_foot is the derivative of the position of the foot", "statement": "At all times of a planned walk, get_v_world_foot returns the derivative of the position read by get_T_world_foot, zero for a foot on the ground.", "quantifier": "all planned walks, sides and times inside a part", "why_tests_cant": "All times of walks of any length; derivative of the composition of splines and searches.", "anchors": ["src/placo/humanoid/walk_pattern_generator.cpp: Trajectory::get_v_world_foot, TrajectoryPart"]}
{"id": "C134", "title": "Replanning goes on from the state of the robot, any number of times", "statement": "For every trajectory of a walk, planned then replanned any number of times, and every time t at which the supports can be replanned: replan_supports (given the start of the trajectory as the time of the last replanning) returns supports, and replan, given them, returns a trajectory that starts at t with the same CoM position, velocity and acceleration, the same frames and velocities of both feet, and the same trunk yaw.", "quantifier": "all walks (any number of footsteps, any number of replannings, any planners and QP solver), all times", "why_tests_cant": "Histories of any length of plan and replan calls; the state at t is read on splines built by the previous replannings.", "anchors": ["src/placo/humanoid/walk_pattern_generator.cpp: WalkPatternGenerator::replan_supports, can_replan_supports, replan, plan_feet_trajectories, trim_old_trajectory"]}
{"id": "C135", "title": "Replanning keeps the step in progress", "statement": "After any number of replannings during a single support, with any planners, the support in progress is still on the same foot, at the same place, until the same time; the foot in the air lands at that time, where it was to land.", "quantifier": "all walks, all single supports, all sequences of replannings during the support", "why_tests_cant": "The elapsed ratio is accumulated over a sequence of replannings of any length.", "anchors": ["src/placo/humanoid/walk_pattern_generator.cpp: WalkPatternGenerator::replan_supports (elapsed_ratio, time_ratio), replan, get_T_world_foot"]}
{"id": "C136", "title": "Alignment tests of segments tell which points are on the line and on the segment", "statement": "For every positive tolerance, is_point_aligned(p, eps) holds exactly when p is at less than eps of the start of the segment, or is seen from the start at an angle with the segment whose sine is below eps; every point and every segment of the supporting line is aligned; is_point_in_segment finds every point of the segment, and only points near it; is_segment_aligned holds exactly when both ends are aligned, and two segments reported as aligned are collinear up to the tolerance, whichever of the two is asked.", "quantifier": "all segments, points and positive tolerances (real numbers)", "why_tests_cant": "The tolerance is on a sine, so what it means depends on the distance between the segments: samples of nearby segments never show it.", "anchors": ["src/placo/tools/segment.cpp: Segment::is_point_aligned, is_point_in_segment, is_segment_aligned"]}
{"id": "C137", "title": "Frame of a support is the barycentre of its footsteps", "statement": "For a support with any positive number of footsteps, frame() has the mean of the footstep positions as its origin; with one footstep it is the footstep frame, with two it has the orientation halfway between the two.", "quantifier": "all lists of footsteps (any number), any rotation interpolation", "why_tests_cant": "The mean is computed incrementally with a weight that depends on the index: an off-by-one only shows with three or more footsteps.", "anchors": ["src/placo/humanoid/footsteps_planner.cpp: FootstepsPlanner::Support::frame, interpolate_frames"]}
{"id": "C138", "title": "Moving a support moves each of its footsteps", "statement": "T * support moves every footstep frame by T on the left (points of the feet are moved by T), keeps the sides, sizes, times and flags and forgets the cached polygons; apply_offset translates the frames; moving twice is moving once by the product.", "quantifier": "all supports, transforms and offsets", "why_tests_cant": "Order of a product of transforms and caches that stay valid.", "anchors": ["src/placo/humanoid/footsteps_planner.cpp: operator*, Support::apply_offset, Support::side"]}
{"id": "C139", "title": "Overlap clipping returns a step of the envelope that keeps the feet clear, and is a projection", "statement": "overlap_clip returns a step of the envelope: the request, moved away from the support foot when it turns and clipped, then shortened by the smallest power of 0.9 (at most the 32nd) that keeps the foot clear of the support foot; a step of the envelope that already keeps the feet clear is returned unchanged, so that applying it twice is applying it once.", "quantifier": "all steps and parameters", "why_tests_cant": "The extra spacing depends on the angle of the step and on the side, and the number of shortenings on the shapes of the feet.", "anchors": ["src/placo/humanoid/humanoid_parameters.cpp: HumanoidParameters::overlap_clip"]}
{"id": "C140", "title": "apply_transform moves every answer of the trajectory", "statement": "After apply_transform(T), every query of a trajectory answers (or raises) as before with its answer moved by T: frames, positions, velocities, accelerations, orientations, yaws, DCM, ZMP and supports; times and sides are kept; what is expressed in the support frame does not change; get_next_support and remaining_supports count the supports after the current one.", "quantifier": "all trajectories, transforms, times", "why_tests_cant": "The queries use the transform in many different ways (points, vectors, yaws, products) at any time of the trajectory.", "anchors": ["src/placo/humanoid/walk_pattern_generator.cpp: Trajectory::apply_transform and all the queries, 100-322", "src/placo/humanoid/footsteps_planner.cpp: operator*(T, support)"]}
{"id": "C141", "title": "The queries of a trajectory agree with each other", "statement": "The yaw of a foot is the yaw of its frame modulo a turn; the yaw of the trunk is that of its orientation; DCM and ZMP are the LIPM ones moved with the floor; the CoM in the support frame, taken back to the world, is the CoM; in every trajectory issued by plan or a successful replan, get_part_end_dcm is the target_world_dcm of the current support at every time.", "quantifier": "all trajectories and times; for the targets: all supports, solvers, old trajectories", "why_tests_cant": "Boundary times belong to two parts; the trajectory may have been planned or replanned with any solver.", "anchors": ["src/placo/humanoid/walk_pattern_generator.cpp: get_yaw_world_foot, get_R_world_trunk, get_p_world_DCM, get_p_world_ZMP, get_p_support_CoM, get_part_end_dcm"]}
{"id": "C142", "title": "The ZMP is asked to follow the middle of the supports", "statement": "For every part, at each timestep from 1 to the last, one soft constraint of weight zmp_reference_weight asks the ZMP to be at the target of the support: the point of the parameters in the frame of the foot (mirrored for the right foot), the middle of the feet in double support. With hard constraints this is all of the cost.", "quantifier": "all LIPMs, supports of one or two feet, parameters, numbers of timesteps", "why_tests_cant": "The cost is a sum over any number of timesteps of expressions of the decision variables.", "anchors": ["src/placo/humanoid/walk_pattern_generator.cpp: constrain_lipm"]}
{"id": "C143", "title": "The planned walk minimises the distance of the ZMP to its targets", "statement": "With hard constraints and an optimal QP solver, among all the jerks that keep the ZMP in the support polygons (and stop on an end support), plan_com chooses jerks that minimise the weighted squared distance between the ZMP and its target at every timestep, plus the regularisation.", "quantifier": "all lists of supports, parameters, initial states, optimal QP solvers", "why_tests_cant": "Optimality quantifies over all the other jerks, for any number of supports and timesteps.", "anchors": ["src/placo/humanoid/walk_pattern_generator.cpp: plan_com, constrain_lipm", "src/placo/problem/problem.cpp: Problem::solve (use_sparsity)", "src/placo/problem/problem.h: use_sparsity = true"]}
{"id": "C144", "title": "The QP of a Problem is strictly convex and solvable exactly when its hard constraints are", "statement": "With a positive regularisation, non-negative weights of soft equalities and positive weights of soft inequalities, the Hessian that Problem::solve builds (with any sparsity, any rewriting of the equalities and any number of slacks) is positive definite; the QP has an optimum if and only if the hard constraints can be satisfied together, and the optimum is unique, so that with exact solvers solve() fails exactly on unsatisfiable problems and the values of the variables do not depend on the QP solver.", "quantifier": "all problems, settings, QR factorisations, QP solvers", "why_tests_cant": "Positive definiteness, existence and uniqueness quantify over all points and all constraints; a run of solve() only shows one point.", "anchors": ["src/placo/problem/problem.cpp: Problem::solve", "src/placo/problem/problem.h: regularization"]}
{"id": "C145", "title": "plan_com finds a plan exactly when there is one", "statement": "With hard constraints and exact QP and QR solvers, plan_com returns a plan if and only if there is a motion of the CoM, of jerk constant during every timestep, that starts from the given state, keeps the ZMP inside every support polygon by zmp_margin and is at rest above an end support at its end; with soft constraints it always returns a plan.", "quantifier": "all lists of supports, parameters, initial states, optimal QP solvers", "why_tests_cant": "Non-existence of a motion quantifies over all jerks; a failing run does not tell whether a motion existed.", "anchors": ["src/placo/humanoid/walk_pattern_generator.cpp: plan_com, constrain_lipm", "src/placo/problem/problem.cpp: Problem::solve (rank of the equalities)"]}
{"id": "C146", "title": "get_optimal_zmp is the constant ZMP of the LIPM, brought into the support polygon", "statement": "With exact solvers, a CoM above the ground and a positive duration, get_optimal_zmp returns a value exactly when some point is inside the support polygon by zmp_margin, and raises a QPError otherwise; the value is the only point of the shrunk polygon that minimises the distance to the ZMP which, held for the duration, brings the DCM from its start to its end (plus the regularisation).", "quantifier": "all supports, DCMs, durations, margins, optimal QP solvers", "why_tests_cant": "Optimality and non-existence quantify over all points of the polygon.", "anchors": ["src/placo/humanoid/walk_pattern_generator.cpp: WalkPatternGenerator::get_optimal_zmp"]}
{"id": "C147", "title": "update_supports takes a possible decision for the next step", "statement": "update_supports changes only the time ratio of the current support and the horizontal position of the foot that lands; the new position is in the operational space of the flying foot (mirrored with the side), the end of the support is between 0.15 s and 3 s and not in the past, and the LIPM brings the measured DCM to the announced offset from the new ZMP; it succeeds exactly when the operational space and the shrunk support polygon are non-empty, and minimises the documented weighted cost.", "quantifier": "all lists of supports, times, measured DCMs, polygons, optimal QP and exact QR solvers", "why_tests_cant": "All measured DCMs and all polygons; existence and optimality quantify over all decisions.", "anchors": ["src/placo/humanoid/walk_pattern_generator.cpp: WalkPatternGenerator::update_supports", "src/placo/humanoid/humanoid_parameters.h: op_space_polygon, dcm_offset_polygon"]}
{"id": "C148", "title": "Contacts do the work of their wrenches, at the cost their weights say", "statement": "After a successful dynamics solve, tau_contacts times any joint velocity is the sum over the active contacts of the wrench times the velocity of the constrained motion (position, frame twist, line rotation, joints or task), the tasks under point and line contacts have the shapes required, the wrench of an external contact is exactly the one given, and the cost added for a contact is exactly the one of its weights (forces, tangential forces, moments), negative weights being ignored.", "quantifier": "all robots, lists of contacts of all kinds and weights, tasks, limits, states, sound QP solvers", "why_tests_cant": "Power balance is for all velocities; costs are for all wrenches and weights.", "anchors": ["src/placo/dynamics/contacts.cpp: update, add_constraints", "src/placo/dynamics/dynamics_solver.cpp: solve"]}
{"id": "C149", "title": "Dynamics settings are those of the last calls", "statement": "After any sequence of set_qdd_safe (or set_torque_limit) calls, each velocity has the value of the last call for it, the others are unchanged; get_joint of a joints task returns the last target, or raises when there is none; the ratio of a gear is the one of the last call for it unless a later set_gear, of any target, forgot it; an unknown joint is an undefined look-up.", "quantifier": "all robots, states and sequences of calls", "why_tests_cant": "Histories of any length.", "anchors": ["src/placo/dynamics/dynamics_solver.cpp: set_qdd_safe, set_torque_limit", "src/placo/dynamics/joints_task.cpp: set_joint, get_joint", "src/placo/dynamics/gear_task.cpp: set_gear, add_gear"]}
{"id": "C150", "title": "CoM velocity from the support foot and the gyroscope", "statement": "get_com_velocity returns the velocity of the CoM for the only velocity of the robot such that the joints move as in the state, the support foot does not translate and the trunk turns at omega_b, and it does so for any robot on which that velocity exists.", "quantifier": "all robots (number of velocities), Jacobians, states, angular velocities", "why_tests_cant": "The number of joints of a test robot is fixed (20 is hard-coded); uniqueness ranges over all velocities.", "anchors": ["src/placo/humanoid/humanoid_robot.cpp: get_com_velocity"]}
{"id": "C151", "title": "Replaying histories puts the robot where the logs say", "statement": "read_from_histories gives each joint the logged value, takes as support the foot with the larger pressure, places it where it was (or on the floor below its last placement when the support changes), gives the trunk the measured orientation when asked, and, when joint velocities are given, sets the only velocity of the robot with these joint velocities, a support foot that does not translate and a trunk that turns as measured.", "quantifier": "all robots, logs, states reached by any session, choices of IMU use, joint velocities", "why_tests_cant": "Properties of every log and configuration; uniqueness over all velocities; holds from any previous state.", "anchors": ["src/placo/humanoid/humanoid_robot.cpp: read_from_histories"]}
{"id": "C152", "title": "The support side and the support foot agree in every session", "statement": "After any sequence of calls on a humanoid robot (joint changes, supports changed by side or by frame, ensure_on_floor, update_from_imu, readings), the support side is the one last requested, the support frame is its foot, and ensure_on_floor puts that foot at T_world_support, at height 0.", "quantifier": "all robots, all sequences of calls of any length", "why_tests_cant": "Sessions are unbounded; the defect needs a particular pair of calls.", "anchors": ["src/placo/humanoid/humanoid_robot.cpp: update_support_side, ensure_on_floor, update_from_imu, init_config"]}
{"id": "C153", "title": "Collision pairs are those of the file", "statement": "load_collision_pairs leaves exactly the pairs of collision objects named by the file, whatever was loaded before, each once and independently of the order inside an entry; a file that cannot be loaded leaves the pairs of the robot unchanged.", "quantifier": "all files, all robots (numbers of objects per body), all previous sets of pairs", "why_tests_cant": "Any number of entries, objects and previous pairs; the failing load is a path no test takes.", "anchors": ["src/placo/model/robot_wrapper.cpp: load_collision_pairs"]}
{"id": "C154", "title": "Self collisions and distances report every pair once", "statement": "self_collisions returns the colliding pairs in order (all of them, or the first one when asked to stop), with the bodies of their objects and the contact points; distances returns exactly one entry per pair, with the computed distance and points.", "quantifier": "all sets of pairs, all collision outcomes, both values of stop_at_first", "why_tests_cant": "Properties of every list of pairs and every outcome of the geometric tests.", "anchors": ["src/placo/model/robot_wrapper.cpp: self_collisions, distances"]}
{"id": "C155", "title": "The settings of a joint are those of the last call that named it", "statement": "After any sequence of calls of the setters by joint name, of set_joint_limits and of set_velocity_limits, each value read for a joint is the last one set for it, every other value is unchanged, and set_velocity_limits reaches every coordinate of every joint other than the floating base; unknown names raise an error.", "quantifier": "all robots, all sequences of calls of any length, all values", "why_tests_cant": "Histories are unbounded; the absence of interference between joints ranges over all layouts.", "anchors": ["src/placo/model/robot_wrapper.cpp: set_joint, set_joint_velocity, set_joint_acceleration, set_velocity_limit(s), set_torque_limit, set_joint_limits, set_rotor_inertia, set_gear_ratio"]}
{"id": "C156", "title": "Integration follows the motion at constant acceleration", "statement": "After any number of calls integrate(dt) with constant qdd, each joint with one coordinate has the velocity and position of the motion with that constant acceleration; without acceleration it moves at its velocity, and a robot without velocities stays where it is.", "quantifier": "all numbers of steps, time steps, accelerations, velocities, positions", "why_tests_cant": "A closed form over an unbounded number of steps.", "anchors": ["src/placo/model/robot_wrapper.cpp: integrate"]}
{"id": "C157", "title": "What solve does to the robot", "statement": "A successful solve with integration gives the robot the accelerations returned, changes its velocity by dt qdd and integrates its configuration with the new velocity; without integration, and when it fails or raises, it leaves the robot as it was; a task of scaled priority is never solved; in any sequence of solves with a masked floating base, the velocity of the base never changes and a base at rest never moves.", "quantifier": "all robots, tasks, contacts, constraints, states, settings, and all sequences of calls of any length", "why_tests_cant": "Holds for every problem the solver can build, and the statement on the masked base is an invariant over sessions.", "anchors": ["src/placo/dynamics/dynamics_solver.cpp: solve"]}
{"id": "C158", "title": "Truncating a walk", "statement": "Truncating the supports of a walk to an index keeps the first supports unchanged; with an end support, the result is again a walk, whose last support is a double support standing on the feet that are on the floor at that time.", "quantifier": "all lists of supports that form a walk and all indices", "why_tests_cant": "The feet on the floor at an index depend on the whole list of supports before it.", "anchors": ["bindings/expose-footsteps.cpp: 66-98"]}
{"id": "C159", "title": "Dictionaries of the Python bindings", "statement": "The torque dictionaries give, for each joint of the robot, its torques; updating a C++ map from a Python dictionary sets the values of the dictionary and keeps the others.", "quantifier": "all robots, torques, maps and dictionaries", "why_tests_cant": "Concerns joints with several velocities, unusual in test robots.", "anchors": ["bindings/expose-utils.hpp", "bindings/expose-dynamics.cpp", "bindings/expose-robot-wrapper.cpp"]}
{"id": "C160", "title": "Reading a solver from Python", "statement": "Reading the solver of a WalkTasks from Python leaves the tasks of the real solver alive.", "quantifier": "all states of the solver and all sequences of reads", "why_tests_cant": "The effect is a use after free, which does not show at once.", "anchors": ["bindings/expose-walk-pattern-generator.cpp", "bindings/expose-kinematics.cpp", "src/placo/kinematics/kinematics_solver.cpp: ~KinematicsSolver"]}
{"id": "C161", "title": "What the viewer shows", "statement": "After any sequence of calls, the viewer shows exactly the points, footsteps and contact arrows of the last call: nothing remains from the previous ones.", "quantifier": "all sequences of calls with any numbers of points, footsteps and contacts", "why_tests_cant": "Depends on the history of the numbers of objects drawn.", "anchors": ["python/placo_utils/visualization.py: points_viz, footsteps_viz, contacts_viz"]}
{"id": "C162", "title": "Where arrows and frames are drawn", "statement": "An arrow starts at its first point and its tip is at its second point; the cylinders of a frame go from its origin along its axes; a cylinder stands on the floor.", "quantifier": "all points, radii, transforms, scales and positions", "why_tests_cant": "Geometry over all the reals.", "anchors": ["python/placo_utils/visualization.py: arrow_viz, frame_viz, cylinder_viz"]}
{"id": "C163", "title": "The order of tasks and constraints does not matter", "statement": "Tasks and constraints are kept in sets of pointers and visited in the order of their addresses. Whatever this order, a solve that succeeds gives the same result, the same robot state and the same scale; the same holds for the constraints added to a problem, including the way in which solving fails.", "quantifier": "all sets of tasks and constraints, all orders, all states of the solvers reached by calls, exact external solvers, a positive regularisation and weights that are not negative", "why_tests_cant": "The order depends on the memory allocator and differs between runs and machines; a test sees one order.", "anchors": ["src/placo/kinematics/kinematics_solver.cpp: 313-421", "src/placo/kinematics/kinematics_solver.h: 513-514", "src/placo/dynamics/dynamics_solver.cpp: 387-558", "src/placo/dynamics/dynamics_solver.h: 512-515", "src/placo/problem/problem.cpp: 113-391"]}
{"id": "C164", "title": "Repeated solves bring a joint to its target", "statement": "A joint with a soft target, which no other task looks at, follows a known path when solve is called again and again: at each step it covers the fraction w/(w+regularisation) of the way to its target, no faster than its velocity limit and without leaving its position limits. Without velocity limits the error after n solves is (regularisation/(regularisation+w))^n times the initial error; with them, the error never grows and gets below any bound. Nothing the other tasks do changes this.", "quantifier": "all robots, joints, targets, other tasks which do not involve the joint, states of the solver, settings of limits, numbers of solves", "why_tests_cant": "A test runs a number of iterations and checks a tolerance; the rate, the exact path and the independence from all the other tasks are not visible.", "anchors": ["src/placo/kinematics/kinematics_solver.cpp: 290-421", "src/placo/kinematics/joints_task.cpp: 25-39"]}
{"id": "C165", "title": "Solve finds a step exactly when there is one", "statement": "Without user constraints, the inverse kinematics succeeds exactly when some step meets the hard tasks, the scaled tasks up to a scale in [0, 1], the masks and the enabled limits, and raises QPError otherwise. In particular, with soft tasks only, on a robot inside its limits, every solve of any sequence of solves succeeds.", "quantifier": "all robots, tasks, masks, settings, histories of calls, numbers of solves, with exact external solvers", "why_tests_cant": "That no state exists in which a possible step is refused cannot be observed by running some of them.", "anchors": ["src/placo/kinematics/kinematics_solver.cpp: 254-421", "src/placo/problem/problem.cpp: 113-391"]}
{"id": "C166", "title": "Inverse dynamics succeeds exactly when a motion exists", "statement": "Without user constraints, DynamicsSolver::solve reports success exactly when there are accelerations, torques and contact wrenches that satisfy the equation of motion, the requirements of the contacts (no pulling, no slipping, centre of pressure inside the foot, given external wrenches), the hard tasks, the enabled limits and no torque on the floating base (no acceleration of it when masked); otherwise success is false and the robot is unchanged. In particular, with soft tasks only, a positive definite mass matrix, joints inside their range and no torque limits, it always succeeds.", "quantifier": "all robots, tasks, contacts, settings and states, with exact external solvers", "why_tests_cant": "That no posture exists in which a possible motion is refused cannot be observed by running some of them.", "anchors": ["src/placo/dynamics/dynamics_solver.cpp: 257-558", "src/placo/dynamics/contacts.cpp: 48-263", "src/placo/problem/problem.cpp: 113-391"]}
{"id": "C167", "title": "A robot is built from the files of its directory", "statement": "RobotWrapper(dir, flags, text) builds the robot described by the model file of the directory that dir designates (robot.urdf, or robot.xml with the MJCF flag; the file itself when dir is a file; the text when one is given), with the collision geometry of that same source, its visual geometry (its collision geometry with COLLISION_AS_VISUAL), no collision pairs with IGNORE_COLLISIONS, otherwise the pairs of the collisions.json of that directory when there is one, otherwise every pair of geometries of different joints exactly once, limits that are unbounded for the coordinates whose two limits are zero and those of the model for the others, and the neutral state. A text with the MJCF flag raises.", "quantifier": "all paths, working directories, file systems, flags, texts and parsers", "why_tests_cant": "The path is rewritten by appending and removing characters; which file is read depends on the working directory and on every spelling of the path.", "anchors": ["src/placo/model/robot_wrapper.cpp: 22-157", "src/placo/model/robot_wrapper.cpp: 342-352", "src/placo/tools/utils.cpp: 113-117"]}
{"id": "C168", "title": "A call adds exactly what it asks for, or raises and changes nothing", "statement": "Every add_* call of KinematicsSolver and DynamicsSolver either adds, after the objects already there, exactly the tasks, constraints or contacts of the kind, frames, targets, weights and priorities that were asked for, or raises because a frame (or a type, or a reference) does not exist, and then leaves the solver as it was. In every program of such calls, removals and clear, the names given by the solver are distinct, and objects added by frame name designate frames of the robot.", "quantifier": "all robots, programs of calls of any length, arguments", "why_tests_cant": "There are about forty calls that resolve names in two orders; the mixing of two arguments is only seen for some arguments, and unique names for all programs cannot be enumerated.", "anchors": ["src/placo/kinematics/kinematics_solver.cpp: 23-247", "src/placo/kinematics/kinematics_solver.h: 479-505", "src/placo/dynamics/dynamics_solver.cpp: 8-171", "src/placo/model/robot_wrapper.cpp: 174-184, 535-555, 766-774"]}
{"id": "C169", "title": "A problem agrees with the calls that made it", "statement": "At every moment of a session made of calls of add_variable, add_constraint, add_limit, configure, clear_variables, clear_constraints and solve, in any order and with any outcome: the variables share 0..n_variables in the order of their creation; a variable has one version per successful solve since its creation and holds its slice of the last solution; the constraints are those added since the last clear_constraints, as last configured, independently of each other; x is made of the values of the variables (followed by the slack variables when there are any); every constraint is about the variables it was written with; dump_status reports the numbers of variables, inequalities, equalities and slack variables of the problem; no call is undefined except through a reference to an object that was freed.", "quantifier": "all sessions of any length, all problems, all outcomes of the external solvers", "why_tests_cant": "Sessions are unbounded sequences of calls with failures in between; a test sees a few sequences, and dangling references or stale constraints often go unnoticed.", "anchors": ["src/placo/problem/problem.cpp: 29-92, 113-417", "src/placo/problem/problem.h: 62-155", "src/placo/problem/variable.h: 27-53", "src/placo/problem/constraint.cpp: 5-15", "bindings/expose-problem.cpp: 106-129"]}
{"id": "C170", "title": "Reaching the initial pose", "statement": "reach_initial_pose aims the left foot at the frame given, the right foot at the same orientation feet_spacing away on its right, the CoM above the middle of the feet at com_height (plus the CoM offset, turned with the orientation the trunk has when the call is made), and the trunk at a rotation which leans by trunk_pitch, does not roll, and faces where the left foot points (for a foot lying flat: the orientation of the foot, leaning). When nothing is raised, it then makes exactly 100 solves, each from the state left by the previous one, with noise added in the eleven first iterations only and never to the floating base nor to a coordinate without limits. With joint limits enabled, a joint with one coordinate (followed by joints with as many positions as velocities) which starts in its limits is in them when the call ends, normally or by an exception; when it ends normally, wherever it started. Called before initialize_tasks, the call is undefined.", "quantifier": "all frames, spacings, heights and pitches; all robots, tasks and constraints of the solver, random draws, and outcomes of the external solvers; any calls made before", "why_tests_cant": "The call is a hundred optimisations with random noise; a test sees one draw and one robot, and an exception in the middle is not provoked.", "anchors": ["src/placo/humanoid/walk_tasks.cpp: 57-84", "src/placo/model/robot_wrapper.cpp: 788-803", "src/placo/tools/utils.cpp: 7-20"]}
{"id": "C171", "title": "Contacts and the tasks they were made from", "statement": "In every session of calls of a DynamicsSolver (adding tasks and contacts, by the solver or by reference, removing them, switching contacts on and off, clear, solve), each on live objects, no call reads freed memory: everything the solver holds is live, and so are the tasks its contacts were made from; each solve gives every active contact, once and in order, the Jacobian of its tasks at that solve.", "quantifier": "all sessions of any length, any number of tasks and contacts", "why_tests_cant": "A use after free often goes unnoticed, and needs a particular order of removals.", "anchors": ["src/placo/dynamics/contacts.cpp: 19-30, 48-57, 96-103, 162-175, 235-263", "src/placo/dynamics/dynamics_solver.cpp: 8-69, 326-354, 387-443, 565-587, 629-645", "src/placo/dynamics/dynamics_solver.h: 460-505"]}
{"id": "C172", "title": "Status reports of the solvers", "statement": "dump_status of either solver writes, for every task in order, its name, type, priority (hard, scaled, or soft with its weight), unit and the norms of its errors to half a millionth, and ends, whatever the tasks and their errors.", "quantifier": "all lists of tasks, all names, units, weights, priorities and finite errors", "why_tests_cant": "The buffer of 128 bytes is large enough for the errors met in tests; only a task very far from its target overflows it, and the report of a scaled task is not looked at.", "anchors": ["src/placo/kinematics/kinematics_solver.cpp: 486-515, 529-532", "src/placo/dynamics/dynamics_solver.cpp: 356-385", "src/placo/kinematics/task.cpp: 5-13"]}
{"id": "C173", "title": "Where the kinematic walk puts its support foot", "statement": "After any sequence of calls of DummyWalk (reset, next_step, update, update_T_world_support), update_T_world_support(T) sets the support of the walk on T flattened on the floor, puts the support foot of the robot exactly there without moving its joints, and the placements read from the robot are those of its configuration.", "quantifier": "all robots, all parameters within limits, all sequences of calls and times, all poses T, any inverse kinematics", "why_tests_cant": "solve() does not update the kinematics after its last solution, so the foot is misplaced by as much as the last solution moved it: after a converged solution the difference is too small for a test to see.", "anchors": ["src/placo/humanoid/dummy_walk.cpp:24-43", "src/placo/humanoid/dummy_walk.cpp:60-106", "src/placo/humanoid/dummy_walk.cpp:128-136", "src/placo/model/robot_wrapper.cpp:446-453"]}
{"id": "C174", "title": "Building a humanoid robot and changing its support", "statement": "A humanoid robot is built exactly when it has the frames left_foot, right_foot and trunk; its left foot is then at the origin and is the support, and its joints did not move. After any calls, the support side and the support frame are those last asked for, names of sides that do not exist are refused, and camera_look_at either raises or uses the distances of the head.", "quantifier": "all robots and configurations, all sets of frames, all sequences of calls", "why_tests_cant": "Tests use one robot that has all the frames, and ask for a side with its own foot; a robot with a head but no camera, or a side asked with the other foot, is not tried.", "anchors": ["src/placo/humanoid/humanoid_robot.cpp:8-57", "src/placo/humanoid/humanoid_robot.cpp:79-135", "src/placo/humanoid/humanoid_robot.cpp:209-234", "src/placo/humanoid/humanoid_robot.h:118-147"]}
{"id": "C175", "title": "DCM and ZMP of the humanoid robot", "statement": "For any differentiable motion of the centre of mass, the DCM and the ZMP computed by the robot are related by d/dt dcm = omega (dcm - zmp), the centre of mass follows the DCM by d/dt com = omega (dcm - com), and the ZMP is under the centre of mass exactly when it does not accelerate.", "quantifier": "all motions of the centre of mass, all frequencies that are not null, all times", "why_tests_cant": "The relation is between a value and a derivative: a test sees sampled values and finite differences only.", "anchors": ["src/placo/humanoid/humanoid_robot.cpp:197-207"]}
{"id": "C176", "title": "A new dynamics solver and its settings", "statement": "A new dynamics solver has all limits disabled and a safe acceleration of 1 for every actuated velocity; after any calls that configure it, and any solves, every setting that solve uses is the last one given for it and the others did not change.", "quantifier": "all robots, all states, all sequences of calls of the solver, all numbers", "why_tests_cant": "Tests use robots whose joints have one coordinate each: joints with several velocities get a safe acceleration for the first one only.", "anchors": ["src/placo/dynamics/dynamics_solver.cpp:174-210", "src/placo/dynamics/dynamics_solver.cpp:560-563", "src/placo/dynamics/dynamics_solver.cpp:615-627", "src/placo/dynamics/dynamics_solver.h:394-434", "src/placo/dynamics/dynamics_solver.h:507-525"]}
{"id": "C177", "title": "Equality of footsteps and of supports", "statement": "Two footsteps are equal exactly when they have the same side and the same place up to the precision of the computations, wherever they are; two supports are equal exactly when they have the same footsteps. Equality is reflexive, symmetric and transitive.", "quantifier": "all footsteps, all supports, all poses", "why_tests_cant": "The comparison is relative to the distance to the origin and is not transitive, which shows only for differences around 1e-12; tests compare steps that are far apart or identical.", "anchors": ["src/placo/humanoid/footsteps_planner.cpp:96-99", "src/placo/humanoid/footsteps_planner.cpp:212-227"]}
{"id": "C178", "title": "Footstep planners after any session", "statement": "After any sequence of configurations, plans and changes of the parameters, a plan is determined by the last configuration and the current parameters, whether it is made by the same planner or by one built now; a planner that was never configured does not plan.", "quantifier": "all parameters, all sequences of operations, all poses of the feet, both planners", "why_tests_cant": "Tests build a planner, configure it once and plan; limits changed after the construction, or a plan before the first configuration, are not tried.", "anchors": ["src/placo/humanoid/footsteps_planner_naive.cpp:18-23", "src/placo/humanoid/footsteps_planner_naive.cpp:30-163", "src/placo/humanoid/footsteps_planner_repetitive.cpp:6-39", "src/placo/humanoid/footsteps_planner.cpp:229-231", "src/placo/humanoid/footsteps_planner.cpp:352-371"]}
{"id": "C179", "title": "Planned ZMP after the parameters change", "statement": "After any sequence of changes of the parameters, with hard constraints and a sound QP solver, the ZMP of every trajectory then planned or replanned, for a CoM at the height of that trajectory, is inside the support polygons by the current zmp_margin at every planning timestep.", "quantifier": "all generators, all sequences of changes, all supports, all timesteps", "why_tests_cant": "Tests plan with the parameters the generator was built with; the height of the CoM is not changed afterwards.", "anchors": ["src/placo/humanoid/walk_pattern_generator.cpp:34-39", "src/placo/humanoid/walk_pattern_generator.cpp:413-568", "src/placo/humanoid/walk_pattern_generator.h:211-227"]}
{"id": "C180", "title": "Inverse kinematics with constraints", "statement": "When tasks can be updated, with the constraints of the library (CoM polygon, distance, joint-space half spaces, yaw, cone, self collisions), solve finds a step exactly when one meets the hard tasks, the masks, the limits and, to the first order, the hard constraints; soft constraints never prevent it. In particular, with soft tasks, a robot that is in its limits and satisfies its hard constraints can always take a step.", "quantifier": "all robots, tasks, constraints, states, settings", "why_tests_cant": "Tests solve a few feasible problems with one or two constraints.", "anchors": ["src/placo/kinematics/kinematics_solver.cpp:283-423", "src/placo/kinematics/com_polygon_constraint.cpp:12-39", "src/placo/kinematics/distance_constraint.cpp:13-39", "src/placo/kinematics/joint_space_half_spaces_constraint.cpp:11-41", "src/placo/kinematics/yaw_constraint.cpp:13-50", "src/placo/kinematics/cone_constraint.cpp:13-57", "src/placo/kinematics/avoid_self_collisions_constraint.cpp:6-59"]}
{"id": "C181", "title": "Inverse dynamics with self collisions constraints", "statement": "When tasks and contacts are ready, with self collisions constraints, inverse dynamics succeeds exactly when a motion compatible with the dynamics (equation of motion, contacts, hard tasks, limits) keeps the pairs of the hard constraints safe; soft constraints never prevent it. In particular, with soft tasks, a robot at rest whose bodies are outside of the margins can always move.", "quantifier": "all robots, tasks, contacts, sets of pairs, states, settings", "why_tests_cant": "Tests solve a few feasible problems; nothing checks that a failure means that no motion exists.", "anchors": ["src/placo/dynamics/dynamics_solver.cpp:387-563", "src/placo/dynamics/avoid_self_collisions_constraint.cpp:6-93", "src/placo/dynamics/constraint.h:10-28"]}
{"id": "C182", "title": "A torque task with gains is a passive spring", "statement": "A torque task with a stiffness and a damping makes the joint act as a passive spring, and with a damping only as a damper: whatever the motion, the energy that its torque gives is bounded from each position. A joint that was reset is free, and the last call for a joint wins.", "quantifier": "all gains, motions, durations, sessions of set_torque and reset_torque, robots", "why_tests_cant": "The tests never use the gains of a torque task, and passivity speaks of all motions.", "anchors": ["src/placo/dynamics/torque_task.cpp:6-43", "src/placo/dynamics/torque_task.h:14-53", "docs/dynamics/torque_task.rst:32-49"]}
{"id": "C183", "title": "A puppet contact makes every task feasible force-wise", "statement": "With an active puppet contact, inverse dynamics succeeds exactly when the hard tasks and the enabled limits can be met by some accelerations and torques, related by nothing else (and, when equalities are eliminated, the rows of the hard tasks are independent): the masses, the bias forces and the other contacts play no part. Without limits, independent hard tasks are enough; with soft tasks only, all the limits can be enabled as soon as the joints are inside their range.", "quantifier": "for every robot (even with a mass matrix that is not positive definite), state, lists of tasks and contacts that can be updated, one of them an active puppet, settings, external force and exact quadratic programming solver", "why_tests_cant": "A simulation with a puppet contact shows one robot reaching some accelerations; that no force can be missing, whatever the masses and the other contacts, is about all of them.", "anchors": ["src/placo/dynamics/contacts.cpp:244-253", "src/placo/dynamics/dynamics_solver.cpp:372-620", "docs/dynamics/puppet_contact.rst:6-8"]}
{"id": "C184", "title": "A task contact provides the force that achieves its task", "statement": "When each hard task on accelerations has an active task contact and the mass matrix is positive definite, inverse dynamics (without limits on positions and velocities) succeeds exactly when the accelerations of the tasks are possible on their own and the hard torque tasks and torque limits are possible on their own (and, when equalities are eliminated, the rows are independent): whatever the torques, possibly none, the bias forces and the other contacts, some forces of the contacts make the robot follow the tasks.", "quantifier": "for every robot with a positive definite mass matrix, state, lists of tasks and contacts, any number of supported tasks (with dependent rows too, as long as they are consistent), masked floating base or not, and exact quadratic programming solver", "why_tests_cant": "The example closes one loop of one robot; that the force always exists needs an argument on every mass matrix and every Jacobian.", "anchors": ["src/placo/dynamics/contacts.cpp:255-263", "src/placo/dynamics/dynamics_solver.cpp:372-620", "docs/dynamics/task_contact.rst:6-14"]}
{"id": "C185", "title": "The weight has no effect on what is not soft", "statement": "Changing the weights of hard and scaled tasks, or of the hard constraints that the added constraints produce, changes nothing at all: the problem that is assembled, the step or the accelerations, torques and wrenches that are returned, the error when it fails and the state that is left are the same.", "quantifier": "for every robot, state and settings, all lists of tasks, constraints and contacts, every solver of the quadratic programs and every choice of the new weights; also for problems built by hand", "why_tests_cant": "One can compare two weights on one robot; that no weight, however extreme, ever leaks into the equalities, the scaling or the slack variables is about all of them.", "anchors": ["docs/kinematics/concepts.rst:37-38", "src/placo/problem/problem.cpp:80-340", "src/placo/kinematics/kinematics_solver.cpp:265-330", "src/placo/dynamics/dynamics_solver.cpp:462-513"]}
{"id": "C186", "title": "A greater weight never gives a greater error", "statement": "Raising the weight of a soft task (inverse kinematics and inverse dynamics), of a soft constraint of a problem, the magnitude of the regularization task, the torque cost, or the weight of the forces, tangential forces or moments of a contact never increases what is weighed: the error of the task, the violation, the motion of the joints, the torques, the forces. The error left is at most that of any admissible step plus the cost of the rest at this step divided by the weight: it tends to the least possible one.", "quantifier": "for every robot, state, lists of tasks, constraints and contacts, weights, and for every solver that returns feasible points of least cost", "why_tests_cant": "Experiments compare a few weights on one robot; monotonicity is a relation between the optima of all pairs of problems.", "anchors": ["docs/kinematics/concepts.rst:21-27", "docs/dynamics/regularization.rst:10-22", "docs/dynamics/weighting_deactivating_contacts.rst:6-50", "src/placo/kinematics/kinematics_solver.cpp:157-164", "src/placo/dynamics/dynamics_solver.cpp:462-513", "src/placo/dynamics/contacts.cpp:60-220"]}
{"id": "C187", "title": "Inverse dynamics returns the motion of least cost", "statement": "When inverse dynamics succeeds, the accelerations, torques and wrenches that it returns satisfy the equation of the dynamics and everything that is required (hard tasks, limits, contacts), and among all those that do, whatever way they are obtained, they have the least cost: the regularisation on accelerations and wrenches, the weighted squared errors of the soft tasks, the weighted squares of the wrenches and the torque cost. With a positive regularisation nothing else has this cost: the result is unique.", "quantifier": "for every robot, state, lists of tasks and contacts that can be updated, settings and external force, and for every solver that returns feasible points of least cost", "why_tests_cant": "Tests can compare the result with some other motions; the least of all of them, through the elimination of equalities and the slack variables, needs a proof.", "anchors": ["src/placo/dynamics/dynamics_solver.cpp:372-620", "src/placo/dynamics/contacts.cpp:60-263", "src/placo/problem/problem.cpp:80-340", "docs/dynamics/regularization.rst:10-22"]}
{"id": "C188", "title": "With the documented limits, DC motors get the voltage and the current they have", "statement": "When the effort limit of a joint is the stall torque kt Vin / R of its DC motor and its velocity limit the no-load speed Vin / kt, and velocity vs torque limits are enabled, the torque returned by inverse dynamics is in [-kt Vin / R - kt^2 w / R, kt Vin / R - kt^2 w / R], w being the velocity of the joint: the voltage R I + kt w is at most Vin. With the torque limit kt Imax in the solver and torque limits enabled, the current is at most Imax.", "quantifier": "for every robot, motor characteristics, state, lists of tasks, contacts and constraints, settings and every solver that returns feasible points", "why_tests_cant": "A simulation checks the voltage along one motion; the documented interval is a claim about every state and every torque.", "anchors": ["docs/dynamics/limits.rst:47-108", "src/placo/dynamics/dynamics_solver.cpp:210-320"]}
{"id": "C189", "title": "A joint beyond its limit comes back", "statement": "With joint limits enabled and a positive qdd_safe, whatever the tasks, contacts and constraints of each call, a joint that is inside its limits is inside again after at most four successful integrated solves: it is never beyond a limit during more than three steps in a row. From any excess and any velocity beyond a limit, there is a number of successful steps, which depends on them only, within which the joint is back.", "quantifier": "for every robot, joint of one coordinate, excess, velocity, sequence of calls, and every solver that returns feasible points", "why_tests_cant": "A simulation shows a joint coming back once, with one controller; the claim is about every sequence of accelerations that the limits accept.", "anchors": ["src/placo/dynamics/dynamics_solver.cpp:243-320", "src/placo/dynamics/dynamics_solver.cpp:515-560"]}
{"id": "C190", "title": "Repeated integrated solves bring a joint to its hard target", "statement": "When a hard joints task gives a joint a constant target and the solves are integrated and succeed, the joint converges to the target and stops, whatever the other tasks, contacts and constraints are, exactly when kp > 0, kd > 0 and kp dt^2 + 2 kd dt < 4, kd being the gain in use; otherwise there are an error and a velocity from which it never does. With the default kd (critical damping) the condition is sqrt(kp) dt < 2 (sqrt(2) - 1): about 26 ms for the default kp = 1000.", "quantifier": "for every robot, joint of one coordinate, gains, time step, target, initial state and infinite sequence of successful calls", "why_tests_cant": "The limit of an infinite run, for all gains and time steps; a simulation shows one run, and a slowly diverging one looks like a converging one.", "anchors": ["src/placo/dynamics/joints_task.cpp:27-52", "src/placo/dynamics/task.cpp:5-15", "src/placo/dynamics/dynamics_solver.cpp:535-550", "src/placo/model/robot_wrapper.cpp:694-712"]}
{"id": "C191", "title": "Planned ZMP between the planning timesteps", "statement": "With hard constraints, between two consecutive planning timesteps of a part the ZMP of the planned trajectory stays inside the polygon of the support by at least zmp_margin - A dt^2 / 8, where A bounds the norm of the acceleration of the CoM at these timesteps. In the middle, the ZMP is the middle of the two ZMPs less dt^2/8 times the mean acceleration, so the bound cannot be improved.", "quantifier": "for all support lists, initial states, parameters, polygons, sound solver answers, parts, timesteps and times between them", "why_tests_cant": "The constraints are written at the timesteps only; what happens between them, at every instant and for every plan, cannot be sampled.", "anchors": ["src/placo/humanoid/walk_pattern_generator.cpp:413-453", "src/placo/humanoid/lipm.cpp:33-36", "src/placo/problem/integrator.cpp:170-198"]}
{"id": "C192", "title": "How low and how high the swing foot goes", "statement": "During a swing whose ends are not above the requested height, the foot stays above the lower of the two ends and never exceeds the requested height, and its horizontal position stays on the segment between the two ends.", "quantifier": "for all durations, heights, rise ratios, ends and instants of the swing; for all three trajectory generators; when a swing is made again after its plateau, for all positions and velocities of the foot", "why_tests_cant": "What a polynomial does between the instants a test reads, for every step, height and ratio, is not observable by sampling.", "anchors": ["src/placo/humanoid/swing_foot.cpp:27-70", "src/placo/humanoid/swing_foot.cpp:104-111", "src/placo/humanoid/swing_foot_quintic.cpp:33-99", "src/placo/humanoid/swing_foot_cubic.cpp:17-56", "src/placo/humanoid/humanoid_parameters.h:78-83"]}
{"id": "C193", "title": "The PID on the DCM is bounded and settles", "statement": "Once its members have a value, with a leak lambda in (0, 1], errors bounded by E and durations between a > 0 and b: after any sequence of calls the integral is bounded by E b / lambda (or its first value if larger), and the offset applied to the CoM by any call is bounded by |Kp| E + |Ki| M + |Kd| 2 E / a where M bounds the integral. For a constant error and duration the offset tends to (Kp + Ki d / lambda) times the error. Without a leak the integral of a constant error grows linearly.", "quantifier": "for all sequences of calls, gains, errors and durations", "why_tests_cant": "A bound over every sequence of calls of every length, and a limit, are not observable by running some of them.", "anchors": ["src/placo/humanoid/walk_tasks.cpp:133-146", "src/placo/humanoid/walk_tasks.h:41-53"]}
{"id": "C194", "title": "Walking straight ahead, the naive planner reaches its targets", "statement": "In any frame W, the targets are side by side (feet_spacing apart) at the abscissa X, and the first support foot is on its side of the line at x <= X with the orientation of W. The plan is the initial footsteps followed by steps on alternating sides; the step i puts its foot at the abscissa min(X, x + (i + 1) L), L = max_dx_forward, on its side of the line; there are max(1, ceil((X - x) / L)) + 1 steps, or max_steps if that is less; when it is not less, the last two steps are exactly on the targets. The frame of the foot that flies first is not read.", "quantifier": "for all rigid frames W, abscissas, parameters, distances and numbers of steps, and any place of the flying foot", "why_tests_cant": "A closed form for a walk of any length in any frame, including walks cut by max_steps.", "anchors": ["src/placo/humanoid/footsteps_planner_naive.cpp:31-157", "src/placo/humanoid/footsteps_planner_naive.h:29-45"]}
{"id": "C195", "title": "The settings of a contact can be assigned from Python", "statement": "For every class of contacts, every setting documented in contacts.h (active, mu, the weights, unilateral, length, width, R_world_surface, w_ext) and every sequence of assignments of attributes on a Python contact: the C++ member is the last value assigned (the first value if none), Python reads it back and the assignment raises nothing; no other member changes.", "quantifier": "for all classes, settings, values and sequences of assignments", "why_tests_cant": "A sequence of assignments of any length on any contact; the test suite never touches R_world_surface of a line contact.", "anchors": ["bindings/expose-dynamics.cpp:42-89", "src/placo/dynamics/contacts.h:15-251"]}
{"id": "C196", "title": "The DCM of a planned walk diverges from every line that its ZMP does not cross", "statement": "For every plan of the CoM (any supports with positive durations, any initial state, any solver) and every line of the floor that the ZMP of the plan never crosses: between any two times of the walk, in the same part or not, the distance of the DCM beyond the line is multiplied by exp(omega (t' - t)) at least. So if the last DCM is not beyond the line, no DCM of the walk is, and the distance of the CoM beyond the line is divided by exp(omega (t - t0)) at least. When the last support is an end, with hard constraints, the DCM ends on the ZMP: neither the DCM nor a CoM that starts before the line ever cross it.", "quantifier": "for all plans, lines and pairs of times", "why_tests_cant": "The times are all the times of a walk of any length, including those between the timesteps, and the lines are all those of the floor; a test samples a few.", "anchors": ["src/placo/humanoid/lipm.cpp:8-41", "src/placo/humanoid/walk_pattern_generator.cpp:457-514"]}
{"id": "C197", "title": "The footstep planners do in a mirror what the mirror shows", "statement": "For every parameters and every frames of the feet: the plan of the repetitive planner for the mirror image of the robot (feet exchanged, frames reflected in the sagittal plane, the opposite foot flying, dy and dtheta negated) is the mirror image of its plan, overlaps and clippings included; the same for the naive planner with the mirror images of its targets.", "quantifier": "for all parameters, clippings, frames (rigid or not), velocities, numbers of steps and targets", "why_tests_cant": "A sign that is wrong for one foot only is seen by a test only if it plans the same walk with both feet and compares the reflected frames; the property is about every walk.", "anchors": ["src/placo/humanoid/footsteps_planner.cpp:19-94", "src/placo/humanoid/footsteps_planner.cpp:289-371", "src/placo/humanoid/footsteps_planner_repetitive.cpp:15-32", "src/placo/humanoid/footsteps_planner_naive.cpp:31-157"]}
{"id": "C198", "title": "The footstep planners do the same wherever the robot is", "statement": "For every parameters and every frames of the feet: if the robot is moved by a transform that keeps the vertical, the repetitive planner plans the moved footsteps, overlaps and clippings included; if the robot and the targets are moved by any rigid transform, the naive planner plans the moved footsteps, and stops at the same step.", "quantifier": "for all parameters, frames, transforms, velocities, numbers of steps and targets", "why_tests_cant": "Walks are planned from wherever the robot is in the world; a test plans them near the origin. A term that reads the world frame instead of the support frame is not seen there.", "anchors": ["src/placo/humanoid/footsteps_planner.cpp:19-94", "src/placo/humanoid/footsteps_planner.cpp:289-371", "src/placo/humanoid/footsteps_planner_repetitive.cpp:15-32", "src/placo/humanoid/footsteps_planner_naive.cpp:31-157"]}
{"id": "C199", "title": "The arithmetic of expressions in Python uses the numbers that are written", "statement": "For every expression and every number of Python, each of the operators +, -, *, <=, >=, == between them, on either side, builds the expression or the constraint that is written; between expressions, and with a vector on the right, the operators of Python are those of C++.", "quantifier": "for all expressions, numbers and vectors, and every rounding to nearest", "why_tests_cant": "The error is of one part in ten million and the tests compare with a tolerance; with numbers such as 1 or 0.5 there is none. The property is about all the numbers.", "anchors": ["bindings/expose-problem.cpp:131-188", "src/placo/problem/expression.cpp:121-378"]}
{"id": "C200", "title": "The attributes of the Python objects are assigned and read independently", "statement": "For every class of the bindings and every sequence of assignments of any names to one of its objects: an attribute that can be assigned reads the last value that it was given and its assignment raises nothing; an attribute that can only be read keeps its value and its assignment raises an error; no other assignment changes them.", "quantifier": "for all classes of the bindings, attributes, values and sequences of assignments", "why_tests_cant": "There are more than 150 attributes; a test assigns a few and reads the one that it assigned. A setter that writes another member is seen only by reading both.", "anchors": ["bindings/expose-dynamics.cpp:26-247", "bindings/expose-footsteps.cpp:24-59", "bindings/expose-kinematics.cpp:23-269", "bindings/expose-parameters.cpp:21-53", "bindings/expose-problem.cpp:37-137", "bindings/expose-robot-wrapper.cpp:27-219", "bindings/expose-tools.cpp:56-91", "bindings/expose-walk-pattern-generator.cpp:27-207"]}
{"id": "C201", "title": "A robot that is at its targets does not move", "statement": "If every task of the kinematics solver, soft, hard or scaled, has reached its target and the robot is inside the enabled limits, then the step of a solve is null, and the configuration is unchanged by any number of solves.", "quantifier": "for all robots, lists of tasks with non-negative weights, masks, limits, states of the solver and numbers of solves", "why_tests_cant": "The tests that repeat solves stop when the targets are reached to within a tolerance; that the robot stays there for ever, with any other tasks and limits, is a statement on all the sequences of solves.", "anchors": ["src/placo/kinematics/kinematics_solver.cpp:290-421"]}
{"id": "C202", "title": "Repeated solves never increase the weighted error of linear tasks", "statement": "For soft and hard tasks that are linear in the configuration (joints tasks are), on a robot inside its enabled limits whose hard tasks are met: every solve of any sequence decreases the weighted squared error of the soft tasks by at least the regularization times the squared motion of the joints, and the limits and the hard tasks stay met. The motion of each joint from one solve to the next tends to zero, even with contradictory tasks.", "quantifier": "for all robots with joints of one coordinate, linear tasks, states of the solver, masks, limits and numbers of solves", "why_tests_cant": "A test sees that some sequences settle. That there is no cycle nor divergence, for any set of contradictory tasks and any number of solves, needs a decreasing quantity.", "anchors": ["src/placo/kinematics/kinematics_solver.cpp:290-421", "src/placo/kinematics/joints_task.cpp:1-49"]}
{"id": "C203", "title": "Repeated solves reach the best compromise between linear tasks", "statement": "For soft and hard tasks that are linear in the configuration with constant Jacobians (joints tasks are), with the velocity limits disabled: after n successful solves the weighted squared error of the soft tasks exceeds that of any configuration allowed by the hard tasks, the masks and the enabled joint limits by at most the regularization times the squared distance from the initial configuration to it, divided by n; if a configuration is allowed and the hard requirements are independent, every solve succeeds; with velocity limits that let every joint move, the error still gets as close as wanted to that of any allowed configuration, or below it.", "quantifier": "for all robots with joints of one coordinate, linear tasks, initial states (limits and hard tasks may be violated), masks, allowed configurations and numbers of solves", "why_tests_cant": "A test compares the result of a number of solves with a configuration computed by hand. That no set of tasks, limits and masks leaves the robot at a compromise that is not the best is a statement on all of them and on the limit of the sequence.", "anchors": ["src/placo/kinematics/kinematics_solver.cpp:290-421", "src/placo/kinematics/joints_task.cpp:1-49", "src/placo/problem/problem.cpp:113-417"]}
{"id": "C204", "title": "A Python sequence given for a vector is converted and released", "statement": "For every sequence given where a function of C++ expects a vector: the vector has the converted objects in the same order, an object that cannot be converted raises an error, and in all cases the call leaves to every object of the sequence the references that it had; what is not a sequence with a length is refused with an error.", "quantifier": "for all sequences, conversions, objects and histories of calls", "why_tests_cant": "A reference that is not given back has no visible effect: the results are right and the memory grows by a few bytes per call. Only an account of the references over all histories shows it.", "anchors": ["bindings/expose-utils.hpp:11-40"]}
{"id": "C205", "title": "The polygon of a footstep follows its assignments in Python", "statement": "For every sequence of assignments of the frame, the length, the width and the side of a footstep, calls of set_frame_xy and reads of the polygon: the polygon read is the outline of the foot at the place and with the size last assigned.", "quantifier": "for all footsteps and all histories of operations", "why_tests_cant": "A test that moves a footstep and reads its polygon once passes: the error needs a read before the assignment. The property is about all the histories.", "anchors": ["bindings/expose-footsteps.cpp:23-40", "src/placo/humanoid/footsteps_planner.cpp:19-51"]}
{"id": "C206", "title": "The Hessians of a frame are the derivatives of its Jacobian", "statement": "For every frame of the model and every motion, get_frame_hessian gives for each joint the matrix whose combination by the velocities is the derivative of the local Jacobian of the frame; the manipulability task built with them follows the derivative of the manipulability of the frame; in Python, names that are not those of a frame and of a joint raise an error.", "quantifier": "for all models, placements of frames, joints, configurations and motions", "why_tests_cant": "Placements, memory layout of the tensor and order of the derivatives can be wrong in ways that a frame at the origin of its body or a robot with few joints does not show; the property is about the derivative along all motions.", "anchors": ["src/placo/model/robot_wrapper.cpp:323-340", "bindings/expose-robot-wrapper.cpp:56-60", "src/placo/kinematics/manipulability_task.cpp:27-62"]}
{"id": "C207", "title": "Jacobians of frames and of the CoM", "statement": "frame_jacobian and frame_jacobian_time_variation are zero for the joints that do not move the frame; total_mass is the sum of the masses of the bodies in any order; com_jacobian_time_variation is the derivative of the Jacobian of the CoM along every motion of a robot with a mass.", "quantifier": "for all robots, frames, velocities and motions", "why_tests_cant": "A matrix that is not initialised often contains zeros, and the tests use robots of one mass: the property is about all the columns and masses.", "anchors": ["src/placo/model/robot_wrapper.cpp:555-584", "src/placo/model/robot_wrapper.cpp:640-644", "src/placo/model/robot_wrapper.cpp:776-786"]}
{"id": "C208", "title": "Lines and paths drawn in the viewer pass through their points", "statement": "For every program that draws lines and paths: what is shown below a name is the line that joins each point to the next, for the points last given with that name, and nothing else.", "quantifier": "for all sequences of calls of line_viz and path_viz, names and points", "why_tests_cant": "The drawing is checked by eye, with lines of two points. The property is about all the numbers of points and all the sequences of calls.", "anchors": ["python/placo_utils/visualization.py:176-183", "python/placo_utils/visualization.py:208-222"]}
{"id": "C209", "title": "The frames of different robots are drawn apart", "statement": "For every set of robots shown and every sequence of calls of robot_frame_viz: each frame of each robot is shown where it was last drawn; a robot that was not shown raises an error and nothing changes.", "quantifier": "for all robots, names, frames and sequences of calls", "why_tests_cant": "Needs two robots in the same viewer, with the same name or names with underscores.", "anchors": ["python/placo_utils/visualization.py:28-48", "python/placo_utils/visualization.py:134-141"]}
{"id": "C210", "title": "Scaled tasks go straight to their targets, together", "statement": "For every program that repeats solve(true) with tasks that are linear in the configuration: all the errors of all the scaled tasks are multiplied by one same factor between 0 and 1, whatever the other tasks, the constraints and the solves that fail; the hard tasks, once met, stay met. If the targets can be reached inside the joint limits, with scaled and hard tasks only, the errors tend to zero geometrically.", "quantifier": "for all robots, sets of linear tasks, constraints that change from one solve to the next, numbers of solves, successful or not", "why_tests_cant": "Tests run a few iterations of one task. The property is about all the numbers of tasks and of solves, and about the common factor at each of them.", "anchors": ["src/placo/kinematics/kinematics_solver.cpp:313-421", "src/placo/tools/prioritized.h:15-33"]}
{"id": "C211", "title": "Python objects keep alive what they use", "statement": "For every Python program: a call on an object that has a name is never undefined behaviour; the objects to which it refers are still there.", "quantifier": "for all sequences of creations of objects, reads of parts, uses and ends of names, of any length", "why_tests_cant": "Tests keep all their objects in local variables until the end. The property is about all the orders in which names end.", "anchors": ["bindings/expose-kinematics.cpp:22-30", "bindings/expose-dynamics.cpp:50-91", "bindings/expose-problem.cpp:86-111", "bindings/expose-walk-pattern-generator.cpp:163-195", "bindings/expose-footsteps.cpp:99-104", "src/placo/kinematics/kinematics_solver.h:440"]}
{"id": "C212", "title": "A problem deletes what it allocated, once", "statement": "For every sequence of calls on problems: no variable or constraint is deleted twice, none is in two problems, none that a problem still refers to was deleted, and when all problems are destroyed all of them have been deleted.", "quantifier": "for all sequences of constructions, add_variable, add_constraint, add_limit, clear_variables, clear_constraints, copies and destructions, on any number of problems, of any length", "why_tests_cant": "A test shows one sequence, and double deletes and leaks are not seen without a special build. The property is about all interleavings of calls on any number of problems.", "anchors": ["src/placo/problem/problem.cpp:9-40", "src/placo/problem/problem.cpp:64-92", "src/placo/problem/problem.h:17-20", "src/placo/problem/problem.h:136-144"]}
{"id": "C213", "title": "A hard gear task keeps its gears meshed during whole programs", "statement": "For every robot whose joints have one coordinate and every program that gives the solves a hard gear task: from the first such solve that succeeds, every configuration of the robot respects all the gears exactly, whatever the other tasks, constraints and settings are, and whether the next solves succeed, fail or are not applied. The velocities respect the gears from the next solve on. In a train of gears the ratios multiply.", "quantifier": "for all robots with joints of one coordinate, gears whose targets are not their own sources, tasks, constraints, sequences of calls of any length and trains of any length, and every sound QP solver", "why_tests_cant": "Tests solve a few times with one mechanism and compare with a tolerance. The property is about all programs, including those in which solves fail.", "anchors": ["src/placo/kinematics/gear_task.cpp:10-53", "src/placo/kinematics/kinematics_solver.cpp:313-421"]}
{"id": "C214", "title": "A hard gear task of the dynamics solver brings the gears together, exactly when the gains suit the time step", "statement": "When the solves of the dynamics solver have a hard gear task, are integrated and succeed, the error of each gear follows the recursion of a damped spring, whatever the other tasks, contacts and constraints are: gears that are meshed stay so, and they converge from any state exactly when kp > 0, kd > 0 and kp dt^2 + 2 kd dt < 4, kd being the gain in use.", "quantifier": "for all robots with joints of one coordinate, histories of set_gear and add_gear, gains, time steps, initial states, and sequences (finite or infinite) of successful calls", "why_tests_cant": "Tests run a few steps with one time step. The property is about all gains and time steps and the limit of infinite runs.", "anchors": ["src/placo/dynamics/gear_task.cpp:10-63", "src/placo/dynamics/dynamics_solver.cpp:387-560"]}
{"id": "C215", "title": "The viewer draws the frames where they are in the displayed configuration, and animates configurations of the robot exactly when no joint is continuous", "statement": "The program placo_utils.view never stops with an exception for a loaded robot; in each pass the frames are drawn where they are in the configuration that is displayed; without --animate this is the neutral configuration, with --animate the pass n+1 shows the first coordinate of each joint at sin(0.01 n) and all else neutral. All passes display configurations of the robot if and only if none of the animated joints is continuous: with such a joint, no pass after the first displays one.", "quantifier": "for all robots (lists of joints, forward kinematics, neutral configurations), lists of frames, and numbers of passes", "why_tests_cant": "The loop has no end and the picture is only looked at. The sine of the time must be compared with one for all passes: the proof uses that pi is irrational.", "anchors": ["python/placo_utils/view.py:13-42", "src/placo/model/robot_wrapper.cpp:186-207", "src/placo/model/robot_wrapper.cpp:755-764"]}
{"id": "C216", "title": "The CoM planned for a walk does not depend on where the walk is", "statement": "When the supports and the initial position of the CoM are moved by the same vector of the floor, plan_com fails in the same cases (with the same errors), and otherwise the planned CoM, ZMP, DCM and target DCM are moved by this vector at all times, with the same velocities, accelerations, jerks and times.", "quantifier": "for all generators (parameters, weights, soft or hard constraints), lists of supports whose polygons are up to date, initial states and vectors, whatever the QP solver and the QR factorisation return", "why_tests_cant": "Tests plan a few walks near the origin and would compare with a tolerance. The property is an equality for all walks, and does not depend on the solver.", "anchors": ["src/placo/humanoid/walk_pattern_generator.cpp:413-515", "src/placo/humanoid/lipm.cpp:47-114", "src/placo/problem/problem.cpp:113-391"]}
{"id": "C217", "title": "The CoM planned for a walk does not depend on when the walk is", "statement": "When a walk is planned later, with supports that started later by the same delay, plan_com fails in the same cases (with the same errors), and otherwise the planned CoM and its derivatives are at all times those of the first plan before the delay, the parts and the end of the plan are later by this delay, and so are the start times of the supports.", "quantifier": "for all generators, lists of supports, initial states, times and delays (positive or negative), whatever the QP solver and the QR factorisation return", "why_tests_cant": "Tests plan a few walks at time 0. The statement is an equality for all times and delays, and fails only at a time that tests do not use.", "anchors": ["src/placo/humanoid/walk_pattern_generator.cpp:455-515", "src/placo/humanoid/lipm.cpp:47-141", "src/placo/humanoid/footsteps_planner.h:50-95"]}
{"id": "C218", "title": "The swing of a foot does not depend on when or where it is", "statement": "A SwingFoot trajectory made later and made again (remake_trajectory) later, any number of times, is at all times the same trajectory later, position and velocity. When its start and targets are turned about the vertical and moved, the height being moved with them, its positions are turned and moved like them and its velocities turned, unless the trajectory starts, or is made again, at the very time it ends.", "quantifier": "for all start and end times, heights, points, lists of (time, target) at which the trajectory is made again, delays, turns and moves, and for all times of reading", "why_tests_cant": "Tests make a few trajectories, at time 0 and around the origin. The statement compares all programs at all times, with any number of trajectories made again, and a formula that forgets t_start somewhere is right at time 0.", "anchors": ["src/placo/humanoid/swing_foot.cpp:27-119"]}
{"id": "C219", "title": "The quintic swing of a foot does not depend on when or where it is", "statement": "A SwingFootQuintic trajectory made later, between points turned about the vertical and moved (the height moving with them), has finite coefficients in the same cases as the first one, and is then at all times the first one before the delay: its positions turned and moved, its velocities turned. This holds though the matrix it inverts is made of absolute times.", "quantifier": "for all start and end times, heights, points, delays, turns and moves, and for all times of reading (over the reals)", "why_tests_cant": "Tests make a few trajectories near time 0. The 18 by 18 matrix depends on the absolute times, and the equality of the trajectories for all delays rests on the uniqueness of the interpolation.", "anchors": ["src/placo/humanoid/swing_foot_quintic.cpp:33-108"]}
{"id": "C220", "title": "Programs using cubic splines do not depend on when they are", "statement": "Every program that adds points to a CubicSpline (or a CubicSpline3D), clears it, reads it (position, velocity, acceleration) and asks its duration, in any order, gets the same answers and the same errors when all the times it uses are later by the same delay, the points that are refused and the durations read before the pieces are computed included.", "quantifier": "for all lists of calls, delays, functions wrapping angles, and for angular or plain splines", "why_tests_cant": "Tests read a few splines near time 0. The statement compares all programs, with refused points, stale pieces and values clamped outside of the range.", "anchors": ["src/placo/tools/cubic_spline.cpp:15-117", "src/placo/tools/cubic_spline_3d.cpp:9-42"]}
