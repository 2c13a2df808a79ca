# Formal model of placo: design

Subject: the C++ sources under `/repo/src/placo` (Rhoban/placo). The code is
read as text and re-expressed, function by function, as total Lean 4
definitions under `lean/Verif/`. Every definition cites the file and lines it
models.

## 1. Layout

| directory / file | content |
|---|---|
| `Verif/Base.lean` | error kinds, small list/sum helpers shared by models |
| `Verif/Problem/*` | expressions, variables, constraints, QP assembly, sparsity, polygon, polynomials, integrator |
| `Verif/Tools/*` | cubic splines, segments, axis masks, priorities, angles, rotations |
| `Verif/Kinematics/*` | limits, masks, scaled tasks, gear / joints / regularization tasks, ownership, constraints |
| `Verif/Dynamics/*` | equation of motion assembly, contacts, limits, gains, relative position |
| `Verif/Robot/*` | `model/robot_wrapper.cpp` parts |
| `Verif/Humanoid/*` | footsteps, supports, clipping, LIPM, swing foot, trajectories, walk tasks |

In each directory a model file (`X.lean`) holds the definitions, and a
property file (`XProps.lean`) holds the specification (independent of the
model's helpers), the theorems listed in `MANIFEST.json` and non-vacuity
`example`s next to them.

## 2. Trusted base

* Lean 4.33.0 kernel and Mathlib. Theorems depend only on `propext`,
  `Classical.choice` and `Quot.sound` (see section 5); no own axioms, no
  `sorry`, no `native_decide`, no `bv_decide`.
* The hand translation of C++ to Lean (each definition cites its source lines).
* **Numbers.** `double` is modelled by an arbitrary linearly ordered field `K`
  where the code only uses field operations and comparisons, and by `ℝ` where
  it uses `sqrt`, trigonometry or the matrix exponential. Rounding, overflow,
  NaN and infinities are not modelled. `int` is modelled by `Nat`/`Int`
  without overflow.
* **External code** is a parameter with a stated contract: eiquadprog (returns
  a cost, a point and an active set), Eigen's column-pivoted QR (an orthogonal
  factorisation), Eigen's inverse (a right/left inverse when one exists),
  pinocchio (mass matrix, Jacobians, forward kinematics are arbitrary
  functions with the algebraic laws stated in the theorem), boost's convex
  hull, json, hpp-fcl. A theorem's hypotheses list the contract it uses.
* Undefined behaviour (out-of-range access, Eigen size mismatch) is an explicit
  outcome `Err.ub`, distinct from the exceptions the code throws.
* **Not modelled at all:** Python bindings, URDF loading, collision geometry
  and visualisation, json parsing, doc generation, performance.

When a property is false of the code, the property stays in
`properties.jsonl`, a theorem refutes it with a concrete witness
(`..._refuted`), the part that does hold is proved with suffix `_partial`, and
the manifest status is `partial`.

## 3. Plan per property

* **C01** Expression arithmetic is pointwise arithmetic on values: AST `Term` with its own pointwise denotation; `build` runs the modelled operators; theorem by induction on the term (value and error).
* **C02** Comparison operators mean what they read: `Sat` of the built constraint vs. pointwise relation on values.
* **C03** Vector minus expression: Refuted (code returns e - v); `_partial` states what it does compute.
* **C04** Expression minus double: Refuted (size-1 vector added to multi-row expression is UB); `_partial` for one row.
* **C05** mean() is the arithmetic mean of the rows: Refuted (divides by columns); `_partial` when rows = cols.
* **C06** Variables partition the decision vector: Fold over add_variable histories; partition invariant by induction.
* **C07** Variable slices select the right entries: Direct from the model of Variable::expr.
* **C08** add_limit bounds the absolute value: Equivalence at each x.
* **C09** QP objective equals the weighted sum of squares: Assembled P, q vs. sum of squares, induction over the constraint list.
* **C10** Sparsity option does not change the objective: Refuted with a two-interval row; `_partial`: equal if each row block touches one interval.
* **C11** Interval sets stay sorted, disjoint and represent the union: Invariant + union refinement by induction on the interval list and on the history.
* **C12** Column sparsity detection covers exactly the non-zero columns: Induction over columns.
* **C13** Hard inequalities are exactly the QP's inequality rows: Induction over the constraint list with row/slack counters.
* **C14** Soft inequalities only penalise violations: Minimum over s >= 0 of (r-s)^2.
* **C15** Equality rewriting is lossless: Orthogonal QR contract; equivalence of solution sets.
* **C16** Failed solves do not touch variables: State machine of solve with all exits.
* **C17** Active constraint reporting: Row ownership map, induction over constraints.
* **C18** Inconsistent problems are reported as errors, not undefined behaviour: Refuted: equality block is written before validation (UB); `_partial` for problems without oversized hard equalities.
* **C19** The QP handed to the solver has consistent dimensions: Refuted: rewrite_equalities = false with hard equality and soft inequality; `_partial` otherwise.
* **C20** Constraint order does not matter: Permutation invariance of the sums and of satisfaction.
* **C21** Polygon constraint is the signed distance test: Rows = signed distance over ℝ; convex combinations by linearity.
* **C22** Polynom value is the true derivative: Compare with Mathlib's `Polynomial.derivative^[k]` evaluation.
* **C23** Problem polynomials agree with the solved polynomial: Compare the two models.
* **C24** Integrator expressions follow the discrete dynamics: Induction on the step over the code's power tables.
* **C25** Integrator transition matrices solve the differential equation: Explicit solution: Taylor polynomial of the nilpotent chain; exponential as the power series given by Mathlib's `NormedSpace.exp`.
* **C26** Planned and executed trajectories agree: Compare the two models at any t.
* **C27** Trajectory duration: Refuted (keyframes.size() = N+1); exact value proved.
* **C28** Trajectory cache reflects the last solve: State machine with version counter; t_start changes after caching are a recorded limitation.
* **C29** Cubic spline interpolates its points and is C1: Segment fit solved explicitly (inverse contract), derivative via `HasDerivAt`.
* **C30** Cubic spline clamps outside its range: From the interpolation model.
* **C31** Cubic spline time stamps stay strictly increasing: Invariant over op histories.
* **C32** Angular splines take the short way and keep the angle: Invariant over op histories with wrap_angle spec.
* **C33** Cubic spline duration: Refuted (stale / empty cache); `_partial` right after an interpolation.
* **C34** 3D splines are never half updated: Invariant over op histories.
* **C35** Segment intersection is exact: Solve the 2x2 system explicitly over an ordered field.
* **C36** Half line test: Refuted (roles swapped); `_partial` states what is computed.
* **C37** Axis mask keeps exactly the selected rows: List of selected rows.
* **C38** Rejected axis specifications leave the mask unchanged: Refuted; the state after failure is characterised.
* **C39** Rejected priorities leave the object unchanged: Refuted (name overwritten); rest unchanged is `_partial`.
* **C40** wrap_angle normalises: Via `Complex.arg` / `Real.Angle.toReal`.
* **C41** flatten_on_floor keeps position and yaw only: Algebra over ℝ with the wrap/yaw model.
* **C42** rotation_from_axis maps the axis onto the vector: Rodrigues formula over ℝ.
* **C43** Inverse kinematics never leaves joint limits: Invariant over steps, arbitrary feasible dq.
* **C44** Inverse kinematics respects velocity limits: Feasible point of the modelled rows.
* **C45** Masked degrees of freedom do not move: Op history over masks + rows.
* **C46** Scaled tasks share one scale in [0,1]: Feasible point of the modelled rows.
* **C47** Gear task enforces the gear equation: Rows of A, b with distinct indices.
* **C48** Gears chained on the same joint: Refuted for source = target; `_partial` for repeated sources as coded.
* **C49** Joints task reaches its targets: Rows of A, b.
* **C50** Task registry never dangles in the kinematics solver: Heap/ownership machine, invariant over histories.
* **C51** Removing a caller-owned task from the dynamics solver does not free it: Refuted by a two-step history; `_partial` when all tasks are solver-owned.
* **C52** CoM polygon constraint keeps the next CoM inside: Feasible point; polygon test.
* **C53** Distance constraint bounds the predicted distance: Feasible point.
* **C54** Joint-space half-spaces hold after the step: Feasible point; size errors.
* **C55** Regularization task penalises exactly the weighted motion: History machine of weights.
* **C56** Failed kinematics solve leaves the robot unchanged: Outcome machine.
* **C57** Inverse dynamics satisfies the equation of motion: Assembled expressions; induction over contact list.
* **C58** Unilateral contacts never pull and stay in the friction pyramid: Rows of the friction pyramid.
* **C59** Planar contact centre of pressure is inside the sole: Rows + ZMP formula.
* **C60** Unilateral line contact is well formed: Refuted: size mismatch.
* **C61** Tangential weight penalises the tangential forces: Refuted: slice starts at y.
* **C62** Dynamics joint limit overshoot is bounded: Invariant over steps: viability bound.
* **C63** Dynamics joint limits are never exceeded: Refuted by a witness; bounded version is C62.
* **C64** Torque and velocity limits hold for every feasible solution: Feasible point of the rows.
* **C65** Default task gains are critically damped: Gain function + ODE verification.
* **C66** Relative position task uses the true relative acceleration: Refuted by a witness motion; `_partial` when rotation of a is constant.
* **C67** set_T_world_frame places the frame: Group algebra of transforms.
* **C68** Consecutive frame placements compose: Refuted for stale cache; `_partial` with update in between.
* **C69** Floating base pose round-trips: Quaternion/rotation algebra over ℝ, Eigen's four branches.
* **C70** Unknown joint names raise: Refuted for velocity accessors; `_partial` for position accessors.
* **C71** Joint Jacobian time variation: Refuted.
* **C72** Static gravity compensation torques leave the floating base unactuated: Block linear algebra.
* **C73** Torques for an acceleration with a fixed frame: Refuted for non-zero acceleration; `_partial` for zero.
* **C74** Configuration noise respects joint limits: Convex combination.
* **C75** Support sequence is walkable: Recursion over the footstep list.
* **C76** Planned footsteps alternate sides: Loop invariants.
* **C77** Step clipping stays in the envelope: Ordered-field algebra / sqrt over ℝ.
* **C78** Every planned step is inside the envelope: Loop with fuel 32.
* **C79** Footstep overlap detects every overlap: Refuted by a crossing pair; `_partial`: no false positive, symmetric.
* **C80** Naive planner stops only at the target: Refuted by a witness if it can be kept exact; otherwise `_partial`.
* **C81** Trajectory part lookup: Binary search with well-founded measure.
* **C82** Querying a previous support does not modify the trajectory: Refuted; the mutation is characterised.
* **C83** Support polygons are up to date: Cache machine; refuted for opposite_footstep and update_supports, `_partial` for apply_offset and operator*.
* **C84** LIPM quantities are consistent: Compare the models.
* **C85** ZMP velocity is the derivative of the ZMP: Refuted by a witness; expression version proved.
* **C86** Chained LIPMs are continuous: Induction over the support list.
* **C87** Cubic swing foot leaves and lands where asked: Knots of the spline model.
* **C88** Swing foot trajectory boundary conditions: Inverse contract + determinant non-zero.
* **C89** Trimming keeps the future of the trajectory: Part list filtering.
* **C90** Support phases have their own start time: Refuted for has_double_supports without start; `_partial` otherwise.
* **C91** Walk tasks switch consistently: Machine over mode changes.
* **C92** Task error report has one entry per task: Refuted (map keys overwritten).
* **C93** Double support timing is consistent: Arithmetic of plan_com's duration; truncation recorded.
* **C94** camera_look_at points the camera at the target: Trigonometric identity.
* **C95** to **C97** Hard tasks, weighted least squares, user constraints of the kinematics solver: composition of the solver model with the QP contracts.
* **C98** to **C101** Distance task, yaw, cone and self-collision constraints: first-order models; refuted where the linearisation is wrong.
* **C102** to **C104** Hard dynamics tasks, torque task, PD of the point tasks: composition with the QP contracts.
* **C105** to **C107** IMU orientation, support changes, mass matrix: group algebra of transforms.
* **C108**, **C109** Planned ZMP in the supports, no undefined behaviour of plan_com: composition of the whole planning.
* **C110** PID on the DCM: machine over calls; refuted for the uninitialised members.
* **C111** to **C114** Tasks on frames: derivative of the placement along the step, for every motion predicted by the Jacobians.
* **C115**, **C116** Axis align and wheel: orthonormal frames, minimum over the rim; refuted on the singular placements.
* **C117**, **C118** Momentum and energy: linear algebra.
* **C119** Manipulability: Jacobi's formula.
* **C120** configure: induction over the history; refuted for unknown names.
* **C121** Dynamics orientation task: derivative of the angular velocity along any motion.
* **C122** Dynamics relative orientation task: exact statement; refuted (desired acceleration, gyroscopic term).
* **C123** Dynamics self collisions: second derivative of the distance; refuted for turning bodies.
* **C124** Quintic swing foot: regularity of the 18x18 system by Hermite uniqueness.
* **C125** optimal_transformation: trace inequality for rotations; existence of the SVD proved.
* **C126** Directions.
* **C127** Frame tasks.
* **C128** Eigen's slerp.
* **C129** Kinematic walk.
* **C130** Kick.
* **C131** Hard equalities of a solution.
* **C132** The feet of a planned walk stand on the footsteps and move continuously.
* **C133** get_v_world_foot is the derivative of the position of the foot.
* **C134** Replanning goes on from the state of the robot: invariant of sessions of plan and replan.
* **C135** Replanning keeps the step in progress.
* **C136** Alignment tests of segments tell which points are on the line and on the segment.
* **C137** Frame of a support.
* **C138** Moving a support.
* **C139** Overlap clipping returns a step of the envelope that keeps the feet clear, and is a projection.
* **C140** Moving a trajectory.
* **C141** Agreement of the queries of a trajectory.
* **C142** ZMP reference of a walk.
* **C143** The planned walk minimises the distance of the ZMP to its targets.
* **C144** The QP of a problem is strictly convex and solvable exactly when its hard constraints are.
* **C145** plan_com finds a plan exactly when there is one.
* **C146** get_optimal_zmp is the constant ZMP of the LIPM, brought into the support polygon.
* **C147** update_supports takes a possible decision for the next step.
* **C148** Contacts do the work of their wrenches, at the cost their weights say.
* **C149** Dynamics settings are those of the last calls.
* **C150** CoM velocity from the support foot and the gyroscope.
* **C151** Replaying histories puts the robot where the logs say.
* **C152** The support side and the support foot agree in every session.
* **C153** Collision pairs are those of the file.
* **C154** Self collisions and distances report every pair once.
* **C155** The settings of a joint are those of the last call that named it.
* **C156** Integration follows the motion at constant acceleration.
* **C157** What solve does to the robot.
* **C158** Truncating a walk.
* **C159** Dictionaries of the Python bindings.
* **C160** Reading a solver from Python.
* **C161** What the viewer shows.
* **C162** Where arrows and frames are drawn.
* **C163** The order of tasks and constraints does not matter.
* **C164** Repeated solves bring a joint to its target.
* **C165** Solve finds a step exactly when there is one.
* **C166** Inverse dynamics succeeds exactly when a motion exists.
* **C167** A robot is built from the files of its directory.
* **C168** A call adds exactly what it asks for, or raises and changes nothing.
* **C169** A problem agrees with the calls that made it.
* **C170** Reaching the initial pose.
* **C171** Contacts and the tasks they were made from.
* **C172** Status reports of the solvers.
* **C173** Where the kinematic walk puts its support foot.
* **C174** Building a humanoid robot and changing its support.
* **C175** DCM and ZMP of the humanoid robot.
* **C176** A new dynamics solver and its settings.
* **C177** Equality of footsteps and of supports.
* **C178** Footstep planners after any session.
* **C179** Planned ZMP after the parameters change.
* **C180** Inverse kinematics with constraints.
* **C181** Inverse dynamics with self collisions constraints.
* **C182** A torque task with gains is a passive spring.
* **C183** A puppet contact makes every task feasible force-wise.
* **C184** A task contact provides the force that achieves its task.
* **C185** The weight has no effect on what is not soft.
* **C186** A greater weight never gives a greater error.
* **C187** Inverse dynamics returns the motion of least cost.
* **C188** With the documented limits, DC motors get the voltage and the current they have.
* **C189** A joint beyond its limit comes back.
* **C190** Repeated integrated solves bring a joint to its hard target.
* **C191** Planned ZMP between the planning timesteps.
* **C192** How low and how high the swing foot goes.
* **C193** The PID on the DCM is bounded and settles.
* **C194** Walking straight ahead, the naive planner reaches its targets.
* **C195** The settings of a contact can be assigned from Python.
* **C196** The DCM of a planned walk diverges from every line that its ZMP does not cross.
* **C197** The footstep planners do in a mirror what the mirror shows.
* **C198** The footstep planners do the same wherever the robot is.
* **C199** The arithmetic of expressions in Python uses the numbers that are written.
* **C200** The attributes of the Python objects are assigned and read independently.
* **C201** A robot that is at its targets does not move.
* **C202** Repeated solves never increase the weighted error of linear tasks.
* **C203** Repeated solves reach the best compromise between linear tasks.
* **C204** A Python sequence given for a vector is converted and released.
* **C205** The polygon of a footstep follows its assignments in Python.
* **C206** The Hessians of a frame are the derivatives of its Jacobian.
* **C207** Jacobians of frames and of the CoM.
* **C208** Lines and paths drawn in the viewer pass through their points.
* **C209** The frames of different robots are drawn apart.
* **C210** Scaled tasks go straight to their targets, together.
* **C211** Python objects keep alive what they use.
* **C212** A problem deletes what it allocated, once.
* **C213** A hard gear task keeps its gears meshed during whole programs.
* **C214** A hard gear task of the dynamics solver brings the gears together, exactly when the gains suit the time step.
* **C215** The viewer draws the frames where they are in the displayed configuration, and animates configurations of the robot exactly when no joint is continuous.
* **C216** The CoM planned for a walk does not depend on where the walk is.
* **C217** The CoM planned for a walk does not depend on when the walk is.
* **C218** The swing of a foot does not depend on when or where it is.
* **C219** The quintic swing of a foot does not depend on when or where it is.
* **C220** Programs using cubic splines do not depend on when they are.

## 4. Findings

Defects of the code established by a theorem (the property that claims the
correct behaviour is `partial`, the refutation is listed in `MANIFEST.json`).
Reals stand for doubles in all of them.

| property | what the code does |
|---|---|
| C03 | `VectorXd - Expression` returns `e - v` |
| C04 | `Expression - double` on several rows adds a vector of size one (undefined) |
| C05 | `Expression::mean` divides by the number of columns |
| C10 | sparse Hessian assembly drops the products between two column blocks of the same constraint |
| C18 | a hard equality that is too wide or inconsistent is copied before it is checked (undefined) |
| C19 | with `rewrite_equalities = false`, a hard equality and a soft inequality, the QP matrices have different numbers of columns |
| C22 | derivative coefficients of `Polynom` are computed in `int` and overflow from 14 coefficients on |
| C24 | `Integrator::expr(N, order)` writes outside of its matrix |
| C27 | `Trajectory::duration` is one step too long |
| C28 | the cached trajectory survives a change of `t_start`, and a failed solve |
| C33 | `CubicSpline::duration` reads segments that only a read refreshes |
| C36 | `half_line_pass_through`: the roles of the two segments are exchanged with respect to the documentation |
| C38 | a rejected axis specification has already cleared the mask |
| C39 | a rejected priority has already changed the name |
| C43, C47, C49, C54 | joint limits, gears, joints targets and half-spaces index `q` with offsets of `v`: wrong behind a joint with `nq ≠ nv` |
| C48 | the last ratio of a repeated gear source wins; a joint that is its own source is accepted |
| C51 | `DynamicsSolver::remove_task` deletes tasks of the caller |
| C53 | the distance constraint is void when the frames coincide |
| C60 | a unilateral line contact multiplies a 3×3 rotation with 5 forces; its `zmp` reads the wrong component |
| C61 | the tangential cost of planar contacts is put on `y` and `z` |
| C63 | dynamics joint limits can be exceeded (the overshoot is bounded, C62) |
| C66 | relative position task: centrifugal term counted twice, angular rows used for linear ones |
| C68 | `set_T_world_frame` twice without `update_kinematics` in between |
| C70 | velocity, acceleration, size and limits accessors index out of range for an unknown joint |
| C71 | `joint_jacobian_time_variation(name)` returns the Jacobian |
| C73 | `compute_..._torques` with a fixed frame leaves out the base acceleration and its wrench |
| C74 | `add_q_noise` on continuous joints does not keep them on the circle |
| C79 | footsteps that overlap without any corner inside the other are not detected |
| C80 | the naive planner decides that it arrived before clipping the step |
| C82 | `get_prev_support` overwrites a part of the trajectory |
| C83 | `opposite_footstep` keeps a stale polygon; so does `update_supports` |
| C85 | `LIPM::Trajectory::dzmp` has the wrong sign |
| C87 | remaking a swing inside the plateau drops the plateau's first point |
| C89 | trimming at or after the end leaves a trajectory without parts |
| C90 | without a start double support, the start time is written in two supports |
| C92 | position errors of the feet overwrite their orientation errors |
| C94 | the camera height is measured from the pan joint but used from the tilt axis |
| C99 | yaw constraint: the Jacobian is scaled by the horizontal length of the axis |
| C100 | cone constraint with an odd number of slices does not bound the angle; when the two axes are aligned (the usual initial state), only tilts within `range` (0.25 rad) of the x direction are bounded: one step can tilt the axis by any angle towards -x with the constraint satisfied |
| C101 | a pair exactly in contact makes the constraint unsatisfiable |
| C110 | the PID reads members that were never initialised |
| C115 | axis align task: the equations are not finite once the axis is aligned with (or opposite to) its target |
| C116 | wheel task: the equations are not finite when the wheel lies flat |
| C120 | `ProblemConstraint::configure` takes every unknown name for `soft` |
| C122 | relative orientation task (dynamics): `domega_a_b` is not rotated to the world, the gyroscopic term is missing |
| C123 | self-collision constraint (dynamics): the term `omega x v` is missing when the bodies turn |
| C124 | (observation) `make_trajectory` does not set `t_start` and `t_end`; a vector of 18 is filled with 6 values, which only works without Eigen's assertions |
| C126 | (observation) a single 3D direction with a null epsilon is 0 / 0 |
| C127 | (observation) `configure` with an unknown priority has already renamed the position task when it raises |
| C130 | the points of the kick are commented out: the trajectory is null |
| C132 | `plan` with supports that start in single support reads `parts[-1]`; with supports that end in single support it reads `parts[n]` |
| C133 | `get_v_world_foot` raises in double support, where the velocity of the feet is zero |
| C134 | `replan_supports` with a planner that adds no step (repetitive planner with `nb_steps = 0`) returns one double support: the foot that is in the air jumps to its next foothold |
| C134 | (observation) `can_replan_supports` is false in double support, so the `is_both` branches of `replan_supports` are dead code |
| C136 | `Segment::is_segment_aligned` compares a cross product with the tolerance: short segments far apart, even perpendicular, are aligned; the test is not symmetric |
| C139 | `overlap_clip` applied to a turning step always changes it (`dtheta_spacing` not zero): clipping twice is not clipping once |
| C140 | `T * support` does not move `target_world_dcm`: after `apply_transform` it disagrees with `get_part_end_dcm` (both are used by `update_supports`) |
| C141 | `get_p_support_CoM`, `get_v_support_CoM` and `get_p_support_DCM` raise in double support |
| C143 | `plan_com` solves with `use_sparsity` (default): the products between the y jerks of two supports separated by x columns are dropped from the cost, so without hard equalities (no end support in the horizon) the plan does not minimise the ZMP cost. Example of two supports: ZMP 4.7 cm off its target where exact tracking is feasible, cost more than 30 times too high. With an end support the change of variables makes the rows dense and nothing is dropped in general |
| C144 | A soft inequality of weight 0 (a way to disable it) leaves its slack variables without cost: the Hessian handed to the QP solver is singular, so its strict convexity is lost |
| C144 | Without `rewrite_equalities`, a problem with both a hard equality and a soft inequality hands the QP solver matrices of different numbers of variables (the slack variables are missing from the equality matrix): undefined behaviour |
| C145 | A plan that ends (last support `end`) with fewer than three timesteps in total is always refused: the six equations of the end support have more rows than jerks, `Problem::solve` raises on the rank, `plan_com` returns false even for a CoM already at rest at the end (replanning during the last two timesteps of a walk) |
| C147 | `update_supports` writes the new place in `supports[1].footsteps[0]`: when the next support is a double support (the end of every walk) this is the foot on which the robot stands, and the foot that lands is not changed |
| C147 | for a left support the operational space is negated in x and y (a half turn, not a mirror image): a space in front of the right foot becomes a space behind the left one; the negated copy of the DCM polygon is not used |
| C147 | with the default parameters (empty polygons) `update_supports` always fails |
| C150 | `get_com_velocity` takes the last 20 columns of the Jacobians: it is undefined for robots that do not have exactly 20 joints; its argument `support` is not used |
| C151 | `read_from_histories` tests `qd_joints.size() > 1`: the velocity of a robot with one joint is ignored, silently |
| C152 | `update_support_side(side, frame)` changes the side only if the frame changes: after `update_support_side(Left, right_foot)`, `update_support_side(Right)` leaves the side at left |
| C153 | `load_collision_pairs` removes the pairs before it opens the file: when the load fails, the robot is left without collision pairs and no collision is detected any more; entries whose size is not 2 are ignored silently; a body paired with itself always raises |
| C155 | `set_velocity_limits` only sets the first velocity coordinate of each joint: a spherical or planar joint keeps its other limits. The velocity setters do not check the name of the joint (undefined behaviour), unlike the position setters |
| C156 | `integrate` updates the velocity before the position: at constant acceleration the position is ahead of the exact one by half a step times the change of velocity |
| C158 | `truncate_supports` (Python) with an end support is undefined behaviour for an index that is zero or negative, for the index equal to the length of a walk without end support, and when the second foot of a double support is the next one to be lifted |
| C159 | The torque dictionaries of the Python bindings only contain the first torque of joints with several velocities; on a robot without floating base, `torques_from_acceleration_with_fixed_frame_dict` reads before the start of the torques (index minus 6) |
| C160 | Reading `WalkTasks.solver` from Python returns a copy of the solver; when Python releases it, its destructor deletes the tasks of the real solver, which then uses freed memory |
| C161 | `contacts_viz` does not advance to the next contact after an inactive one: every contact after the first inactive contact is never drawn. The arrow of a contact replaced by a puppet or task contact remains |
| C162 | `arrow_viz` draws arrows of at least `3 radius + 1e-3`: shorter vectors are drawn too long, and a null vector is drawn along the y axis of the world |
| C165 | With `rewrite_equalities` (the default), hard requirements that are not independent raise `QPError` although a step meets all of them: for instance the same hard task twice, or a masked degree of freedom of the floating base together with `mask_fbase(true)` |
| C165 | On a robot whose only joint is the floating base, the joint limits (enabled by default) are constraints without rows: every `solve` raises `QPError` |
| C166 | With `rewrite_equalities` (the default), inverse dynamics never succeeds when the same hard task was added twice, although a motion meets both |
| C166 | On a robot whose only joint is the floating base, the cost on the joint torques (dynamics_solver.cpp 509-513) is a constraint without rows: inverse dynamics never succeeds |
| C167 | `RobotWrapper("robot.urdf")`, a file of the working directory given by its bare name, looks for `/collisions.json` at the root of the file system: the collision pairs beside the file are ignored and all the pairs are kept |
| C167 | `RobotWrapper("")` looks for `/robot.urdf` at the root of the file system instead of the working directory |
| C168 | All the regularisation tasks of a solver have the same name, so that messages and `dump_status` cannot tell them apart |
| C168 | The overloads that take a frame index do not check it |
| C168 | `add_external_wrench_contact(frame, "world")` means LOCAL_WORLD_ALIGNED and rejects "local_world_aligned", although "world" means WORLD for the Jacobians (`string_to_reference`) |
| C169 | A `solve` that raises overwrites `x` with the point of the failed QP, while the variables keep their values |
| C169 | `clear_variables` keeps the constraints: they are applied to the variables created next, or (hard equalities wider than the problem) write out of bounds |
| C169 | `dump_status` shows 0 equalities when they were rewritten (the default); without rewriting, `x` has the slack variables appended |
| C170 | The CoM offset is turned with the orientation the trunk has before `reach_initial_pose`, and not updated by its 100 iterations; noise is added 11 times, not 10 |
| C171 | `DynamicsSolver::remove_task` deletes a task while contacts keep pointers to it: the next `solve` reads freed memory |
| C171 | A contact made from a task that is not in the solver is given the Jacobian of the last update of that task (or none) |
| C172 | `dump_status` writes each error with `sprintf` in a buffer of 128 bytes: a finite error of more than about 102 digits overflows it |
| C172 | `DynamicsSolver::dump_status` shows scaled tasks as soft ones |
| C173 | `DummyWalk::solve` does not update the kinematics after its last solution: `update_T_world_support` then misplaces the support foot by what that solution moved it, and placements read after `update` are those before it |
| C174 | with a "head_base" frame but no "head_pitch" or "camera" frame the constructor only warns, and `camera_look_at` reads uninitialised distances |
| C174 | `update_support_side(side, frame)` ignores the side when the frame is already the support; `string_to_side` takes every name but "right" as the left side |
| C176 | `set_qdd_safe` and the constructor of `DynamicsSolver` give a safe acceleration to the first velocity of a joint only: with joint limits enabled, the other velocities of joints with several coordinates are stopped by every successful solve |
| C177 | `Footstep::operator==` is relative to the distance to the origin and not transitive; `Support::operator==` depends on the order of the footsteps and ignores the times |
| C178 | the naive planner copies three step limits when it is built and reads the others live: changing the limits afterwards leaves the old ones in force; both planners read uninitialised members when `plan` is called before `configure` |
| C179 | `WalkPatternGenerator` computes `omega` in its constructor and reads `walk_com_height` again in `plan` and `replan`: after a change of the height, the trajectory is at the new height and its ZMP is planned for the old one, and may be outside of the support polygon. |
| C180 | a constraint without rows (a CoM polygon without vertices, a cone with `N = 0`, half spaces without rows) makes every `solve` raise, even when it is soft and asks nothing; without `rewrite_equalities`, a masked DoF and a soft constraint give undefined behaviour |
| C181 | without `rewrite_equalities`, inverse dynamics with a soft self collisions constraint and a near pair is undefined behaviour, since the floating base always adds a hard equality |
| C182 | the stiffness of `TorqueTask` has the wrong sign: the torque is `+ kp q - kd qd` (torque_task.cpp 39-40) while the documentation promises "some kind of passive spring"; with every positive `kp` the joint is pushed away from zero and its torque does unbounded work |
| C188 | The DC motor limits of docs/dynamics/limits.rst are enforced at the velocity at the end of the step, not at the current velocity as the interval reads: a joint that slows down while raising a load gets a torque that takes more than the supply voltage at its current velocity (`C188_refuted`). |
| C190 | The default gains of the dynamics tasks (kp = 1000, critical damping) diverge when the solver integrates with a time step above 26.2 ms: the condition is sqrt(kp) dt < 2 (sqrt(2) - 1) (C190, exact). |
| C191 | plan_com keeps the ZMP inside the support polygon by zmp_margin at the timesteps only: between them it sags outwards by dt^2/8 times the acceleration of the CoM (C191_middle, exact), and nothing constrains it during the first timestep of a part. |
| C192 | SwingFoot and SwingFootQuintic pass through the requested height at a quarter and three quarters of the swing and rise above it in between: to 4/3 and 16/9 of the requested rise, for every step on a flat ground (C192_refuted). |
| C195 | The property R_world_surface of LineContact is exposed with accessors that take a PointContact& (expose-dynamics.cpp 79-81): it raises on every LineContact, so that a line contact on an inclined surface cannot be set up from Python (C195_refuted). Assigning an attribute that a contact does not have (width of a line contact) is silently stored in the Python instance (C195_silent). |
| C197 | the naive planner breaks the left-right symmetry when its targets are exactly behind the robot: the yaw of the targets is atan2(0, x) = pi in the mirror too, so the robot always turns left |
| C199 | in Python an expression compared with, added to or multiplied by a number uses the number rounded to single precision: the operators are exposed for float() and not double(), so `e <= 0.1` accepts 0.10000000149, `e == 0.1` rejects 0.1 and numbers above 3.4e38 are undefined |
| C200 | assigning `end` of a Segment from Python writes its `start` (the setter of the property is &Segment::start); the end of a segment can never be changed |
| C204 | custom_vector_from_seq never gives back the references returned by PySequence_GetItem: every item of every list given from Python to a function that expects a vector is kept in memory for ever; and an object with a __len__ that raises (numpy array of no dimension) aborts the process |
| C205 | the polygon of a Footstep read from Python is computed at the first read only: assigning frame, foot_length, foot_width or calling set_frame_xy afterwards leaves the former polygon |
| C206 | get_frame_hessian of Python reads model.frames and model.joints out of range when the frame or the joint does not exist, instead of raising the error that the other functions raise |
| C208 | line_viz draws every second segment only when it is given three points or more (LineSegments instead of Line) |
| C209 | robot_frame_viz of two robots shown with the default name "robot" (or with names such as a and a_b) draws the frames of one over those of the other |
| C211 | The Python constructors that store references (KinematicsSolver, DynamicsSolver, Integrator, ProblemPolynom, LIPM, planners, WalkPatternGenerator, DummyWalk, contacts) do not keep their arguments alive: when the last name of the robot, problem or parameters ends, the next call reads freed memory |
| C212 | Problem has owning raw pointers, a destructor, and the implicit copy constructor: a copy of a problem shares its variables and constraints, and destroying both deletes them twice |
| C215 | `placo_utils.view --animate` with a robot that has a continuous joint: `set_joint(joint, sin(t))` writes only the cosine of the joint, the sine stays at 0; no pass after the first displays a configuration of the robot (C215). |
| C217 | A support that started at the time -1 is taken by plan_com for one that was never planned, and its start time is lost: walks cannot be planned at negative times like at positive ones (C217_refuted). |

## 5. Axioms

Output of `#print axioms` on every theorem of `MANIFEST.json`, grouped.

* **Classical.choice, Quot.sound, propext** (674): `Bindings.C159_exact`, `Bindings.C161_contacts_exact`, `Bindings.C161_contacts_partial`, `Bindings.C161_contacts_refuted`, `Bindings.C161_points`, `Bindings.C162_arrow`, `Bindings.C162_cylinder`, `Bindings.C162_frame`, `Bindings.C162_partial`, `Bindings.C162_refuted`, `Bindings.C162_tip_exact`, `Bindings.C199_error`, `Bindings.C199_exact`, `Bindings.C199_partial`, `Bindings.C199_refuted`, `Bindings.C199_vectors`, `Bindings.C200_refuted`, `Bindings.C208_exact`, `Bindings.C208_partial`, `Bindings.C208_refuted`, `Bindings.C209_partial`, `Bindings.C211_exact`, `Bindings.rounding_exists`, `Dynamics.C102`, `Dynamics.C103`, `Dynamics.C104`, `Dynamics.C121`, `Dynamics.C122_exact`, `Dynamics.C122_partial`, `Dynamics.C122_refuted`, `Dynamics.C122_refuted_rotation`, `Dynamics.C123_contact`, `Dynamics.C123_partial`, `Dynamics.C123_partial_translation`, `Dynamics.C123_refuted`, `Dynamics.C148_costs`, `Dynamics.C148_external`, `Dynamics.C148_work`, `Dynamics.C149_target`, `Dynamics.C157_failure`, `Dynamics.C157_masked`, `Dynamics.C157_scaled`, `Dynamics.C157_success`, `Dynamics.C163_dynamics`, `Dynamics.C166_base_refuted`, `Dynamics.C166_exact`, `Dynamics.C166_partial`, `Dynamics.C166_refuted`, `Dynamics.C166_soft`, `Dynamics.C166_twice`, `Dynamics.C176_frozen_refuted`, `Dynamics.C176_partial`, `Dynamics.C176_session`, `Dynamics.C181_dt`, `Dynamics.C181_exact`, `Dynamics.C181_partial`, `Dynamics.C181_plain_refuted`, `Dynamics.C181_rest`, `Dynamics.C182_exact`, `Dynamics.C182_partial`, `Dynamics.C182_refuted`, `Dynamics.C182_session`, `Dynamics.C182_unstable`, `Dynamics.C182_work`, `Dynamics.C183`, `Dynamics.C183_exact`, `Dynamics.C183_soft`, `Dynamics.C184_exact`, `Dynamics.C184_lift`, `Dynamics.C185_dynamics`, `Dynamics.C186_contact`, `Dynamics.C186_part`, `Dynamics.C186_task`, `Dynamics.C186_torque`, `Dynamics.C187`, `Dynamics.C187_unique`, `Dynamics.C188_exact`, `Dynamics.C188_partial`, `Dynamics.C188_refuted`, `Dynamics.C189`, `Dynamics.C189_back`, `Dynamics.C189_number`, `Dynamics.C190`, `Dynamics.C190_default`, `Dynamics.C190_path`, `Dynamics.C214`, `Dynamics.C214_kept`, `Dynamics.C214_path`, `Dynamics.C57`, `Dynamics.C58`, `Dynamics.C58_point_exact`, `Dynamics.C59`, `Dynamics.C59_missing_size`, `Dynamics.C59_zero_moment`, `Dynamics.C60_exact`, `Dynamics.C60_partial`, `Dynamics.C60_refuted`, `Dynamics.C60_zmp_refuted`, `Dynamics.C61_partial`, `Dynamics.C61_refuted`, `Dynamics.C62`, `Dynamics.C63_exact`, `Dynamics.C63_partial`, `Dynamics.C63_refuted`, `Dynamics.C64`, `Dynamics.C64_dt`, `Dynamics.C64_dt_exception`, `Dynamics.C65_converges`, `Dynamics.C65_gear`, `Dynamics.C65_joints`, `Dynamics.C65_kd`, `Dynamics.C65_solutions`, `Dynamics.C66_exact`, `Dynamics.C66_fixed_partial`, `Dynamics.C66_partial`, `Dynamics.C66_refuted`, `Dynamics.ContactSession.C171_refuted`, `Dynamics.DCMotor.mixed_iff`, `Dynamics.DCMotor.voltage_iff`, `Dynamics.build_motions`, `Dynamics.built_cost`, `Dynamics.collisions_add`, `Dynamics.dist_rates`, `Dynamics.dsolve_constrained`, `Dynamics.kkt`, `Dynamics.motionFree_soft`, `Dynamics.motion_stop`, `Dynamics.puppet_absorbs`, `Dynamics.puppet_free`, `Dynamics.puppet_motion`, `Dynamics.task_contacts`, `Dynamics.task_free`, `Dynamics.task_motion`, `Humanoid.C108`, `Humanoid.C109`, `Humanoid.C110_null`, `Humanoid.C110_partial`, `Humanoid.C110_refuted`, `Humanoid.C124`, `Humanoid.C129`, `Humanoid.C129_continuous`, `Humanoid.C129_reset`, `Humanoid.C129_support`, `Humanoid.C129_update`, `Humanoid.C130_partial`, `Humanoid.C130_refuted`, `Humanoid.C132_partial`, `Humanoid.C132_refuted_end`, `Humanoid.C132_refuted_start`, `Humanoid.C133_partial`, `Humanoid.C133_refuted`, `Humanoid.C134_partial`, `Humanoid.C134_refuted`, `Humanoid.C135`, `Humanoid.C135_when`, `Humanoid.C137`, `Humanoid.C137_halfway`, `Humanoid.C138`, `Humanoid.C138_side`, `Humanoid.C139_exact`, `Humanoid.C139_kept`, `Humanoid.C139_partial`, `Humanoid.C139_refuted`, `Humanoid.C140_floor`, `Humanoid.C140_next`, `Humanoid.C140_partial`, `Humanoid.C140_refuted`, `Humanoid.C141_arrives`, `Humanoid.C141_partial`, `Humanoid.C141_refuted`, `Humanoid.C141_trunk`, `Humanoid.C142`, `Humanoid.C143_conditional`, `Humanoid.C143_exact`, `Humanoid.C143_partial`, `Humanoid.C143_refuted`, `Humanoid.C145_partial`, `Humanoid.C145_refuted`, `Humanoid.C145_short`, `Humanoid.C145_soft`, `Humanoid.C146`, `Humanoid.C147`, `Humanoid.C147_best_partial`, `Humanoid.C147_both`, `Humanoid.C147_default`, `Humanoid.C147_exists`, `Humanoid.C147_landing_refuted`, `Humanoid.C147_mirror_refuted`, `Humanoid.C150_exact`, `Humanoid.C150_partial`, `Humanoid.C150_refuted`, `Humanoid.C151_partial`, `Humanoid.C151_positions`, `Humanoid.C151_refuted`, `Humanoid.C152_exact`, `Humanoid.C152_partial`, `Humanoid.C152_refuted`, `Humanoid.C158_partial`, `Humanoid.C158_planned`, `Humanoid.C158_refuted`, `Humanoid.C170`, `Humanoid.C170_flat`, `Humanoid.C170_limits`, `Humanoid.C170_loop`, `Humanoid.C170_pose`, `Humanoid.C170_uninitialised`, `Humanoid.C173_exact`, `Humanoid.C173_partial`, `Humanoid.C173_refuted`, `Humanoid.C173_update`, `Humanoid.C174_built`, `Humanoid.C174_camera`, `Humanoid.C174_camera_refuted`, `Humanoid.C174_frame`, `Humanoid.C174_name_refuted`, `Humanoid.C174_partial`, `Humanoid.C174_side_refuted`, `Humanoid.C174_when`, `Humanoid.C175`, `Humanoid.C175_com`, `Humanoid.C177_exact`, `Humanoid.C177_moved_refuted`, `Humanoid.C177_partial`, `Humanoid.C177_support_refuted`, `Humanoid.C177_transitive_refuted`, `Humanoid.C178_configured`, `Humanoid.C178_naive`, `Humanoid.C178_partial`, `Humanoid.C178_repetitive`, `Humanoid.C178_stale_refuted`, `Humanoid.C178_within`, `Humanoid.C179_exact`, `Humanoid.C179_infeasible`, `Humanoid.C179_partial`, `Humanoid.C179_refuted`, `Humanoid.C191`, `Humanoid.C191_middle`, `Humanoid.C192_partial`, `Humanoid.C192_quintic`, `Humanoid.C192_quintic_middle`, `Humanoid.C192_refuted`, `Humanoid.C192_remade`, `Humanoid.C192_swing`, `Humanoid.C192_swing_middle`, `Humanoid.C193`, `Humanoid.C193_no_leak`, `Humanoid.C193_steady`, `Humanoid.C194`, `Humanoid.C196`, `Humanoid.C196_rest`, `Humanoid.C196_stays`, `Humanoid.C197_naive_partial`, `Humanoid.C197_refuted`, `Humanoid.C197_repetitive`, `Humanoid.C198_naive`, `Humanoid.C198_repetitive`, `Humanoid.C205_exact`, `Humanoid.C205_frame`, `Humanoid.C205_overlap`, `Humanoid.C205_partial`, `Humanoid.C205_refuted`, `Humanoid.C216`, `Humanoid.C216_footsteps`, `Humanoid.C216_fresh`, `Humanoid.C216_session`, `Humanoid.C216_walk`, `Humanoid.C216_zmp`, `Humanoid.C217`, `Humanoid.C217_footsteps`, `Humanoid.C217_lost`, `Humanoid.C217_partial`, `Humanoid.C217_refuted`, `Humanoid.C217_session`, `Humanoid.C217_walk`, `Humanoid.C218`, `Humanoid.C218_placed`, `Humanoid.C219`, `Humanoid.C220`, `Humanoid.C220_3d`, `Humanoid.C75`, `Humanoid.C75_short`, `Humanoid.C75_sides`, `Humanoid.C76_naive`, `Humanoid.C76_repetitive`, `Humanoid.C77`, `Humanoid.C77_functions`, `Humanoid.C78`, `Humanoid.C78_displacement`, `Humanoid.C79_exact`, `Humanoid.C79_partial`, `Humanoid.C79_refuted`, `Humanoid.C79_sound`, `Humanoid.C79_symmetric`, `Humanoid.C80_exact`, `Humanoid.C80_partial`, `Humanoid.C80_refuted`, `Humanoid.C81`, `Humanoid.C82_exact`, `Humanoid.C82_partial`, `Humanoid.C82_refuted`, `Humanoid.C82_witness`, `Humanoid.C83_partial`, `Humanoid.C83_planned`, `Humanoid.C83_planned_naive`, `Humanoid.C83_refuted_opposite`, `Humanoid.C83_refuted_update`, `Humanoid.C83_supports`, `Humanoid.C84`, `Humanoid.C84_jerk`, `Humanoid.C84_omega`, `Humanoid.C85_partial`, `Humanoid.C85_refuted`, `Humanoid.C86`, `Humanoid.C86_start`, `Humanoid.C87_ends`, `Humanoid.C87_exact`, `Humanoid.C87_partial`, `Humanoid.C87_refuted`, `Humanoid.C88_make`, `Humanoid.C88_remake`, `Humanoid.C89_com`, `Humanoid.C89_exact`, `Humanoid.C89_joined`, `Humanoid.C89_partial`, `Humanoid.C89_refuted`, `Humanoid.C89_timed`, `Humanoid.C89_walk`, `Humanoid.C90_partial`, `Humanoid.C90_refuted`, `Humanoid.C91`, `Humanoid.C91_after_remove`, `Humanoid.C91_sessions`, `Humanoid.C91_targets`, `Humanoid.C91_twice_refuted`, `Humanoid.C92_mode`, `Humanoid.C92_partial`, `Humanoid.C92_refuted`, `Humanoid.C93`, `Humanoid.C93_default`, `Humanoid.C93_dt`, `Humanoid.C93_rounding`, `Humanoid.C94_exact`, `Humanoid.C94_false`, `Humanoid.C94_nan`, `Humanoid.C94_partial`, `Humanoid.C94_refuted`, `Humanoid.ahead_faces`, `Humanoid.dcmAfter_flow`, `Humanoid.findIndex_total`, `Humanoid.lipmZmp_spec`, `Humanoid.planLoop_total`, `Humanoid.planned_joined`, `Humanoid.prev_one`, `Humanoid.search_total`, `Humanoid.straight_step`, `Kinematics.C100_partial`, `Kinematics.C100_refuted`, `Kinematics.C100_vertical_exact`, `Kinematics.C100_vertical_refuted`, `Kinematics.C101_contact`, `Kinematics.C101_exact`, `Kinematics.C101_partial`, `Kinematics.C111_com`, `Kinematics.C111_position`, `Kinematics.C111_reach`, `Kinematics.C112`, `Kinematics.C112_reach`, `Kinematics.C113`, `Kinematics.C114`, `Kinematics.C114_reach`, `Kinematics.C115_partial`, `Kinematics.C115_refuted`, `Kinematics.C116_partial`, `Kinematics.C116_refuted`, `Kinematics.C117`, `Kinematics.C118`, `Kinematics.C119`, `Kinematics.C119_rows`, `Kinematics.C127_configure`, `Kinematics.C127_new`, `Kinematics.C127_reached`, `Kinematics.C127_target`, `Kinematics.C163`, `Kinematics.C164`, `Kinematics.C164_converges`, `Kinematics.C164_rate`, `Kinematics.C165_base_refuted`, `Kinematics.C165_exact`, `Kinematics.C165_forever`, `Kinematics.C165_partial`, `Kinematics.C165_refuted`, `Kinematics.C165_soft`, `Kinematics.C165_standstill`, `Kinematics.C168`, `Kinematics.C168_dynamics`, `Kinematics.C168_frames`, `Kinematics.C168_index_refuted`, `Kinematics.C168_names`, `Kinematics.C168_same_name_refuted`, `Kinematics.C168_world_refuted`, `Kinematics.C180_empty_refuted`, `Kinematics.C180_exact`, `Kinematics.C180_partial`, `Kinematics.C180_plain_refuted`, `Kinematics.C180_safe`, `Kinematics.C185_kinematics`, `Kinematics.C186_kinematics`, `Kinematics.C186_limit`, `Kinematics.C186_regularization`, `Kinematics.C201`, `Kinematics.C201_exact`, `Kinematics.C201_step`, `Kinematics.C202`, `Kinematics.C202_joints`, `Kinematics.C202_path`, `Kinematics.C202_vanish`, `Kinematics.C203`, `Kinematics.C203_best`, `Kinematics.C203_solved`, `Kinematics.C203_velocity`, `Kinematics.C203_velocity_solved`, `Kinematics.C210`, `Kinematics.C210_converges`, `Kinematics.C210_hard`, `Kinematics.C210_limit`, `Kinematics.C210_rate`, `Kinematics.C210_solved`, `Kinematics.C213`, `Kinematics.C213_kept`, `Kinematics.C213_velocity`, `Kinematics.C43_index`, `Kinematics.C43_partial`, `Kinematics.C43_refuted`, `Kinematics.C43_step`, `Kinematics.C44`, `Kinematics.C44_history`, `Kinematics.C44_no_dt`, `Kinematics.C44_no_dt_kind`, `Kinematics.C44_session`, `Kinematics.C45`, `Kinematics.C45_history`, `Kinematics.C45_only`, `Kinematics.C45_total`, `Kinematics.C46`, `Kinematics.C47_index`, `Kinematics.C47_partial`, `Kinematics.C47_refuted`, `Kinematics.C48_exact`, `Kinematics.C48_partial`, `Kinematics.C48_refuted_repeat`, `Kinematics.C48_refuted_self`, `Kinematics.C49_index`, `Kinematics.C49_partial`, `Kinematics.C49_refuted`, `Kinematics.C52`, `Kinematics.C52_solve`, `Kinematics.C53_exact`, `Kinematics.C53_partial`, `Kinematics.C53_refuted`, `Kinematics.C54_exact`, `Kinematics.C54_partial`, `Kinematics.C54_refuted`, `Kinematics.C54_sizes`, `Kinematics.C55`, `Kinematics.C55_total`, `Kinematics.C56`, `Kinematics.C95`, `Kinematics.C96`, `Kinematics.C97`, `Kinematics.C98`, `Kinematics.C99_general`, `Kinematics.C99_partial`, `Kinematics.C99_refuted`, `Kinematics.exact_env_exists`, `Kinematics.hasDerivAt_det`, `Kinematics.lib_adds`, `Kinematics.logOK_exists`, `Kinematics.measure_deriv`, `Kinematics.relative_position_deriv`, `Kinematics.run_masks`, `Kinematics.solve_constrained`, `Problem.C01_expression_arithmetic`, `Problem.C01_only_runtime_error_or_ub`, `Problem.C02_double`, `Problem.C02_eq`, `Problem.C02_ge`, `Problem.C02_le`, `Problem.C02_vector`, `Problem.C03_exact`, `Problem.C03_vector_minus_expression_partial`, `Problem.C03_vector_minus_expression_refuted`, `Problem.C04_expression_minus_double_partial`, `Problem.C04_expression_minus_double_refuted`, `Problem.C05_exact`, `Problem.C05_mean_partial`, `Problem.C05_mean_refuted`, `Problem.C06_variables_partition`, `Problem.C07_variable_slice`, `Problem.C08_add_limit`, `Problem.C09_objective`, `Problem.C10_exact`, `Problem.C10_sparse_entry`, `Problem.C10_sparsity_partial`, `Problem.C10_sparsity_refuted`, `Problem.C11_add_interval_history`, `Problem.C11_add_union`, `Problem.C12_detect_columns`, `Problem.C12_runs`, `Problem.C131`, `Problem.C13_hard_inequalities`, `Problem.C13_row_ownership`, `Problem.C144`, `Problem.C144_convex`, `Problem.C144_mismatch_refuted`, `Problem.C144_solution`, `Problem.C144_solve_partial`, `Problem.C144_zero_weight_refuted`, `Problem.C14_soft_inequalities`, `Problem.C15_equalities_lossless`, `Problem.C15_optimum`, `Problem.C163_problem`, `Problem.C169_counters`, `Problem.C169_fits`, `Problem.C169_flags`, `Problem.C169_partial`, `Problem.C169_report_refuted`, `Problem.C169_stale_refuted`, `Problem.C169_undefined`, `Problem.C169_x`, `Problem.C169_x_refuted`, `Problem.C16_history`, `Problem.C16_solve_effect`, `Problem.C17_active`, `Problem.C185_problem`, `Problem.C186_problem`, `Problem.C18_bad_constraints_partial`, `Problem.C18_exact`, `Problem.C18_only_qp_error`, `Problem.C18_refuted`, `Problem.C19_dimensions_partial`, `Problem.C19_exact`, `Problem.C19_inequality_columns`, `Problem.C19_refuted`, `Problem.C20_order_independence`, `Problem.C212_no_leak`, `Problem.C212_partial`, `Problem.C212_refuted`, `Problem.C21_convex_hull`, `Problem.C21_degenerate_edge`, `Problem.C21_in_polygon`, `Problem.C21_polygon_iff`, `Problem.C21_rows_error`, `Problem.C24_dynamics_partial`, `Problem.C24_last_step`, `Problem.C24_refuted`, `Problem.C25_chain`, `Problem.C25_composition`, `Problem.C25_double_integrator`, `Problem.C25_system`, `Problem.C25_zero`, `Problem.C26_boundaries`, `Problem.C26_plan_equals_execution`, `Problem.C27_duration_partial`, `Problem.C27_refuted`, `Problem.C28_cache_partial`, `Problem.C28_exact`, `Problem.C28_refuted_failed_solve`, `Problem.C28_refuted_tstart`, `Problem.built_mkOrder`, `Problem.least_cost_unique`, `Registry.C160_exact`, `Registry.C160_partial`, `Registry.C50`, `Registry.C50_destructor`, `Registry.C51_partial`, `Registry.C51_refuted`, `Registry.contacts_twice_refuted`, `Robot.C105`, `Robot.C106`, `Robot.C107`, `Robot.C128`, `Robot.C153_order`, `Robot.C153_partial`, `Robot.C156_exact`, `Robot.C156_partial`, `Robot.C156_refuted`, `Robot.C167_empty_refuted`, `Robot.C167_partial`, `Robot.C167_refuted`, `Robot.C167_spelling`, `Robot.C167_total`, `Robot.C206_manipulability`, `Robot.C206_partial`, `Robot.C206_python`, `Robot.C206_range`, `Robot.C206_refuted`, `Robot.C207`, `Robot.C207_frame`, `Robot.C207_mass`, `Robot.C215_frames`, `Robot.C215_partial`, `Robot.C215_pose`, `Robot.C215_refuted`, `Robot.C215_still`, `Robot.C67`, `Robot.C67_floor`, `Robot.C67_world`, `Robot.C68_exact`, `Robot.C68_partial`, `Robot.C68_refuted`, `Robot.C69`, `Robot.C70_refuted`, `Robot.C71_refuted`, `Robot.C72_gravity`, `Robot.C72_torques`, `Robot.C73_exact`, `Robot.C73_partial`, `Robot.C73_refuted`, `Robot.C74_exact`, `Robot.C74_partial`, `Robot.C74_refuted`, `Tools.C125`, `Tools.C126_plane`, `Tools.C126_single`, `Tools.C126_space`, `Tools.C136_in_segment`, `Tools.C136_line`, `Tools.C136_point`, `Tools.C136_refuted`, `Tools.C136_segment_partial`, `Tools.C22_exact`, `Tools.C22_polynom_value_partial`, `Tools.C22_refuted`, `Tools.C22_small_degrees`, `Tools.C23_problem_polynom`, `Tools.C29_c1`, `Tools.C29_interpolates`, `Tools.C30_clamp`, `Tools.C31_increasing`, `Tools.C31_kept`, `Tools.C32_angular`, `Tools.C33_duration_partial`, `Tools.C33_exact`, `Tools.C33_refuted`, `Tools.C33_unread`, `Tools.C34_axes`, `Tools.C34_same_times`, `Tools.C35_intersects`, `Tools.C35_line_pass_through`, `Tools.C35_lines_intersection`, `Tools.C35_parallel_raises`, `Tools.C36_exact`, `Tools.C36_half_line_partial`, `Tools.C36_refuted`, `Tools.C37_default`, `Tools.C37_mask`, `Tools.C37_rows`, `Tools.C38_exact`, `Tools.C38_refuted`, `Tools.C38_rejected_partial`, `Tools.C39_rejected_partial`, `Tools.C40_wrap_angle`, `Tools.C41_flatten`, `Tools.C41_heading`, `Tools.C42_rotation_from_axis`, `Tools.Status.C172_dynamics`, `Tools.Status.C172_exact`, `Tools.Status.C172_partial`, `Tools.Status.C172_refuted`, `Tools.Status.C172_scaled_refuted`, `Tools.svd_exists`
* **Quot.sound, propext** (52): `Bindings.C159_partial`, `Bindings.C159_refuted`, `Bindings.C159_shift`, `Bindings.C159_update`, `Bindings.C161_footsteps`, `Bindings.C200_partial`, `Bindings.C204_exact`, `Bindings.C204_lost`, `Bindings.C204_never_freed`, `Bindings.C204_partial`, `Bindings.C204_raises`, `Bindings.C204_refuted`, `Bindings.C209_refuted`, `Bindings.C209_refuted_default`, `Bindings.C211_careful`, `Bindings.C211_memory`, `Bindings.C211_partial`, `Bindings.C211_refuted`, `Bindings.C211_refuted_existing`, `Bindings.C211_refuted_task`, `Dynamics.C149_gears`, `Dynamics.C149_qdd`, `Dynamics.C149_set_gear`, `Dynamics.C149_torque`, `Dynamics.C149_unknown`, `Dynamics.C176_exact`, `Dynamics.C60_masks`, `Dynamics.ContactSession.C171_exact`, `Dynamics.ContactSession.C171_fresh`, `Dynamics.ContactSession.C171_partial`, `Dynamics.ContactSession.C171_stale_refuted`, `Kinematics.C213_train`, `Problem.C07_variable_defaults`, `Problem.C07_variable_past_end`, `Problem.C08_add_limit_mismatch`, `Problem.C120_partial`, `Problem.C120_refuted`, `Problem.C169_read`, `Registry.C160_refuted`, `Robot.C154_collisions`, `Robot.C154_distances`, `Robot.C155_exact`, `Robot.C155_partial`, `Robot.C155_refuted`, `Robot.C155_unknown`, `Robot.C156_uniform`, `Robot.C70_known`, `Robot.C70_partial`, `Robot.C74_amount`, `Robot.C74_limits`, `Tools.C34_all_or_none`, `Tools.C39_refuted`
* **propext** (9): `Bindings.C195_partial`, `Bindings.C195_refuted`, `Bindings.C195_silent`, `Bindings.C200_silent`, `Bindings.C204_aborts`, `Bindings.C208_lines`, `Bindings.C209_unknown`, `Robot.C153_refuted`, `Tools.C39_exact`
* **no axiom** (3): `Registry.C50_shared_refuted`, `Robot.C71_partial`, `Tools.C39_configure`

## 6. Coverage of the sources

| source (under `/repo/src/placo`) | modelled | not modelled |
|---|---|---|
| `problem/expression`, `constraint`, `variable`, `qp_error` | all operators, `sum`, `mean`, stacking, slices, `configure` | `ProblemConstraint::operator==` |
| `problem/problem` | `add_variable`, `add_constraint`, `add_limit`, `clear_*`, QP assembly, equality rewriting, `solve`, variable and slack values, active set report | eiquadprog itself, the numerical tolerance of the QR rank, `dump_status` |
| `problem/sparsity` | all | printing |
| `problem/integrator` | all (matrix exponential: `IntegratorExp.lean`) | |
| `problem/polygon_constraint`, `problem_polynom` | all | |
| `tools/cubic_spline`, `cubic_spline_3d`, `polynom`, `segment`, `axises_mask`, `prioritized` | all | |
| `tools/utils` | `wrap_angle`, `frame_yaw`, `flatten_on_floor`, `safe_acos`, `rotation_from_axis`, `interpolate_frames`, `optimal_transformation`, Eigen's slerp | `pin_se3_to_eigen` |
| `tools/directions` | all | |
| `kinematics/kinematics_solver` | limits, masks, scaled tasks, registry, `solve`, `add_*_task` (C168), `dump_status` (C172) | — |
| `kinematics/*_task` | gear, joints, regularization, distance, position, CoM, orientation, relative position, relative orientation, axis align, wheel, centroidal momentum, kinetic energy, manipulability, frame, relative frame | |
| `kinematics/*_constraint` | all | distances and witness points of hpp-fcl |
| `dynamics/dynamics_solver` | equation of motion, torque expression, limits, passive joints, contacts, registry, results, `dump_status` (C172) | — |
| `dynamics/contacts` | all classes | |
| `dynamics/*_task`, `*_constraint` | all | |
| `model/robot_wrapper` | poses, floating base, joint accessors and their histories, torques, Jacobian wrappers, noise, collision pairs, self collisions, distances, `integrate` on joints with one coordinate, the constructor (paths, flags, pairs, limits) | the parsers of URDF and MJCF, the geometric tests of collisions (parameters), pinocchio's `integrate` on the other joints, display |
| `humanoid/*` | footsteps, planners, LIPM, swing feet (cubic and quintic), walk pattern generator (planning, replanning, step adaptation), walk tasks, parameters, camera, kinematic walk, kick, humanoid robot (construction, supports, replay, CoM velocity) | the inverse kinematics called by `dummy_walk` (any function that gives a configuration or raises) |
| `bindings/*` | `truncate_supports`, torque dictionaries, `update_map`, copies of solvers | the declarations that expose C++ classes as they are, doxystub |
| `python/placo_utils/visualization.py` | points, footsteps, contacts, arrows, frames, cylinders | lines, paths, crosses, robot display, the viewer itself |
