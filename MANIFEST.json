{
 "claims": [
  {
   "property": "C01",
   "status": "proved",
   "theorems": [
    "Verif.Problem.C01_expression_arithmetic",
    "Verif.Problem.C01_only_runtime_error_or_ub"
   ],
   "note": "All arithmetic terms over expressions; value of the built expression equals the documented row-wise value, by induction on the term."
  },
  {
   "property": "C02",
   "status": "proved",
   "theorems": [
    "Verif.Problem.C02_ge",
    "Verif.Problem.C02_le",
    "Verif.Problem.C02_eq",
    "Verif.Problem.C02_double",
    "Verif.Problem.C02_vector"
   ],
   "note": ""
  },
  {
   "property": "C03",
   "status": "partial",
   "theorems": [
    "Verif.Problem.C03_vector_minus_expression_partial",
    "Verif.Problem.C03_vector_minus_expression_refuted",
    "Verif.Problem.C03_exact"
   ],
   "note": "False of the code, which computes e - v: see the refutation; C03_exact says exactly when the result is the documented one."
  },
  {
   "property": "C04",
   "status": "partial",
   "theorems": [
    "Verif.Problem.C04_expression_minus_double_partial",
    "Verif.Problem.C04_expression_minus_double_refuted"
   ],
   "note": "The full statement is false of the code: see the refutation."
  },
  {
   "property": "C05",
   "status": "partial",
   "theorems": [
    "Verif.Problem.C05_mean_partial",
    "Verif.Problem.C05_mean_refuted",
    "Verif.Problem.C05_exact"
   ],
   "note": "False of the code, which divides by the number of columns: see the refutation; C05_exact says exactly when the result is the mean."
  },
  {
   "property": "C06",
   "status": "proved",
   "theorems": [
    "Verif.Problem.C06_variables_partition"
   ],
   "note": ""
  },
  {
   "property": "C07",
   "status": "proved",
   "theorems": [
    "Verif.Problem.C07_variable_slice",
    "Verif.Problem.C07_variable_defaults",
    "Verif.Problem.C07_variable_past_end"
   ],
   "note": ""
  },
  {
   "property": "C08",
   "status": "proved",
   "theorems": [
    "Verif.Problem.C08_add_limit",
    "Verif.Problem.C08_add_limit_mismatch"
   ],
   "note": ""
  },
  {
   "property": "C09",
   "status": "proved",
   "theorems": [
    "Verif.Problem.C09_objective"
   ],
   "note": "Dense accumulation (use_sparsity = false); the QR factorisation is external and enters through its contract IsQR."
  },
  {
   "property": "C10",
   "status": "partial",
   "theorems": [
    "Verif.Problem.C10_sparsity_partial",
    "Verif.Problem.C10_sparse_entry",
    "Verif.Problem.C10_exact",
    "Verif.Problem.C10_sparsity_refuted"
   ],
   "note": "False in general: cross terms between blocks of columns are dropped. Holds when columns of different blocks are orthogonal."
  },
  {
   "property": "C11",
   "status": "proved",
   "theorems": [
    "Verif.Problem.C11_add_interval_history",
    "Verif.Problem.C11_add_union"
   ],
   "note": ""
  },
  {
   "property": "C12",
   "status": "proved",
   "theorems": [
    "Verif.Problem.C12_detect_columns",
    "Verif.Problem.C12_runs"
   ],
   "note": ""
  },
  {
   "property": "C13",
   "status": "proved",
   "theorems": [
    "Verif.Problem.C13_hard_inequalities",
    "Verif.Problem.C13_row_ownership"
   ],
   "note": ""
  },
  {
   "property": "C14",
   "status": "proved",
   "theorems": [
    "Verif.Problem.C14_soft_inequalities"
   ],
   "note": "Weights of soft inequalities are assumed non-negative."
  },
  {
   "property": "C15",
   "status": "proved",
   "theorems": [
    "Verif.Problem.C15_equalities_lossless",
    "Verif.Problem.C15_optimum"
   ],
   "note": "QR contract IsQR assumed for the external factorisation."
  },
  {
   "property": "C16",
   "status": "proved",
   "theorems": [
    "Verif.Problem.C16_solve_effect",
    "Verif.Problem.C16_history"
   ],
   "note": ""
  },
  {
   "property": "C17",
   "status": "proved",
   "theorems": [
    "Verif.Problem.C17_active"
   ],
   "note": ""
  },
  {
   "property": "C18",
   "status": "partial",
   "theorems": [
    "Verif.Problem.C18_bad_constraints_partial",
    "Verif.Problem.C18_only_qp_error",
    "Verif.Problem.C18_refuted",
    "Verif.Problem.C18_exact"
   ],
   "note": "False for hard equalities with too many columns or mismatched sizes: they are copied before the checks. C18_exact says exactly when solve is undefined."
  },
  {
   "property": "C19",
   "status": "partial",
   "theorems": [
    "Verif.Problem.C19_dimensions_partial",
    "Verif.Problem.C19_inequality_columns",
    "Verif.Problem.C19_refuted",
    "Verif.Problem.C19_exact"
   ],
   "note": "False with rewrite_equalities = false, a hard equality and a soft inequality; C19_exact says exactly when."
  },
  {
   "property": "C20",
   "status": "proved",
   "theorems": [
    "Verif.Problem.C20_order_independence"
   ],
   "note": ""
  },
  {
   "property": "C21",
   "status": "proved",
   "theorems": [
    "Verif.Problem.C21_polygon_iff",
    "Verif.Problem.C21_degenerate_edge",
    "Verif.Problem.C21_rows_error",
    "Verif.Problem.C21_in_polygon",
    "Verif.Problem.C21_convex_hull"
   ],
   "note": ""
  },
  {
   "property": "C22",
   "status": "partial",
   "theorems": [
    "Verif.Tools.C22_polynom_value_partial",
    "Verif.Tools.C22_exact",
    "Verif.Tools.C22_small_degrees",
    "Verif.Tools.C22_refuted"
   ],
   "note": "Holds while the integer derivative coefficients fit an int; false beyond (14 coefficients, 13th derivative). C22_exact says exactly when."
  },
  {
   "property": "C23",
   "status": "proved",
   "theorems": [
    "Verif.Tools.C23_problem_polynom"
   ],
   "note": ""
  },
  {
   "property": "C24",
   "status": "partial",
   "theorems": [
    "Verif.Problem.C24_dynamics_partial",
    "Verif.Problem.C24_last_step",
    "Verif.Problem.C24_refuted",
    "Verif.Problem.built_mkOrder"
   ],
   "note": "expr(N, order) is undefined behaviour (writes outside of the matrix) instead of an error."
  },
  {
   "property": "C25",
   "status": "proved",
   "theorems": [
    "Verif.Problem.C25_system",
    "Verif.Problem.C25_chain",
    "Verif.Problem.C25_zero",
    "Verif.Problem.C25_composition",
    "Verif.Problem.C25_double_integrator"
   ],
   "note": "Eigen matrix exponential is taken to be the exact exponential."
  },
  {
   "property": "C26",
   "status": "proved",
   "theorems": [
    "Verif.Problem.C26_plan_equals_execution",
    "Verif.Problem.C26_boundaries"
   ],
   "note": ""
  },
  {
   "property": "C27",
   "status": "partial",
   "theorems": [
    "Verif.Problem.C27_duration_partial",
    "Verif.Problem.C27_refuted"
   ],
   "note": "The code returns (N+1) dt."
  },
  {
   "property": "C28",
   "status": "partial",
   "theorems": [
    "Verif.Problem.C28_cache_partial",
    "Verif.Problem.C28_exact",
    "Verif.Problem.C28_refuted_tstart",
    "Verif.Problem.C28_refuted_failed_solve"
   ],
   "note": "False after a change of t_start, and when a failed solve precedes the first read and X0 depends on decision variables. C28_exact gives the answer of every read in every history."
  },
  {
   "property": "C29",
   "status": "proved",
   "theorems": [
    "Verif.Tools.C29_interpolates",
    "Verif.Tools.C29_c1",
    "Verif.Tools.C31_kept"
   ],
   "note": ""
  },
  {
   "property": "C30",
   "status": "proved",
   "theorems": [
    "Verif.Tools.C30_clamp"
   ],
   "note": ""
  },
  {
   "property": "C31",
   "status": "proved",
   "theorems": [
    "Verif.Tools.C31_increasing",
    "Verif.Tools.C31_kept"
   ],
   "note": ""
  },
  {
   "property": "C32",
   "status": "proved",
   "theorems": [
    "Verif.Tools.C32_angular"
   ],
   "note": ""
  },
  {
   "property": "C33",
   "status": "partial",
   "theorems": [
    "Verif.Tools.C33_duration_partial",
    "Verif.Tools.C33_refuted",
    "Verif.Tools.C33_unread",
    "Verif.Tools.C33_exact"
   ],
   "note": "duration() reads segments that are only refreshed by a read: undefined or stale otherwise; C33_exact and C33_unread say exactly when."
  },
  {
   "property": "C34",
   "status": "proved",
   "theorems": [
    "Verif.Tools.C34_all_or_none",
    "Verif.Tools.C34_same_times",
    "Verif.Tools.C34_axes"
   ],
   "note": ""
  },
  {
   "property": "C35",
   "status": "proved",
   "theorems": [
    "Verif.Tools.C35_lines_intersection",
    "Verif.Tools.C35_line_pass_through",
    "Verif.Tools.C35_intersects",
    "Verif.Tools.C35_parallel_raises"
   ],
   "note": "Non-parallel means accepted by the documented tolerance on the sine of the angle."
  },
  {
   "property": "C36",
   "status": "partial",
   "theorems": [
    "Verif.Tools.C36_half_line_partial",
    "Verif.Tools.C36_refuted",
    "Verif.Tools.C36_exact"
   ],
   "note": "The code tests the half-line of the argument against this segment, the documentation says the converse; C36_exact says when the two agree."
  },
  {
   "property": "C37",
   "status": "proved",
   "theorems": [
    "Verif.Tools.C37_mask",
    "Verif.Tools.C37_rows",
    "Verif.Tools.C37_default"
   ],
   "note": ""
  },
  {
   "property": "C38",
   "status": "partial",
   "theorems": [
    "Verif.Tools.C38_rejected_partial",
    "Verif.Tools.C38_refuted",
    "Verif.Tools.C38_exact"
   ],
   "note": "False for unknown axis letters: the indices are cleared and partly rebuilt before the exception; C38_exact gives the mask that is left."
  },
  {
   "property": "C39",
   "status": "partial",
   "theorems": [
    "Verif.Tools.C39_rejected_partial",
    "Verif.Tools.C39_refuted",
    "Verif.Tools.C39_configure",
    "Verif.Tools.C39_exact"
   ],
   "note": "False for the name, which is assigned before the priority is parsed; C39_exact gives the object that is left."
  },
  {
   "property": "C40",
   "status": "proved",
   "theorems": [
    "Verif.Tools.C40_wrap_angle"
   ],
   "note": "Signed zeros are not modelled."
  },
  {
   "property": "C41",
   "status": "proved",
   "theorems": [
    "Verif.Tools.C41_flatten",
    "Verif.Tools.C41_heading"
   ],
   "note": ""
  },
  {
   "property": "C42",
   "status": "proved",
   "theorems": [
    "Verif.Tools.C42_rotation_from_axis"
   ],
   "note": "pinocchio::exp3 is modelled as the exact Rodrigues formula."
  },
  {
   "property": "C43",
   "status": "partial",
   "theorems": [
    "Verif.Kinematics.C43_partial",
    "Verif.Kinematics.C43_step",
    "Verif.Kinematics.C43_index",
    "Verif.Kinematics.C43_refuted"
   ],
   "note": "False for a joint followed by a joint with nq different from nv: limits are read at misaligned indices. C43_index says, for every robot, which coordinate and which limits bound the displacement of a joint."
  },
  {
   "property": "C44",
   "status": "proved",
   "theorems": [
    "Verif.Kinematics.C44",
    "Verif.Kinematics.C44_no_dt",
    "Verif.Kinematics.C44_no_dt_kind",
    "Verif.Kinematics.C44_history",
    "Verif.Kinematics.C44_session"
   ],
   "note": "C44_history, C44_session: for whole programs, the bound is that of the time step given last."
  },
  {
   "property": "C45",
   "status": "proved",
   "theorems": [
    "Verif.Kinematics.C45",
    "Verif.Kinematics.C45_history",
    "Verif.Kinematics.C45_only",
    "Verif.Kinematics.C45_total"
   ],
   "note": ""
  },
  {
   "property": "C46",
   "status": "proved",
   "theorems": [
    "Verif.Kinematics.C46"
   ],
   "note": ""
  },
  {
   "property": "C47",
   "status": "partial",
   "theorems": [
    "Verif.Kinematics.C47_partial",
    "Verif.Kinematics.C47_index",
    "Verif.Kinematics.C47_refuted"
   ],
   "note": "Holds on robots whose joints all have one coordinate; false behind a joint with nq different from nv."
  },
  {
   "property": "C48",
   "status": "partial",
   "theorems": [
    "Verif.Kinematics.C48_partial",
    "Verif.Kinematics.C48_exact",
    "Verif.Kinematics.C48_refuted_repeat",
    "Verif.Kinematics.C48_refuted_self"
   ],
   "note": "False for a repeated source (last ratio wins) and for a joint that is its own source. C48_exact gives the equation for every history."
  },
  {
   "property": "C49",
   "status": "partial",
   "theorems": [
    "Verif.Kinematics.C49_partial",
    "Verif.Kinematics.C49_index",
    "Verif.Kinematics.C49_refuted"
   ],
   "note": "False for continuous joints."
  },
  {
   "property": "C50",
   "status": "proved",
   "theorems": [
    "Verif.Registry.C50",
    "Verif.Registry.C50_destructor",
    "Verif.Registry.C50_shared_refuted"
   ],
   "note": "Legal histories: live objects only, and a solver-created object is given to one solver only (C50_shared_refuted shows the need for it)."
  },
  {
   "property": "C51",
   "status": "partial",
   "theorems": [
    "Verif.Registry.C51_partial",
    "Verif.Registry.C51_refuted",
    "Verif.Registry.contacts_twice_refuted"
   ],
   "note": "DynamicsSolver::remove_task deletes unconditionally; holds while the caller removes no task of its own."
  },
  {
   "property": "C52",
   "status": "proved",
   "theorems": [
    "Verif.Kinematics.C52",
    "Verif.Kinematics.C52_solve"
   ],
   "note": "Consecutive polygon vertices distinct."
  },
  {
   "property": "C53",
   "status": "partial",
   "theorems": [
    "Verif.Kinematics.C53_partial",
    "Verif.Kinematics.C53_refuted",
    "Verif.Kinematics.C53_exact"
   ],
   "note": "False when the two frames coincide (the direction is the zero vector): C53_exact says what is then constrained and how the distance grows."
  },
  {
   "property": "C54",
   "status": "partial",
   "theorems": [
    "Verif.Kinematics.C54_partial",
    "Verif.Kinematics.C54_sizes",
    "Verif.Kinematics.C54_refuted",
    "Verif.Kinematics.C54_exact"
   ],
   "note": "Robots whose joints all have one coordinate; undefined behaviour otherwise. C54_exact says exactly when the constraint is defined."
  },
  {
   "property": "C55",
   "status": "proved",
   "theorems": [
    "Verif.Kinematics.C55",
    "Verif.Kinematics.C55_total"
   ],
   "note": "The floating base rows are always dropped, so the base is never penalised."
  },
  {
   "property": "C56",
   "status": "proved",
   "theorems": [
    "Verif.Kinematics.C56"
   ],
   "note": ""
  },
  {
   "property": "C57",
   "status": "proved",
   "theorems": [
    "Verif.Dynamics.C57"
   ],
   "note": ""
  },
  {
   "property": "C58",
   "status": "proved",
   "theorems": [
    "Verif.Dynamics.C58",
    "Verif.Dynamics.C58_point_exact"
   ],
   "note": ""
  },
  {
   "property": "C59",
   "status": "proved",
   "theorems": [
    "Verif.Dynamics.C59",
    "Verif.Dynamics.C59_zero_moment",
    "Verif.Dynamics.C59_missing_size"
   ],
   "note": ""
  },
  {
   "property": "C60",
   "status": "partial",
   "theorems": [
    "Verif.Dynamics.C60_partial",
    "Verif.Dynamics.C60_refuted",
    "Verif.Dynamics.C60_zmp_refuted",
    "Verif.Dynamics.C60_exact",
    "Verif.Dynamics.C60_masks"
   ],
   "note": "False: a unilateral line contact multiplies a 3x3 rotation with 5 forces (undefined behaviour), and zmp reads the wrong component. C60_exact says exactly which line contacts are defined, C60_masks when the masks of point and line contacts are reported."
  },
  {
   "property": "C61",
   "status": "partial",
   "theorems": [
    "Verif.Dynamics.C61_partial",
    "Verif.Dynamics.C61_refuted"
   ],
   "note": "False for planar contacts (the cost is on y and z); true for point contacts."
  },
  {
   "property": "C62",
   "status": "proved",
   "theorems": [
    "Verif.Dynamics.C62"
   ],
   "note": ""
  },
  {
   "property": "C63",
   "status": "partial",
   "theorems": [
    "Verif.Dynamics.C63_partial",
    "Verif.Dynamics.C63_refuted",
    "Verif.Dynamics.C63_exact"
   ],
   "note": "False near a limit; a step from 2 qdd_safe dt^2 or more away stays inside, and C63_exact: these are exactly the positions (with the limit itself) from which all accepted accelerations stay inside."
  },
  {
   "property": "C64",
   "status": "proved",
   "theorems": [
    "Verif.Dynamics.C64",
    "Verif.Dynamics.C64_dt",
    "Verif.Dynamics.C64_dt_exception"
   ],
   "note": ""
  },
  {
   "property": "C65",
   "status": "proved",
   "theorems": [
    "Verif.Dynamics.C65_kd",
    "Verif.Dynamics.C65_solutions",
    "Verif.Dynamics.C65_converges",
    "Verif.Dynamics.C65_joints",
    "Verif.Dynamics.C65_gear"
   ],
   "note": ""
  },
  {
   "property": "C66",
   "status": "partial",
   "theorems": [
    "Verif.Dynamics.C66_partial",
    "Verif.Dynamics.C66_fixed_partial",
    "Verif.Dynamics.C66_refuted",
    "Verif.Dynamics.C66_exact"
   ],
   "note": "False: centrifugal term counted twice and angular blocks used in place of linear ones; exact discrepancy proved, and C66_exact says when it vanishes."
  },
  {
   "property": "C67",
   "status": "proved",
   "theorems": [
    "Verif.Robot.C67",
    "Verif.Robot.C67_floor",
    "Verif.Robot.C67_world"
   ],
   "note": "Frames of the robot; a frame attached to the world cannot be placed (C67_world)."
  },
  {
   "property": "C68",
   "status": "partial",
   "theorems": [
    "Verif.Robot.C68_partial",
    "Verif.Robot.C68_exact",
    "Verif.Robot.C68_refuted"
   ],
   "note": "False without update_kinematics between the calls; exact condition proved."
  },
  {
   "property": "C69",
   "status": "proved",
   "theorems": [
    "Verif.Robot.C69"
   ],
   "note": "Eigen's matrix to quaternion conversion is modelled, with its four cases."
  },
  {
   "property": "C70",
   "status": "partial",
   "theorems": [
    "Verif.Robot.C70_partial",
    "Verif.Robot.C70_known",
    "Verif.Robot.C70_refuted"
   ],
   "note": "False: velocity, acceleration, size and limit accessors index out of range for an unknown name."
  },
  {
   "property": "C71",
   "status": "partial",
   "theorems": [
    "Verif.Robot.C71_partial",
    "Verif.Robot.C71_refuted"
   ],
   "note": "False: the version by name returns the Jacobian."
  },
  {
   "property": "C72",
   "status": "proved",
   "theorems": [
    "Verif.Robot.C72_gravity",
    "Verif.Robot.C72_torques"
   ],
   "note": ""
  },
  {
   "property": "C73",
   "status": "partial",
   "theorems": [
    "Verif.Robot.C73_partial",
    "Verif.Robot.C73_exact",
    "Verif.Robot.C73_refuted"
   ],
   "note": "False as soon as there are accelerations: base acceleration and its wrench are left out; exact condition proved."
  },
  {
   "property": "C74",
   "status": "partial",
   "theorems": [
    "Verif.Robot.C74_partial",
    "Verif.Robot.C74_amount",
    "Verif.Robot.C74_limits",
    "Verif.Robot.C74_refuted",
    "Verif.Robot.C74_exact"
   ],
   "note": "False for continuous joints, stored as cosine and sine with finite limits; C74_exact says exactly when the result still encodes an angle."
  },
  {
   "property": "C75",
   "status": "proved",
   "theorems": [
    "Verif.Humanoid.C75",
    "Verif.Humanoid.C75_sides",
    "Verif.Humanoid.C75_short"
   ],
   "note": ""
  },
  {
   "property": "C76",
   "status": "proved",
   "theorems": [
    "Verif.Humanoid.C76_repetitive",
    "Verif.Humanoid.C76_naive"
   ],
   "note": ""
  },
  {
   "property": "C77",
   "status": "proved",
   "theorems": [
    "Verif.Humanoid.C77",
    "Verif.Humanoid.C77_functions"
   ],
   "note": "The envelope of box_clip is the L1 ball, as documented in the header."
  },
  {
   "property": "C78",
   "status": "proved",
   "theorems": [
    "Verif.Humanoid.C78",
    "Verif.Humanoid.C78_displacement"
   ],
   "note": ""
  },
  {
   "property": "C79",
   "status": "partial",
   "theorems": [
    "Verif.Humanoid.C79_partial",
    "Verif.Humanoid.C79_symmetric",
    "Verif.Humanoid.C79_sound",
    "Verif.Humanoid.C79_exact",
    "Verif.Humanoid.C79_refuted"
   ],
   "note": "Symmetric and sound; false that every overlap is found (only corners are tested), true for feet of the same size and yaw."
  },
  {
   "property": "C80",
   "status": "partial",
   "theorems": [
    "Verif.Humanoid.C80_partial",
    "Verif.Humanoid.C80_exact",
    "Verif.Humanoid.C80_refuted"
   ],
   "note": "False: arrived is decided before the ellipsoid clipping, with the forward limit only; with the default parameters the planner stops 2 cm away from the target. C80_exact: the footsteps where it stops are at their targets exactly when these are in the plane of the support foot and the displacement asked for is in the ellipsoid."
  },
  {
   "property": "C81",
   "status": "proved",
   "theorems": [
    "Verif.Humanoid.C81",
    "Verif.Humanoid.search_total",
    "Verif.Humanoid.findIndex_total"
   ],
   "note": "The binary search is modelled with its mid-point and bounds; it ends for every list of parts. C81: with contiguous parts, times inside are served by a part that contains them, earlier times by the first part and later times by the last; no part raises."
  },
  {
   "property": "C82",
   "status": "partial",
   "theorems": [
    "Verif.Humanoid.C82_partial",
    "Verif.Humanoid.C82_refuted",
    "Verif.Humanoid.C82_witness",
    "Verif.Humanoid.prev_one",
    "Verif.Humanoid.C82_exact"
   ],
   "note": "Missing: the claim is false whenever there is a previous part. get_prev_support assigns through a reference and overwrites the part found (C82_refuted). It holds when there is no previous part (C82_partial); C82_exact says exactly when one step back changes nothing."
  },
  {
   "property": "C83",
   "status": "partial",
   "theorems": [
    "Verif.Humanoid.C83_partial",
    "Verif.Humanoid.C83_planned",
    "Verif.Humanoid.C83_planned_naive",
    "Verif.Humanoid.C83_supports",
    "Verif.Humanoid.C83_refuted_opposite",
    "Verif.Humanoid.C83_refuted_update"
   ],
   "note": "False after opposite_footstep on a footstep whose polygon was read, and after update_supports."
  },
  {
   "property": "C84",
   "status": "proved",
   "theorems": [
    "Verif.Humanoid.C84",
    "Verif.Humanoid.C84_jerk",
    "Verif.Humanoid.C84_omega"
   ],
   "note": "The three integrators of a LIPM axis, chained or not."
  },
  {
   "property": "C85",
   "status": "partial",
   "theorems": [
    "Verif.Humanoid.C85_partial",
    "Verif.Humanoid.C85_refuted"
   ],
   "note": "Missing: Trajectory::dzmp computes v + j/omega^2 where the derivative of the ZMP is v - j/omega^2 (C85_refuted). All the other quantities are correct (C85_partial)."
  },
  {
   "property": "C86",
   "status": "proved",
   "theorems": [
    "Verif.Humanoid.C86",
    "Verif.Humanoid.C86_start",
    "Verif.Humanoid.planned_joined"
   ],
   "note": "For supports of positive duration."
  },
  {
   "property": "C87",
   "status": "partial",
   "theorems": [
    "Verif.Humanoid.C87_ends",
    "Verif.Humanoid.C87_partial",
    "Verif.Humanoid.C87_refuted",
    "Verif.Humanoid.C87_exact"
   ],
   "note": "Missing: when a swing is remade inside the plateau the first plateau point is dropped and the height is not reached from the start (C87_refuted); C87_exact says exactly when the plateau is kept."
  },
  {
   "property": "C88",
   "status": "proved",
   "theorems": [
    "Verif.Humanoid.C88_make",
    "Verif.Humanoid.C88_remake"
   ],
   "note": "Requires a positive duration, and for remake a time before the end."
  },
  {
   "property": "C89",
   "status": "partial",
   "theorems": [
    "Verif.Humanoid.C89_partial",
    "Verif.Humanoid.C89_com",
    "Verif.Humanoid.C89_joined",
    "Verif.Humanoid.C89_exact",
    "Verif.Humanoid.C89_walk",
    "Verif.Humanoid.C89_timed",
    "Verif.Humanoid.C89_refuted"
   ],
   "note": "Missing: at or after the end of the trajectory the trimmed trajectory has no part left and every query raises (C89_refuted). At the boundaries between parts, C89_joined and C89_walk cover the feet and the CoM; the support found there may be the other one."
  },
  {
   "property": "C90",
   "status": "partial",
   "theorems": [
    "Verif.Humanoid.C90_partial",
    "Verif.Humanoid.C90_refuted"
   ],
   "note": "Missing: false when the walk starts on a single support followed by a double support; the start time is written in both (C90_refuted). True for all the other combinations (C90_partial)."
  },
  {
   "property": "C91",
   "status": "proved",
   "theorems": [
    "Verif.Humanoid.C91",
    "Verif.Humanoid.C91_sessions",
    "Verif.Humanoid.C91_targets",
    "Verif.Humanoid.C91_after_remove",
    "Verif.Humanoid.C91_twice_refuted"
   ],
   "note": "From initialize_tasks to remove_tasks, for any number of sessions. Outside of the claim: an update after remove_tasks dereferences null (C91_after_remove) and a second initialize_tasks leaks five tasks (C91_twice_refuted)."
  },
  {
   "property": "C92",
   "status": "partial",
   "theorems": [
    "Verif.Humanoid.C92_partial",
    "Verif.Humanoid.C92_refuted",
    "Verif.Humanoid.C92_mode"
   ],
   "note": "Missing: the position errors of the feet overwrite their orientation errors, for every state (C92_refuted). A change of mode without an update makes the report dereference null (C92_mode)."
  },
  {
   "property": "C93",
   "status": "proved",
   "theorems": [
    "Verif.Humanoid.C93",
    "Verif.Humanoid.C93_default",
    "Verif.Humanoid.C93_dt",
    "Verif.Humanoid.C93_rounding"
   ],
   "note": ""
  },
  {
   "property": "C94",
   "status": "partial",
   "theorems": [
    "Verif.Humanoid.C94_partial",
    "Verif.Humanoid.C94_false",
    "Verif.Humanoid.C94_exact",
    "Verif.Humanoid.C94_refuted",
    "Verif.Humanoid.C94_nan"
   ],
   "note": "Missing: the height of the camera is measured from the pan joint but used from the tilt axis, so the target is seen dist_z_pan_tilt above the optical axis (C94_exact); the camera looks at the target if and only if dist_z_pan_tilt is null (C94_partial)."
  },
  {
   "property": "C95",
   "status": "proved",
   "theorems": [
    "Verif.Kinematics.C95"
   ],
   "note": ""
  },
  {
   "property": "C96",
   "status": "proved",
   "theorems": [
    "Verif.Kinematics.C96"
   ],
   "note": "QP solver contract (optimality) and QR contract assumed."
  },
  {
   "property": "C97",
   "status": "proved",
   "theorems": [
    "Verif.Kinematics.C97"
   ],
   "note": ""
  },
  {
   "property": "C98",
   "status": "proved",
   "theorems": [
    "Verif.Kinematics.C98"
   ],
   "note": ""
  },
  {
   "property": "C99",
   "status": "partial",
   "theorems": [
    "Verif.Kinematics.C99_partial",
    "Verif.Kinematics.C99_general",
    "Verif.Kinematics.C99_refuted"
   ],
   "note": "False for an x axis that is not horizontal: the Jacobian is scaled by the length of its horizontal projection."
  },
  {
   "property": "C100",
   "status": "partial",
   "theorems": [
    "Verif.Kinematics.C100_partial",
    "Verif.Kinematics.C100_refuted",
    "Verif.Kinematics.C100_vertical_exact",
    "Verif.Kinematics.C100_vertical_refuted"
   ],
   "note": "Even number of slices (default 8) and a non-vertical axis; false for odd numbers of slices, and for aligned axes, where only the directions close to x are bounded."
  },
  {
   "property": "C101",
   "status": "partial",
   "theorems": [
    "Verif.Kinematics.C101_partial",
    "Verif.Kinematics.C101_contact",
    "Verif.Kinematics.C101_exact"
   ],
   "note": "With a pair exactly in contact the row is zero and no step satisfies the constraint unless the margin is not positive; C101_exact says what is constrained in all cases."
  },
  {
   "property": "C102",
   "status": "proved",
   "theorems": [
    "Verif.Dynamics.C102"
   ],
   "note": ""
  },
  {
   "property": "C103",
   "status": "proved",
   "theorems": [
    "Verif.Dynamics.C103"
   ],
   "note": ""
  },
  {
   "property": "C104",
   "status": "proved",
   "theorems": [
    "Verif.Dynamics.C104"
   ],
   "note": ""
  },
  {
   "property": "C105",
   "status": "proved",
   "theorems": [
    "Verif.Robot.C105"
   ],
   "note": ""
  },
  {
   "property": "C106",
   "status": "proved",
   "theorems": [
    "Verif.Robot.C106"
   ],
   "note": ""
  },
  {
   "property": "C107",
   "status": "proved",
   "theorems": [
    "Verif.Robot.C107"
   ],
   "note": ""
  },
  {
   "property": "C108",
   "status": "proved",
   "theorems": [
    "Verif.Humanoid.C108"
   ],
   "note": "Under the contract that the solver returns a feasible point when it does not report infeasibility, and the QR contract of the problem that was built."
  },
  {
   "property": "C109",
   "status": "proved",
   "theorems": [
    "Verif.Humanoid.C109",
    "Verif.Humanoid.planLoop_total"
   ],
   "note": ""
  },
  {
   "property": "C110",
   "status": "partial",
   "theorems": [
    "Verif.Humanoid.C110_partial",
    "Verif.Humanoid.C110_refuted",
    "Verif.Humanoid.C110_null"
   ],
   "note": "Missing: the first call reads members that were never initialized (C110_refuted)."
  },
  {
   "property": "C111",
   "status": "proved",
   "theorems": [
    "Verif.Kinematics.C111_position",
    "Verif.Kinematics.C111_reach",
    "Verif.Kinematics.C111_com"
   ],
   "note": "Jacobians are given by the motion they predict (Moves)."
  },
  {
   "property": "C112",
   "status": "proved",
   "theorems": [
    "Verif.Kinematics.C112",
    "Verif.Kinematics.C112_reach",
    "Verif.Kinematics.logOK_exists"
   ],
   "note": "pinocchio::log3 enters through its contract (a right inverse of exp3 on rotations), shown satisfiable."
  },
  {
   "property": "C113",
   "status": "proved",
   "theorems": [
    "Verif.Kinematics.C113",
    "Verif.Kinematics.relative_position_deriv"
   ],
   "note": ""
  },
  {
   "property": "C114",
   "status": "proved",
   "theorems": [
    "Verif.Kinematics.C114",
    "Verif.Kinematics.C114_reach"
   ],
   "note": ""
  },
  {
   "property": "C115",
   "status": "partial",
   "theorems": [
    "Verif.Kinematics.C115_partial",
    "Verif.Kinematics.C115_refuted"
   ],
   "note": "Missing: when the axis is aligned with or opposite to the target a singular matrix is inverted (C115_refuted)."
  },
  {
   "property": "C116",
   "status": "partial",
   "theorems": [
    "Verif.Kinematics.C116_partial",
    "Verif.Kinematics.C116_refuted"
   ],
   "note": "Missing: when the axis of the wheel is normal to the surface a singular matrix is inverted (C116_refuted)."
  },
  {
   "property": "C117",
   "status": "proved",
   "theorems": [
    "Verif.Kinematics.C117"
   ],
   "note": ""
  },
  {
   "property": "C118",
   "status": "proved",
   "theorems": [
    "Verif.Kinematics.C118"
   ],
   "note": "The matrix square root enters through its contract (symmetric, its square is the mass matrix)."
  },
  {
   "property": "C119",
   "status": "proved",
   "theorems": [
    "Verif.Kinematics.C119",
    "Verif.Kinematics.C119_rows",
    "Verif.Kinematics.measure_deriv",
    "Verif.Kinematics.hasDerivAt_det"
   ],
   "note": "The Hessians are given as the derivatives of the Jacobian. For a singular Jacobian the code inverts a singular matrix: outside of the claim."
  },
  {
   "property": "C120",
   "status": "partial",
   "theorems": [
    "Verif.Problem.C120_partial",
    "Verif.Problem.C120_refuted"
   ],
   "note": "Missing: every other name is silently taken for soft (C120_refuted)."
  },
  {
   "property": "C121",
   "status": "proved",
   "theorems": [
    "Verif.Dynamics.C121"
   ],
   "note": "pinocchio::log3 enters through its contract; the Jacobian and its time variation through the motion they describe."
  },
  {
   "property": "C122",
   "status": "partial",
   "theorems": [
    "Verif.Dynamics.C122_partial",
    "Verif.Dynamics.C122_exact",
    "Verif.Dynamics.C122_refuted",
    "Verif.Dynamics.C122_refuted_rotation"
   ],
   "note": "Missing: the desired acceleration domega_a_b is used in the world without being rotated (C122_refuted), the derivative is the one in the world, not seen from a (C122_refuted_rotation), and the Jacobian carries an extra Jlog factor away from the target. C122_exact says what is imposed in every case."
  },
  {
   "property": "C123",
   "status": "partial",
   "theorems": [
    "Verif.Dynamics.C123_partial",
    "Verif.Dynamics.C123_partial_translation",
    "Verif.Dynamics.C123_contact",
    "Verif.Dynamics.C123_refuted",
    "Verif.Dynamics.dist_rates"
   ],
   "note": "Missing: when the bodies turn, the term omega x v is omitted and the distance is not bounded (C123_refuted). Exact at rest (C123_partial), conservative for bodies that do not turn outside the margin (C123_partial_translation). A pair exactly in contact gets a null normal (C123_contact)."
  },
  {
   "property": "C124",
   "status": "proved",
   "theorems": [
    "Verif.Humanoid.C124"
   ],
   "note": ""
  },
  {
   "property": "C125",
   "status": "proved",
   "theorems": [
    "Verif.Tools.C125",
    "Verif.Tools.svd_exists"
   ],
   "note": "The SVD enters through its contract, shown satisfiable for every 3x3 matrix (svd_exists)."
  },
  {
   "property": "C126",
   "status": "proved",
   "theorems": [
    "Verif.Tools.C126_plane",
    "Verif.Tools.C126_space",
    "Verif.Tools.C126_single"
   ],
   "note": ""
  },
  {
   "property": "C127",
   "status": "proved",
   "theorems": [
    "Verif.Kinematics.C127_configure",
    "Verif.Kinematics.C127_target",
    "Verif.Kinematics.C127_reached",
    "Verif.Kinematics.C127_new"
   ],
   "note": "The evaluation of the targets is for the kinematics solver. When configure raises, the name of the position task has already changed."
  },
  {
   "property": "C128",
   "status": "proved",
   "theorems": [
    "Verif.Robot.C128"
   ],
   "note": "Eigen::Quaterniond(Matrix), slerp and toRotationMatrix are modelled; real arithmetic."
  },
  {
   "property": "C129",
   "status": "proved",
   "theorems": [
    "Verif.Humanoid.C129",
    "Verif.Humanoid.C129_reset",
    "Verif.Humanoid.C129_update",
    "Verif.Humanoid.C129_continuous",
    "Verif.Humanoid.C129_support"
   ],
   "note": "The inverse kinematics (solve) is not modelled: the statements are about the targets given to the solver."
  },
  {
   "property": "C130",
   "status": "partial",
   "theorems": [
    "Verif.Humanoid.C130_partial",
    "Verif.Humanoid.C130_refuted"
   ],
   "note": "Missing: the points of the trajectory are commented out, the foot stays at the origin (C130_refuted); reading never raises and the times are stored (C130_partial)."
  },
  {
   "property": "C131",
   "status": "proved",
   "theorems": [
    "Verif.Problem.C131"
   ],
   "note": "The QR factorisation enters through its contract when the equalities are eliminated."
  },
  {
   "property": "C132",
   "status": "partial",
   "theorems": [
    "Verif.Humanoid.C132_partial",
    "Verif.Humanoid.C132_refuted_start",
    "Verif.Humanoid.C132_refuted_end"
   ],
   "note": "Missing: supports that do not start (or do not end) with a double support read the part before the first one (after the last one): plan is undefined (C132_refuted_start, C132_refuted_end)."
  },
  {
   "property": "C133",
   "status": "partial",
   "theorems": [
    "Verif.Humanoid.C133_partial",
    "Verif.Humanoid.C133_refuted"
   ],
   "note": "Missing: in double support get_v_world_foot raises a runtime_error although the feet do not move (C133_refuted)."
  },
  {
   "property": "C134",
   "status": "partial",
   "theorems": [
    "Verif.Humanoid.C134_partial",
    "Verif.Humanoid.C134_refuted"
   ],
   "note": "Missing: planners that add no step to the two footsteps they are given: the foot that is in the air jumps to its next foothold (C134_refuted). C134_partial asks for planners that add at least one step, and t before the end of the part."
  },
  {
   "property": "C135",
   "status": "proved",
   "theorems": [
    "Verif.Humanoid.C135",
    "Verif.Humanoid.C135_when"
   ],
   "note": "Over the walks of C134_partial (planners that add at least one step). C135_when says exactly when supports can be replanned."
  },
  {
   "property": "C136",
   "status": "partial",
   "theorems": [
    "Verif.Tools.C136_point",
    "Verif.Tools.C136_line",
    "Verif.Tools.C136_segment_partial",
    "Verif.Tools.C136_in_segment",
    "Verif.Tools.C136_refuted"
   ],
   "note": "False part: the tolerance is on the sine of the angle under which the ends are seen, so perpendicular segments far from each other are reported aligned and the test is not symmetric (C136_refuted)."
  },
  {
   "property": "C137",
   "status": "proved",
   "theorems": [
    "Verif.Humanoid.C137",
    "Verif.Humanoid.C137_halfway"
   ],
   "note": "Orientation halfway for Eigen slerp."
  },
  {
   "property": "C138",
   "status": "proved",
   "theorems": [
    "Verif.Humanoid.C138",
    "Verif.Humanoid.C138_side"
   ],
   "note": ""
  },
  {
   "property": "C139",
   "status": "partial",
   "theorems": [
    "Verif.Humanoid.C139_partial",
    "Verif.Humanoid.C139_exact",
    "Verif.Humanoid.C139_kept",
    "Verif.Humanoid.C139_refuted"
   ],
   "note": "False part: with dtheta_spacing not zero a turning step is always modified again, overlap_clip is not a projection (C139_refuted); C139_exact: which steps are left unchanged."
  },
  {
   "property": "C140",
   "status": "partial",
   "theorems": [
    "Verif.Humanoid.C140_partial",
    "Verif.Humanoid.C140_floor",
    "Verif.Humanoid.C140_next",
    "Verif.Humanoid.C140_refuted"
   ],
   "note": "False part: target_world_dcm of the supports is not moved (C140_refuted). C140_floor is for transforms that keep the vertical."
  },
  {
   "property": "C141",
   "status": "partial",
   "theorems": [
    "Verif.Humanoid.C141_partial",
    "Verif.Humanoid.C141_trunk",
    "Verif.Humanoid.C141_arrives",
    "Verif.Humanoid.C141_refuted"
   ],
   "note": "False part: in double support the quantities in the support frame raise (C141_refuted). For transforms that keep the vertical; C141_trunk for a trunk pitched by less than a quarter of a turn."
  },
  {
   "property": "C142",
   "status": "proved",
   "theorems": [
    "Verif.Humanoid.C142"
   ],
   "note": ""
  },
  {
   "property": "C143",
   "status": "partial",
   "theorems": [
    "Verif.Humanoid.C143_conditional",
    "Verif.Humanoid.C143_partial",
    "Verif.Humanoid.C143_exact",
    "Verif.Humanoid.C143_refuted"
   ],
   "note": "False of plans of several supports that end without an end support (as the first parts of a long walk): the sparse accumulation drops products of jerks of different supports. Proved: for one support; for any plan where no dropped product matters; what is really minimised; a plan of two supports more than 30 times worse than a feasible one."
  },
  {
   "property": "C144",
   "status": "partial",
   "theorems": [
    "Verif.Problem.C144_convex",
    "Verif.Problem.C144",
    "Verif.Problem.C144_solution",
    "Verif.Problem.C144_solve_partial",
    "Verif.Problem.C144_mismatch_refuted",
    "Verif.Problem.C144_zero_weight_refuted"
   ],
   "note": "Proved for positive regularisation, softEq weights >= 0, softIneq weights > 0. With a soft inequality of weight 0 the Hessian is singular in the slack (C144_zero_weight_refuted). Without rewrite_equalities, a hard equality and a soft inequality together make the call of the solver undefined (C144_mismatch_refuted)."
  },
  {
   "property": "C145",
   "status": "partial",
   "theorems": [
    "Verif.Humanoid.C145_partial",
    "Verif.Humanoid.C145_soft",
    "Verif.Humanoid.C145_short",
    "Verif.Humanoid.C145_refuted"
   ],
   "note": "Proved without end support, or with the last support only as end support and three timesteps at least. False for shorter plans that end: six equations for at most four jerks, rejected as rank deficient even when the CoM is already at rest at the end. Not treated: several end supports in one plan."
  },
  {
   "property": "C146",
   "status": "proved",
   "theorems": [
    "Verif.Humanoid.C146",
    "Verif.Humanoid.dcmAfter_flow",
    "Verif.Humanoid.lipmZmp_spec"
   ],
   "note": "Exact arithmetic, optimal QP solver."
  },
  {
   "property": "C147",
   "status": "partial",
   "theorems": [
    "Verif.Humanoid.C147",
    "Verif.Humanoid.C147_exists",
    "Verif.Humanoid.C147_default",
    "Verif.Humanoid.C147_both",
    "Verif.Humanoid.C147_best_partial",
    "Verif.Humanoid.C147_landing_refuted",
    "Verif.Humanoid.C147_mirror_refuted"
   ],
   "note": "Proved: what changes, possible decisions, existence, failure with the default (empty) polygons and on double supports, optimality when the sparse accumulation loses nothing. False: when the next support is a double support the stance foot is moved and the landing foot is not; the operational space of a left foot is a half turn of that of a right foot, not its mirror image."
  },
  {
   "property": "C148",
   "status": "proved",
   "theorems": [
    "Verif.Dynamics.C148_work",
    "Verif.Dynamics.C148_external",
    "Verif.Dynamics.C148_costs"
   ],
   "note": "The tangential cost of planar contacts is the one the code adds (see C61), and line contacts are accepted without force weights only (see C60)."
  },
  {
   "property": "C149",
   "status": "proved",
   "theorems": [
    "Verif.Dynamics.C149_qdd",
    "Verif.Dynamics.C149_torque",
    "Verif.Dynamics.C149_unknown",
    "Verif.Dynamics.C149_target",
    "Verif.Dynamics.C149_gears",
    "Verif.Dynamics.C149_set_gear"
   ],
   "note": ""
  },
  {
   "property": "C150",
   "status": "partial",
   "theorems": [
    "Verif.Humanoid.C150_partial",
    "Verif.Humanoid.C150_exact",
    "Verif.Humanoid.C150_refuted"
   ],
   "note": "True for robots with 20 joints; for any other number of joints the sizes of the products do not match (20 is hard-coded). The argument support is ignored: the support frame of the robot is used."
  },
  {
   "property": "C151",
   "status": "partial",
   "theorems": [
    "Verif.Humanoid.C151_positions",
    "Verif.Humanoid.C151_partial",
    "Verif.Humanoid.C151_refuted"
   ],
   "note": "Proved for the positions, and for the velocities of robots with at least two joints. False for one joint: its velocity is ignored (the test is size() > 1)."
  },
  {
   "property": "C152",
   "status": "partial",
   "theorems": [
    "Verif.Humanoid.C152_partial",
    "Verif.Humanoid.C152_exact",
    "Verif.Humanoid.C152_refuted"
   ],
   "note": "Proved when supports are chosen by side. False with the overload that takes a frame: the side is not updated when the frame is already the support frame. C152_exact gives the side and the frame after any session."
  },
  {
   "property": "C153",
   "status": "partial",
   "theorems": [
    "Verif.Robot.C153_partial",
    "Verif.Robot.C153_order",
    "Verif.Robot.C153_refuted"
   ],
   "note": "Loaded pairs are those of the file. False for a load that fails: the pairs are removed before the file is opened."
  },
  {
   "property": "C154",
   "status": "proved",
   "theorems": [
    "Verif.Robot.C154_collisions",
    "Verif.Robot.C154_distances"
   ],
   "note": "For all lists of pairs and all outcomes of the geometric tests, which are parameters."
  },
  {
   "property": "C155",
   "status": "partial",
   "theorems": [
    "Verif.Robot.C155_partial",
    "Verif.Robot.C155_exact",
    "Verif.Robot.C155_unknown",
    "Verif.Robot.C155_refuted"
   ],
   "note": "Proved for values read by joint name. False for joints with several velocities: set_velocity_limits sets the first coordinate only (C155_exact gives every coordinate of every vector); unknown names are undefined behaviour for all velocity parameters."
  },
  {
   "property": "C156",
   "status": "partial",
   "theorems": [
    "Verif.Robot.C156_partial",
    "Verif.Robot.C156_exact",
    "Verif.Robot.C156_uniform",
    "Verif.Robot.C156_refuted"
   ],
   "note": "Closed form for every number of steps: velocities exact, positions ahead of the exact motion by n dt^2 qdd / 2. Joints with one coordinate only."
  },
  {
   "property": "C157",
   "status": "proved",
   "theorems": [
    "Verif.Dynamics.C157_success",
    "Verif.Dynamics.C157_failure",
    "Verif.Dynamics.C157_scaled",
    "Verif.Dynamics.C157_masked"
   ],
   "note": "For a sound QP solver (its solutions satisfy the hard constraints)."
  },
  {
   "property": "C158",
   "status": "partial",
   "theorems": [
    "Verif.Humanoid.C158_partial",
    "Verif.Humanoid.C158_planned",
    "Verif.Humanoid.C158_refuted"
   ],
   "note": "Proved where the call is defined, in particular for all planned walks. Undefined behaviour for index <= 0, at the end of a walk without end and when the second foot of a double support is lifted."
  },
  {
   "property": "C159",
   "status": "partial",
   "theorems": [
    "Verif.Bindings.C159_partial",
    "Verif.Bindings.C159_exact",
    "Verif.Bindings.C159_shift",
    "Verif.Bindings.C159_refuted",
    "Verif.Bindings.C159_update"
   ],
   "note": "Proved for joints with one velocity on a robot with a floating base; joints with several velocities only get their first torque."
  },
  {
   "property": "C160",
   "status": "partial",
   "theorems": [
    "Verif.Registry.C160_exact",
    "Verif.Registry.C160_partial",
    "Verif.Registry.C160_refuted"
   ],
   "note": "Holds exactly when the solver owns no task: otherwise the copy deletes the tasks of the real solver."
  },
  {
   "property": "C161",
   "status": "partial",
   "theorems": [
    "Verif.Bindings.C161_points",
    "Verif.Bindings.C161_footsteps",
    "Verif.Bindings.C161_contacts_exact",
    "Verif.Bindings.C161_contacts_partial",
    "Verif.Bindings.C161_contacts_refuted"
   ],
   "note": "Proved for points and footsteps. For contacts, only those before the first inactive one are drawn, and stale arrows remain for kinds that are not drawn."
  },
  {
   "property": "C162",
   "status": "partial",
   "theorems": [
    "Verif.Bindings.C162_arrow",
    "Verif.Bindings.C162_tip_exact",
    "Verif.Bindings.C162_partial",
    "Verif.Bindings.C162_refuted",
    "Verif.Bindings.C162_frame",
    "Verif.Bindings.C162_cylinder"
   ],
   "note": "Frames, cylinders and long arrows are exact; arrows shorter than 3 radius + 1e-3 go past their end."
  },
  {
   "property": "C163",
   "status": "proved",
   "theorems": [
    "Verif.Kinematics.C163",
    "Verif.Dynamics.C163_dynamics",
    "Verif.Problem.C163_problem"
   ],
   "note": "Inverse kinematics: same step, robot state and scale for every order of the tasks and constraints, once a solve succeeds. Inverse dynamics: same result and robot state. Problem: same outcome (success or exception) and same values of the variables."
  },
  {
   "property": "C164",
   "status": "proved",
   "theorems": [
    "Verif.Kinematics.C164",
    "Verif.Kinematics.C164_rate",
    "Verif.Kinematics.C164_converges"
   ],
   "note": "Position of the joint after any number of successful solves, rate without velocity limits, convergence with them. That the solves succeed is C165."
  },
  {
   "property": "C165",
   "status": "partial",
   "theorems": [
    "Verif.Kinematics.C165_exact",
    "Verif.Kinematics.C165_partial",
    "Verif.Kinematics.C165_soft",
    "Verif.Kinematics.C165_standstill",
    "Verif.Kinematics.C165_forever",
    "Verif.Kinematics.C165_refuted",
    "Verif.Kinematics.C165_base_refuted",
    "Verif.Kinematics.run_masks",
    "Verif.Kinematics.exact_env_exists"
   ],
   "note": "Proved for robots with actuated joints; with rewrite_equalities success is characterised exactly: an admissible step (a motion) exists and the hard requirements are independent. Refuted as stated for a hard task given twice and for robots without actuated joints whose joint limits are enabled (the default). Soft tasks only: any number of solves after any history succeed."
  },
  {
   "property": "C166",
   "status": "partial",
   "theorems": [
    "Verif.Dynamics.C166_exact",
    "Verif.Dynamics.C166_partial",
    "Verif.Dynamics.C166_soft",
    "Verif.Dynamics.C166_refuted",
    "Verif.Dynamics.C166_twice",
    "Verif.Dynamics.C166_base_refuted",
    "Verif.Dynamics.motion_stop",
    "Verif.Dynamics.motionFree_soft"
   ],
   "note": "Proved for robots with actuated joints; with rewrite_equalities success is characterised exactly: an admissible step (a motion) exists and the hard requirements are independent. Refuted as stated for a hard task given twice and for robots without actuated joints, for which no solve ever succeeds. Soft tasks only, no limits on torques: always succeeds."
  },
  {
   "property": "C167",
   "status": "partial",
   "theorems": [
    "Verif.Robot.C167_partial",
    "Verif.Robot.C167_spelling",
    "Verif.Robot.C167_total",
    "Verif.Robot.C167_refuted",
    "Verif.Robot.C167_empty_refuted"
   ],
   "note": "Proved for directories and for files given with their directory. Refuted for a file given by its bare name, whose collisions.json is looked for at the root of the file system, and for an empty path."
  },
  {
   "property": "C168",
   "status": "partial",
   "theorems": [
    "Verif.Kinematics.C168",
    "Verif.Kinematics.C168_names",
    "Verif.Kinematics.C168_frames",
    "Verif.Kinematics.C168_dynamics",
    "Verif.Kinematics.C168_same_name_refuted",
    "Verif.Kinematics.C168_index_refuted",
    "Verif.Kinematics.C168_world_refuted"
   ],
   "note": "Proved for every call of both solvers and every program. Refuted: the regularisation tasks all have the same name; a frame given by its index is not checked; \"world\" designates two different references."
  },
  {
   "property": "C169",
   "status": "partial",
   "theorems": [
    "Verif.Problem.C169_partial",
    "Verif.Problem.C169_read",
    "Verif.Problem.C169_undefined",
    "Verif.Problem.C169_x",
    "Verif.Problem.C169_fits",
    "Verif.Problem.C169_counters",
    "Verif.Problem.C169_flags",
    "Verif.Problem.C169_x_refuted",
    "Verif.Problem.C169_stale_refuted",
    "Verif.Problem.C169_report_refuted"
   ],
   "note": "Proved for every session: variables, versions, values, constraints, references, counters, flags, x after a solve that returned, and which calls are undefined. Refuted: x after a solve that raised is the rejected point; a constraint that outlives its variables silently applies to the next ones; the report shows 0 equalities when they were rewritten."
  },
  {
   "property": "C170",
   "status": "proved",
   "theorems": [
    "Verif.Humanoid.C170",
    "Verif.Humanoid.C170_pose",
    "Verif.Humanoid.C170_flat",
    "Verif.Humanoid.C170_loop",
    "Verif.Humanoid.C170_limits",
    "Verif.Humanoid.C170_uninitialised"
   ],
   "note": "The targets (pose), the six tasks after any calls (C170), the loop, the limits. matrixToRpy enters by its contract, which yawOK_exists shows can be met."
  },
  {
   "property": "C171",
   "status": "partial",
   "theorems": [
    "Verif.Dynamics.ContactSession.C171_partial",
    "Verif.Dynamics.ContactSession.C171_exact",
    "Verif.Dynamics.ContactSession.C171_fresh",
    "Verif.Dynamics.ContactSession.C171_refuted",
    "Verif.Dynamics.ContactSession.C171_stale_refuted"
   ],
   "note": "Proved for careful sessions (a task goes away only when no contact of the solver was made from it), with the exact condition for a solve to be defined. Refuted: remove_task deletes a task of an active contact, and every later solve reads freed memory; a contact made from a task that is not in the solver is given an old Jacobian."
  },
  {
   "property": "C172",
   "status": "partial",
   "theorems": [
    "Verif.Tools.Status.C172_partial",
    "Verif.Tools.Status.C172_exact",
    "Verif.Tools.Status.C172_dynamics",
    "Verif.Tools.Status.C172_refuted",
    "Verif.Tools.Status.C172_scaled_refuted"
   ],
   "note": "Proved for both reports when the errors leave room in the buffer of 128 characters; C172_exact says exactly when the report of the kinematics solver ends. Refuted: a finite error of 10^200 metres makes sprintf write out of the buffer, and the dynamics solver reports scaled tasks as soft ones."
  },
  {
   "property": "C173",
   "status": "partial",
   "theorems": [
    "Verif.Humanoid.C173_update",
    "Verif.Humanoid.C173_exact",
    "Verif.Humanoid.C173_partial",
    "Verif.Humanoid.C173_refuted"
   ],
   "note": "Proved when the walk was placed since its last solution (C173_partial); C173_exact says exactly when the foot is put there, for any inverse kinematics. Refuted: solve does not update the kinematics after its last solution, so the support foot is placed from a stale placement and misses the pose by what the last solution moved it."
  },
  {
   "property": "C174",
   "status": "partial",
   "theorems": [
    "Verif.Humanoid.C174_when",
    "Verif.Humanoid.C174_built",
    "Verif.Humanoid.C174_camera",
    "Verif.Humanoid.C174_frame",
    "Verif.Humanoid.C174_partial",
    "Verif.Humanoid.C174_camera_refuted",
    "Verif.Humanoid.C174_side_refuted",
    "Verif.Humanoid.C174_name_refuted"
   ],
   "note": "Construction and support frame for all calls, the side when no frame is named, and exactly what camera_look_at does. Refuted: with \"head_base\" but no \"camera\" or \"head_pitch\" frame, camera_look_at reads distances that were never written; a side asked with the frame that is already the support is ignored; any name other than \"right\" is the left side."
  },
  {
   "property": "C175",
   "status": "proved",
   "theorems": [
    "Verif.Humanoid.C175",
    "Verif.Humanoid.C175_com"
   ],
   "note": ""
  },
  {
   "property": "C176",
   "status": "partial",
   "theorems": [
    "Verif.Dynamics.C176_exact",
    "Verif.Dynamics.C176_session",
    "Verif.Dynamics.C176_partial",
    "Verif.Dynamics.C176_frozen_refuted"
   ],
   "note": "The construction exactly, and every setting after any session. Refuted for joints with several velocities: set_qdd_safe reaches the first one only, the others have 0, and with joint limits enabled every successful solve stops them."
  },
  {
   "property": "C177",
   "status": "partial",
   "theorems": [
    "Verif.Humanoid.C177_exact",
    "Verif.Humanoid.C177_partial",
    "Verif.Humanoid.C177_transitive_refuted",
    "Verif.Humanoid.C177_moved_refuted",
    "Verif.Humanoid.C177_support_refuted"
   ],
   "note": "The exact meaning of both equalities, reflexive and symmetric. Refuted: not transitive, two footsteps that differ are equal once both are moved far enough, the order of the footsteps of a support matters, and the times and targets of supports do not. Eigen isApprox enters by its definition on 4 by 4 matrices."
  },
  {
   "property": "C178",
   "status": "partial",
   "theorems": [
    "Verif.Humanoid.C178_repetitive",
    "Verif.Humanoid.C178_configured",
    "Verif.Humanoid.C178_naive",
    "Verif.Humanoid.C178_partial",
    "Verif.Humanoid.C178_within",
    "Verif.Humanoid.C178_stale_refuted"
   ],
   "note": "Exact for both planners: the plan after any session, undefined before the first configuration. Refuted for the naive planner when the limits change: the ones at the construction are still used to decide that a foot arrived and to shorten steps; every step respects both the old box and the current ellipsoid (C178_within)."
  },
  {
   "property": "C179",
   "status": "partial",
   "theorems": [
    "Verif.Humanoid.C179_exact",
    "Verif.Humanoid.C179_infeasible",
    "Verif.Humanoid.C179_partial",
    "Verif.Humanoid.C179_refuted"
   ],
   "note": "omega is computed by the constructor and never again, while plan and replan read walk_com_height when they are called. False once the height has changed: a generator built at 39 cm and asked for 70 cm plans a ZMP outside of the feet (C179_refuted). It holds while the height is the one of the construction, whatever else changes (C179_partial); C179_exact gives the ZMP that is kept in the polygons and the distance to the actual one."
  },
  {
   "property": "C180",
   "status": "partial",
   "theorems": [
    "Verif.Kinematics.C180_exact",
    "Verif.Kinematics.C180_safe",
    "Verif.Kinematics.C180_partial",
    "Verif.Kinematics.C180_empty_refuted",
    "Verif.Kinematics.C180_plain_refuted",
    "Verif.Kinematics.solve_constrained",
    "Verif.Kinematics.lib_adds"
   ],
   "note": "Proved exactly for well formed constraints (C180_exact, C180_safe) with rewrite_equalities, or without when all constraints are hard. False for constraints without rows (an empty polygon, a cone without slices, half spaces without rows): no solve succeeds even when they are soft; false without rewrite_equalities: a mask and a soft constraint give undefined behaviour."
  },
  {
   "property": "C181",
   "status": "partial",
   "theorems": [
    "Verif.Dynamics.C181_exact",
    "Verif.Dynamics.C181_rest",
    "Verif.Dynamics.C181_partial",
    "Verif.Dynamics.C181_dt",
    "Verif.Dynamics.C181_plain_refuted",
    "Verif.Dynamics.dsolve_constrained",
    "Verif.Dynamics.collisions_add"
   ],
   "note": "Proved exactly with a time step and rewrite_equalities, or without when all constraints are hard. Without a time step every solve raises (C181_dt); without rewrite_equalities a soft constraint with a near pair gives undefined behaviour."
  },
  {
   "property": "C182",
   "status": "partial",
   "theorems": [
    "Verif.Dynamics.C182_exact",
    "Verif.Dynamics.C182_partial",
    "Verif.Dynamics.C182_refuted",
    "Verif.Dynamics.C182_work",
    "Verif.Dynamics.C182_session",
    "Verif.Dynamics.C182_unstable"
   ],
   "note": "False for every positive stiffness (the documentation uses 1): the sign of the stiffness is wrong, the torque is kp q - kd qd, the work it does is unbounded and the joint runs away from zero. Passive exactly when kd >= 0 and kp < 0, or kp = 0 without torque (C182_exact); the energy balance (C182_work) and the sessions are proved."
  },
  {
   "property": "C183",
   "status": "proved",
   "theorems": [
    "Verif.Dynamics.C183_exact",
    "Verif.Dynamics.C183",
    "Verif.Dynamics.C183_soft",
    "Verif.Dynamics.puppet_motion",
    "Verif.Dynamics.puppet_free",
    "Verif.Dynamics.puppet_absorbs",
    "Verif.Dynamics.C184_lift"
   ],
   "note": "Success is characterised exactly (C183_exact), through C166. The quadratic programming solver is a parameter with the contract that it answers and only gives solutions (Exact)."
  },
  {
   "property": "C184",
   "status": "proved",
   "theorems": [
    "Verif.Dynamics.C184_exact",
    "Verif.Dynamics.task_motion",
    "Verif.Dynamics.task_free",
    "Verif.Dynamics.task_contacts",
    "Verif.Dynamics.kkt",
    "Verif.Dynamics.C184_lift"
   ],
   "note": "task_motion keeps the torques of the joints that were chosen beforehand. C184_lift: a robot that touches nothing cannot lift itself, and does with a puppet contact or with the contact of the task. With limits on positions or velocities the forces of the contacts may also be limited by them: not covered."
  },
  {
   "property": "C185",
   "status": "proved",
   "theorems": [
    "Verif.Problem.C185_problem",
    "Verif.Kinematics.C185_kinematics",
    "Verif.Dynamics.C185_dynamics"
   ],
   "note": "Exact equality of the results (with real numbers instead of doubles), for any solver of the quadratic programs."
  },
  {
   "property": "C186",
   "status": "proved",
   "theorems": [
    "Verif.Problem.C186_problem",
    "Verif.Kinematics.C186_kinematics",
    "Verif.Kinematics.C186_limit",
    "Verif.Kinematics.C186_regularization",
    "Verif.Dynamics.C186_task",
    "Verif.Dynamics.C186_torque",
    "Verif.Dynamics.C186_part",
    "Verif.Dynamics.C186_contact"
   ],
   "note": "The squares are those the code weighs: for planar contacts the tangential forces are fy and fz (see C61). Both calls have to succeed; negative weights are excluded where the code ignores them (contacts). The other errors may grow. C186_limit is for inverse kinematics without added constraints."
  },
  {
   "property": "C187",
   "status": "proved",
   "theorems": [
    "Verif.Dynamics.C187",
    "Verif.Dynamics.C187_unique",
    "Verif.Dynamics.built_cost",
    "Verif.Problem.least_cost_unique",
    "Verif.Dynamics.build_motions"
   ],
   "note": "The set of motions and the cost are specified without the problem, its variables or its expressions. Constraints added by the user are not part of this statement. For planar contacts the tangential cost is on fy and fz (C61)."
  },
  {
   "property": "C188",
   "status": "partial",
   "theorems": [
    "Verif.Dynamics.C188_partial",
    "Verif.Dynamics.C188_exact",
    "Verif.Dynamics.C188_refuted",
    "Verif.Dynamics.DCMotor.mixed_iff",
    "Verif.Dynamics.DCMotor.voltage_iff"
   ],
   "note": "True of the velocity at the end of the step, exactly (C188_exact: these are the only motions that the limit excludes); the voltage at the velocity of the robot can exceed Vin, by at most kt dt |qdd|. The current limit holds."
  },
  {
   "property": "C189",
   "status": "proved",
   "theorems": [
    "Verif.Dynamics.C189",
    "Verif.Dynamics.C189_back",
    "Verif.Dynamics.C189_number"
   ],
   "note": "Solves that fail leave the robot where it is and are not counted. The bound of three steps is reached (example beside C189)."
  },
  {
   "property": "C190",
   "status": "proved",
   "theorems": [
    "Verif.Dynamics.C190",
    "Verif.Dynamics.C190_path",
    "Verif.Dynamics.C190_default"
   ],
   "note": "The task is documented as critically damped, which holds of the continuous motion (C65). Integrated with the explicit velocity and implicit position of integrate(), it diverges for time steps above the bound."
  },
  {
   "property": "C191",
   "status": "proved",
   "theorems": [
    "Verif.Humanoid.C191",
    "Verif.Humanoid.C191_middle"
   ],
   "note": "From the first timestep of a part on; from its start when the ZMP is there inside the polygon by zmp_margin (nothing constrains it there)."
  },
  {
   "property": "C192",
   "status": "partial",
   "theorems": [
    "Verif.Humanoid.C192_partial",
    "Verif.Humanoid.C192_swing",
    "Verif.Humanoid.C192_swing_middle",
    "Verif.Humanoid.C192_quintic",
    "Verif.Humanoid.C192_quintic_middle",
    "Verif.Humanoid.C192_remade",
    "Verif.Humanoid.C192_refuted"
   ],
   "note": "True of SwingFootCubic for a swing planned from its beginning (C192_partial). The two other generators stay above the lower end and on the segment, but exceed the requested height, by at most 1/3 and 7/9 of the rise, reached half way through every step on a flat ground (C192_swing, C192_quintic, C192_refuted). For a cubic swing made again after its plateau with the velocity of the foot, C192_remade gives the exact condition under which the foot stays above the landing height."
  },
  {
   "property": "C193",
   "status": "proved",
   "theorems": [
    "Verif.Humanoid.C193",
    "Verif.Humanoid.C193_steady",
    "Verif.Humanoid.C193_no_leak"
   ],
   "note": "The first call reads members without a value (C110_refuted): the statement starts from a state where they have one. update_tasks_and_pid and its gains are not exposed to Python."
  },
  {
   "property": "C194",
   "status": "proved",
   "theorems": [
    "Verif.Humanoid.C194",
    "Verif.Humanoid.straight_step"
   ],
   "note": "Exact arithmetic: with doubles the number of steps may change by one when (X - x) / L is an integer. Targets behind the support foot by more than place_threshold make the robot turn round and are not on this domain."
  },
  {
   "property": "C195",
   "status": "partial",
   "theorems": [
    "Verif.Bindings.C195_partial",
    "Verif.Bindings.C195_refuted",
    "Verif.Bindings.C195_silent"
   ],
   "note": "Refuted for LineContact.R_world_surface, whose accessors take a PointContact&: reading and assigning raise Boost.Python.ArgumentError on every line contact. Assigning a setting that the class does not have raises nothing and changes nothing. Values of a wrong type are not modelled."
  },
  {
   "property": "C196",
   "status": "proved",
   "theorems": [
    "Verif.Humanoid.C196",
    "Verif.Humanoid.C196_stays",
    "Verif.Humanoid.C196_rest"
   ],
   "note": "The walk is a plan of plan_com in exact arithmetic. C196_rest uses the contract of the QP solver (its solutions satisfy the hard constraints). zmpBefore_exists: every plan has such a line in each direction."
  },
  {
   "property": "C197",
   "status": "partial",
   "theorems": [
    "Verif.Humanoid.C197_repetitive",
    "Verif.Humanoid.C197_naive_partial",
    "Verif.Humanoid.C197_refuted",
    "Verif.Humanoid.ahead_faces"
   ],
   "note": "C197_repetitive is the whole claim for the repetitive planner. For the naive planner it holds as long as the targets are never exactly behind the robot (C197_naive_partial; ahead_faces: a robot that walks straight meets this), and fails otherwise: atan2 answers pi on both sides, so the robot turns to the left whichever foot flies first (C197_refuted)."
  },
  {
   "property": "C198",
   "status": "proved",
   "theorems": [
    "Verif.Humanoid.C198_repetitive",
    "Verif.Humanoid.C198_naive"
   ],
   "note": "In exact arithmetic."
  },
  {
   "property": "C199",
   "status": "partial",
   "theorems": [
    "Verif.Bindings.C199_partial",
    "Verif.Bindings.C199_exact",
    "Verif.Bindings.C199_error",
    "Verif.Bindings.C199_refuted",
    "Verif.Bindings.C199_vectors",
    "Verif.Bindings.rounding_exists"
   ],
   "note": "The overloads for numbers are registered with the type float() of C++, so every number of Python goes through single precision. C199_partial: the numbers of single precision are exact. C199_exact: all the others are not (e == x is satisfied by no assignment that gives x to e). C199_error: the relative error is at most 2^-24 up to the greatest number of single precision. C199_refuted: e <= 0.1 accepts values above 0.1. The conversion is a parameter that rounds to nearest (rounding_exists), and is undefined beyond the greatest number. Left operands that are numpy arrays, and the overload for matrices, are not modelled."
  },
  {
   "property": "C200",
   "status": "partial",
   "theorems": [
    "Verif.Bindings.C200_partial",
    "Verif.Bindings.C200_refuted",
    "Verif.Bindings.C200_silent"
   ],
   "note": "Every class but Segment (the contacts are in C195). C200_refuted, for all segments and assignments: assigning the end of a segment changes its start, and its end cannot be changed. C200_silent: a name that is not an attribute of the class is accepted, and changes nothing in C++. Not modelled: the attributes that are computed (T_world_frame and T_a_b of frame tasks) and the conversions of the values."
  },
  {
   "property": "C201",
   "status": "proved",
   "theorems": [
    "Verif.Kinematics.C201",
    "Verif.Kinematics.C201_step",
    "Verif.Kinematics.C201_exact"
   ],
   "note": "C201_step: the step is null. C201: for any number of solves, the ones that raise included. C201_exact: with soft tasks away from the limits the step is null if and only if the weighted errors of the tasks balance (no direction reduces the weighted squared error to first order), so solving stops exactly at the stationary points. The regularization is positive and the QP solver is optimal (contract of eiquadprog). Integrating a null step changes nothing (contract of pinocchio)."
  },
  {
   "property": "C202",
   "status": "proved",
   "theorems": [
    "Verif.Kinematics.C202",
    "Verif.Kinematics.C202_path",
    "Verif.Kinematics.C202_vanish",
    "Verif.Kinematics.C202_joints"
   ],
   "note": "C202: the decrease and the invariant. C202_path: the squared motions sum up to at most the initial error divided by the regularization. C202_vanish (over the reals): the motions tend to zero. C202_joints: joints tasks on joints of one coordinate are linear. Scaled tasks and kinematics constraints are left out. The QP solver is optimal (contract)."
  },
  {
   "property": "C203",
   "status": "proved",
   "theorems": [
    "Verif.Kinematics.C203",
    "Verif.Kinematics.C203_solved",
    "Verif.Kinematics.C203_best",
    "Verif.Kinematics.C203_velocity",
    "Verif.Kinematics.C203_velocity_solved",
    "Verif.Kinematics.C202_joints"
   ],
   "note": "C203: the bound, over any ordered field. C203_solved: every solve succeeds. C203_best: the error becomes smaller than that of any allowed configuration plus any positive number. The robot may start outside of its limits. C203_velocity, C203_velocity_solved: with the velocity limits the best compromise is reached as well, from a robot inside its limits whose hard tasks are met. Scaled tasks and kinematics constraints are left out; the external solvers are exact (contract). C202_joints: joints tasks are linear with constant Jacobians."
  },
  {
   "property": "C204",
   "status": "partial",
   "theorems": [
    "Verif.Bindings.C204_partial",
    "Verif.Bindings.C204_raises",
    "Verif.Bindings.C204_exact",
    "Verif.Bindings.C204_never_freed",
    "Verif.Bindings.C204_refuted",
    "Verif.Bindings.C204_lost",
    "Verif.Bindings.C204_aborts"
   ],
   "note": "C204_partial and C204_raises: values and errors are right. C204_refuted: every call with a sequence that is not empty keeps references; C204_exact: one for each item, for ever (C204_never_freed); C204_lost: a failed conversion also loses the vector. C204_aborts: an object with items whose length cannot be computed stops the process. The contracts of PySequence_GetItem (new reference) and extract (borrows) are assumed; sizes from 2^31 are not modelled."
  },
  {
   "property": "C205",
   "status": "partial",
   "theorems": [
    "Verif.Humanoid.C205_partial",
    "Verif.Humanoid.C205_exact",
    "Verif.Humanoid.C205_frame",
    "Verif.Humanoid.C205_overlap",
    "Verif.Humanoid.C205_refuted"
   ],
   "note": "C205_exact: the polygon is that of the first read, for ever. C205_refuted: for every footstep, moving it after a read gives a wrong polygon. C205_frame: the attributes are right. C205_overlap: the test of overlap does not use the stale polygon. Writing in the array returned by the attribute frame has no effect."
  },
  {
   "property": "C206",
   "status": "partial",
   "theorems": [
    "Verif.Robot.C206_partial",
    "Verif.Robot.C206_manipulability",
    "Verif.Robot.C206_python",
    "Verif.Robot.C206_range",
    "Verif.Robot.C206_refuted"
   ],
   "note": "C206_refuted: unknown names are undefined behaviour from Python (getFrameId and getJointId return an index out of range, which is not checked). The tensor of the Hessians of a joint is that of pinocchio (contract: first index varying first, entries are the derivatives of the local Jacobian of the joint)."
  },
  {
   "property": "C207",
   "status": "proved",
   "theorems": [
    "Verif.Robot.C207",
    "Verif.Robot.C207_frame",
    "Verif.Robot.C207_mass"
   ],
   "note": "The functions of pinocchio are parameters with their contracts: getFrameJacobian writes only the columns of the joints that move the frame; the linear rows of the centroidal map are the mass times the Jacobian of the CoM. Without mass the division is by zero."
  },
  {
   "property": "C208",
   "status": "partial",
   "theorems": [
    "Verif.Bindings.C208_partial",
    "Verif.Bindings.C208_lines",
    "Verif.Bindings.C208_exact",
    "Verif.Bindings.C208_refuted"
   ],
   "note": "True of path_viz (C208_partial). line_viz uses LineSegments, which takes the points two by two: C208_exact, the line is right exactly when it has at most two points; C208_refuted: otherwise every second segment is missing. meshcat is external: LineSegments follows its documentation."
  },
  {
   "property": "C209",
   "status": "partial",
   "theorems": [
    "Verif.Bindings.C209_partial",
    "Verif.Bindings.C209_unknown",
    "Verif.Bindings.C209_refuted_default",
    "Verif.Bindings.C209_refuted"
   ],
   "note": "C209_partial: robots with different names without underscores. C209_refuted_default: two robots shown with the default name draw their frames over one another. C209_refuted: so do some robots of different names, because the name of the robot and that of the frame are joined by an underscore."
  },
  {
   "property": "C210",
   "status": "proved",
   "theorems": [
    "Verif.Kinematics.C210",
    "Verif.Kinematics.C210_hard",
    "Verif.Kinematics.C210_rate",
    "Verif.Kinematics.C210_converges",
    "Verif.Kinematics.C210_limit",
    "Verif.Kinematics.C210_solved"
   ],
   "note": "C210: straight and together. C210_hard: hard tasks stay met. C210_rate: the factor of one solve. C210_converges, C210_limit: geometric convergence with joint limits, a masked base and no velocity limits. C210_solved: all these solves succeed with exact solvers without rewriting of equalities. The external QP solver is a parameter, sound and (for the rate) optimal. Tasks are linear when they are joints tasks on joints with one coordinate (C202_joints)."
  },
  {
   "property": "C211",
   "status": "partial",
   "theorems": [
    "Verif.Bindings.C211_partial",
    "Verif.Bindings.C211_careful",
    "Verif.Bindings.C211_memory",
    "Verif.Bindings.C211_exact",
    "Verif.Bindings.C211_refuted",
    "Verif.Bindings.C211_refuted_task",
    "Verif.Bindings.C211_refuted_existing"
   ],
   "note": "C211_partial: programs that make objects and read parts of them. C211_careful: all programs that keep the names of the owners. C211_exact: when a call is undefined, for all programs. C211_refuted: none of the constructors that store references has with_custodian_and_ward, so KinematicsSolver(RobotWrapper(...)) or an Integrator returned by a function that made its problem use destroyed objects. CPython and Boost.Python are external: reference counting and return_internal_reference follow their documentation; every method is taken to follow all the references."
  },
  {
   "property": "C212",
   "status": "partial",
   "theorems": [
    "Verif.Problem.C212_partial",
    "Verif.Problem.C212_no_leak",
    "Verif.Problem.C212_refuted"
   ],
   "note": "C212_partial, C212_no_leak: programs that copy no problem and use problems that exist. C212_refuted: Problem has raw pointers and a destructor that deletes them, but no copy constructor: destroying a problem and a copy of it deletes the same variables twice, for every problem that has a variable or a constraint, after every such program."
  },
  {
   "property": "C213",
   "status": "proved",
   "theorems": [
    "Verif.Kinematics.C213",
    "Verif.Kinematics.C213_kept",
    "Verif.Kinematics.C213_velocity",
    "Verif.Kinematics.C213_train"
   ],
   "note": "C213: after the first success; C213_kept: when the gears are meshed at first; C213_velocity: velocities; C213_train: chains of gears. Robots with continuous joints are excluded: there the task reads other coordinates (C47_refuted)."
  },
  {
   "property": "C214",
   "status": "proved",
   "theorems": [
    "Verif.Dynamics.C214",
    "Verif.Dynamics.C214_path",
    "Verif.Dynamics.C214_kept"
   ],
   "note": "C214: exact condition of convergence; C214_path: the recursion; C214_kept: meshed gears stay meshed. The gears are those of the calls (lastGear: set_gear forgets the gears of all the targets, C149_gears)."
  },
  {
   "property": "C215",
   "status": "partial",
   "theorems": [
    "Verif.Robot.C215_frames",
    "Verif.Robot.C215_still",
    "Verif.Robot.C215_pose",
    "Verif.Robot.C215_partial",
    "Verif.Robot.C215_refuted"
   ],
   "note": "C215_partial is exact (an equivalence). False part (C215_refuted): set_joint writes one of the two coordinates (cosine and sine) of a continuous joint, so the animation displays non-unit pairs. Times are real numbers; unknown names of frames are not modelled."
  },
  {
   "property": "C216",
   "status": "proved",
   "theorems": [
    "Verif.Humanoid.C216",
    "Verif.Humanoid.C216_zmp",
    "Verif.Humanoid.C216_fresh",
    "Verif.Humanoid.C216_walk",
    "Verif.Humanoid.C216_session",
    "Verif.Humanoid.C216_footsteps"
   ],
   "note": "C216: over the reals the two QPs are the same numbers. HullMoves: the convex hull of boost moves with its points. UpToDate: supports whose polygon is stale (C83_refuted) are excluded; C216_fresh: those that were never read are up to date. C216_walk: the whole plan, with the feet and the trunk. C216_session: programs that plan again any number of times (failures included). C216_footsteps: from the footsteps, through make_supports."
  },
  {
   "property": "C217",
   "status": "partial",
   "theorems": [
    "Verif.Humanoid.C217",
    "Verif.Humanoid.C217_partial",
    "Verif.Humanoid.C217_walk",
    "Verif.Humanoid.C217_session",
    "Verif.Humanoid.C217_footsteps",
    "Verif.Humanoid.C217_lost",
    "Verif.Humanoid.C217_refuted"
   ],
   "note": "C217: everything but the start times of the supports, without hypothesis. C217_walk: the feet, the trunk and all queries of the whole plan too. C217_session: programs that plan again any number of times (failures included). C217_footsteps: from the footsteps, through make_supports. C217_partial: the start times too, when none of them becomes -1. C217_lost, C217_refuted: a support that started at the time -1 is taken for one that was never planned, and gets the time of the planning (all walks of one support, and a concrete one)."
  },
  {
   "property": "C218",
   "status": "proved",
   "theorems": [
    "Verif.Humanoid.C218",
    "Verif.Humanoid.C218_placed"
   ],
   "note": "C218: delays, without hypothesis. C218_placed: turns and moves; at the end time the matrix that the code inverts is singular, hence the hypotheses. The target height given when a trajectory is made again is unused by the code, the vertical motion being that of the first trajectory."
  },
  {
   "property": "C219",
   "status": "proved",
   "theorems": [
    "Verif.Humanoid.C219"
   ],
   "note": "In exact arithmetic. With floating point numbers the matrix of a trajectory made late is badly conditioned, which the model does not see; SwingFoot (C218) subtracts t_start."
  },
  {
   "property": "C220",
   "status": "proved",
   "theorems": [
    "Verif.Humanoid.C220",
    "Verif.Humanoid.C220_3d"
   ],
   "note": "By induction on the program, the states being related by a delay of the points and of the pieces. In exact arithmetic."
  }
 ]
}
