{
 "claims": [
  {
   "property": "C01",
   "status": "proved",
   "theorems": [
    "Factorama.Props.C01_variables",
    "Factorama.Props.C01_factors",
    "Factorama.Props.C01_add_variable",
    "Factorama.Props.C01_add_factor"
   ],
   "note": ""
  },
  {
   "property": "C02",
   "status": "proved",
   "theorems": [
    "Factorama.Props.C02_columns"
   ],
   "note": ""
  },
  {
   "property": "C03",
   "status": "proved",
   "theorems": [
    "Factorama.Props.C03_rows"
   ],
   "note": ""
  },
  {
   "property": "C04",
   "status": "proved",
   "theorems": [
    "Factorama.Props.C04_finalize_iff"
   ],
   "note": ""
  },
  {
   "property": "C05",
   "status": "proved",
   "theorems": [
    "Factorama.Props.C05_residual"
   ],
   "note": ""
  },
  {
   "property": "C06",
   "status": "proved",
   "theorems": [
    "Factorama.Props.C06_dense"
   ],
   "note": ""
  },
  {
   "property": "C07",
   "status": "proved",
   "theorems": [
    "Factorama.Props.C07_sparse",
    "Factorama.Props.C07_no_entries_throws"
   ],
   "note": "If no factor uses a free variable, every later sparse evaluation throws (second theorem)"
  },
  {
   "property": "C08",
   "status": "partial",
   "theorems": [
    "Factorama.Props.C08_dense_false",
    "Factorama.Props.C08_sparse_false",
    "Factorama.Props.C08_partial"
   ],
   "note": "FALSE of the code: refuted by a concrete graph (\u2026_false); holds when no factor repeats a variable"
  },
  {
   "property": "C09",
   "status": "proved",
   "theorems": [
    "Factorama.Props.C09_apply",
    "Factorama.Props.C09_refused"
   ],
   "note": ""
  },
  {
   "property": "C10",
   "status": "proved",
   "theorems": [
    "Factorama.Props.C10_get",
    "Factorama.Props.C10_set_get",
    "Factorama.Props.C10_get_set"
   ],
   "note": ""
  },
  {
   "property": "C100",
   "status": "partial",
   "theorems": [
    "Factorama.Props.C100_partial",
    "Factorama.Props.C100_held_partial",
    "Factorama.Props.C100_false"
   ],
   "note": "False of the code: get_variable and Factor.variables make Python objects that own the variable if no other Python object of it is alive, and destroy it when they go. Proved when such objects are kept, in particular when variables are asked for while held or by get_all_variables"
  },
  {
   "property": "C101",
   "status": "partial",
   "theorems": [
    "Factorama.Props.C101_value_partial",
    "Factorama.Props.C101_residual_partial",
    "Factorama.Props.C101_current_partial",
    "Factorama.Props.C101_value_false",
    "Factorama.Props.C101_residual_false",
    "Factorama.Props.C101_defined_false"
   ],
   "note": "False of the code: the arrays show memory of the library. Proved until the next call that may write it; after the next evaluation the array shows the new residuals"
  },
  {
   "property": "C102",
   "status": "proved",
   "theorems": [
    "Factorama.Props.C102_one_step",
    "Factorama.Props.C102_iterations",
    "Factorama.Props.C102_run",
    "Factorama.Props.C102_additive"
   ],
   "note": "Real arithmetic with exact linear algebra, for any variables whose increments compose up to second order; distances are measured in increments"
  },
  {
   "property": "C103",
   "status": "partial",
   "theorems": [
    "Factorama.Props.C103_false",
    "Factorama.Props.C103_partial"
   ],
   "note": "False of the code: a refused trial of Levenberg-Marquardt leaves the watch for solving running while the next normal equations are formed. Proved for all runs that report no refused trial and no damping limit"
  },
  {
   "property": "C104",
   "status": "partial",
   "theorems": [
    "Factorama.Props.C104_factor",
    "Factorama.Props.C104_gauss_newton_partial",
    "Factorama.Props.C104_covariance",
    "Factorama.Props.C104_refused_false",
    "Factorama.Props.C104_damping_false"
   ],
   "note": "False of the code: the pivot threshold and the damping of Levenberg-Marquardt are absolute. Proved for all factor classes, for Gauss-Newton runs in which no system is refused (tolerance for residuals adapted), and for covariances"
  },
  {
   "property": "C105",
   "status": "partial",
   "theorems": [
    "Factorama.Props.C105_plane_false",
    "Factorama.Props.C105_local_false",
    "Factorama.Props.C105_shift_gauss_newton_partial",
    "Factorama.Props.C105_shift_levenberg_marquardt_partial",
    "Factorama.Props.C105_move_gauss_newton_partial",
    "Factorama.Props.C105_move_levenberg_marquardt_partial",
    "Factorama.Props.C105_turn_false",
    "Factorama.Props.C105_turn_system_partial",
    "Factorama.Props.C105_turn_gauss_newton_partial",
    "Factorama.Props.C105_turn_levenberg_marquardt_partial",
    "Factorama.Props.C105_turn_known_gauss_newton_partial",
    "Factorama.Props.C105_turn_known_levenberg_marquardt_partial",
    "Factorama.Props.C105_turns_exactly"
   ],
   "note": "False of the code for planes that are estimated (the damped step tilts the plane or not, depending on the frame) for planar relative poses in local_frame mode, and for rotations in space that are updated inexactly (a pose at the identity ignores tiny increments, in another frame it does not). Proved for everything else in the plane, for shifts in space, and for rotations in space: cost and linear system always, the estimates of both methods while rotations are updated exactly (and, for Levenberg-Marquardt, the damped system stays well conditioned in both runs), and both methods without such conditions for known poses, coordinate transforms included. Missing: priors on the rotation of a coordinate transform; plane factors with distance scaling depend on the frame because of the sign of the offset (C53)"
  },
  {
   "property": "C106",
   "status": "proved",
   "theorems": [
    "Factorama.Props.C106",
    "Factorama.Props.C106_library",
    "Factorama.Props.C106_copies"
   ],
   "note": "Exact arithmetic; for graphs that have not been used before, runs without undefined behaviour"
  },
  {
   "property": "C107",
   "status": "proved",
   "theorems": [
    "Factorama.Props.C107",
    "Factorama.Props.C107_added",
    "Factorama.Props.C107_sharpened",
    "Factorama.Props.C107_run"
   ],
   "note": "Exact arithmetic and exact linear algebra; both graphs linearised at the same values"
  },
  {
   "property": "C108",
   "status": "proved",
   "theorems": [
    "Factorama.Props.C108",
    "Factorama.Props.C108_library",
    "Factorama.Props.C108_run"
   ],
   "note": "Exact arithmetic and exact linear algebra; both graphs linearised at the same values"
  },
  {
   "property": "C109",
   "status": "partial",
   "theorems": [
    "Factorama.Props.C109_refused_false",
    "Factorama.Props.C109_stop_false",
    "Factorama.Props.C86_library",
    "Factorama.Props.C109_iterations",
    "Factorama.Props.C109_gauss_newton_partial",
    "Factorama.Props.C109_covariance"
   ],
   "note": "False of the code: a badly determined second part makes the whole run refused with nothing moved, and the rules that end a run look at the whole graph. Proved: Gauss-Newton iterations and covariances of a part are those of the part alone, for all factor classes, exact arithmetic"
  },
  {
   "property": "C11",
   "status": "proved",
   "theorems": [
    "Factorama.Props.C11_guards",
    "Factorama.Props.C11_caches",
    "Factorama.Props.C11_factor_test"
   ],
   "note": ""
  },
  {
   "property": "C110",
   "status": "partial",
   "theorems": [
    "Factorama.Props.C110_gauss_newton_false",
    "Factorama.Props.C110_levenberg_marquardt_false",
    "Factorama.Props.C110_gauss_newton_partial",
    "Factorama.Props.C110_levenberg_marquardt_partial"
   ],
   "note": "FALSE of the code: Gauss-Newton reports SUCCESS after an iteration that raised the cost (but not above the initial one), Levenberg-Marquardt after an iteration that found no step if an earlier one did. Proved: the gradient before the last step is bounded by the reported length of that step, the normal matrix and the reported damping"
  },
  {
   "property": "C111",
   "status": "proved",
   "theorems": [
    "Factorama.Props.C111_never_farther",
    "Factorama.Props.C111_iterations",
    "Factorama.Props.C111_run"
   ],
   "note": "Exact real arithmetic, exact linear solver that reports the pivots of its factorisation"
  },
  {
   "property": "C112",
   "status": "proved",
   "theorems": [
    "Factorama.Props.C112_independent",
    "Factorama.Props.C112_refused"
   ],
   "note": "Factors look at their own variables only; the clone is not offered to the graph in the first theorem"
  },
  {
   "property": "C113",
   "status": "partial",
   "theorems": [
    "Factorama.Props.C113_gauss_newton_false",
    "Factorama.Props.C113_path_partial",
    "Factorama.Props.C113_same_partial",
    "Factorama.Props.C113_cost_partial"
   ],
   "note": "FALSE of the code for Gauss-Newton: with one iteration more the final cost can be larger, and both runs report SUCCESS. Proved: the path for both methods, the cost for Levenberg-Marquardt"
  },
  {
   "property": "C114",
   "status": "proved",
   "theorems": [
    "Factorama.Props.C114_isolated"
   ],
   "note": "Factors look at their own variables only"
  },
  {
   "property": "C115",
   "status": "partial",
   "theorems": [
    "Factorama.Props.C115_unprepared_false",
    "Factorama.Props.C115_kept_partial"
   ],
   "note": "FALSE of the code for covariances that are prepared after another optimizer has used the graph: they are those of the other optimizer's last linearisation. Proved for statistics and prepared covariances"
  },
  {
   "property": "C116",
   "status": "proved",
   "theorems": [
    "Factorama.Props.C116",
    "Factorama.Props.C116_run",
    "Factorama.Props.C116_generic_prior",
    "Factorama.Props.C116_generic_between",
    "Factorama.Props.C116_pose_prior",
    "Factorama.Props.C116_pose_between",
    "Factorama.Props.C116_planar_prior",
    "Factorama.Props.C116_planar_heading",
    "Factorama.Props.C116_planar_between"
   ],
   "note": "Over the reals, with an exact solver. Chains of generic, pose position (world coordinates), planar position (world coordinates) and planar heading measurements"
  },
  {
   "property": "C117",
   "status": "proved",
   "theorems": [
    "Factorama.Props.C117_value",
    "Factorama.Props.C117_covariance",
    "Factorama.Props.C117_covariance_run"
   ],
   "note": "Over the reals, with an exact solver. For generic priors; the covariance after either method"
  },
  {
   "property": "C118",
   "status": "proved",
   "theorems": [
    "Factorama.Props.C118",
    "Factorama.Props.C118_square",
    "Factorama.Props.C118_error"
   ],
   "note": "Over the reals, with an exact solver"
  },
  {
   "property": "C119",
   "status": "proved",
   "theorems": [
    "Factorama.Props.C119_unbiased",
    "Factorama.Props.C119_covariance"
   ],
   "note": "Over the reals, with an exact solver; for any probability space. Every outcome is assumed to end in a valid run"
  },
  {
   "property": "C12",
   "status": "partial",
   "theorems": [
    "Factorama.Props.C12_sparse_false",
    "Factorama.Props.C12_dense_false",
    "Factorama.Props.C12_sparse_never_again",
    "Factorama.Props.C12_residual_partial",
    "Factorama.Props.C12_jacobians_partial"
   ],
   "note": "FALSE of the code once a Jacobian was computed before the last finalization; holds for residuals always and for Jacobians if none was computed before"
  },
  {
   "property": "C120",
   "status": "proved",
   "theorems": [
    "Factorama.Props.C120"
   ],
   "note": "Over the reals, with an exact solver; for any probability space. Every outcome is assumed to end in a valid run"
  },
  {
   "property": "C121",
   "status": "proved",
   "theorems": [
    "Factorama.Props.C121",
    "Factorama.Props.C121_returns",
    "Factorama.Props.C121_generic"
   ],
   "note": "Over the reals, with an exact solver. Well conditioned: the eigenvalues of J\u1d40J are at least 10\u207b\u00b9\u2074 and differ by a factor of at most 10\u00b9\u00b2. The examples show runs in which the assumptions of C117 to C120 about runs are met"
  },
  {
   "property": "C122",
   "status": "proved",
   "theorems": [
    "Factorama.Props.C122",
    "Factorama.Props.C122_iterations"
   ],
   "note": "Over the reals, with an exact solver"
  },
  {
   "property": "C123",
   "status": "proved",
   "theorems": [
    "Factorama.Props.C123",
    "Factorama.Props.C123_run",
    "Factorama.Props.C123_linear",
    "Factorama.Props.C123_design",
    "Factorama.Props.C123_optimum"
   ],
   "note": "Exact arithmetic over the reals with an exact factorisation."
  },
  {
   "property": "C124",
   "status": "proved",
   "theorems": [
    "Factorama.Props.C124_shift",
    "Factorama.Props.C124_shift_levenberg_marquardt",
    "Factorama.Props.C124_plane",
    "Factorama.Props.C124_plane_levenberg_marquardt",
    "Factorama.Props.C124_space_at",
    "Factorama.Props.C124_space_known",
    "Factorama.Props.C124_space"
   ],
   "note": "Exact arithmetic. Covers the factors for which C105 holds; Levenberg-Marquardt for problems that stay well conditioned; in space, runs in which free poses are updated exactly (C105_turns_exactly says when), or linearisations at corresponding values without that condition."
  },
  {
   "property": "C125",
   "status": "partial",
   "theorems": [
    "Factorama.Props.C125_rotation_partial",
    "Factorama.Props.C125_agree_partial",
    "Factorama.Props.C125_stretch",
    "Factorama.Props.C125_write",
    "Factorama.Props.C125_rotation_false",
    "Factorama.Props.C125_write_false"
   ],
   "note": "The full statement is false of the code; see the two _false theorems and C41_rotation_false. The partial theorems cover histories without vectors shorter than 1e-10 and without assignments through dcm_AB(); C125_stretch bounds the drift in the remaining histories without assignments."
  },
  {
   "property": "C126",
   "status": "proved",
   "theorems": [
    "Factorama.Props.C126"
   ],
   "note": "Over the reals, with an exact solver; for any probability space. Every outcome is assumed to end in a valid run"
  },
  {
   "property": "C127",
   "status": "proved",
   "theorems": [
    "Factorama.Props.C127"
   ],
   "note": "Over the reals, with an exact solver. Both runs are assumed to be valid; C121 gives conditions"
  },
  {
   "property": "C128",
   "status": "proved",
   "theorems": [
    "Factorama.Props.C128"
   ],
   "note": "Over the reals, with an exact solver; for any probability space. Every outcome is assumed to end in a valid run"
  },
  {
   "property": "C129",
   "status": "proved",
   "theorems": [
    "Factorama.Props.C129",
    "Factorama.Props.C129_close"
   ],
   "note": "Over the reals, with an exact solver, for variables that can be restored. The last part of the statement generalises the defect in C26: the best start values are reported as a failure"
  },
  {
   "property": "C13",
   "status": "partial",
   "theorems": [
    "Factorama.Props.C13_variable_lookup_partial",
    "Factorama.Props.C13_factor_lookup_false",
    "Factorama.Props.C13_factor_lookup_partial"
   ],
   "note": "proved for variables; FALSE of the code for factors, whose placements are keyed by insertion index"
  },
  {
   "property": "C130",
   "status": "partial",
   "theorems": [
    "Factorama.Props.C130_accepts",
    "Factorama.Props.C130_stops_partial",
    "Factorama.Props.C130_release",
    "Factorama.Props.C130_evaluates_partial",
    "Factorama.Props.C130_jacobians_partial",
    "Factorama.Props.C130_built_partial",
    "Factorama.Props.C130_null_velocity_false",
    "Factorama.Props.C130_index_false",
    "Factorama.Props.C130_scaling_false",
    "Factorama.Props.C130_release_false"
   ],
   "note": "False of the code in four ways, each with a witness: LinearVelocityFactor dereferences a null velocity before its assertion; it accepts an initial_index beyond the variables; PlaneFactor accepts the distance 0 for its scaling; release builds, the default, accept null pointers. The partial theorems exclude these, inverse ranges below 1e-9, and for the Jacobian of BearingProjectionFactor2D a landmark at the camera"
  },
  {
   "property": "C131",
   "status": "partial",
   "theorems": [
    "Factorama.Props.C131_sum",
    "Factorama.Props.C131_reported_partial",
    "Factorama.Props.C131_never_worse_partial",
    "Factorama.Props.C131_false"
   ],
   "note": "False of the code for variables that cannot be given their values back (C41, C147): the cost reported after a Levenberg-Marquardt iteration without an accepted trial is that of other values. Proved for all others, for runs that do not end as FAILED. For all finite costs. The residuals themselves are taken as computed; the rounding inside the factors is not modelled"
  },
  {
   "property": "C132",
   "status": "partial",
   "theorems": [
    "Factorama.Props.C132_partial",
    "Factorama.Props.C132_converse_partial",
    "Factorama.Props.C132_next_partial",
    "Factorama.Props.C132_library_partial",
    "Factorama.Props.C132_false"
   ],
   "note": "False of factor_placement(id), which looks for the position of the factor, not its id (C132_false); holds of everything else that is modelled, in both directions, including undefined behaviour, and for every class of the library"
  },
  {
   "property": "C133",
   "status": "proved",
   "theorems": [
    "Factorama.Props.C133",
    "Factorama.Props.C133_gauss_newton"
   ],
   "note": "Over the reals, with an exact solver. For generic priors and variables with additive increments, Levenberg-Marquardt with variables that can be restored. The situation of examples/01_simple_localization.cpp, for all measurements; C117 is the case of Gauss-Newton with learning rate 1"
  },
  {
   "property": "C134",
   "status": "proved",
   "theorems": [
    "Factorama.Props.C134",
    "Factorama.Props.C134_undetermined",
    "Factorama.Props.C134_factorizes",
    "Factorama.Props.C134_run",
    "Factorama.Props.C134_unique",
    "Factorama.Props.C134_unique_planar"
   ],
   "note": "Real arithmetic. Linearised assumes the Jacobian exists, that is, no landmark within 1e-9 of a pose that sees it."
  },
  {
   "property": "C135",
   "status": "proved",
   "theorems": [
    "Factorama.Props.C135",
    "Factorama.Props.C135_factorizes",
    "Factorama.Props.C135_run"
   ],
   "note": "Real arithmetic. The rank check of the library (C85) may in addition refuse determined but badly scaled networks."
  },
  {
   "property": "C136",
   "status": "proved",
   "theorems": [
    "Factorama.Props.C136",
    "Factorama.Props.C136_undetermined",
    "Factorama.Props.C136_places",
    "Factorama.Props.C136_factorizes",
    "Factorama.Props.C136_run"
   ],
   "note": "Exact real arithmetic, exact solver."
  },
  {
   "property": "C137",
   "status": "proved",
   "theorems": [
    "Factorama.Props.C137",
    "Factorama.Props.C137_located",
    "Factorama.Props.C137_factorizes",
    "Factorama.Props.C137_run"
   ],
   "note": "Exact real arithmetic, exact solver. The sufficient condition for maps with landmarks is not necessary: poses and landmarks may also be determined jointly."
  },
  {
   "property": "C138",
   "status": "proved",
   "theorems": [
    "Factorama.Props.C138",
    "Factorama.Props.C138_located",
    "Factorama.Props.C138_factorizes",
    "Factorama.Props.C138_run"
   ],
   "note": "Exact real arithmetic, exact solver. If ways are given in the frame of a pose whose orientation is not reached, the condition is sufficient but not necessary."
  },
  {
   "property": "C139",
   "status": "proved",
   "theorems": [
    "Factorama.Props.C139",
    "Factorama.Props.C139_directions",
    "Factorama.Props.C139_planar",
    "Factorama.Props.C139_between",
    "Factorama.Props.C139_normals",
    "Factorama.Props.C139_rotation"
   ],
   "note": "Exact real arithmetic: the code reduces angles in floating point."
  },
  {
   "property": "C14",
   "status": "partial",
   "theorems": [
    "Factorama.Props.C14_false",
    "Factorama.Props.C14_partial"
   ],
   "note": "FALSE of the code for a graph finalized before; holds for a graph never finalized successfully"
  },
  {
   "property": "C140",
   "status": "proved",
   "theorems": [
    "Factorama.Props.C140",
    "Factorama.Props.C140_call",
    "Factorama.Props.C140_program",
    "Factorama.Props.C140_variables",
    "Factorama.Props.C140_made",
    "Factorama.Props.C140_plane_false"
   ],
   "note": "The conditions (no free plane, no projected bearing, something free, no repeated variables, unique identifiers) are part of the statement; C140_plane_false shows why free planes are excluded, C17_no_free_variable_undefined why something must be free. Numbers are real, so NaN from overflow is not covered; rounding inside the optimizer is (every Arith)."
  },
  {
   "property": "C141",
   "status": "proved",
   "theorems": [
    "Factorama.Props.C141",
    "Factorama.Props.C141_linear",
    "Factorama.Props.C141_accuracy",
    "Factorama.Props.C141_damped"
   ],
   "note": "Exact arithmetic; the example in rational arithmetic shows that the Gauss-Newton exception occurs (learning rate 3 stops after one of 100 iterations)."
  },
  {
   "property": "C142",
   "status": "partial",
   "theorems": [
    "Factorama.Props.C142_gauss_newton_partial",
    "Factorama.Props.C142_levenberg_marquardt_partial",
    "Factorama.Props.C142_levenberg_marquardt_false"
   ],
   "note": "Holds for Gauss-Newton. False of the code for Levenberg-Marquardt: a resumed run begins with the initial damping. It holds there too if the user passes the reported damping on as the initial damping of the resumed run. The reported status is not part of the conclusion, since a run is reported as diverged relative to its own start."
  },
  {
   "property": "C143",
   "status": "proved",
   "theorems": [
    "Factorama.Props.C143_programs",
    "Factorama.Props.C143_statistics"
   ],
   "note": ""
  },
  {
   "property": "C144",
   "status": "partial",
   "theorems": [
    "Factorama.Props.C144_false",
    "Factorama.Props.C144_missing",
    "Factorama.Props.C144_variables_partial",
    "Factorama.Props.C144_factors_partial",
    "Factorama.Props.C144_compare_partial",
    "Factorama.Props.C144_optimizer_partial"
   ],
   "note": "False of the code: custom and other (variables) and other (factors) are not registered, so variables and factors a C++ program defines itself are shown as ??? and cannot be tested for. Holds for all variables and factors of the library, the methods and the statuses."
  },
  {
   "property": "C145",
   "status": "proved",
   "theorems": [
    "Factorama.Props.C145_accepted",
    "Factorama.Props.C145_arguments",
    "Factorama.Props.C145_positional",
    "Factorama.Props.C145_order",
    "Factorama.Props.C145_overloads",
    "Factorama.Props.C145_construct",
    "Factorama.Props.C145_names"
   ],
   "note": "C145_names lists three constructors with a parameter of another name in Python, and the parameter initial_index of LinearVelocityFactor, which cannot be given from Python and always has its default. Conversion of the arguments is not modelled."
  },
  {
   "property": "C146",
   "status": "partial",
   "theorems": [
    "Factorama.Props.C146_programs_partial",
    "Factorama.Props.C146_covariances_false"
   ],
   "note": "Holds for programs that do not ask for covariances. False of the code for covariances: those prepared before the change stay marked as prepared after the next run, as after any second run without setup() (C31), and are then computed from whatever factorization that run left behind."
  },
  {
   "property": "C147",
   "status": "partial",
   "theorems": [
    "Factorama.Props.C147_bounds_partial",
    "Factorama.Props.C147_point_partial",
    "Factorama.Props.C147_restore_partial",
    "Factorama.Props.C147_false"
   ],
   "note": "False of the code between the change of a bound and the next set, increment or clip: the value stays outside, and the optimizer's restoring of the old value after a rejected step then moves it. Holds from the next such call on; the point is defined if the lower bound is at least 1e-9, because pos_W gives NaN below."
  },
  {
   "property": "C15",
   "status": "partial",
   "theorems": [
    "Factorama.Props.C15_stale_false",
    "Factorama.Props.C15_sparse_false",
    "Factorama.Props.C15_dense_writes_partial"
   ],
   "note": "FALSE of the code (stale columns, undefined behaviour); dense evaluation never writes outside the assigned columns"
  },
  {
   "property": "C16",
   "status": "partial",
   "theorems": [
    "Factorama.Props.C16_factor_false",
    "Factorama.Props.C16_variable_false",
    "Factorama.Props.C16_sparse_never",
    "Factorama.Props.C16_ignored_partial"
   ],
   "note": "FALSE of the code for the sparse Jacobian and set_variable_values_from_vector; residual and dense evaluations ignore additions"
  },
  {
   "property": "C17",
   "status": "partial",
   "theorems": [
    "Factorama.Props.C17_returns",
    "Factorama.Props.C17_defined_partial",
    "Factorama.Props.C17_no_free_variable_undefined"
   ],
   "note": "False of the code for a graph without a free variable: the run is undefined behaviour (third theorem). What a run reports when it returns is proved for all graphs; that it returns is proved for graphs with a free variable in which ids identify the variables and no factor uses a variable twice, if no Jacobian was computed before the last finalization (C08, C12)."
  },
  {
   "property": "C18",
   "status": "partial",
   "theorems": [
    "Factorama.Props.C18_iteration_partial",
    "Factorama.Props.C18_never_worse_partial",
    "Factorama.Props.C18_false"
   ],
   "note": "False of the code for variables that cannot be given their values back (C41, C147): with tolerances of zero a run goes on after an iteration without an accepted trial, from the values that the failed restoration left. Proved for all other variables."
  },
  {
   "property": "C19",
   "status": "partial",
   "theorems": [
    "Factorama.Props.C19_rejected_restores_partial",
    "Factorama.Props.C19_false"
   ],
   "note": "False of the code for variables that cannot be given their values back (C41, C147): an inverse range outside bounds that the program has moved is clipped by the trial and stays so. Proved for all other variables."
  },
  {
   "property": "C20",
   "status": "partial",
   "theorems": [
    "Factorama.Props.C20_constants_partial",
    "Factorama.Props.C20_constant_rewritten",
    "Factorama.Props.C20_false"
   ],
   "note": "FALSE of the code: a rejected Levenberg-Marquardt trial rewrites constant variables, and a constant whose setter clips comes back changed; holds for variables whose set_value_from_vector restores exactly"
  },
  {
   "property": "C21",
   "status": "partial",
   "theorems": [
    "Factorama.Props.C21_lower",
    "Factorama.Props.C21_upper_partial",
    "Factorama.Props.C21_upper_false"
   ],
   "note": "the lower bound holds; the upper bound is FALSE of the code (factorisation failures raise the damping without the cap) and holds if no trial has an unusable factorisation"
  },
  {
   "property": "C22",
   "status": "partial",
   "theorems": [
    "Factorama.Props.C22_partial",
    "Factorama.Props.C22_false",
    "Factorama.Props.C22_diverged_is_valid"
   ],
   "note": "FALSE of the code: a diverged run can be reported as valid; in exact arithmetic every diverged run is"
  },
  {
   "property": "C23",
   "status": "partial",
   "theorems": [
    "Factorama.Props.C23_false"
   ],
   "note": "FALSE of the code: NaN passes every check"
  },
  {
   "property": "C24",
   "status": "proved",
   "theorems": [
    "Factorama.Props.C24_one_step",
    "Factorama.Props.C24_run",
    "Factorama.Props.C24_generic_prior",
    "Factorama.Props.C24_generic_between",
    "Factorama.Props.C24_generic_increments"
   ],
   "note": "Exact real arithmetic and an exact linear solver. For steps that are taken, i.e. not refused by the pivot tests and not interrupted by an exception; C24_run covers whole runs."
  },
  {
   "property": "C25",
   "status": "proved",
   "theorems": [
    "Factorama.Props.C25_damped",
    "Factorama.Props.C25_gauss_newton",
    "Factorama.Props.C25_full_rank",
    "Factorama.Props.C25_cost_falls"
   ],
   "note": ""
  },
  {
   "property": "C26",
   "status": "partial",
   "theorems": [
    "Factorama.Props.C26_lm_at_optimum_false",
    "Factorama.Props.C26_gauss_newton_partial",
    "Factorama.Props.C26_gauss_newton",
    "Factorama.Props.C26_library"
   ],
   "note": "FALSE of the code for Levenberg-Marquardt: every start at the exact minimiser is reported as failure; holds for Gauss-Newton with an exact solver unless the matrix is refused or an exception is thrown, which C26_gauss_newton rules out for well-conditioned linearisations"
  },
  {
   "property": "C27",
   "status": "partial",
   "theorems": [
    "Factorama.Props.C27_statistics_partial",
    "Factorama.Props.C27_false"
   ],
   "note": "False of the code for variables that cannot be given their values back (C41, C147): after a Levenberg-Marquardt iteration without an accepted trial the statistics are those of the values before, but the values are others. Proved for Gauss-Newton, and for Levenberg-Marquardt with all other variables."
  },
  {
   "property": "C28",
   "status": "proved",
   "theorems": [
    "Factorama.Props.C28_throws_iff",
    "Factorama.Props.C28_exception_contained"
   ],
   "note": ""
  },
  {
   "property": "C29",
   "status": "proved",
   "theorems": [
    "Factorama.Props.C29_gate",
    "Factorama.Props.C29_not_reported"
   ],
   "note": ""
  },
  {
   "property": "C30",
   "status": "proved",
   "theorems": [
    "Factorama.Props.C30_block",
    "Factorama.Props.C30_asymmetry_remains",
    "Factorama.Props.C30_symmetrised_false"
   ],
   "note": "proved for an exact solver; without one the in-place symmetrisation of the code does not make the matrix symmetric"
  },
  {
   "property": "C31",
   "status": "partial",
   "theorems": [
    "Factorama.Props.C31_false",
    "Factorama.Props.C31_prepare_does_nothing",
    "Factorama.Props.C31_partial",
    "Factorama.Props.C31_last_linearisation_partial",
    "Factorama.Props.C31_stale_linearisation_false",
    "Factorama.Props.C31_no_iteration_throws"
   ],
   "note": "FALSE of the code for a second optimize() without setup(), and the covariance is that of the linearisation before the last accepted step; holds for the first preparation after setup(), read as the last linearisation"
  },
  {
   "property": "C32",
   "status": "proved",
   "theorems": [
    "Factorama.Props.C32_rotation",
    "Factorama.Props.C32_small",
    "Factorama.Props.C32_small_not_rotation"
   ],
   "note": ""
  },
  {
   "property": "C33",
   "status": "proved",
   "theorems": [
    "Factorama.Props.C33_exp_log",
    "Factorama.Props.C33_log_exp",
    "Factorama.Props.C33_short"
   ],
   "note": ""
  },
  {
   "property": "C34",
   "status": "proved",
   "theorems": [
    "Factorama.Props.C34_skew"
   ],
   "note": ""
  },
  {
   "property": "C35",
   "status": "proved",
   "theorems": [
    "Factorama.Props.C35_derivative"
   ],
   "note": ""
  },
  {
   "property": "C36",
   "status": "proved",
   "theorems": [
    "Factorama.Props.C36_wrap",
    "Factorama.Props.C36_heading",
    "Factorama.Props.C36_requested"
   ],
   "note": ""
  },
  {
   "property": "C37",
   "status": "partial",
   "theorems": [
    "Factorama.Props.C37_state",
    "Factorama.Props.C37_increment_partial",
    "Factorama.Props.C37_close",
    "Factorama.Props.C37_stuck",
    "Factorama.Props.C37_false"
   ],
   "note": "FALSE of the code for tiny rotations (a pose at the identity ignores increments below 1e-8); exact for resulting angles of at least 1e-5, off by at most 2e-8 otherwise"
  },
  {
   "property": "C38",
   "status": "proved",
   "theorems": [
    "Factorama.Props.C38_unit",
    "Factorama.Props.C38_distance",
    "Factorama.Props.C38_zero_normal"
   ],
   "note": "sets to a zero normal are excluded by the property; the last theorem shows the code accepts them"
  },
  {
   "property": "C39",
   "status": "proved",
   "theorems": [
    "Factorama.Props.C39_bounds"
   ],
   "note": ""
  },
  {
   "property": "C40",
   "status": "partial",
   "theorems": [
    "Factorama.Props.C40_generic",
    "Factorama.Props.C40_landmark",
    "Factorama.Props.C40_landmark_set_false"
   ],
   "note": "FALSE of the code only for LandmarkVariable::set_value_from_vector with a wrong size; everything else is proved"
  },
  {
   "property": "C41",
   "status": "partial",
   "theorems": [
    "Factorama.Props.C41_partial",
    "Factorama.Props.C41_rotation_partial",
    "Factorama.Props.C41_rotation_false",
    "Factorama.Props.C41_invRange_bounds_false"
   ],
   "note": "holds for all classes except RotationVariable with angles below 1e-5 and inverse-range variables whose bounds were changed; FALSE for those"
  },
  {
   "property": "C42",
   "status": "partial",
   "theorems": [
    "Factorama.Props.C42_residual",
    "Factorama.Props.C42_jacobian_partial"
   ],
   "note": "the Jacobian part needs the variable not to be constant; a constant variable gets two blocks (C57)"
  },
  {
   "property": "C43",
   "status": "proved",
   "theorems": [
    "Factorama.Props.C43_residual",
    "Factorama.Props.C43_jacobian"
   ],
   "note": ""
  },
  {
   "property": "C44",
   "status": "proved",
   "theorems": [
    "Factorama.Props.C44_position_prior",
    "Factorama.Props.C44_position_between_zero",
    "Factorama.Props.C44_position_between_jacobian"
   ],
   "note": ""
  },
  {
   "property": "C45",
   "status": "proved",
   "theorems": [
    "Factorama.Props.C45_pose_prior_zero",
    "Factorama.Props.C45_pose_prior_jacobian",
    "Factorama.Props.C45_rotation_prior_zero",
    "Factorama.Props.C45_rotation_prior_jacobian",
    "Factorama.Props.C45_orientation_between_zero",
    "Factorama.Props.C45_orientation_between_jacobian"
   ],
   "note": ""
  },
  {
   "property": "C46",
   "status": "proved",
   "theorems": [
    "Factorama.Props.C46_zero",
    "Factorama.Props.C46_invariant",
    "Factorama.Props.C46_jacobian",
    "Factorama.Props.C46_identity_false"
   ],
   "note": "the last theorem shows that the derivative claim fails for the library's own apply_increment at the identity pose"
  },
  {
   "property": "C47",
   "status": "partial",
   "theorems": [
    "Factorama.Props.C47_zero",
    "Factorama.Props.C47_jacobian_partial",
    "Factorama.Props.C47_bound_false"
   ],
   "note": "FALSE of the code when the inverse range sits on one of its bounds; proved strictly between the bounds"
  },
  {
   "property": "C48",
   "status": "partial",
   "theorems": [
    "Factorama.Props.C48_tangents",
    "Factorama.Props.C48_zero_partial",
    "Factorama.Props.C48_jacobian",
    "Factorama.Props.C48_at_camera_false",
    "Factorama.Props.C48_camera_undefined"
   ],
   "note": "the zero-residual part is FALSE for a landmark exactly at the camera with a negative tolerance; proved otherwise"
  },
  {
   "property": "C49",
   "status": "proved",
   "theorems": [
    "Factorama.Props.C49_wrapped",
    "Factorama.Props.C49_zero",
    "Factorama.Props.C49_jacobian",
    "Factorama.Props.C49_invariant"
   ],
   "note": ""
  },
  {
   "property": "C50",
   "status": "proved",
   "theorems": [
    "Factorama.Props.C50_zero",
    "Factorama.Props.C50_jacobian",
    "Factorama.Props.C50_invariant"
   ],
   "note": ""
  },
  {
   "property": "C51",
   "status": "proved",
   "theorems": [
    "Factorama.Props.C51_zero",
    "Factorama.Props.C51_full_turns",
    "Factorama.Props.C51_jacobian"
   ],
   "note": ""
  },
  {
   "property": "C52",
   "status": "partial",
   "theorems": [
    "Factorama.Props.C52_zero_partial",
    "Factorama.Props.C52_local_false",
    "Factorama.Props.C52_local_zero",
    "Factorama.Props.C52_jacobian"
   ],
   "note": "FALSE of the code in local_frame mode, which rotates with R instead of its transpose; world-frame mode and the Jacobians of both modes are proved"
  },
  {
   "property": "C53",
   "status": "partial",
   "theorems": [
    "Factorama.Props.C53_zero_partial",
    "Factorama.Props.C53_jacobian",
    "Factorama.Props.C53_scaled_zero",
    "Factorama.Props.C53_scaled_false",
    "Factorama.Props.C53_scaled_jacobian"
   ],
   "note": "FALSE of the code with distance scaling, which uses the opposite sign of the plane offset; proved without scaling, and the Jacobians of both modes are proved"
  },
  {
   "property": "C54",
   "status": "partial",
   "theorems": [
    "Factorama.Props.C54_zero_partial",
    "Factorama.Props.C54_false",
    "Factorama.Props.C54_jacobian"
   ],
   "note": "FALSE of the code: the opposite normal also has zero residual; proved for normals on the side of the prior, and the Jacobian is proved"
  },
  {
   "property": "C55",
   "status": "proved",
   "theorems": [
    "Factorama.Props.C55_zero",
    "Factorama.Props.C55_jacobian"
   ],
   "note": ""
  },
  {
   "property": "C56",
   "status": "partial",
   "theorems": [
    "Factorama.Props.C56_zero",
    "Factorama.Props.C56_jacobian_partial",
    "Factorama.Props.C56_origin_sign"
   ],
   "note": "the Jacobian part needs an output vector that is empty or has five elements (C57); C56_origin_sign shows that the documented relation contradicts the documentation of the origin parameter"
  },
  {
   "property": "C57",
   "status": "partial",
   "theorems": [
    "Factorama.Props.C57_blocks_partial",
    "Factorama.Props.C57_generic_prior_false",
    "Factorama.Props.C57_generic_prior_partial",
    "Factorama.Props.C57_coordinate_transform_false",
    "Factorama.Props.C57_coordinate_transform_partial",
    "Factorama.Props.C57_reuse",
    "Factorama.Props.C57_proper"
   ],
   "note": "FALSE of GenericPriorFactor on a constant variable and of CoordinateTransformFactor with a buffer of another size; proved for all other classes and cases"
  },
  {
   "property": "C58",
   "status": "partial",
   "theorems": [
    "Factorama.Props.C58_small",
    "Factorama.Props.C58_large",
    "Factorama.Props.C58_not_larger",
    "Factorama.Props.C58_continuous",
    "Factorama.Props.C58_jacobian_false",
    "Factorama.Props.C58_jacobian_partial",
    "Factorama.Props.C58_blocks_partial",
    "Factorama.Props.C58_empty_block_false"
   ],
   "note": "the residual part is proved; the Jacobian part is FALSE of the code for norms above delta (it is right there only if the gradient of the squared norm vanishes) and proved for norms below delta"
  },
  {
   "property": "C59",
   "status": "partial",
   "theorems": [
    "Factorama.Props.C59_no_effect",
    "Factorama.Props.C59_false"
   ],
   "note": "FALSE of the code: nothing reads the kernel"
  },
  {
   "property": "C60",
   "status": "proved",
   "theorems": [
    "Factorama.Props.C60_restores",
    "Factorama.Props.C60_exact",
    "Factorama.Props.C60_error",
    "Factorama.Props.C60_rotation_false"
   ],
   "note": "the last theorem shows that rotation variables, whose write-back is not exact, can be left changed"
  },
  {
   "property": "C61",
   "status": "partial",
   "theorems": [
    "Factorama.Props.C61_sound_partial",
    "Factorama.Props.C61_correct_passes",
    "Factorama.Props.C61_smooth_passes",
    "Factorama.Props.C61_floor_false",
    "Factorama.Props.C61_nan_false",
    "Factorama.Props.C61_false_alarm"
   ],
   "note": "FALSE of the code: the tolerance is never below 0.01 and NaN passes; with that floor and in exact arithmetic the test is sound and complete"
  },
  {
   "property": "C62",
   "status": "proved",
   "theorems": [
    "Factorama.Props.C62_elapsed",
    "Factorama.Props.C62_redundant"
   ],
   "note": ""
  },
  {
   "property": "C63",
   "status": "proved",
   "theorems": [
    "Factorama.Props.C63_only_value_calls"
   ],
   "note": ""
  },
  {
   "property": "C64",
   "status": "partial",
   "theorems": [
    "Factorama.Props.C64_false"
   ],
   "note": "FALSE of the code"
  },
  {
   "property": "C65",
   "status": "partial",
   "theorems": [
    "Factorama.Props.C65_false",
    "Factorama.Props.C65_partial"
   ],
   "note": "FALSE of the code above delta: half the squared norm of the kernelised residual is delta*norm/2; holds up to delta"
  },
  {
   "property": "C66",
   "status": "proved",
   "theorems": [
    "Factorama.Props.C66_continues",
    "Factorama.Props.C66_ends",
    "Factorama.Props.C66_norm_falls"
   ],
   "note": ""
  },
  {
   "property": "C67",
   "status": "partial",
   "theorems": [
    "Factorama.Props.C67_gauss_newton",
    "Factorama.Props.C67_gauss_newton_returns",
    "Factorama.Props.C67_levenberg_marquardt_partial",
    "Factorama.Props.C67_levenberg_marquardt_returns_partial",
    "Factorama.Props.C67_false"
   ],
   "note": "The Levenberg-Marquardt part is false of the code for variables that cannot be given their values back (C41, C147): an iteration without an accepted trial then changes them. Proved for all other variables. Both parts are for graphs in which ids identify the variables and no factor uses a variable twice (C08, C13)."
  },
  {
   "property": "C68",
   "status": "proved",
   "theorems": [
    "Factorama.Props.C68_derivative",
    "Factorama.Props.C68_joint",
    "Factorama.Props.C68_columns",
    "Factorama.Props.C68_reads"
   ],
   "note": "C68_joint takes the correctness and joint differentiability of the factors as hypotheses; C68_derivative discharges them for all 18 factor classes at the points listed in Spec/Joint.lean"
  },
  {
   "property": "C69",
   "status": "partial",
   "theorems": [
    "Factorama.Props.C69_partial",
    "Factorama.Props.C69_pose_partial",
    "Factorama.Props.C69_rotation",
    "Factorama.Props.C69_false"
   ],
   "note": "FALSE of the code for poses with tiny rotation angles; holds for all other classes and for all poses with angle at least 1e-5 or identity matrix"
  },
  {
   "property": "C70",
   "status": "proved",
   "theorems": [
    "Factorama.Props.C70_small_step",
    "Factorama.Props.C70_large_damping",
    "Factorama.Props.C70_gauss_newton",
    "Factorama.Props.C70_levenberg_marquardt"
   ],
   "note": "Exact real arithmetic, exact linear solver that reports the pivots of its factorisation (elimination in the model is one). The points of differentiability are those of C68."
  },
  {
   "property": "C71",
   "status": "partial",
   "theorems": [
    "Factorama.Props.C71_false",
    "Factorama.Props.C71_partial"
   ],
   "note": "FALSE of the code: the trials end after five dampings, however far max_lambda is; proved: if one of the five dampings is large enough and below max_lambda, the iteration takes a step that lowers the cost"
  },
  {
   "property": "C72",
   "status": "partial",
   "theorems": [
    "Factorama.Props.C72_variables",
    "Factorama.Props.C72_false",
    "Factorama.Props.C72_factors_partial"
   ],
   "note": "FALSE of the code for factors: most factor names leave out the id, so two priors on one variable share a name. Proved: variable names are different; factors sharing a name have the same class and variables, and are the same factor in the classes that name their id"
  },
  {
   "property": "C73",
   "status": "partial",
   "theorems": [
    "Factorama.Props.C73_variables_partial",
    "Factorama.Props.C73_false",
    "Factorama.Props.C73_factors_partial"
   ],
   "note": "FALSE of the code for factors: LinearVelocityFactor, RotationPriorFactor and BearingProjectionFactor2D report the type of another class. Proved for variables, and for factors apart from these three pairs"
  },
  {
   "property": "C74",
   "status": "proved",
   "theorems": [
    "Factorama.Props.C74_lookup"
   ],
   "note": ""
  },
  {
   "property": "C75",
   "status": "proved",
   "theorems": [
    "Factorama.Props.C75_setup_forgets"
   ],
   "note": ""
  },
  {
   "property": "C76",
   "status": "proved",
   "theorems": [
    "Factorama.Props.C76_undetermined",
    "Factorama.Props.C76_iteration",
    "Factorama.Props.C76_unused_variable",
    "Factorama.Props.C76_flat_direction"
   ],
   "note": "Exact linear algebra: a singular matrix has no LDLT factorisation"
  },
  {
   "property": "C77",
   "status": "proved",
   "theorems": [
    "Factorama.Props.C77_space",
    "Factorama.Props.C77_plane"
   ],
   "note": "Pose2DBetweenFactor in local_frame mode violates the analogous statement, see C52"
  },
  {
   "property": "C78",
   "status": "proved",
   "theorems": [
    "Factorama.Props.C78_gauss_newton",
    "Factorama.Props.C78_floating",
    "Factorama.Props.C78_shift"
   ],
   "note": ""
  },
  {
   "property": "C79",
   "status": "partial",
   "theorems": [
    "Factorama.Props.C79_orthogonal",
    "Factorama.Props.C79_unused_partial",
    "Factorama.Props.C79_centroid_partial",
    "Factorama.Props.C79_false"
   ],
   "note": "False of the code for variables that cannot be given their values back (C41, C147): an unused inverse range outside bounds that the program has moved is clipped. Proved for all others. The statement about the sum of positions is for graphs without free planes, which have no position; exact linear algebra"
  },
  {
   "property": "C80",
   "status": "proved",
   "theorems": [
    "Factorama.Props.C80_position_prior",
    "Factorama.Props.C80_position_between",
    "Factorama.Props.C80_orientation_prior",
    "Factorama.Props.C80_rotation_prior",
    "Factorama.Props.C80_orientation_between",
    "Factorama.Props.C80_bearing",
    "Factorama.Props.C80_inverse_range",
    "Factorama.Props.C80_projection",
    "Factorama.Props.C80_range_bearing",
    "Factorama.Props.C80_prior_2d",
    "Factorama.Props.C80_between_2d",
    "Factorama.Props.C80_between_2d_local",
    "Factorama.Props.C80_plane_scaled",
    "Factorama.Props.C80_plane_prior",
    "Factorama.Props.C80_transform",
    "Factorama.Props.C42_residual",
    "Factorama.Props.C43_residual",
    "Factorama.Props.C49_wrapped",
    "Factorama.Props.C55_zero",
    "Factorama.Props.C80_plane"
   ],
   "note": "The misfit of a scaled plane factor has the wrong sign of the offset (C53) and that of a local-frame planar difference the wrong rotation (C52); the weights are right"
  },
  {
   "property": "C81",
   "status": "partial",
   "theorems": [
    "Factorama.Props.C81_jacobian_false",
    "Factorama.Props.C81_covariances_false",
    "Factorama.Props.C81_jacobian_partial",
    "Factorama.Props.C81_covariances_partial"
   ],
   "note": "False of the code: printing the Jacobian evaluates it, after which a graph that is extended and finalized again cannot evaluate it any more (C12); printing covariances prepares them, after which later optimizations leave stale ones (C31). Proved: the effect is exactly that of the evaluation or the preparation; print_structure and print_variables cannot change anything"
  },
  {
   "property": "C82",
   "status": "partial",
   "theorems": [
    "Factorama.Props.C82_structure_partial",
    "Factorama.Props.C82_structure_false",
    "Factorama.Props.C82_jacobian_partial",
    "Factorama.Props.C82_variables",
    "Factorama.Props.C82_covariances",
    "Factorama.Props.C82_covariances_undefined"
   ],
   "note": "False of the code: print_structure after adding to a finalized graph mixes new and old numbers; an empty Jacobian and an optimizer without a graph are undefined behaviour. Proved otherwise. Rank and condition number (Eigen SVD) and the text format are not modelled"
  },
  {
   "property": "C83",
   "status": "partial",
   "theorems": [
    "Factorama.Props.C83_outdated_false",
    "Factorama.Props.C83_interrupted_false",
    "Factorama.Props.C83_partial",
    "Factorama.Props.C83_residual_partial"
   ],
   "note": "False of the code in two situations: after a refused second finalization, residuals contain uninitialised memory; after an exception thrown by a factor, residual() returns a mixture that depends on the hash order. Proved, for any arithmetic: all outcomes, variables, statistics, covariances and Jacobians agree if factors are evaluated only with a current structure, and residuals that are returned by a completed evaluation agree"
  },
  {
   "property": "C84",
   "status": "partial",
   "theorems": [
    "Factorama.Props.C84_variables_false",
    "Factorama.Props.C84_variables_witness",
    "Factorama.Props.C84_factors_partial",
    "Factorama.Props.C84_exact",
    "Factorama.Props.C84_system_partial",
    "Factorama.Props.C84_gauss_newton_partial",
    "Factorama.Props.C84_levenberg_marquardt_partial"
   ],
   "note": "False of the code for the order of variables: whether a problem is refused as ill-conditioned depends on the pivots, and these on the order of the columns. Proved for the order of factors, with arithmetic in which sums do not depend on the order of the terms; and for the order of variables as well when no system is refused (Gauss-Newton: neither run reports failure; Levenberg-Marquardt: in addition the problem is well conditioned in the sense of C85)"
  },
  {
   "property": "C85",
   "status": "partial",
   "theorems": [
    "Factorama.Props.C85_false",
    "Factorama.Props.C85_accepted_partial",
    "Factorama.Props.C85_refused_partial"
   ],
   "note": "False of the code in one direction: pivots are not eigenvalues, some badly conditioned systems are accepted by every exact solver. Proved: well-conditioned systems are accepted, with and without damping"
  },
  {
   "property": "C86",
   "status": "partial",
   "theorems": [
    "Factorama.Props.C86_false",
    "Factorama.Props.C86_partial",
    "Factorama.Props.C86_library"
   ],
   "note": "False of the code: factors hold plain pointers, and finalize_structure accepts a constant variable that is not in the graph, such as a measurement. Proved: giving up handles to variables that are in the graph, or that neither the program nor a factor uses any more, changes nothing"
  },
  {
   "property": "C87",
   "status": "partial",
   "theorems": [
    "Factorama.Props.C87_pose_partial",
    "Factorama.Props.C87_pose_small",
    "Factorama.Props.C87_pose_false",
    "Factorama.Props.C87_pose_vector",
    "Factorama.Props.C87_rotation",
    "Factorama.Props.C87_plane",
    "Factorama.Props.C87_pose2d",
    "Factorama.Props.C87_inverse_range",
    "Factorama.Props.C87_landmark",
    "Factorama.Props.C87_generic"
   ],
   "note": "False of the code for orientations of poses: a rotation by less than 1e-8 is replaced by none. Proved otherwise, for every class"
  },
  {
   "property": "C88",
   "status": "partial",
   "theorems": [
    "Factorama.Props.C88_empty_false",
    "Factorama.Props.C88_program_partial",
    "Factorama.Props.C88_shared_partial"
   ],
   "note": "False of the code for graphs whose Jacobian has no entries: the original refuses a second sparse evaluation, its copy does not. Proved for all graphs in which a factor measures a free variable"
  },
  {
   "property": "C89",
   "status": "partial",
   "theorems": [
    "Factorama.Props.C89_false",
    "Factorama.Props.C89_never_computed"
   ],
   "note": "False of the code: the setting is never read, and rank is -1 after every history of calls, which is proved"
  },
  {
   "property": "C90",
   "status": "proved",
   "theorems": [
    "Factorama.Props.C90_output",
    "Factorama.Props.C90_flags",
    "Factorama.Props.C90_silent"
   ],
   "note": "The optimizer with its messages and stopwatches computes what it computes without them; programs that differ in the two settings run alike; a quiet run prints only notices of exceptions"
  },
  {
   "property": "C91",
   "status": "partial",
   "theorems": [
    "Factorama.Props.C91_initial_norm_false",
    "Factorama.Props.C91_success_false",
    "Factorama.Props.C91_attempts_false",
    "Factorama.Props.C91_attempts_partial",
    "Factorama.Props.C91_steps_partial",
    "Factorama.Props.C91_summary_partial",
    "Factorama.Props.C91_stops_partial",
    "Factorama.Props.C91_refusals_partial",
    "Factorama.Props.C91_trials_partial",
    "Factorama.Props.C91_reason_partial"
   ],
   "note": "False of the code in three places: Gauss-Newton shows the norm after the step as the norm before it; SUCCESS is printed for runs that diverged; the number of attempts is one too large when no step was accepted, and the message about giving up always says 5. Proved for everything else in the reports and the summary (without density and the times of single steps)"
  },
  {
   "property": "C92",
   "status": "partial",
   "theorems": [
    "Factorama.Props.C92_jacobian_false",
    "Factorama.Props.C92_partial"
   ],
   "note": "False of the code for the time of Jacobians, whose stopwatch is never reset. Proved for the other four"
  },
  {
   "property": "C93",
   "status": "partial",
   "theorems": [
    "Factorama.Props.C93_false",
    "Factorama.Props.C93_partial",
    "Factorama.Props.C93_parallel_partial"
   ],
   "note": "False of the code for opposite vectors, where the result is zero. Proved for all others, up to 1.5e-10 for almost parallel ones. The function is defined in the library but declared in no header, so a program has to declare it itself"
  },
  {
   "property": "C94",
   "status": "partial",
   "theorems": [
    "Factorama.Props.C94_false",
    "Factorama.Props.C94_partial"
   ],
   "note": "False of the code for BearingProjectionFactor2D, whose type makes the drawing ask for an accessor it does not have in Python. Proved for all other graphs, and for these with plot_measurements=False"
  },
  {
   "property": "C95",
   "status": "partial",
   "theorems": [
    "Factorama.Props.C95_false",
    "Factorama.Props.C95_partial",
    "Factorama.Props.C95_axes_partial",
    "Factorama.Props.C95_heading_partial",
    "Factorama.Props.C95_heading_false"
   ],
   "note": "False of the code: inverse-range landmarks are not shown, and in 3D the heading of planar poses is not. Proved: markers are those of the other classes, and the arrows have the right directions"
  },
  {
   "property": "C96",
   "status": "partial",
   "theorems": [
    "Factorama.Props.C96_bearing_partial",
    "Factorama.Props.C96_bearing2d_partial",
    "Factorama.Props.C96_range_bearing_partial",
    "Factorama.Props.C96_between_partial",
    "Factorama.Props.C96_only_partial",
    "Factorama.Props.C96_false"
   ],
   "note": "False of the code for bearings of inverse-range landmarks, which have no line. Proved for the other classes, with the exact relation between line and residual"
  },
  {
   "property": "C97",
   "status": "partial",
   "theorems": [
    "Factorama.Props.C97_ellipse_partial",
    "Factorama.Props.C97_ellipsoid_partial",
    "Factorama.Props.C97_ellipse_only_partial",
    "Factorama.Props.C97_ellipsoid_only_partial",
    "Factorama.Props.C97_optimizer_partial",
    "Factorama.Props.C97_false"
   ],
   "note": "False of the code for planar variables in 3D drawings, which have no region. Proved otherwise, for every correct numpy.linalg.eigh; a surface is a mesh whose points are on the ellipsoid and within a fifth of a standard deviation of every point of it"
  },
  {
   "property": "C98",
   "status": "partial",
   "theorems": [
    "Factorama.Props.C98_partial",
    "Factorama.Props.C98_false"
   ],
   "note": "False of the code for measurement lines, which may leave the limits. Proved for the markers"
  },
  {
   "property": "C99",
   "status": "partial",
   "theorems": [
    "Factorama.Props.C99_partial",
    "Factorama.Props.C99_false"
   ],
   "note": "False of the code: drawing covariances freezes the covariances that are reported later. Proved: variables and graph never change, without covariances nothing changes, and nothing changes if covariances were prepared before"
  }
 ]
}