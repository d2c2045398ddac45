# Design of the formal model of factorama

Everything is Lean 4.33 with single Mathlib modules, in `lean/Verif/`. `lean/Verif.lean` imports all modules.

## 1. Trusted base

* Lean's kernel. Axioms used by the theorems: `propext`, `Classical.choice`, `Quot.sound`, and no others. There is no
  `sorry`, no own axiom, no `native_decide` and no `bv_decide`. Concrete witnesses are evaluated by `decide +kernel`,
  which is kernel reduction.
* The reading of the C++ source. Every model definition cites the file and lines it models, and says where it simplifies.
  The code is not run here.
* Eigen, `std::unordered_map`, `shared_ptr` and libm are modelled, not verified. Section 4 lists what is assumed of them.
* Machine arithmetic. Graph bookkeeping is proved for an arbitrary scalar type, so it applies to IEEE doubles as they are.
  Optimizer control flow is proved for arbitrary scalar operations as far as possible, which includes NaN and infinities;
  where laws of order or exactness are needed they are explicit hypotheses. Geometry, variables, factors and kernels are
  over the real numbers: rounding is not modelled there. `int` and `size_t` are unbounded: overflow is not modelled.
* Outcomes. A call ends in `ok`, `threw` (a C++ exception; earlier changes to the state persist) or `ub` (undefined
  behaviour or a failed `assert`/`eigen_assert`; release builds define NDEBUG, so an out-of-range Eigen access is undefined).

## 2. Layers of the model

| layer | modules under `Verif/Model/` | code |
|---|---|---|
| A. graph | `Base`, `Graph`, `History`, `Generic` | `base_types.hpp`, `factor_graph.hpp/.cpp`, `generic_*`, Eigen sparse storage |
| B. optimizer | `Optimizer`, `Verbose`, `Ldlt`, `Stopwatch`, `Print`, `Lifetime`, `Clone`, `Many`, `PublicStats` (statistics and settings that programs can write to) | `sparse_optimizer.hpp/.cpp`, `stopwatch.hpp`; `Ldlt` is a reference solver |
| C. geometry, variables | `Geometry`, `Variables`, `RealArith` | `random_utils.cpp`, all `*_variable.*`, Eigen `AngleAxis`/`Quaternion` conversions |
| D. factors | `Factors`, `Construct`, `Kernels`, `FactorTest` | all `*_factor*.hpp/.cpp` (`Construct`: the assertions of their constructors, in debug and release builds), `kernels.hpp`, `numerical_jacobian.hpp`, `detailed_factor_test` |
| E. Python | `Plot`, `Names`, `Enums`, `Signatures`, `Python`, `Views` | `PlotFactorGraph` in `python_bindings/python/factorama/__init__.py`, `factor_type`/`variable_type` the accessors bound for Python, parameters of constructors, ownership of variables and arrays in `_factorama.cpp` |

`Verif/Spec/` holds the vocabulary of the theorem statements, independent of the proofs. `Verif/Lemmas/` holds helper
lemmas. `Verif/Props/` holds the property theorems, named after the property, each with an `example` that a concrete case
meets its hypotheses. `Verif/Examples/` holds the concrete graphs used there.

Layer A is generic in the scalar type `F` and in the variable type `V` through the class `VarLike` with the virtual methods
of `Variable`; a factor is a record of its virtual methods. Variables are objects in a heap addressed by references, and
factors hold references (possibly null), as the pointers in C++. Hash-map iteration order and uninitialised memory are
parameters (`Env`) over which every theorem quantifies. The sparse matrix keeps, per column, the reserved capacity and the
sorted entries, and the flat value array that `valuePtr()` exposes. Copying a graph is one of the operations of a history;
how Eigen copies a sparse matrix is modelled from knowledge of Eigen 3.4, whose source is not part of /repo.

Layer B is generic in the scalar operations (`Arith`) and in the linear algebra back end (`LinAlg`: normal matrix,
factorisation, solve), which is a parameter. Exactness of the solver (`ExactLinAlg`) is a hypothesis only where stated, and
`Ldlt.exact` shows that the reference solver meets it over the reals.

Layers C and D are over `ℝ`, with vectors `Fin n → ℝ` and Mathlib matrices. Jacobian correctness is `HasFDerivAt` of the
residual under increments of a variable. `atan2` is `Complex.arg`, `acos` is `Real.arccos`.

Modelled completely: construction, finalization, evaluation, caches and queries of the graph; setup, optimize and covariance
estimation, with the messages and stopwatch calls of a verbose run (`Verbose`, related to `Optimizer` by an erasure theorem); all variable and factor classes; the Huber kernel; numerical Jacobians and the factor test; the stopwatch.

Two conditions recur in the theorems about runs. A graph is used as intended: ids identify the variables, no factor uses a variable
twice, and no Jacobian was computed before the last finalization; C08, C12 and C16 show what goes wrong otherwise. For Levenberg-Marquardt
the variables can be given their values back (`Restorable`): C41 and C147 show which cannot, and C18_false, C19_false, C27_false, C67_false, C79_false
and C131_false what a run then does.

Not modelled: the text format, rank and condition number in the graph's printing functions, the `print` methods of variables
and factors, the density and the times of single steps in verbose output, lifetimes of factors, graphs and optimizers (they live forever; variables can be destroyed in Model/Lifetime), rounding in layers C and D, integer overflow,
concurrency, the Python
bindings apart from the enumerations, the parameters of the constructors, the accessors and queries that drawing uses, the ownership of variables and the arrays of values and residuals, colours, labels and legends of drawings, examples and the test programs.

## 3. Properties: what is modelled, how it is proved, what was found

"FALSE" means: the property as stated does not hold of the code. The theorem ending in `_false` (or named in the note)
is a proof of the negation with a concrete witness; the theorem ending in `_partial` is the part that does hold.

* **C01 Identifiers are unique and rejected duplicates change nothing** (proved). Maps and lists of the graph related by induction over the history of calls. Theorems: `C01_variables`, `C01_factors`, `C01_add_variable`, `C01_add_factor`.
* **C02 Non-constant variables tile the columns** (proved). Offsets are prefix sums over the insertion list; consecutive, disjoint and covering, by induction. Theorems: `C02_columns`.
* **C03 Factors tile the residual rows** (proved). Offsets are prefix sums over the insertion list; consecutive, disjoint and covering, by induction. Theorems: `C03_rows`.
* **C04 finalize_structure accepts exactly the well-posed graphs** (proved). Both directions, from the loops of `finalize_structure`. Theorems: `C04_finalize_iff`.
* **C05 The residual vector is the concatenation of factor residuals in any hash order** (proved). Writes to disjoint segments commute, so the result is the concatenation for every iteration order and buffer. Theorems: `C05_residual`.
* **C06 The dense Jacobian is the block assembly of the factor Jacobians** (proved). Entry-wise specification of the matrix; writes of disjoint blocks commute. Theorems: `C06_dense`.
* **C07 The sparse Jacobian equals the dense one on first and every later evaluation** (proved). Invariant relating row index lists, data buffers, Eigen's column storage and the flat value array. *Result:* If no factor uses a free variable, every later sparse evaluation throws (second theorem). Theorems: `C07_sparse`, `C07_no_entries_throws`.
* **C08 A factor may use the same variable in two roles** (partial). Concrete graph with a repeated variable; the assembly theorem for graphs without one. *Result:* FALSE of the code: refuted by a concrete graph (…_false); holds when no factor repeats a variable. Theorems: `C08_dense_false`, `C08_sparse_false`, `C08_partial`.
* **C09 apply_increment gives each free variable exactly its own segment** (proved). Induction over the variable list with the layout invariant. Theorems: `C09_apply`, `C09_refused`.
* **C10 Variable vector round trip** (proved). Induction over the variable list with the layout invariant. Theorems: `C10_get`, `C10_set_get`, `C10_get_set`.
* **C11 Numeric queries before finalization are refused** (proved). From the guards of each query; histories by induction. Theorems: `C11_guards`, `C11_caches`, `C11_factor_test`.
* **C12 A finalized graph can be extended and finalized again** (partial). Concrete history with caches surviving re-finalization; general theorem that the sparse evaluation then never succeeds again. *Result:* FALSE of the code once a Jacobian was computed before the last finalization; holds for residuals always and for Jacobians if none was computed before. Theorems: `C12_sparse_false`, `C12_dense_false`, `C12_sparse_never_again`, `C12_residual_partial`, `C12_jacobians_partial`.
* **C13 Placement lookups are keyed by id** (partial). Map keyed by id for variables, by insertion index for factors; witness with ids out of order. *Result:* proved for variables; FALSE of the code for factors, whose placements are keyed by insertion index. Theorems: `C13_variable_lookup_partial`, `C13_factor_lookup_false`, `C13_factor_lookup_partial`.
* **C14 A failed finalize_structure is harmless** (partial). Concrete history; induction over histories of a graph never finalized. *Result:* FALSE of the code for a graph finalized before; holds for a graph never finalized successfully. Theorems: `C14_false`, `C14_partial`.
* **C15 Constness may be toggled after finalization** (partial). Concrete histories: stale columns and an out-of-range read. *Result:* FALSE of the code (stale columns, undefined behaviour); dense evaluation never writes outside the assigned columns. Theorems: `C15_stale_false`, `C15_sparse_false`, `C15_dense_writes_partial`.
* **C16 Adding objects after finalization is detected** (partial). Concrete histories; general theorem on evaluations that ignore additions. *Result:* FALSE of the code for the sparse Jacobian and set_variable_values_from_vector; residual and dense evaluations ignore additions. Theorems: `C16_factor_false`, `C16_variable_false`, `C16_sparse_never`, `C16_ignored_partial`.
* **C17 optimize terminates with a final status within the iteration budget** (partial). Structural induction over the iteration loop for any scalars; definedness by tracking sizes of all buffers. *Result:* False of the code for a graph without a free variable: the run is undefined behaviour (third theorem). What a run reports when it returns is proved for all graphs; that it returns is proved for graphs with a free variable in which ids identify the variables and no factor uses a variable twice, if no Jacobian was computed before the last finalization (C08, C12). Theorems: `C17_returns`, `C17_defined_partial`, `C17_no_free_variable_undefined`.
* **C18 Levenberg-Marquardt never increases the cost** (partial). Invariant of the trial loop. Restoration needs that writing back a value restores it (C41), stated as `Restorable`. *Result:* False of the code for variables that cannot be given their values back (C41, C147): with tolerances of zero a run goes on after an iteration without an accepted trial, from the values that the failed restoration left. Proved for all other variables. Theorems: `C18_iteration_partial`, `C18_never_worse_partial`, `C18_false`.
* **C19 A rejected Levenberg-Marquardt trial restores every variable** (partial). Invariant of the trial loop. Restoration needs that writing back a value restores it (C41), stated as `Restorable`. *Result:* False of the code for variables that cannot be given their values back (C41, C147): an inverse range outside bounds that the program has moved is clipped by the trial and stays so. Proved for all other variables. Theorems: `C19_rejected_restores_partial`, `C19_false`.
* **C20 Constant variables are never modified by the optimizer** (partial). Only `set_value_from_vector` of a rollback touches a constant; witness is an inverse-range variable with changed bounds. *Result:* FALSE of the code: a rejected Levenberg-Marquardt trial rewrites constant variables, and a constant whose setter clips comes back changed; holds for variables whose set_value_from_vector restores exactly. Theorems: `C20_constants_partial`, `C20_constant_rewritten`, `C20_false`.
* **C21 The damping parameter stays within its configured bounds** (partial). Invariant of the damping parameter over trials and iterations; witness run with failing factorisations. *Result:* the lower bound holds; the upper bound is FALSE of the code (factorisation failures raise the damping without the cap) and holds if no trial has an unusable factorisation. Theorems: `C21_lower`, `C21_upper_partial`, `C21_upper_false`.
* **C22 valid and status agree** (partial). Case analysis of the stop rules; witness runs. *Result:* FALSE of the code: a diverged run can be reported as valid; in exact arithmetic every diverged run is. Theorems: `C22_partial`, `C22_false`, `C22_diverged_is_valid`.
* **C23 A NaN residual is not reported as success** (partial). Case analysis of the stop rules; witness runs. *Result:* FALSE of the code: NaN passes every check. Theorems: `C23_false`.
* **C24 One Gauss-Newton step solves linear problems** (proved). Affine factors and additive increments are specified; the normal equations then give the least-squares minimiser. *Result:* Exact real arithmetic and an exact linear solver. For steps that are taken, i.e. not refused by the pivot tests and not interrupted by an exception; C24_run covers whole runs. Theorems: `C24_one_step`, `C24_run`, `C24_generic_prior`, `C24_generic_between`, `C24_generic_increments`.
* **C25 Levenberg-Marquardt steps exist, are unique and descend** (proved). Matrix algebra over the reals: positive definiteness of the damped normal matrix; the cost of an affine model falls. Theorems: `C25_damped`, `C25_gauss_newton`, `C25_full_rank`, `C25_cost_falls`.
* **C26 Starting at the optimum is reported as success** (partial). Zero gradient gives the zero step; then the stop rules. For Levenberg-Marquardt the strict comparison rejects every trial. *Result:* FALSE of the code for Levenberg-Marquardt: every start at the exact minimiser is reported as failure; holds for Gauss-Newton with an exact solver unless the matrix is refused or an exception is thrown, which C26_gauss_newton rules out for well-conditioned linearisations. Theorems: `C26_lm_at_optimum_false`, `C26_gauss_newton_partial`, `C26_gauss_newton`, `C26_library`.
* **C27 Reported statistics describe the final variables** (partial). Invariant relating the last residual evaluation to the heap. *Result:* False of the code for variables that cannot be given their values back (C41, C147): after a Levenberg-Marquardt iteration without an accepted trial the statistics are those of the values before, but the values are others. Proved for Gauss-Newton, and for Levenberg-Marquardt with all other variables. Theorems: `C27_statistics_partial`, `C27_false`.
* **C28 Exceptions inside an iteration do not escape optimize** (proved). Exceptions are caught by the loop; general iff on what escapes. Theorems: `C28_throws_iff`, `C28_exception_contained`.
* **C29 Covariance is only reported when it is meaningful** (proved). State machine over setup, optimize, prepare and estimate. Theorems: `C29_gate`, `C29_not_reported`.
* **C30 A reported covariance is the block of the inverse normal matrix** (proved). Columns of the inverse from an exact solver, cut to the block, symmetrised. *Result:* proved for an exact solver; without one the in-place symmetrisation of the code does not make the matrix symmetric. Theorems: `C30_block`, `C30_asymmetry_remains`, `C30_symmetrised_false`.
* **C31 Covariances follow the latest optimization** (partial). Histories of calls; witness runs for the stale covariance. *Result:* FALSE of the code for a second optimize() without setup(), and the covariance is that of the linearisation before the last accepted step; holds for the first preparation after setup(), read as the last linearisation. Theorems: `C31_false`, `C31_prepare_does_nothing`, `C31_partial`, `C31_last_linearisation_partial`, `C31_stale_linearisation_false`, `C31_no_iteration_throws`.
* **C32 ExpMapSO3 returns rotations** (proved). Rodrigues' formula with Mathlib matrices, both branches of the code. Theorems: `C32_rotation`, `C32_small`, `C32_small_not_rotation`.
* **C33 LogMapSO3 and ExpMapSO3 are inverse** (proved). Trace and skew part of a rotation; the angle-axis branch for large angles. Theorems: `C33_exp_log`, `C33_log_exp`, `C33_short`.
* **C34 skew and unskew** (proved). Direct matrix computation. Theorems: `C34_skew`.
* **C35 compute_inverse_right_jacobian_so3 is the derivative of the logarithm** (proved). Derivative of the logarithm along right multiplication, computed in closed form and compared with the code's formula. Theorems: `C35_derivative`.
* **C36 Planar angles are wrapped** (proved). `atan2 (sin a) (cos a)` is the representative in (-π, π]. Theorems: `C36_wrap`, `C36_heading`, `C36_requested`.
* **C37 Pose increments compose rotations** (partial). Invariant on reachable poses; Eigen's angle-axis conversion inverted, with an error bound for the small-angle branch. *Result:* FALSE of the code for tiny rotations (a pose at the identity ignores increments below 1e-8); exact for resulting angles of at least 1e-5, off by at most 2e-8 otherwise. Theorems: `C37_state`, `C37_increment_partial`, `C37_close`, `C37_stuck`, `C37_false`.
* **C38 Plane normals stay unit length** (proved). Invariants over all histories of calls on a variable object. *Result:* sets to a zero normal are excluded by the property; the last theorem shows the code accepts them. Theorems: `C38_unit`, `C38_distance`, `C38_zero_normal`.
* **C39 Inverse range stays within bounds** (proved). Invariants over all histories of calls on a variable object. Theorems: `C39_bounds`.
* **C40 Linear variables are additive** (partial). Invariants over all histories of calls on a variable object. *Result:* FALSE of the code only for LandmarkVariable::set_value_from_vector with a wrong size; everything else is proved. Theorems: `C40_generic`, `C40_landmark`, `C40_landmark_set_false`.
* **C41 set_value_from_vector(value()) is the identity** (partial). Invariants over all histories of calls on a variable object. *Result:* holds for all classes except RotationVariable with angles below 1e-5 and inverse-range variables whose bounds were changed; FALSE for those. Theorems: `C41_partial`, `C41_rotation_partial`, `C41_rotation_false`, `C41_invRange_bounds_false`.
* **C42 GenericPriorFactor** (partial). Zero-residual characterisation, and derivative of the residual under increments compared with the blocks. *Result:* the Jacobian part needs the variable not to be constant; a constant variable gets two blocks (C57). Theorems: `C42_residual`, `C42_jacobian_partial`.
* **C43 GenericBetweenFactor** (proved). Zero-residual characterisation, and derivative of the residual under increments compared with the blocks. Theorems: `C43_residual`, `C43_jacobian`.
* **C44 Pose position factors** (proved). Zero-residual characterisation, and derivative of the residual under increments compared with the blocks. Theorems: `C44_position_prior`, `C44_position_between_zero`, `C44_position_between_jacobian`.
* **C45 Pose orientation factors** (proved). Zero-residual characterisation, and derivative of the residual under increments compared with the blocks. Theorems: `C45_pose_prior_zero`, `C45_pose_prior_jacobian`, `C45_rotation_prior_zero`, `C45_rotation_prior_jacobian`, `C45_orientation_between_zero`, `C45_orientation_between_jacobian`.
* **C46 Bearing observation (3D)** (proved). Zero-residual characterisation, invariances where claimed, and derivative of the residual under increments compared with the blocks. *Result:* the last theorem shows that the derivative claim fails for the library's own apply_increment at the identity pose. Theorems: `C46_zero`, `C46_invariant`, `C46_jacobian`, `C46_identity_false`.
* **C47 Inverse range bearing** (partial). Zero-residual characterisation, invariances where claimed, and derivative of the residual under increments compared with the blocks. *Result:* FALSE of the code when the inverse range sits on one of its bounds; proved strictly between the bounds. Theorems: `C47_zero`, `C47_jacobian_partial`, `C47_bound_false`.
* **C48 Bearing projection 2D** (partial). Zero-residual characterisation, invariances where claimed, and derivative of the residual under increments compared with the blocks. *Result:* the zero-residual part is FALSE for a landmark exactly at the camera with a negative tolerance; proved otherwise. Theorems: `C48_tangents`, `C48_zero_partial`, `C48_jacobian`, `C48_at_camera_false`, `C48_camera_undefined`.
* **C49 Planar bearing** (proved). Zero-residual characterisation, invariances where claimed, and derivative of the residual under increments compared with the blocks. Theorems: `C49_wrapped`, `C49_zero`, `C49_jacobian`, `C49_invariant`.
* **C50 Planar range-bearing** (proved). Zero-residual characterisation, invariances where claimed, and derivative of the residual under increments compared with the blocks. Theorems: `C50_zero`, `C50_jacobian`, `C50_invariant`.
* **C51 Planar pose prior** (proved). Zero-residual characterisation, invariances where claimed, and derivative of the residual under increments compared with the blocks. Theorems: `C51_zero`, `C51_full_turns`, `C51_jacobian`.
* **C52 Planar pose between** (partial). Zero-residual characterisation, invariances where claimed, and derivative of the residual under increments compared with the blocks. *Result:* FALSE of the code in local_frame mode, which rotates with R instead of its transpose; world-frame mode and the Jacobians of both modes are proved. Theorems: `C52_zero_partial`, `C52_local_false`, `C52_local_zero`, `C52_jacobian`.
* **C53 Plane factor** (partial). Zero-residual characterisation, invariances where claimed, and derivative of the residual under increments compared with the blocks. *Result:* FALSE of the code with distance scaling, which uses the opposite sign of the plane offset; proved without scaling, and the Jacobians of both modes are proved. Theorems: `C53_zero_partial`, `C53_jacobian`, `C53_scaled_zero`, `C53_scaled_false`, `C53_scaled_jacobian`.
* **C54 Plane prior** (partial). Zero-residual characterisation, invariances where claimed, and derivative of the residual under increments compared with the blocks. *Result:* FALSE of the code: the opposite normal also has zero residual; proved for normals on the side of the prior, and the Jacobian is proved. Theorems: `C54_zero_partial`, `C54_false`, `C54_jacobian`.
* **C55 Linear velocity** (proved). Zero-residual characterisation, invariances where claimed, and derivative of the residual under increments compared with the blocks. Theorems: `C55_zero`, `C55_jacobian`.
* **C56 Coordinate transform** (partial). Zero-residual characterisation, invariances where claimed, and derivative of the residual under increments compared with the blocks. *Result:* the Jacobian part needs an output vector that is empty or has five elements (C57); C56_origin_sign shows that the documented relation contradicts the documentation of the origin parameter. Theorems: `C56_zero`, `C56_jacobian_partial`, `C56_origin_sign`.
* **C57 One Jacobian block per variable** (partial). Shape theorem for every factor class; witnesses for the two classes that deviate. *Result:* FALSE of GenericPriorFactor on a constant variable and of CoordinateTransformFactor with a buffer of another size; proved for all other classes and cases. Theorems: `C57_blocks_partial`, `C57_generic_prior_false`, `C57_generic_prior_partial`, `C57_coordinate_transform_false`, `C57_coordinate_transform_partial`, `C57_reuse`, `C57_proper`.
* **C58 Huber kernel** (partial). Norm computations; derivative of the kernelised residual compared with the code's scaling. *Result:* the residual part is proved; the Jacobian part is FALSE of the code for norms above delta (it is right there only if the gradient of the squared norm vanishes) and proved for norms below delta. Theorems: `C58_small`, `C58_large`, `C58_not_larger`, `C58_continuous`, `C58_jacobian_false`, `C58_jacobian_partial`, `C58_blocks_partial`, `C58_empty_block_false`.
* **C59 A robust kernel set on a factor takes effect** (partial). The interface of a factor object ignores its kernel field, as no code reads it. *Result:* FALSE of the code: nothing reads the kernel. Theorems: `C59_no_effect`, `C59_false`.
* **C60 Numerical Jacobian is exact on quadratics and restores the variables** (proved). Algebra of central differences on quadratics; three mean value estimates for the error; restoration from C41. *Result:* the last theorem shows that rotation variables, whose write-back is not exact, can be left changed. Theorems: `C60_restores`, `C60_exact`, `C60_error`, `C60_rotation_false`.
* **C61 detailed_factor_test is sound** (partial). Decision logic of the test for any arithmetic; witness runs. *Result:* FALSE of the code: the tolerance is never below 0.01 and NaN passes; with that floor and in exact arithmetic the test is sound and complete. Theorems: `C61_sound_partial`, `C61_correct_passes`, `C61_smooth_passes`, `C61_floor_false`, `C61_nan_false`, `C61_false_alarm`.
* **C62 Stopwatch accounting** (proved). Refinement to the set of running intervals, for all sequences of presses. Theorems: `C62_elapsed`, `C62_redundant`.
* **C63 Optimizing only changes values** (proved). Trace of calls on the graph and heap made by `optimize`. Theorems: `C63_only_value_calls`.
* **C64 An interrupted iteration leaves no half-applied step** (partial). Concrete run in which an increment throws halfway. *Result:* FALSE of the code. Theorems: `C64_false`.
* **C65 Huber kernel realises the documented loss** (partial). Norm computations; derivative of the kernelised residual compared with the code's scaling. *Result:* FALSE of the code above delta: half the squared norm of the kernelised residual is delta*norm/2; holds up to delta. Theorems: `C65_false`, `C65_partial`.
* **C66 The stop rules and the final status** (proved). Specification of one iteration (`Spec/Steps.lean`) and refinement of the code to it, for any arithmetic and solver. Theorems: `C66_continues`, `C66_ends`, `C66_norm_falls`.
* **C67 What one iteration does** (partial). Specification of one iteration (`Spec/Steps.lean`) and refinement of the code to it, for any arithmetic and solver. *Result:* The Levenberg-Marquardt part is false of the code for variables that cannot be given their values back (C41, C147): an iteration without an accepted trial then changes them. Proved for all other variables. Both parts are for graphs in which ids identify the variables and no factor uses a variable twice (C08, C13). Theorems: `C67_gauss_newton`, `C67_gauss_newton_returns`, `C67_levenberg_marquardt_partial`, `C67_levenberg_marquardt_returns_partial`, `C67_false`.
* **C68 The graph's Jacobian is the derivative of its residual** (proved). Each factor's residual is differentiable in all its variables jointly (rules for smooth vectors and matrices, motions of each class); block assembly (C06) and the factors' partial derivatives fix the value of the derivative on every column. *Result:* C68_joint takes the correctness and joint differentiability of the factors as hypotheses; C68_derivative discharges them for all 18 factor classes at the points listed in Spec/Joint.lean. Theorems: `C68_derivative`, `C68_joint`, `C68_columns`, `C68_reads`.
* **C69 A zero increment changes nothing** (partial). Per class, from the invariants of reachable variables. *Result:* FALSE of the code for poses with tiny rotation angles; holds for all other classes and for all poses with angle at least 1e-5 or identity matrix. Theorems: `C69_partial`, `C69_pose_partial`, `C69_rotation`, `C69_false`.
* **C70 Short enough steps lower the cost** (proved). The derivative of the stacked residual (C68) gives first-order descent along every direction of negative slope; the damped system is solvable and its pivots pass the tests for every large damping (eigenvalue bounds), and its solution points down the gradient. *Result:* Exact real arithmetic, exact linear solver that reports the pivots of its factorisation (elimination in the model is one). The points of differentiability are those of C68. Theorems: `C70_small_step`, `C70_large_damping`, `C70_gauss_newton`, `C70_levenberg_marquardt`.
* **C71 Levenberg-Marquardt fails only when no damping up to max_lambda helps** (partial). C70 for the dampings that are tried, refinement of C67; concrete run with default settings for the negation. *Result:* FALSE of the code: the trials end after five dampings, however far max_lambda is; proved: if one of the five dampings is large enough and below max_lambda, the iteration takes a step that lowers the cost. Theorems: `C71_false`, `C71_partial`.
* **C72 Names tell the objects of a graph apart** (partial). A name is a type name that ends in a letter followed by a decimal number, or a fixed text followed by names without commas and parentheses: both can be read back. Ids are unique by C01. *Result:* FALSE of the code for factors: most factor names leave out the id, so two priors on one variable share a name. Proved: variable names are different; factors sharing a name have the same class and variables, and are the same factor in the classes that name their id. Theorems: `C72_variables`, `C72_false`, `C72_factors_partial`.
* **C73 The reported type identifies the class** (partial). Case analysis over the classes. *Result:* FALSE of the code for factors: LinearVelocityFactor, RotationPriorFactor and BearingProjectionFactor2D report the type of another class. Proved for variables, and for factors apart from these three pairs. Theorems: `C73_variables_partial`, `C73_false`, `C73_factors_partial`.
* **C74 Lookup by class** (proved). C01 and the invariant that no call changes the class of an object. Theorems: `C74_lookup`.
* **C75 An optimizer that is set up again is as good as new** (proved). Lockstep simulation of the two optimizers: they agree in what setup resets, every buffer is overwritten before it is read because the factors of a finalized graph cover all rows, and the flags guard the cached matrix. Theorems: `C75_setup_forgets`.
* **C76 Undetermined problems are reported** (proved). A kernel vector of the Jacobian is one of JᵀJ, so there is no factorisation (C25_full_rank); then the loop, prepare and estimate_covariance are followed step by step. An unused variable gives zero columns; a curve on which the residual is constant has its velocity in the kernel by C68. *Result:* Exact linear algebra: a singular matrix has no LDLT factorisation. Theorems: `C76_undetermined`, `C76_iteration`, `C76_unused_variable`, `C76_flat_direction`.
* **C77 Relative measurements do not depend on the world frame** (proved). Case analysis over the classes; orthogonality of the rotation. *Result:* Pose2DBetweenFactor in local_frame mode violates the analogous statement, see C52. Theorems: `C77_space`, `C77_plane`.
* **C78 A graph that floats in the world is reported** (proved). The shift is an increment of all variables that is linear in the distance; no residual changes along it (case analysis over the classes), so C76 applies. Theorems: `C78_gauss_newton`, `C78_floating`, `C78_shift`.
* **C79 Levenberg-Marquardt does not move what is not measured** (partial). JᵀJ d + λ d = -Jᵀ r: the product with a kernel vector u of J leaves λ (u · d) = 0. By induction over trials and iterations the damping stays positive (C67). The kernel vectors are those of C76 and C78. *Result:* False of the code for variables that cannot be given their values back (C41, C147): an unused inverse range outside bounds that the program has moved is clipped. Proved for all others. The statement about the sum of positions is for graphs without free planes, which have no position; exact linear algebra. Theorems: `C79_orthogonal`, `C79_unused_partial`, `C79_centroid_partial`, `C79_false`.
* **C80 A residual is the misfit in units of its standard deviation** (proved). Direct computation from the residual equations; angles through arccos of the normalized dot product, log map through its rotation angle. *Result:* The misfit of a scaled plane factor has the wrong sign of the offset (C53) and that of a local-frame planar difference the wrong rotation (C52); the weights are right. Theorems: `C80_position_prior`, `C80_position_between`, `C80_orientation_prior`, `C80_rotation_prior`, `C80_orientation_between`, `C80_bearing`, `C80_inverse_range`, `C80_projection`, `C80_range_bearing`, `C80_prior_2d`, `C80_between_2d`, `C80_between_2d_local`, `C80_plane_scaled`, `C80_plane_prior`, `C80_transform`, `C42_residual`, `C43_residual`, `C49_wrapped`, `C55_zero`, `C80_plane`.
* **C81 Printing does not influence later calls** (partial). Unfolding of the printing functions; counterexamples evaluated by the kernel. *Result:* False of the code: printing the Jacobian evaluates it, after which a graph that is extended and finalized again cannot evaluate it any more (C12); printing covariances prepares them, after which later optimizations leave stale ones (C31). Proved: the effect is exactly that of the evaluation or the preparation; print_structure and print_variables cannot change anything. Theorems: `C81_jacobian_false`, `C81_covariances_false`, `C81_jacobian_partial`, `C81_covariances_partial`.
* **C82 What is printed is true** (partial). From the layout facts of C02 and C03, the evaluation theorems C05 and C06, and induction over the list of variables for the covariances. *Result:* False of the code: print_structure after adding to a finalized graph mixes new and old numbers; an empty Jacobian and an optimizer without a graph are undefined behaviour. Proved otherwise. Rank and condition number (Eigen SVD) and the text format are not modelled. Theorems: `C82_structure_partial`, `C82_structure_false`, `C82_jacobian_partial`, `C82_variables`, `C82_covariances`, `C82_covariances_undefined`.
* **C83 The same program has the same results** (partial). A relational program logic (Lemmas/Twin): two states that differ only in the residual buffers and the contents of the dense Jacobian stay so through every call. The relation is preserved because evaluations overwrite every entry when the layout is that of the current structure. *Result:* False of the code in two situations: after a refused second finalization, residuals contain uninitialised memory; after an exception thrown by a factor, residual() returns a mixture that depends on the hash order. Proved, for any arithmetic: all outcomes, variables, statistics, covariances and Jacobians agree if factors are evaluated only with a current structure, and residuals that are returned by a completed evaluation agree. Theorems: `C83_outdated_false`, `C83_interrupted_false`, `C83_partial`, `C83_residual_partial`.
* **C84 The order of insertion does not matter** (partial). The relational logic of C83 with another relation: same variables, permuted factors. Rows of residual and Jacobian are permuted alike, so the normal equations are equal. Counterexample for variables evaluated in the kernel. For reordered variables: the normal equations as a weak form, sums over variables instead of columns; unique solutions correspond; runs proceed in step by induction over the iterations and over the trials of an iteration. *Result:* False of the code for the order of variables: whether a problem is refused as ill-conditioned depends on the pivots, and these on the order of the columns. Proved for the order of factors, with arithmetic in which sums do not depend on the order of the terms; and for the order of variables as well when no system is refused (Gauss-Newton: neither run reports failure; Levenberg-Marquardt: in addition the problem is well conditioned in the sense of C85). Theorems: `C84_variables_false`, `C84_variables_witness`, `C84_factors_partial`, `C84_exact`, `C84_system_partial`, `C84_gauss_newton_partial`, `C84_levenberg_marquardt_partial`.
* **C85 A linear system is refused exactly if it is badly conditioned** (partial). Pivots of a factorisation of a positive definite matrix lie between its smallest and largest eigenvalue (from the factorisation only, for any ordering). A 2x2 family whose pivots are balanced and whose eigenvalues are not refutes the converse. *Result:* False of the code in one direction: pivots are not eigenvalues, some badly conditioned systems are accepted by every exact solver. Proved: well-conditioned systems are accepted, with and without damping. Theorems: `C85_false`, `C85_accepted_partial`, `C85_refused_partial`.
* **C86 The graph keeps alive what it uses** (partial). Every function of graph and optimizer commutes with replacing the objects in a set that the graph does not use (Lemmas/Blind, a small program logic); induction over the program, in which the set grows. Counterexample evaluated in the kernel. *Result:* False of the code: factors hold plain pointers, and finalize_structure accepts a constant variable that is not in the graph, such as a measurement. Proved: giving up handles to variables that are in the graph, or that neither the program nor a factor uses any more, changes nothing. Theorems: `C86_false`, `C86_partial`, `C86_library`.
* **C87 What is set is what is read back** (partial). From the correctness of the conversion between rotation matrices and angle-axis form (all branches of Eigen's quaternion construction) and the wrapping of angles; the other classes by computation. *Result:* False of the code for orientations of poses: a rotation by less than 1e-8 is replaced by none. Proved otherwise, for every class. Theorems: `C87_pose_partial`, `C87_pose_small`, `C87_pose_false`, `C87_pose_vector`, `C87_rotation`, `C87_plane`, `C87_pose2d`, `C87_inverse_range`, `C87_landmark`, `C87_generic`.
* **C88 A copy of a graph is the same problem** (partial). The relational logic of C83 with a third relation: the graphs differ in the storage of the sparse matrix, and in its entries as long as they are not valid. For interleavings: both graphs keep the invariant of a finalized graph at the common variables, so both evaluations are the one that C05-C07 describe. *Result:* False of the code for graphs whose Jacobian has no entries: the original refuses a second sparse evaluation, its copy does not. Proved for all graphs in which a factor measures a free variable. Theorems: `C88_empty_false`, `C88_program_partial`, `C88_shared_partial`.
* **C89 The rank check reports a rank** (partial). No function of the optimizer writes `rank`: induction over histories. Witness by evaluation. *Result:* False of the code: the setting is never read, and rank is -1 after every history of calls, which is proved. Theorems: `C89_false`, `C89_never_computed`.
* **C90 Output settings do not influence results** (proved). A second model of the optimizer with messages and stopwatch presses (`Model/Verbose`) is related to the first by erasure, function by function; every function of the first commutes with setting the flags. *Result:* The optimizer with its messages and stopwatches computes what it computes without them; programs that differ in the two settings run alike; a quiet run prints only notices of exceptions. Theorems: `C90_output`, `C90_flags`, `C90_silent`.
* **C91 What a verbose optimization reports is true** (partial). Trace logic over the model with messages: a step adds messages of other kinds and then possibly one report, whose numbers are traced to the state; then the facts of C19, C27 about the state. Attempts are counted through the trial loop; the messages about refused systems, trials and reasons for stopping are traced to the relations of C66 and C67. Witnesses by evaluation. *Result:* False of the code in three places: Gauss-Newton shows the norm after the step as the norm before it; SUCCESS is printed for runs that diverged; the number of attempts is one too large when no step was accepted, and the message about giving up always says 5. Proved for everything else in the reports and the summary (without density and the times of single steps). Theorems: `C91_initial_norm_false`, `C91_success_false`, `C91_attempts_false`, `C91_attempts_partial`, `C91_steps_partial`, `C91_summary_partial`, `C91_stops_partial`, `C91_refusals_partial`, `C91_trials_partial`, `C91_reason_partial`.
* **C92 The times in the summary are those of this call** (partial). The call begins by resetting four watches; a watch that was reset behaves like a fresh one; then C62. Witness: two calls in a row. *Result:* False of the code for the time of Jacobians, whose stopwatch is never reset. Proved for the other four. Theorems: `C92_jacobian_false`, `C92_partial`.
* **C93 The logarithm on the sphere is the rotation between two directions** (partial). Lagrange's identity for the length of the cross product, then the double cross products in Rodrigues' formula. Opposite vectors are the counterexample. *Result:* False of the code for opposite vectors, where the result is zero. Proved for all others, up to 1.5e-10 for almost parallel ones. The function is defined in the library but declared in no header, so a program has to declare it itself. Theorems: `C93_false`, `C93_partial`, `C93_parallel_partial`.
* **C94 Every graph can be drawn** (partial). Totality of every function of the drawing, by cases over the classes; the one class without accessor is the witness. *Result:* False of the code for BearingProjectionFactor2D, whose type makes the drawing ask for an accessor it does not have in Python. Proved for all other graphs, and for these with plot_measurements=False. Theorems: `C94_false`, `C94_partial`.
* **C95 A drawing shows every variable where it is** (partial). The markers of the list of drawn things are a permutation of those specified, by induction over the variables; rows of the rotation matrix are the camera's axes in the world. *Result:* False of the code: inverse-range landmarks are not shown, and in 3D the heading of planar poses is not. Proved: markers are those of the other classes, and the arrows have the right directions. Theorems: `C95_false`, `C95_partial`, `C95_axes_partial`, `C95_heading_partial`, `C95_heading_false`.
* **C96 Measurement lines show the residuals** (partial). The end of a line is compared with the residual formulas of C46, C49 and C50 (chord length for angles). *Result:* False of the code for bearings of inverse-range landmarks, which have no line. Proved for the other classes, with the exact relation between line and residual. Theorems: `C96_bearing_partial`, `C96_bearing2d_partial`, `C96_range_bearing_partial`, `C96_between_partial`, `C96_only_partial`, `C96_false`.
* **C97 Uncertainty regions are those of the covariances** (partial). Spectral decomposition gives C⁻¹ = Q D⁻¹ Qᵀ; the ellipse patch is the image of a circle. For surfaces, every point of the sphere is near a point of the grid of angles. With C30 for the covariance itself. *Result:* False of the code for planar variables in 3D drawings, which have no region. Proved otherwise, for every correct numpy.linalg.eigh; a surface is a mesh whose points are on the ellipsoid and within a fifth of a standard deviation of every point of it. Theorems: `C97_ellipse_partial`, `C97_ellipsoid_partial`, `C97_ellipse_only_partial`, `C97_ellipsoid_only_partial`, `C97_optimizer_partial`, `C97_false`.
* **C98 The axis limits of a drawing fit** (partial). Maxima and minima of the coordinates. Witness: a measured range far larger than the distance. *Result:* False of the code for measurement lines, which may leave the limits. Proved for the markers. Theorems: `C98_partial`, `C98_false`.
* **C99 Drawing changes nothing** (partial). The drawing calls only prepare_to_estimate_covariances and readers. Witness: a coordinate transform whose landmark is moved between two evaluations, with symbolic evaluation over the reals. *Result:* False of the code: drawing covariances freezes the covariances that are reported later. Proved: variables and graph never change, without covariances nothing changes, and nothing changes if covariances were prepared before. Theorems: `C99_partial`, `C99_false`.
* **C100 Asking for a variable changes nothing** (partial). Simulation between the program with and without looks; no call takes a variable out of the graph. Witness: a constant is destroyed by a look and the estimate of another variable changes. *Result:* False of the code: get_variable and Factor.variables make Python objects that own the variable if no other Python object of it is alive, and destroy it when they go. Proved when such objects are kept, in particular when variables are asked for while held or by get_all_variables. Theorems: `C100_partial`, `C100_held_partial`, `C100_false`.
* **C101 An array handed out keeps its numbers** (partial). Which calls write the graph's residual vector or a variable; its length is fixed by the structure from the first evaluation on. Witnesses: x0 = value(), r0 = residuals before optimize(). *Result:* False of the code: the arrays show memory of the library. Proved until the next call that may write it; after the next evaluation the array shows the new residuals. Theorems: `C101_value_partial`, `C101_residual_partial`, `C101_current_partial`, `C101_value_false`, `C101_residual_false`, `C101_defined_false`.
* **C102 Near an exact fit the number of correct digits doubles with every iteration** (proved). The solution of the normal equations differs from the missing increment by a vector whose image under J is no longer than the prediction error of the linearisation, which is of second order. Induction over the iterations. *Result:* Real arithmetic with exact linear algebra, for any variables whose increments compose up to second order; distances are measured in increments. Theorems: `C102_one_step`, `C102_iterations`, `C102_run`, `C102_additive`.
* **C103 The times in the summary add up to no more than the call took** (partial). Every piece of the optimizer is shown to start a watch only when none runs and to stop the one that runs, unless it reports trouble; with at most one watch running the total is bounded by the clock. Witness: an unmeasured variable and almost no damping, so that trials are refused. *Result:* False of the code: a refused trial of Levenberg-Marquardt leaves the watch for solving running while the next normal equations are formed. Proved for all runs that report no refused trial and no damping limit. Theorems: `C103_false`, `C103_partial`.
* **C104 Only the ratios of the standard deviations matter** (partial). Case split over the factor classes for the scaling of residuals and Jacobians; two runs of the optimizer are compared iteration by iteration with a general theorem about corresponding problems (costs proportional, normal equations proportional in orthonormal coordinates). Witnesses: standard deviations multiplied by 10^8, and halved with Levenberg-Marquardt. *Result:* False of the code: the pivot threshold and the damping of Levenberg-Marquardt are absolute. Proved for all factor classes, for Gauss-Newton runs in which no system is refused (tolerance for residuals adapted), and for covariances. Theorems: `C104_factor`, `C104_gauss_newton_partial`, `C104_covariance`, `C104_refused_false`, `C104_damping_false`.
* **C105 The choice of the world frame does not matter for the estimates** (partial). two runs are compared with the correspondence of C104 at scale 1: each pair of factors has residuals and Jacobian blocks that differ by orthogonal matrices on rows and columns, so normal equations are conjugate and steps stay related; rotations of the frame in space turn the position part of pose increments and leave the rotation part alone, so steps stay related while the rotation matrix is multiplied exactly; the witnesses for falsity are a damped step of one plane, two poses one unit apart, and a pose at the identity given a rotation by 1e-9 *Result:* False of the code for planes that are estimated (the damped step tilts the plane or not, depending on the frame) for planar relative poses in local_frame mode, and for rotations in space that are updated inexactly (a pose at the identity ignores tiny increments, in another frame it does not). Proved for everything else in the plane, for shifts in space, and for rotations in space: cost and linear system always, the estimates of both methods while rotations are updated exactly (and, for Levenberg-Marquardt, the damped system stays well conditioned in both runs), and both methods without such conditions for known poses, coordinate transforms included. Missing: priors on the rotation of a coordinate transform; plane factors with distance scaling depend on the frame because of the sign of the offset (C53). Theorems: `C105_plane_false`, `C105_local_false`, `C105_shift_gauss_newton_partial`, `C105_shift_levenberg_marquardt_partial`, `C105_move_gauss_newton_partial`, `C105_move_levenberg_marquardt_partial`, `C105_turn_false`, `C105_turn_system_partial`, `C105_turn_gauss_newton_partial`, `C105_turn_levenberg_marquardt_partial`, `C105_turn_known_gauss_newton_partial`, `C105_turn_known_levenberg_marquardt_partial`, `C105_turns_exactly`.
* **C106 Repeated measurements add up their information** (proved). The rows of the repetitions are multiples of the rows of the one factor, so that squared norm, J^T J and J^T r are equal sums; a bisimulation of two graphs over the same variables with equal linear systems carries this through whole runs. *Result:* Exact arithmetic; for graphs that have not been used before, runs without undefined behaviour. Theorems: `C106`, `C106_library`, `C106_copies`.
* **C107 More or better measurements never make the estimates less certain** (proved). J^T J of the second graph dominates that of the first; the inverse of positive definite matrices is antitone, via z^T B^-1 z = max over u of 2 z^T u - u^T B u. C107_run: both runs on linear problems are shown to end well and to report these covariances. *Result:* Exact arithmetic and exact linear algebra; both graphs linearised at the same values. Theorems: `C107`, `C107_added`, `C107_sharpened`, `C107_run`.
* **C108 Holding a variable constant never makes the other estimates less certain** (proved). Case split over the factor classes: blocks of free variables do not depend on the flags of others. The normal matrix of the second graph is a principal submatrix of that of the first, whose inverse is below the corresponding part of the inverse of the whole. C108_run: both runs on linear problems are shown to end well and to report these covariances. *Result:* Exact arithmetic and exact linear algebra; both graphs linearised at the same values. Theorems: `C108`, `C108_library`, `C108_run`.
* **C109 Parts of a graph that have nothing to do with each other do not influence each other** (partial). A map of the part's columns into those of the whole graph; the normal matrix of the part is a diagonal block of the whole one, without entries beside it, so solutions and inverses restrict. Induction over the iterations of both runs. Witnesses: a second variable with standard deviation 10^8; a second variable that keeps the run going. *Result:* False of the code: a badly determined second part makes the whole run refused with nothing moved, and the rules that end a run look at the whole graph. Proved: Gauss-Newton iterations and covariances of a part are those of the part alone, for all factor classes, exact arithmetic. Theorems: `C109_refused_false`, `C109_stop_false`, `C86_library`, `C109_iterations`, `C109_gauss_newton_partial`, `C109_covariance`.
* **C110 Success means that the gradient nearly vanishes** (partial). two concrete runs with default settings that report SUCCESS with a large gradient; for the rest the linear system of the last iteration bounds the gradient by the length of the step (Cauchy-Schwarz) *Result:* FALSE of the code: Gauss-Newton reports SUCCESS after an iteration that raised the cost (but not above the initial one), Levenberg-Marquardt after an iteration that found no step if an earlier one did. Proved: the gradient before the last step is bounded by the reported length of that step, the normal matrix and the reported damping. Theorems: `C110_gauss_newton_false`, `C110_levenberg_marquardt_false`, `C110_gauss_newton_partial`, `C110_levenberg_marquardt_partial`.
* **C111 Levenberg-Marquardt converges on linear problems** (proved). seen from a solution the damped normal equations read (JtJ + lambda) e' = lambda e, which gives the contraction; in an affine problem every solved trial lowers the cost unless the gradient is zero, so the first trial is accepted; induction over the iterations *Result:* Exact real arithmetic, exact linear solver that reports the pivots of its factorisation. Theorems: `C111_never_farther`, `C111_iterations`, `C111_run`.
* **C112 A clone of a variable is an independent object** (proved). programs with clone actions; every function of the library commutes with replacing an object that is not in the graph and not used by its factors (the simulation of C86); the id is an invariant of all calls *Result:* Factors look at their own variables only; the clone is not offered to the graph in the first theorem. Theorems: `C112_independent`, `C112_refused`.
* **C113 Allowing more iterations never makes the result worse** (partial). a single iteration commutes with changing the limit; the loop with a larger limit either is the same or continues from the state at which the shorter one ended; monotone cost by C18; Gauss-Newton has a concrete counterexample *Result:* FALSE of the code for Gauss-Newton: with one iteration more the final cost can be larger, and both runs report SUCCESS. Proved: the path for both methods, the cost for Levenberg-Marquardt. Theorems: `C113_gauss_newton_false`, `C113_path_partial`, `C113_same_partial`, `C113_cost_partial`.
* **C114 Graphs without common variables do not influence each other** (proved). model of many graphs and optimizers; a call on one side commutes with replacing all objects of the other side (the simulation of C86), and leaves them alone; induction over the program *Result:* Factors look at their own variables only. Theorems: `C114_isolated`.
* **C115 An optimizer keeps its results while another one works on the same graph** (partial). all calls elsewhere keep the placements, identifiers, sizes and constant flags that a prepared covariance depends on; a concrete program with two optimizers shows that an unprepared one is not kept *Result:* FALSE of the code for covariances that are prepared after another optimizer has used the graph: they are those of the other optimizer's last linearisation. Proved for statistics and prepared covariances. Theorems: `C115_unprepared_false`, `C115_kept_partial`.
* **C116 A variable is at most as uncertain as dead reckoning** (proved). induction over the chain gives a combination u of rows of the Jacobian J that is a unit vector, with u·u the sum of the variances; the variance of the unit vector under (JᵀJ)⁻¹ is the smallest such u·u (projection onto the range of J) *Result:* Over the reals, with an exact solver. Chains of generic, pose position (world coordinates), planar position (world coordinates) and planar heading measurements. Theorems: `C116`, `C116_run`, `C116_generic_prior`, `C116_generic_between`, `C116_pose_prior`, `C116_pose_between`, `C116_planar_prior`, `C116_planar_heading`, `C116_planar_between`.
* **C117 Direct measurements of a variable are averaged with inverse variances as weights** (proved). the columns of the variable have entries only in the rows of its priors; the normal equation of such a column is the equation of the weighted mean, and the column of JᵀJ is a multiple of a unit vector *Result:* Over the reals, with an exact solver. For generic priors; the covariance after either method. Theorems: `C117_value`, `C117_covariance`, `C117_covariance_run`.
* **C118 Measurements that agree with each other are met exactly** (proved). the residuals are affine along the last step and between any two points, so that the normal equation of the last step is one for the difference to the given values; JᵀJ is invertible since the step was not refused *Result:* Over the reals, with an exact solver. Theorems: `C118`, `C118_square`, `C118_error`.
* **C119 The reported covariance is the covariance of the error of the estimate** (proved). by C118 the error is one linear function of the errors of the measurements for all outcomes, since problems that differ in the measured values have the same Jacobian; its mean and covariance follow from linearity of the integral, and (JᵀJ)⁻¹Jᵀ times its transpose is (JᵀJ)⁻¹ *Result:* Over the reals, with an exact solver; for any probability space. Every outcome is assumed to end in a valid run. Theorems: `C119_unbiased`, `C119_covariance`.
* **C120 The expected chi² is the redundancy** (proved). the final residual is the projection of the errors of the measurements on the complement of the range of J; the trace of the projection is the number of rows less the number of columns *Result:* Over the reals, with an exact solver; for any probability space. Every outcome is assumed to end in a valid run. Theorems: `C120`.
* **C121 Well-conditioned linear problems are always solved** (proved). every iteration evaluates (C67), its system is accepted (C85), and the step does not raise the sum of squares, so that no rule ends the run as diverged; the loop can then only end with SUCCESS (C66). The minimum is C24, uniqueness follows from the invertible JᵀJ *Result:* Over the reals, with an exact solver. Well conditioned: the eigenvalues of JᵀJ are at least 10⁻¹⁴ and differ by a factor of at most 10¹². The examples show runs in which the assumptions of C117 to C120 about runs are met. Theorems: `C121`, `C121_returns`, `C121_generic`.
* **C122 A learning rate shrinks the distance from the solution by the same factor in every iteration** (proved). the normal equations at the current values and at the solution show that the full step ends at the solution; induction over the iterations *Result:* Over the reals, with an exact solver. Theorems: `C122`, `C122_iterations`.
* **C123 When a covariance is reported, and when it is withheld** (proved). `prepare` and `estimateCovariance` are followed call by call for an exact factorisation (solvable columns, the largest diagonal entry against 10^12). The variances are bounded by 1/low because y = A^-1 e satisfies y_c = y.Ay >= low y.y. `afterRun` supplies the Jacobian left by a run, `affine_coeff` and `design_coeff` that it is the one at the start and the same for all measured values. *Result:* Exact arithmetic over the reals with an exact factorisation. Theorems: `C123`, `C123_run`, `C123_linear`, `C123_design`, `C123_optimum`.
* **C124 Covariances describe the same uncertainty in every world frame** (proved). the two runs stay in step (C105), so their last Jacobians are taken at values that describe the same state; there J' = Q J B^t with Q and B orthogonal and B block diagonal, hence (J'^t J')^-1 = B (J^t J)^-1 B^t, and C30 reads off the blocks. C26 (a start at an exact fit) provides worlds in which both covariances are reported. *Result:* Exact arithmetic. Covers the factors for which C105 holds; Levenberg-Marquardt for problems that stay well conditioned; in space, runs in which free poses are updated exactly (C105_turns_exactly says when), or linearisations at corresponding values without that condition. Theorems: `C124_shift`, `C124_shift_levenberg_marquardt`, `C124_plane`, `C124_plane_levenberg_marquardt`, `C124_space_at`, `C124_space_known`, `C124_space`.
* **C125 The matrix of a rotation variable is the rotation given by its value** (partial). false in three ways, each with a witness: vectors shorter than 1e-10 make the matrix stretch (C125_rotation_false: there is no bound on the determinant), rotations by less than 1e-5 have a value that is slightly too short (C41_rotation_false), and an assignment through dcm_AB() leaves the value as it was and is lost when the value is written back (C125_write_false). Proved by induction over histories: each tiny vector stretches by at most one part in 10^20; without them and without assignments the matrix is a rotation and agrees with the value, exactly from 1e-5 on and up to 1e-15 below. *Result:* The full statement is false of the code; see the two _false theorems and C41_rotation_false. The partial theorems cover histories without vectors shorter than 1e-10 and without assignments through dcm_AB(); C125_stretch bounds the drift in the remaining histories without assignments. Theorems: `C125_rotation_partial`, `C125_agree_partial`, `C125_stretch`, `C125_write`, `C125_rotation_false`, `C125_write_false`.
* **C126 No other way to add up the measurements is more precise** (proved). by C118 the final residuals are those at the true values with their projection on the column space of the Jacobian taken out; the weights applied to both give the error of the estimate as the projected weights times the errors, and a projection does not lengthen the weights (Gauss-Markov) *Result:* Over the reals, with an exact solver; for any probability space. Every outcome is assumed to end in a valid run. Theorems: `C126`.
* **C127 A measured value moves an estimate by at most its standard deviation per standard deviation** (proved). the two runs are an experiment with two outcomes (C119): the difference of the estimates is one linear function of the change, whose rows have the reported covariance as their products; Cauchy-Schwarz *Result:* Over the reals, with an exact solver. Both runs are assumed to be valid; C121 gives conditions. Theorems: `C127`.
* **C128 The residuals that remain have mean zero, are at most one on average, and tell nothing about the errors of the estimates** (proved). the residuals are a projection of the errors of the measurements (C126.residuals), the errors of the estimates another linear function, and the product of the two matrices vanishes *Result:* Over the reals, with an exact solver; for any probability space. Every outcome is assumed to end in a valid run. Theorems: `C128`.
* **C129 Levenberg-Marquardt succeeds on every well-conditioned linear problem, unless it starts at the solution** (proved). every trial is accepted by the checks of the factorisation (C85, C111) and lowers the sum of squares strictly unless the gradient is zero; after one such iteration the comparison with the first residual can no longer fail; the loop can then only end with SUCCESS (C66). At the solution the first step is zero and is not accepted *Result:* Over the reals, with an exact solver, for variables that can be restored. The last part of the statement generalises the defect in C26: the best start values are reported as a failure. Theorems: `C129`, `C129_close`.
* **C130 A factor that its constructor accepts can be evaluated** (partial). the constructors are modelled assertion by assertion for debug and release builds; case distinction over the classes, with the models of their residuals and Jacobians *Result:* False of the code in four ways, each with a witness: LinearVelocityFactor dereferences a null velocity before its assertion; it accepts an initial_index beyond the variables; PlaneFactor accepts the distance 0 for its scaling; release builds, the default, accept null pointers. The partial theorems exclude these, inverse ranges below 1e-9, and for the Jacobian of BearingProjectionFactor2D a landmark at the camera. Theorems: `C130_accepts`, `C130_stops_partial`, `C130_release`, `C130_evaluates_partial`, `C130_jacobians_partial`, `C130_built_partial`, `C130_null_velocity_false`, `C130_index_false`, `C130_scaling_false`, `C130_release_false`.
* **C131 The reported cost is accurate in floating-point arithmetic** (partial). induction over the tree of additions for the error of a sum of squares; the reported cost is the squared norm of the final residual for every arithmetic (C27), and costs never increase for every arithmetic (C18) *Result:* False of the code for variables that cannot be given their values back (C41, C147): the cost reported after a Levenberg-Marquardt iteration without an accepted trial is that of other values. Proved for all others, for runs that do not end as FAILED. For all finite costs. The residuals themselves are taken as computed; the rounding inside the factors is not modelled. Theorems: `C131_sum`, `C131_reported_partial`, `C131_never_worse_partial`, `C131_false`.
* **C132 Identifiers are only names** (partial). simulation of the two programs, function by function, between states that agree up to ids; the traversal order of one program is carried over to the other; false of factor_placement(id), with a witness *Result:* False of factor_placement(id), which looks for the position of the factor, not its id (C132_false); holds of everything else that is modelled, in both directions, including undefined behaviour, and for every class of the library. Theorems: `C132_partial`, `C132_converse_partial`, `C132_next_partial`, `C132_library_partial`, `C132_false`.
* **C133 Optimizing moves a directly measured variable straight towards the weighted mean** (proved). The normal equation of a column that only priors fill gives the step of that component for every damping (`prior_step`); induction over the iterations, where a refused first iteration makes the run invalid. *Result:* Over the reals, with an exact solver. For generic priors and variables with additive increments, Levenberg-Marquardt with variables that can be restored. The situation of examples/01_simple_localization.cpp, for all measurements; C117 is the case of Gauss-Newton with learning rate 1. Theorems: `C133`, `C133_gauss_newton`.
* **C134 A landmark is determined by directions exactly if it is seen along two different lines** (proved). Spec/Triangulation.lean says which factors are sightings and along which line. Lemmas/Triangulation.lean computes the kernel of the landmark block of the Jacobian of a sighting: the multiples of the line of sight, since the block is a nonzero multiple of the projection across it. A vector in the columns of one variable that all its blocks kill makes the problem undetermined (column_kernel); conversely a kernel vector of the whole Jacobian has a nonzero part in some landmark, which the row of each sighting of it sees alone. The run follows from C76, exact observations from C46 and C49. *Result:* Real arithmetic. Linearised assumes the Jacobian exists, that is, no landmark within 1e-9 of a pose that sees it. Theorems: `C134`, `C134_undetermined`, `C134_factorizes`, `C134_run`, `C134_unique`, `C134_unique_planar`.
* **C135 Direct and relative measurements determine exactly what is connected to something known** (proved). Spec/Network.lean defines the two kinds of measurement and, inductively, which variables are anchored. Lemmas/Network.lean computes the rows of the Jacobian times a vector. A kernel vector has equal parts in two variables whose difference is measured and zero parts in measured ones, so by induction on Anchored it vanishes on anchored variables; conversely the vector that is 1 on all variables that are not anchored and 0 elsewhere is in the kernel. The run follows from C76. *Result:* Real arithmetic. The rank check of the library (C85) may in addition refuse determined but badly scaled networks. Theorems: `C135`, `C135_factorizes`, `C135_run`.
* **C136 A pose in the plane and the landmarks it sees** (proved). The kernels of the pose blocks of both factors are computed for every state of the pose. No factor mentions two free variables, so the kernel of the Jacobian splits into those of the poses. Solver and run as for C76 and C135. *Result:* Exact real arithmetic, exact solver. Theorems: `C136`, `C136_undetermined`, `C136_places`, `C136_factorizes`, `C136_run`.
* **C137 Maps of the plane: what can be located step by step is determined** (proved). Spec/PlanarMap.lean defines inductively what is reached and what is located. Lemmas/PlanarMap.lean writes the rows of any factor times a vector as a sum over its variables (factor_row), solves the equations of the four factors for a kernel vector and shows by induction on Located that it vanishes on located variables. Conversely a common shift of all poses that are not reached is a kernel vector. *Result:* Exact real arithmetic, exact solver. The sufficient condition for maps with landmarks is not necessary: poses and landmarks may also be determined jointly. Theorems: `C137`, `C137_located`, `C137_factorizes`, `C137_run`.
* **C138 Maps in space: what can be oriented and positioned step by step is determined** (proved). Spec/SpaceMap.lean defines inductively what is oriented and what is positioned. Lemmas/SpaceMap.lean shows that the matrix of the inverse right Jacobian is regular whenever the code computes it (invJac_regular), solves the equations of the five factors for a kernel vector, and shows by induction that it vanishes on what is oriented and positioned. Conversely a common shift of all poses that are not positioned, and a common turn of all that are not oriented, are kernel vectors (null_of_parts). *Result:* Exact real arithmetic, exact solver. If ways are given in the frame of a pose whose orientation is not reached, the condition is sufficient but not necessary. Theorems: `C138`, `C138_located`, `C138_factorizes`, `C138_run`.
* **C139 The same measurement, written differently** (proved). Spec/Equivalent.lean says when two angles, two directions and the arguments of two constructors are the same. Props/Equivalent.lean uses that the wrapped angle has the period 2π and that normalized vectors are equal exactly if they point in the same direction; for rotation vectors the formula of Rodrigues has the period 2π, and turning by a negative angle is turning about the opposite axis. *Result:* Exact real arithmetic: the code reduces angles in floating point. Theorems: `C139`, `C139_directions`, `C139_planar`, `C139_between`, `C139_normals`, `C139_rotation`.
* **C140 Nothing undefined happens to a program that uses the library as intended** (proved). Sound variables stay sound under every call with vectors of the right size; factors made by constructors evaluate on all heaps with variables of the same classes and sizes (C130), so that the methods are defined in the sense of C17, and the invariant is carried through the optimizer's loops whether they return or throw. A program is an induction over its calls. *Result:* The conditions (no free plane, no projected bearing, something free, no repeated variables, unique identifiers) are part of the statement; C140_plane_false shows why free planes are excluded, C17_no_free_variable_undefined why something must be free. Numbers are real, so NaN from overflow is not covered; rounding inside the optimizer is (every Arith). Theorems: `C140`, `C140_call`, `C140_program`, `C140_variables`, `C140_made`, `C140_plane_false`.
* **C141 With tolerances of zero the number of iterations is the user's choice** (proved). By cases over the ways a run can end (C66): the step rule and the gain rule need a norm below zero, the tenfold rule contradicts that the norm never rises between iterations, and Levenberg-Marquardt accepts only steps that lower the norm. For linear problems every iteration returns without raising the norm (C121, C129), and C122 gives the values. *Result:* Exact arithmetic; the example in rational arithmetic shows that the Gauss-Newton exception occurs (learning rate 3 stops after one of 100 iterations). Theorems: `C141`, `C141_linear`, `C141_accuracy`, `C141_damped`.
* **C142 An optimization can be interrupted and resumed** (partial). Simulation: the state of the long run after n iterations and the state in which the resumed run enters its loop differ in buffers only, which every iteration overwrites before it reads them; both loops then take the same steps and the same decisions, except for the tenfold rule, which makes the result invalid. The residual norm the resumed run starts from is the one the long run has, because statistics describe the variables (C27). A concrete Levenberg-Marquardt run shows that the damping begins anew; with the reported damping as the new initial damping the same simulation works, a step rejected in all five trials being valid in both runs or making one of them invalid. *Result:* Holds for Gauss-Newton. False of the code for Levenberg-Marquardt: a resumed run begins with the initial damping. It holds there too if the user passes the reported damping on as the initial damping of the resumed run. The reported status is not part of the conclusion, since a run is reported as diverged relative to its own start. Theorems: `C142_gauss_newton_partial`, `C142_levenberg_marquardt_partial`, `C142_levenberg_marquardt_false`.
* **C143 Writing into the public statistics does no harm** (proved). A move of a program is a call, a covariance query or a write. By induction over the program the states with and without the writes differ in the statistics only: optimize() overwrites them before its loop, and no other function reads them. Theorems: `C143_programs`, `C143_statistics`.
* **C144 Python shows types, methods and statuses under their own names** (partial). The registrations are lists of names and values, compared case by case with the names of the C++ enumerations and with the types the classes of the library report. *Result:* False of the code: custom and other (variables) and other (factors) are not registered, so variables and factors a C++ program defines itself are shown as ??? and cannot be tested for. Holds for all variables and factors of the library, the methods and the statuses. Theorems: `C144_false`, `C144_missing`, `C144_variables_partial`, `C144_factors_partial`, `C144_compare_partial`, `C144_optimizer_partial`.
* **C145 Constructors called from Python get their arguments and defaults as in C++** (proved). Model of how pybind11 matches a call with registered parameters, and of how C++ fills in defaults, over the table of all registered constructors with the parameters of the header and of the bindings. Induction on the parameter list gives what is bound to each parameter; the facts about the tables (same defaults in the same places, distinct names) are decided. Two overloads are told apart by a required parameter that the other one neither reaches by position nor knows by name. *Result:* C145_names lists three constructors with a parameter of another name in Python, and the parameter initial_index of LinearVelocityFactor, which cannot be given from Python and always has its default. Conversion of the arguments is not modelled. Theorems: `C145_accepted`, `C145_arguments`, `C145_positional`, `C145_order`, `C145_overloads`, `C145_construct`, `C145_names`.
* **C146 Settings changed in place take effect like settings given to setup()** (partial). setup() with the same graph differs from a change in place in the two flags that guard the covariances only. A run is shown to be blind to these flags, piece by piece, and the claim follows by induction on the program. For covariances a concrete program shows that they are not prepared again. *Result:* Holds for programs that do not ask for covariances. False of the code for covariances: those prepared before the change stay marked as prepared after the next run, as after any second run without setup() (C31), and are then computed from whatever factorization that run left behind. Theorems: `C146_programs_partial`, `C146_covariances_false`.
* **C147 Changed bounds of an inverse range are respected** (partial). Actions on a variable and their histories, by induction: an action that returns and moves no bound establishes the bounds, later actions keep them. A concrete history shows that moving a bound alone does not move the value. *Result:* False of the code between the change of a bound and the next set, increment or clip: the value stays outside, and the optimizer's restoring of the old value after a rejected step then moves it. Holds from the next such call on; the point is defined if the lower bound is at least 1e-9, because pos_W gives NaN below. Theorems: `C147_bounds_partial`, `C147_point_partial`, `C147_restore_partial`, `C147_false`.

## 4. Assumptions about external code

* `std::unordered_map`: find, insert and clear are those of a finite map; the iteration order is an arbitrary permutation.
* `Eigen::SparseMatrix`: `reserve(sizes)` on an empty matrix gives uncompressed storage with per-column capacity equal to
  the reserved size and columns laid out consecutively; `coeffRef` keeps the entries of a column sorted by row and
  overwrites existing entries; `nonZeros()` in uncompressed mode is the number of inserted entries; `finalize()` does
  nothing in uncompressed mode; assigning a fresh matrix drops all entries but keeps the allocation.
* `Eigen::SimplicialLDLT`: a black box that may fail or return any vector; exactness is a hypothesis where needed.
* Eigen dense operations with mismatched sizes are undefined behaviour. `normalized()` leaves a zero vector as it is.
* `AngleAxisd(Matrix3d)`, `Quaterniond(Matrix3d)` and `AngleAxisd::toRotationMatrix` are written out from Eigen 3.4, whose
  source is not available in this sandbox. The branch structure (trace positive, largest diagonal element; sign by the
  vector part; identity for a vector part of norm zero) is an assumption.
* `numpy.linalg.eigh` is a parameter; theorems that depend on it assume that it returns an orthonormal basis of eigenvectors and
  ascending eigenvalues. matplotlib draws what it is told: an `Ellipse` patch has the given centre, diameters and angle.
* pybind11: a function that returns a plain pointer, bound without a policy, returns the living Python object of that address if
  there is one, and otherwise makes one that owns the C++ object (`return_value_policy::automatic`). `reference` makes arrays
  that show the C++ memory. Eigen assigns a vector of the same size in place.
* libm functions are the exact real functions, and `PI` in the code is the decimal literal, not π.

## 5. Testing the theorems

`seeded/LOG.jsonl` has one line per wrong program tried: an edit of a model definition in a scratch copy, the claim it
breaks, the theorems whose proofs then fail, and the theorems tightened afterwards.
